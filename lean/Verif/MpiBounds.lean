import Verif.MpiPml

/-!
# C34 and C99: boundary names that a distributed run does not honour
-/

namespace Wakis
namespace Mpi
open Sol Sparse
variable {K : Type _} [Field K] [DecidableEq K]

/-! ### One step of the ranks, at a layer that is no ghost -/

/-- What a half step starts from. -/
def started (s : Solver K) (st : State K) : State K := if st.step0 then { setGhostsTo0 s st with step0 := false } else st

/-- H of the half step of a built solver. -/
theorem hHalf_build (g : Grid.Geom K) (bc : Faces String) (ieps imu sigma : Vec K) (dt : K) (uc : Bool) (st : State K) {q : ℕ}
    (hq : q < 3 * (g.Nx * g.Ny * g.Nz)) :
    (hHalf (build g bc ieps imu sigma dt uc) st).H q =
      (started (build g bc ieps imu sigma dt uc) st).H q - dt * (g.iA.array q * imu q * (rowMask g bc q *
        mulVec (3 * (g.Nx * g.Ny * g.Nz)) (C0 g.Nx g.Ny g.Nz)
          (fun p => colMask g bc p * (g.L.array p * (started (build g bc ieps imu sigma dt uc) st).E p)) q)) :=
  advance_H (g := g) (bc := bc) (ieps := ieps) (imu := imu) (sigma := sigma) (dt := dt) (uc := uc) (started (build g bc ieps imu sigma dt uc) st) hq

/-- The same where the neighbours exist. -/
theorem hHalf_circ (g : Grid.Geom K) (bc : Faces String) (ieps imu sigma : Vec K) (dt : K) (uc : Bool) (st : State K) {c i j k : ℕ}
    (hc : c < 3) (hi : i < g.Nx) (hj : j < g.Ny) (hk : k < g.Nz) (hi' : c ≠ 0 → i + 1 < g.Nx) (hj' : c ≠ 1 → j + 1 < g.Ny) (hk' : c ≠ 2 → k + 1 < g.Nz) :
    (hHalf (build g bc ieps imu sigma dt uc) st).H (pos g.Nx g.Ny g.Nz c i j k) =
      (started (build g bc ieps imu sigma dt uc) st).H (pos g.Nx g.Ny g.Nz c i j k) -
        dt * (g.iA.array (pos g.Nx g.Ny g.Nz c i j k) * imu (pos g.Nx g.Ny g.Nz c i j k) * (rowMask g bc (pos g.Nx g.Ny g.Nz c i j k) *
        circ (view3 g.Nx g.Ny g.Nz (fun p => colMask g bc p * (g.L.array p * (started (build g bc ieps imu sigma dt uc) st).E p))) c i j k)) := by
  rw [hHalf_build _ _ _ _ _ _ _ _ (pos_lt hc hi hj hk), C0_circ _ hc hi hj hk hi' hj' hk']

omit [DecidableEq K] in
theorem hHalf_other (s : Solver K) (st : State K) : (hHalf s st).E = (started s st).E ∧ (hHalf s st).J = (started s st).J := ⟨rfl, rfl⟩

/-- H after a step of all ranks, in a layer that is no ghost. -/
theorem step_H {s : ℕ → Solver K} {size : ℕ} (h : Slabs s size) (hxy : SameXY s size) (n : ℕ) (locs : ℕ → State K)
    {r c i j k : ℕ} (hr : r < size) (hc : c < 3) (hi : i < (s r).Nx) (hj : j < (s r).Ny) (hk : k < (s r).Nz)
    (h0 : ¬ (0 < r ∧ k = 0)) (h1 : ¬ (r + 1 < size ∧ k = (s r).Nz - 1)) :
    cell (s r) .H (syncEv s size n locs .step r) c i j k = cell (s r) .H (hHalf (s r) (locs r)) c i j k := by
  have eE : ∀ (s : Solver K) (st : State K), getW .H (eHalf s st) = getW .H st := fun _ _ => rfl
  have eJ : ∀ (s : Solver K) (st : State K), getW .H (jHalf s st) = getW .H st := fun _ _ => rfl
  have key : ∀ st st' : State K, getW .H st = getW .H st' → cell (s r) .H st c i j k = cell (s r) .H st' c i j k := by
    intro st st' he; unfold cell; rw [he]
  simp only [syncEv]
  rw [syncLocal_lt hr, key _ _ (eJ _ _), key _ _ (afterHalo_other s size (by decide) _ r).1, syncLocal_lt hr, key _ _ (eE _ _),
    key _ _ (afterHalo_other s size (by decide) _ r).1, afterHalo_cell h hxy .H _ hr hc hi hj hk, if_neg h1, if_neg h0, syncLocal_lt hr]

/-! ### The first step after one assignment -/

theorem cell_build (g : Grid.Geom K) (bc : Faces String) (ieps imu sigma : Vec K) (dt : K) (uc : Bool) (w : Which) (st : State K) (c i j k : ℕ) :
    cell (build g bc ieps imu sigma dt uc) w st c i j k = getW w st (pos g.Nx g.Ny g.Nz c i j k) := rfl

/-- H after one assignment and one step of a serial solver. -/
theorem serial_H (g : Grid.Geom K) (bc : Faces String) (ieps imu sigma : Vec K) (dt : K) (uc : Bool) (w : Which) (c i j k : ℕ) (v : K) (c' i' j' k' : ℕ) :
    cell (build g bc ieps imu sigma dt uc) .H (runEv (build g bc ieps imu sigma dt uc) initState
        ([DEv.write w c i j k v, .step].map (DEv.serial (build g bc ieps imu sigma dt uc)))) c' i' j' k' =
      (hHalf (build g bc ieps imu sigma dt uc) (event (build g bc ieps imu sigma dt uc) initState
        (.write w (pos g.Nx g.Ny g.Nz c i j k) v))).H (pos g.Nx g.Ny g.Nz c' i' j' k') := by
  rw [cell_build]
  simp only [List.map_cons, List.map_nil, runEv, List.foldl_cons, List.foldl_nil, DEv.serial]
  show (oneStep _ _).H _ = _
  rw [oneStep_halves]
  rfl

/-- H after one assignment of a layer the rank has and one step of all ranks. -/
theorem rank_H {s : ℕ → Solver K} {size : ℕ} (h : Slabs s size) (hxy : SameXY s size) (n : ℕ)
    {r : ℕ} {g : Grid.Geom K} {bc : Faces String} {ieps imu sigma : Vec K} {dt : K} {uc : Bool} (hg : s r = build g bc ieps imu sigma dt uc)
    (w : Which) {c i j k : ℕ} (v : K) {c' i' j' k' : ℕ} (hr : r < size) (hc : c' < 3) (hi : i' < g.Nx) (hj : j' < g.Ny) (hk : k' < g.Nz)
    (h0 : ¬ (0 < r ∧ k' = 0)) (h1 : ¬ (r + 1 < size ∧ k' = g.Nz - 1)) (ho : off n r ≤ k ∧ k < off n r + g.Nz) :
    cell (s r) .H (syncRun s size n (fun _ => initState) [.write w c i j k v, .step] r) c' i' j' k' =
      (hHalf (build g bc ieps imu sigma dt uc) (event (build g bc ieps imu sigma dt uc) initState
        (.write w (pos g.Nx g.Ny g.Nz c i j (k - off n r)) v))).H (pos g.Nx g.Ny g.Nz c' i' j' k') := by
  have d1 : (s r).Nx = g.Nx := by rw [hg]; rfl
  have d2 : (s r).Ny = g.Ny := by rw [hg]; rfl
  have d3 : (s r).Nz = g.Nz := by rw [hg]; rfl
  simp only [syncRun, List.foldl_cons, List.foldl_nil]
  rw [step_H h hxy n _ hr hc (by rw [d1]; exact hi) (by rw [d2]; exact hj) (by rw [d3]; exact hk) h0 (by rw [d3]; exact h1)]
  simp only [syncEv]
  rw [syncLocal_lt hr, localWrite, if_pos (by rw [d3]; exact ho), hg, cell_build]
  rfl

/-- The first half step of a built solver after one assignment of E, where the neighbours exist. -/
theorem first_H (g : Grid.Geom K) (bc : Faces String) (ieps imu sigma : Vec K) (dt : K) (uc : Bool) (p : ℕ) (v : K) {c i j k : ℕ}
    (hb : c < 3 ∧ i < g.Nx ∧ j < g.Ny ∧ k < g.Nz ∧ (c ≠ 0 → i + 1 < g.Nx) ∧ (c ≠ 1 → j + 1 < g.Ny) ∧ (c ≠ 2 → k + 1 < g.Nz)) :
    (hHalf (build g bc ieps imu sigma dt uc) (event (build g bc ieps imu sigma dt uc) initState (.write .E p v))).H (pos g.Nx g.Ny g.Nz c i j k) =
      (ghostH (⟨g.Nx, g.Ny, g.Nz, fun _ => 0⟩ : Fld K)).array (pos g.Nx g.Ny g.Nz c i j k) -
        dt * (g.iA.array (pos g.Nx g.Ny g.Nz c i j k) * imu (pos g.Nx g.Ny g.Nz c i j k) * (rowMask g bc (pos g.Nx g.Ny g.Nz c i j k) *
        circ (view3 g.Nx g.Ny g.Nz (fun q => colMask g bc q * (g.L.array q *
          (ghostE (⟨g.Nx, g.Ny, g.Nz, Function.update (fun _ => 0) p v⟩ : Fld K)).array q))) c i j k)) := by
  obtain ⟨h1, h2, h3, h4, h5, h6, h7⟩ := hb
  rw [hHalf_circ _ _ _ _ _ _ _ _ h1 h2 h3 h4 h5 h6 h7]
  rfl

/-- The same from the values of its parts. -/
theorem first_H_value (g : Grid.Geom K) (bc : Faces String) (ieps imu sigma : Vec K) (dt : K) (uc : Bool) (p : ℕ) (v : K) {c i j k : ℕ} {h a ρ e : K}
    (hb : c < 3 ∧ i < g.Nx ∧ j < g.Ny ∧ k < g.Nz ∧ (c ≠ 0 → i + 1 < g.Nx) ∧ (c ≠ 1 → j + 1 < g.Ny) ∧ (c ≠ 2 → k + 1 < g.Nz))
    (eh : (ghostH (⟨g.Nx, g.Ny, g.Nz, fun _ => 0⟩ : Fld K)).array (pos g.Nx g.Ny g.Nz c i j k) = h)
    (ea : g.iA.array (pos g.Nx g.Ny g.Nz c i j k) * imu (pos g.Nx g.Ny g.Nz c i j k) = a) (er : rowMask g bc (pos g.Nx g.Ny g.Nz c i j k) = ρ)
    (ee : circ (view3 g.Nx g.Ny g.Nz (fun q => colMask g bc q * (g.L.array q *
          (ghostE (⟨g.Nx, g.Ny, g.Nz, Function.update (fun _ => 0) p v⟩ : Fld K)).array q))) c i j k = e) :
    (hHalf (build g bc ieps imu sigma dt uc) (event (build g bc ieps imu sigma dt uc) initState (.write .E p v))).H (pos g.Nx g.Ny g.Nz c i j k) =
      h - dt * (a * (ρ * e)) := by
  rw [first_H _ _ _ _ _ _ _ _ _ hb, eh, ea, er, ee]

/-- The E update where the neighbours exist. -/
theorem eHalf_cocirc (g : Grid.Geom K) (bc : Faces String) (ieps imu sigma : Vec K) (dt : K) (uc : Bool) (st : State K) {c i j k : ℕ}
    (hb : c < 3 ∧ i < g.Nx ∧ j < g.Ny ∧ k < g.Nz ∧ (c ≠ 0 → 0 < i) ∧ (c ≠ 1 → 0 < j) ∧ (c ≠ 2 → 0 < k)) :
    (eHalf (build g bc ieps imu sigma dt uc) st).E (pos g.Nx g.Ny g.Nz c i j k) =
      st.E (pos g.Nx g.Ny g.Nz c i j k) + dt * (ieps (pos g.Nx g.Ny g.Nz c i j k) * (applyBC g bc (C0 g.Nx g.Ny g.Nz)).itA.array (pos g.Nx g.Ny g.Nz c i j k) *
        (colMask g bc (pos g.Nx g.Ny g.Nz c i j k) * cocirc (view3 g.Nx g.Ny g.Nz (fun q => rowMask g bc q *
          ((applyBC g bc (C0 g.Nx g.Ny g.Nz)).tL.array q * st.H q))) c i j k) - ieps (pos g.Nx g.Ny g.Nz c i j k) * st.J (pos g.Nx g.Ny g.Nz c i j k)) := by
  obtain ⟨h1, h2, h3, h4, h5, h6, h7⟩ := hb
  show st.E _ + dt * (mulVec (3 * (g.Nx * g.Ny * g.Nz)) (opE (3 * (g.Nx * g.Ny * g.Nz)) ieps (applyBC g bc (C0 g.Nx g.Ny g.Nz)).itA.toarray
    (applyBC g bc (C0 g.Nx g.Ny g.Nz)).C (applyBC g bc (C0 g.Nx g.Ny g.Nz)).tL.toarray) st.H _ - _) = _
  rw [opE_mulVec _ _ _ _ _ (pos_lt h1 h2 h3 h4), applyBC_transpose_mulVec _ _ _ _ (pos_lt h1 h2 h3 h4), CT_cocirc _ h1 h2 h3 h4 h5 h6 h7]
  rfl

theorem ghost_zero (f : Fld K) (hf : ∀ q, f.array q = 0) (q : ℕ) : (ghostE f).array q = 0 ∧ (ghostH f).array q = 0 := by
  have key : ∀ (f : Fld K) axis m d, (∀ q, f.array q = 0) → ∀ q, (setPlane f axis m d fun _ _ _ => 0).array q = 0 := by
    intro f axis m d h q
    unfold setPlane Fld.setPart Fld.ravelF Fld.reshapeF Fld.part
    simp only
    split_ifs <;> first | rfl | exact h _
  have ite : ∀ (b : Prop) [Decidable b] (f f' : Fld K), (∀ q, f.array q = 0) → (∀ q, f'.array q = 0) → ∀ q, (if b then f else f').array q = 0 := by
    intro b _ f f' h h' q; split_ifs
    · exact h q
    · exact h' q
  constructor
  · unfold ghostE
    revert q
    repeat' first | exact hf | apply key | apply ite
  · unfold ghostH
    simp only
    revert q
    repeat' first | exact hf | apply key | apply ite

/-- With E zero the H update only clears the ghosts. -/
theorem hHalf_zero (s : Solver K) (st : State K) (h0 : st.step0 = true) (hE : ∀ q, st.E q = 0) (q : ℕ) :
    (hHalf s st).H q = (ghostH (s.fld st.H)).array q := by
  have e : ∀ p, (ghostE (s.fld st.E)).array p = 0 := fun p => (ghost_zero _ hE p).1
  unfold hHalf
  rw [if_pos h0]
  show (ghostH (s.fld st.H)).array q - s.dt * mulVec s.n3 s.M1 (ghostE (s.fld st.E)).array q = _
  have : mulVec s.n3 s.M1 (ghostE (s.fld st.E)).array q = 0 := by
    unfold mulVec
    exact Finset.sum_eq_zero fun p _ => by rw [e, mul_zero]
  rw [this, mul_zero, sub_zero]

/-- E after one assignment of H and one step of a serial solver. -/
theorem serial_E (g : Grid.Geom K) (bc : Faces String) (ieps imu sigma : Vec K) (dt : K) (uc : Bool) (c i j k : ℕ) (v : K) {c' i' j' k' : ℕ}
    (hb : c' < 3 ∧ i' < g.Nx ∧ j' < g.Ny ∧ k' < g.Nz ∧ (c' ≠ 0 → 0 < i') ∧ (c' ≠ 1 → 0 < j') ∧ (c' ≠ 2 → 0 < k')) :
    cell (build g bc ieps imu sigma dt uc) .E (runEv (build g bc ieps imu sigma dt uc) initState
        ([DEv.write .H c i j k v, .step].map (DEv.serial (build g bc ieps imu sigma dt uc)))) c' i' j' k' =
      dt * (ieps (pos g.Nx g.Ny g.Nz c' i' j' k') * (applyBC g bc (C0 g.Nx g.Ny g.Nz)).itA.array (pos g.Nx g.Ny g.Nz c' i' j' k') *
        (colMask g bc (pos g.Nx g.Ny g.Nz c' i' j' k') * cocirc (view3 g.Nx g.Ny g.Nz (fun q => rowMask g bc q *
          ((applyBC g bc (C0 g.Nx g.Ny g.Nz)).tL.array q *
            (ghostH (⟨g.Nx, g.Ny, g.Nz, Function.update (fun _ => 0) (pos g.Nx g.Ny g.Nz c i j k) v⟩ : Fld K)).array q))) c' i' j' k')) := by
  rw [cell_build]
  simp only [List.map_cons, List.map_nil, runEv, List.foldl_cons, List.foldl_nil, DEv.serial]
  show (oneStep _ (event _ initState (.write .H (pos g.Nx g.Ny g.Nz c i j k) v))).E _ = _
  rw [oneStep_halves]
  show (eHalf _ _).E _ = _
  rw [eHalf_cocirc _ _ _ _ _ _ _ _ hb]
  have hH : (hHalf (build g bc ieps imu sigma dt uc) (event (build g bc ieps imu sigma dt uc) initState (.write .H (pos g.Nx g.Ny g.Nz c i j k) v))).H =
      (ghostH (⟨g.Nx, g.Ny, g.Nz, Function.update (fun _ => 0) (pos g.Nx g.Ny g.Nz c i j k) v⟩ : Fld K)).array := by
    funext q
    exact hHalf_zero _ _ rfl (fun _ => rfl) q
  have hE : (hHalf (build g bc ieps imu sigma dt uc) (event (build g bc ieps imu sigma dt uc) initState (.write .H (pos g.Nx g.Ny g.Nz c i j k) v))).E
      (pos g.Nx g.Ny g.Nz c' i' j' k') = 0 := (ghost_zero (⟨g.Nx, g.Ny, g.Nz, fun _ => 0⟩ : Fld K) (fun _ => rfl) _).1
  have hJ : (hHalf (build g bc ieps imu sigma dt uc) (event (build g bc ieps imu sigma dt uc) initState (.write .H (pos g.Nx g.Ny g.Nz c i j k) v))).J
      (pos g.Nx g.Ny g.Nz c' i' j' k') = 0 := rfl
  rw [hH, hE, hJ, zero_add, mul_zero, sub_zero]

/-- A rank whose dual area is set to zero at a place keeps E = 0 there in the first step after an assignment of H. -/
theorem rank_E_zero {s : ℕ → Solver K} {size : ℕ} (h : Slabs s size) (hxy : SameXY s size) (n : ℕ)
    {r : ℕ} {g : Grid.Geom K} {bc : Faces String} {ieps imu sigma : Vec K} {dt : K} {uc : Bool} (hg : s r = build g bc ieps imu sigma dt uc)
    (c i j k : ℕ) (v : K) {c' i' j' k' : ℕ} (hr : r < size)
    (hb : c' < 3 ∧ i' < g.Nx ∧ j' < g.Ny ∧ k' < g.Nz ∧ (c' ≠ 0 → 0 < i') ∧ (c' ≠ 1 → 0 < j') ∧ (c' ≠ 2 → 0 < k'))
    (h0 : ¬ (0 < r ∧ k' = 0)) (h1 : ¬ (r + 1 < size ∧ k' = g.Nz - 1))
    (hz : (applyBC g bc (C0 g.Nx g.Ny g.Nz)).itA.array (pos g.Nx g.Ny g.Nz c' i' j' k') = 0) :
    cell (s r) .E (syncRun s size n (fun _ => initState) [.write .H c i j k v, .step] r) c' i' j' k' = 0 := by
  have d1 : (s r).Nx = g.Nx := by rw [hg]; rfl
  have d2 : (s r).Ny = g.Ny := by rw [hg]; rfl
  have d3 : (s r).Nz = g.Nz := by rw [hg]; rfl
  obtain ⟨hc, hi, hj, hk, -⟩ := id hb
  have key : ∀ w (st st' : State K), getW w st = getW w st' → cell (s r) w st c' i' j' k' = cell (s r) w st' c' i' j' k' := by
    intro w st st' he; unfold cell; rw [he]
  simp only [syncRun, List.foldl_cons, List.foldl_nil]
  generalize hloc : syncEv s size n (fun _ => initState) (.write .H c i j k v) = locs
  have hl : (locs r).E = (fun _ => 0) ∧ (locs r).J = (fun _ => 0) ∧ (locs r).step0 = true := by
    rw [← hloc]
    simp only [syncEv]
    rw [syncLocal_lt hr, localWrite]
    split_ifs <;> exact ⟨rfl, rfl, rfl⟩
  simp only [syncEv]
  have eJ : ∀ (s : Solver K) (st : State K), getW .E (jHalf s st) = getW .E st := fun _ _ => rfl
  rw [syncLocal_lt hr, key .E _ _ (eJ _ _),
    afterHalo_cell h hxy .E _ hr hc (by rw [d1]; exact hi) (by rw [d2]; exact hj) (by rw [d3]; exact hk), if_neg (by rw [d3]; exact h1), if_neg h0, syncLocal_lt hr]
  generalize hst : afterHalo (bufs s .J) size (afterHalo (bufs s .H) size (syncLocal size (fun r => hHalf (s r)) locs)) = st
  have hE : cell (s r) .E (st r) c' i' j' k' = 0 := by
    rw [← hst, key _ _ _ (afterHalo_other s size (by decide) _ r).1, key _ _ _ (afterHalo_other s size (by decide) _ r).1, syncLocal_lt hr]
    show (hHalf (s r) (locs r)).E _ = 0
    rw [(hHalf_other _ _).1, started, if_pos hl.2.2]
    exact (ghost_zero _ (fun q => congrFun hl.1 q) _).1
  have hJ : cell (s r) .J (st r) c' i' j' k' = 0 := by
    have hJ0 : ∀ r' < size, ∀ q, getW .J (hHalf (s r') (locs r')) q = 0 := by
      intro r' hr' q
      have hl' : (locs r').J = (fun _ => 0) := by
        rw [← hloc]
        simp only [syncEv]
        rw [syncLocal_lt hr', localWrite]
        split_ifs <;> rfl
      show (hHalf (s r') (locs r')).J q = 0
      rw [(hHalf_other _ _).2, started]
      split_ifs
      · exact congrFun hl' q
      · exact congrFun hl' q
    rw [← hst, afterHalo_cell h hxy .J _ hr hc (by rw [d1]; exact hi) (by rw [d2]; exact hj) (by rw [d3]; exact hk), if_neg (by rw [d3]; exact h1), if_neg h0,
      key _ _ _ (afterHalo_other s size (by decide) _ r).1, syncLocal_lt hr]
    exact hJ0 r hr _
  rw [hg] at hE hJ ⊢
  rw [cell_build] at hE hJ ⊢
  show (eHalf _ _).E _ = 0
  have hE' : (st r).E (pos g.Nx g.Ny g.Nz c' i' j' k') = 0 := hE
  have hJ' : (st r).J (pos g.Nx g.Ny g.Nz c' i' j' k') = 0 := hJ
  rw [eHalf_cocirc _ _ _ _ _ _ _ _ hb, hE', hJ', hz]
  ring

/-- J after one assignment of J and one step of a serial solver that computes conduction currents. -/
theorem serial_J (g : Grid.Geom K) (bc : Faces String) (ieps imu sigma : Vec K) (dt : K) (uc : Bool) (c i j k : ℕ) (v : K)
    (hu : (build g bc ieps imu sigma dt uc).useConductivity = true) :
    cell (build g bc ieps imu sigma dt uc) .J (runEv (build g bc ieps imu sigma dt uc) initState
        ([DEv.write .J c i j k v, .step].map (DEv.serial (build g bc ieps imu sigma dt uc)))) c i j k =
      sigma (pos g.Nx g.Ny g.Nz c i j k) * (dt * (0 - ieps (pos g.Nx g.Ny g.Nz c i j k) * v)) := by
  rw [cell_build]
  simp only [List.map_cons, List.map_nil, runEv, List.foldl_cons, List.foldl_nil, DEv.serial]
  show (oneStep _ (event _ initState (.write .J (pos g.Nx g.Ny g.Nz c i j k) v))).J _ = _
  rw [oneStep_halves, jHalf_J _ _ hu]
  congr 1
  have hH : ∀ q, (hHalf (build g bc ieps imu sigma dt uc) (event (build g bc ieps imu sigma dt uc) initState (.write .J (pos g.Nx g.Ny g.Nz c i j k) v))).H q = 0 := by
    intro q
    rw [hHalf_zero _ _ rfl (fun _ => rfl) q]
    exact (ghost_zero _ (fun _ => rfl) _).2
  have hE : (hHalf (build g bc ieps imu sigma dt uc) (event (build g bc ieps imu sigma dt uc) initState (.write .J (pos g.Nx g.Ny g.Nz c i j k) v))).E
      (pos g.Nx g.Ny g.Nz c i j k) = 0 := (ghost_zero (⟨g.Nx, g.Ny, g.Nz, fun _ => 0⟩ : Fld K) (fun _ => rfl) _).1
  have hJ : (hHalf (build g bc ieps imu sigma dt uc) (event (build g bc ieps imu sigma dt uc) initState (.write .J (pos g.Nx g.Ny g.Nz c i j k) v))).J
      (pos g.Nx g.Ny g.Nz c i j k) = v := Function.update_self ..
  generalize hHalf (build g bc ieps imu sigma dt uc) (event (build g bc ieps imu sigma dt uc) initState (.write .J (pos g.Nx g.Ny g.Nz c i j k) v)) = st at *
  show st.E _ + dt * (mulVec _ _ st.H _ - ieps _ * st.J _) = _
  rw [hE, hJ, zero_add]
  congr 2
  unfold mulVec
  exact Finset.sum_eq_zero fun p _ => by rw [hH, mul_zero]

/-! ### The examples -/

/-- The value of a constructor that succeeds. -/
def got (s : Py (Solver ℚ)) : Solver ℚ :=
  match s with
  | .ok s => s
  | .error _ => dummySolver 1

theorem got_ok {s : Py (Solver ℚ)} {dt : ℚ} {u : Bool} (h : okWith s dt u = true) : s = .ok (got s) ∧ (got s).dt = dt ∧ (got s).useConductivity = u := by
  obtain ⟨v, rfl, h1, h2⟩ := okWith_spec h
  exact ⟨rfl, h1, h2⟩

/-- The tensors of a constructor that succeeds. -/
def matsOf (t : Py (Mats ℚ)) : Mats ℚ :=
  match t with
  | .ok t => t
  | .error _ => ⟨⟨0, 0, 0, fun _ => 0⟩, ⟨0, 0, 0, fun _ => 0⟩, ⟨0, 0, 0, fun _ => 0⟩, false⟩

/-- The tensors of the serial solver and of a rank with `m` layers. -/
def serialMats (J : Job ℚ) : Mats ℚ :=
  matsOf (materials J.Nx J.Ny J.NZ J.eps0 J.mu0 (anyFace isPml J.bc) J.bg J.dict J.solids >>= J.stage J.bc)
def rankMats (J : Job ℚ) (r m : ℕ) : Mats ℚ :=
  matsOf (materials J.Nx J.Ny m J.eps0 J.mu0 (anyFace isPml (mpiBC r J.size J.bc)) J.bg J.dict (localSolids r J.size J.NZ J.solids) >>=
    J.stage (mpiBC r J.size J.bc))

/-- The nodes of a rank. -/
def zOf (J : Job ℚ) (r : ℕ) : ℕ → ℚ :=
  match Grid.mpiInitialize r J.size J.Nz J.zmin J.zmax with
  | .ok m => m.z
  | .error _ => fun _ => 0

theorem serial_shape {J : Job ℚ} {S : Solver ℚ} (h : J.serial = .ok S) :
    S = build (Grid.computeGrid J.Nx J.Ny J.NZ J.x J.y (Grid.linspace J.zmin J.zmax J.NZ)) J.bc (serialMats J).ieps.array (serialMats J).imu.array
      (serialMats J).sigma.array S.dt (serialMats J).useCond := by
  unfold serialMats
  rw [Job.serial] at h
  simp only [bind, Except.bind] at h ⊢
  cases h1 : materials J.Nx J.Ny J.NZ J.eps0 J.mu0 (anyFace isPml J.bc) J.bg J.dict J.solids with
  | error e => rw [h1] at h; simp at h
  | ok t =>
    rw [h1] at h
    simp only at h ⊢
    cases h2 : J.stage J.bc t with
    | error e => rw [h2] at h; simp at h
    | ok t' =>
      rw [h2] at h
      simp only at h ⊢
      cases h3 : limitDt t' J.dt with
      | error e => rw [h3] at h; simp at h
      | ok d =>
        rw [h3] at h
        simp only [pure, Except.pure, Except.ok.injEq] at h
        rw [← h]; rfl

theorem rank_shape {J : Job ℚ} {r : ℕ} {S : Solver ℚ} (h : J.rank r = .ok S) :
    S = build (Grid.computeGrid J.Nx J.Ny S.Nz J.x J.y (zOf J r)) (mpiBC r J.size J.bc) (rankMats J r S.Nz).ieps.array (rankMats J r S.Nz).imu.array
      (rankMats J r S.Nz).sigma.array S.dt (rankMats J r S.Nz).useCond := by
  unfold rankMats zOf
  rw [Job.rank] at h
  simp only [bind, Except.bind] at h ⊢
  have hNZ : ∀ m, Grid.mpiInitialize r J.size J.Nz J.zmin J.zmax = .ok m → m.NZ = J.NZ := by
    intro m hm
    unfold Grid.mpiInitialize at hm
    split at hm
    · simp at hm
    · obtain rfl := Except.ok.inj hm; rfl
  cases h0 : Grid.mpiInitialize r J.size J.Nz J.zmin J.zmax with
  | error e => rw [h0] at h; simp at h
  | ok m =>
    rw [h0] at h
    simp only at h ⊢
    rw [hNZ m h0] at h
    cases h1 : materials J.Nx J.Ny m.Nz J.eps0 J.mu0 (anyFace isPml (mpiBC r J.size J.bc)) J.bg J.dict (localSolids r J.size J.NZ J.solids) with
    | error e => rw [h1] at h; simp at h
    | ok t =>
      rw [h1] at h
      simp only at h ⊢
      cases h2 : J.stage (mpiBC r J.size J.bc) t with
      | error e => rw [h2] at h; simp at h
      | ok t' =>
        rw [h2] at h
        simp only at h ⊢
        cases h3 : limitDt t' J.dt with
        | error e => rw [h3] at h; simp at h
        | ok d =>
          rw [h3] at h
          simp only [pure, Except.pure, Except.ok.injEq] at h
          have hz : S.Nz = m.Nz := by rw [← h]; rfl
          rw [hz, h1]
          simp only
          rw [h2, ← h]; rfl

/-- An empty box of 3 x 3 x 4 cells on two ranks. -/
def boxJob (bc : Faces String) : Job ℚ := { demoJob with bc, solids := [] }

def boxG : Grid.Geom ℚ := Grid.computeGrid 3 3 4 demoJob.x demoJob.y (Grid.linspace 0 4 4)
def boxGr : Grid.Geom ℚ := Grid.computeGrid 3 3 3 demoJob.x demoJob.y (zOf demoJob 1)

/-- All constructors succeed with the requested step; `u` and `u1` are the conductivity flags of the serial solver and rank 1. -/
def boxOk (bc : Faces String) (u u1 : Bool) : Bool :=
  okWith (boxJob bc).serial (1 / 4) u && okWith ((boxJob bc).rank 0) (1 / 4) u && okWith ((boxJob bc).rank 1) (1 / 4) u1 &&
    (got ((boxJob bc).rank 0)).Nx == 3 && (got ((boxJob bc).rank 0)).Ny == 3 && (got ((boxJob bc).rank 0)).Nz == 3 &&
    (got ((boxJob bc).rank 1)).Nx == 3 && (got ((boxJob bc).rank 1)).Ny == 3 && (got ((boxJob bc).rank 1)).Nz == 3

structure Box (bc : Faces String) (u u1 : Bool) : Prop where
  ranks : ∀ r < 2, (boxJob bc).rank r = .ok (got ((boxJob bc).rank r))
  serial : (boxJob bc).serial = .ok (got (boxJob bc).serial)
  dtS : (got (boxJob bc).serial).dt = 1 / 4
  uS : (got (boxJob bc).serial).useConductivity = u
  dtR : ∀ r < 2, (got ((boxJob bc).rank r)).dt = 1 / 4
  u0 : (got ((boxJob bc).rank 0)).useConductivity = u
  u1 : (got ((boxJob bc).rank 1)).useConductivity = u1
  slabs : Slabs (fun r => got ((boxJob bc).rank r)) 2
  xy : SameXY (fun r => got ((boxJob bc).rank r)) 2
  dims : (got ((boxJob bc).rank 1)).Nx = 3 ∧ (got ((boxJob bc).rank 1)).Ny = 3 ∧ (got ((boxJob bc).rank 1)).Nz = 3

theorem box_of {bc : Faces String} {u u1 : Bool} (h : boxOk bc u u1 = true) : Box bc u u1 := by
  simp only [boxOk, Bool.and_eq_true, beq_iff_eq] at h
  obtain ⟨⟨⟨⟨⟨⟨⟨⟨h1, h2⟩, h3⟩, a1⟩, a2⟩, a3⟩, b1⟩, b2⟩, b3⟩ := h
  obtain ⟨e1, d1, c1⟩ := got_ok h1
  obtain ⟨e2, d2, c2⟩ := got_ok h2
  obtain ⟨e3, d3, c3⟩ := got_ok h3
  have two : ∀ r < 2, r = 0 ∨ r = 1 := by intro r h; omega
  refine ⟨?_, e1, d1, c1, ?_, c2, c3, ?_, ?_, b1, b2, b3⟩
  · intro r hr
    rcases two r hr with rfl | rfl
    · exact e2
    · exact e3
  · intro r hr
    rcases two r hr with rfl | rfl
    · exact d2
    · exact d3
  · constructor
    · intro r h0 hr
      obtain rfl : r = 1 := by omega
      show 2 ≤ (got ((boxJob bc).rank 1)).Nz
      omega
    · intro r hr
      obtain rfl : r = 0 := by omega
      show 2 ≤ (got ((boxJob bc).rank 0)).Nz
      omega
    · intro r h0 hr; omega
  · intro r hr
    rcases two r hr with rfl | rfl
    · exact ⟨rfl, rfl⟩
    · exact ⟨b1.trans a1.symm, b2.trans a2.symm⟩

/-- A finished run has the state of the run in lock step. -/
theorem done_sync {s : ℕ → Solver K} {size : ℕ} (h : Slabs s size) (hs : 0 < size) (n : ℕ) (evs : List (DEv K)) {eager : ℕ → ℕ → Bool} {l : List Act}
    {net : Net (State K) (ℕ → ℕ → K)} (hl : run eager (start (runProg s size n evs) (fun _ => initState)) l = some net) (hd : net.Done) (r : ℕ) :
    (net.proc r).loc = syncRun s size n (fun _ => initState) evs r := by
  obtain ⟨total, ht⟩ := every_schedule (fun r => runProg_ok h n evs r) (run_reach (eager := eager) h hs n evs (fun _ => initState))
  rw [(ht l net hl).2.2 hd]
  rfl

/-! ### Specification of a refutation -/

/-- Ranks and serial solver are constructed from the input `J` with the requested time step; a history `evs` is allowed; and whatever the schedule, the
finished distributed run differs from the serial run in the field `w` at a cell that is no ghost of rank `r`. -/
def Differs (J : Job ℚ) (evs : List (DEv ℚ)) : Prop :=
  ∃ (s : ℕ → Solver ℚ) (S : Solver ℚ), (∀ r < J.size, J.rank r = .ok (s r)) ∧ J.serial = .ok S ∧ (∀ r < J.size, (s r).dt = J.dt) ∧ S.dt = J.dt ∧
    (∀ e ∈ evs, e.Allowed J.Nx J.Ny J.NZ J.bc) ∧
    ∃ r w c i j k, r < J.size ∧ c < 3 ∧ i < J.Nx ∧ j < J.Ny ∧ k < (s r).Nz ∧ ¬ (0 < r ∧ k = 0) ∧ ¬ (r + 1 < J.size ∧ k = (s r).Nz - 1) ∧
      ∀ (eager : ℕ → ℕ → Bool) (l : List Act) (net : Net (State ℚ) (ℕ → ℕ → ℚ)),
        run eager (start (runProg s J.size (J.NZ / J.size) evs) (fun _ => initState)) l = some net → net.Done →
        cell (s r) w (net.proc r).loc c i j k ≠
          cell S w (runEv S initState (evs.map (DEv.serial S))) c i j (r * (J.NZ / J.size) - Grid.ghostLo r + k)

theorem differs_of {bc : Faces String} {u u1 : Bool} (hB : Box bc u u1) {evs : List (DEv ℚ)} (hev : ∀ e ∈ evs, e.Allowed 3 3 4 bc) {w : Which}
    {c i j k K' : ℕ} {x y : ℚ} (hb : c < 3 ∧ i < 3 ∧ j < 3 ∧ k < 3 ∧ k ≠ 0) (hk : K' = 1 + k)
    (hx : cell (got ((boxJob bc).rank 1)) w (syncRun (fun r => got ((boxJob bc).rank r)) 2 2 (fun _ => initState) evs 1) c i j k = x)
    (hy : cell (got (boxJob bc).serial) w (runEv (got (boxJob bc).serial) initState (evs.map (DEv.serial (got (boxJob bc).serial)))) c i j K' = y)
    (hxy : x ≠ y) : Differs (boxJob bc) evs := by
  obtain ⟨h1, h2, h3, h4, h5⟩ := hb
  have z1 : (boxJob bc).size = 2 := rfl
  have z2 : (boxJob bc).NZ = 4 := by simp [Job.NZ, boxJob, demoJob]
  unfold Differs
  rw [z1, z2]
  refine ⟨fun r => got ((boxJob bc).rank r), got (boxJob bc).serial, hB.ranks, hB.serial, hB.dtR, hB.dtS, hev, 1, w, c, i, j, k, by decide, h1, h2, h3, ?_, ?_, ?_, ?_⟩
  · show k < (got ((boxJob bc).rank 1)).Nz
    rw [hB.dims.2.2]; exact h4
  · exact fun h => h5 h.2
  · rintro ⟨h, -⟩; exact absurd h (by decide)
  · intro eager l net hl hd
    have hd' := done_sync hB.slabs (by decide) 2 evs hl hd 1
    have ek : 1 * (4 / 2) - Grid.ghostLo 1 + k = K' := by rw [hk]; rfl
    rw [hd', hx, ek, hy]
    exact hxy

theorem box_serial {bc : Faces String} {u u1 : Bool} (hB : Box bc u u1) : got (boxJob bc).serial = build boxG bc (serialMats (boxJob bc)).ieps.array
    (serialMats (boxJob bc)).imu.array (serialMats (boxJob bc)).sigma.array (1 / 4) (serialMats (boxJob bc)).useCond := by
  have h := serial_shape hB.serial
  rw [hB.dtS] at h
  have z2 : (boxJob bc).NZ = 4 := by simp [Job.NZ, boxJob, demoJob]
  rw [z2] at h
  exact h

theorem box_rank {bc : Faces String} {u u1 : Bool} (hB : Box bc u u1) : got ((boxJob bc).rank 1) = build boxGr (mpiBC 1 2 bc) (rankMats (boxJob bc) 1 3).ieps.array
    (rankMats (boxJob bc) 1 3).imu.array (rankMats (boxJob bc) 1 3).sigma.array (1 / 4) (rankMats (boxJob bc) 1 3).useCond := by
  have h := rank_shape (hB.ranks 1 (by decide))
  rw [hB.dtR 1 (by decide), hB.dims.2.2] at h
  exact h

/-- The assignment and step of an example. -/
def oneWrite (w : Which) (c i j k : ℕ) : List (DEv ℚ) := [.write w c i j k 7, .step]

/-! ### PMC on a z face -/

def pmcBC : Faces String := ⟨"pec", "pec", "pec", "pec", "pmc", "pec"⟩
theorem pmcBox : Box pmcBC false false := box_of (by decide +kernel)

/-- **C34 is false with PMC on a z face.** With a PMC face the serial solver also keeps H at the PEC faces at zero (see C26), a rank that does not see the
PMC name does not. -/
theorem C34_pmc_refuted : (∀ axis sd, axis < 2 → isPec (faceName pmcBC axis sd) = true) ∧ Differs (boxJob pmcBC) (oneWrite .E 2 1 1 2) := by
  refine ⟨?_, differs_of pmcBox (w := .H) (c := 0) (i := 1) (j := 0) (k := 1) (K' := 2) (x := -7 / 12) (y := 0) ?_ (by decide) rfl ?_ ?_ (by norm_num)⟩
  · intro a sd ha
    have : a = 0 ∨ a = 1 := by omega
    rcases this with rfl | rfl <;> cases sd <;> decide
  · intro e he
    simp only [oneWrite, List.mem_cons, List.not_mem_nil, or_false] at he
    rcases he with rfl | rfl
    · refine ⟨by decide, by decide, by decide, by decide, .inr ?_⟩
      intro axis sd ha hne hon
      have : axis = 0 ∨ axis = 1 := by omega
      rcases this with rfl | rfl <;> cases sd <;> exact absurd hon (by decide)
    · trivial
  · refine (rank_H pmcBox.slabs pmcBox.xy 2 (box_rank pmcBox) .E 7 (by decide) (by decide) (by decide) (by decide) (by decide) (by decide) (by decide) (by decide)).trans ?_
    rw [first_H_value boxGr (mpiBC 1 2 pmcBC) _ _ _ _ _ _ _ (h := 0) (a := 1 / 3) (ρ := 1) (e := 7) (by decide) (by decide +kernel) (by decide +kernel) (by decide +kernel) (by decide +kernel)]
    norm_num
  · rw [box_serial pmcBox, oneWrite, serial_H, first_H_value boxG pmcBC _ _ _ _ _ _ _ (h := 0) (ρ := 0) (by decide) (by decide +kernel) rfl (by decide +kernel) rfl]
    rw [zero_mul, mul_zero, mul_zero, sub_zero]

/-! ### Periodic z faces -/

def perBC : Faces String := ⟨"pec", "pec", "pec", "pec", "periodic", "periodic"⟩
theorem perBox : Box perBC false false := box_of (by decide +kernel)

/-- **C34 is false with periodic z faces.** The serial solver gives the last layer the dual lengths and areas of the first; the last rank sees only one
periodic name and leaves the zeros there: its transverse E in the last layer never changes. -/
theorem C34_periodic_refuted : (∀ axis sd, axis < 2 → isPec (faceName perBC axis sd) = true) ∧ Differs (boxJob perBC) (oneWrite .H 2 1 1 3) := by
  refine ⟨?_, differs_of perBox (w := .E) (c := 0) (i := 1) (j := 1) (k := 2) (K' := 3) (x := 0) (y := 7 / 8) ?_ (by decide) rfl ?_ ?_ (by norm_num)⟩
  · intro a sd ha
    have : a = 0 ∨ a = 1 := by omega
    rcases this with rfl | rfl <;> cases sd <;> decide
  · intro e he
    simp only [oneWrite, List.mem_cons, List.not_mem_nil, or_false] at he
    rcases he with rfl | rfl
    · exact ⟨by decide, by decide, by decide, by decide, .inl rfl⟩
    · trivial
  · exact rank_E_zero perBox.slabs perBox.xy 2 (box_rank perBox) 2 1 1 3 7 (by decide) (by decide) (by decide) (by decide) (by decide +kernel)
  · rw [box_serial perBox, oneWrite, serial_E _ _ _ _ _ _ _ _ _ _ _ _ (by decide)]
    have h1 : (serialMats (boxJob perBC)).ieps.array (pos boxG.Nx boxG.Ny boxG.Nz 0 1 1 3) = 1 / 2 := by decide +kernel
    have h2 : (applyBC boxG perBC (C0 boxG.Nx boxG.Ny boxG.Nz)).itA.array (pos boxG.Nx boxG.Ny boxG.Nz 0 1 1 3) = 1 := by decide +kernel
    have h3 : colMask boxG perBC (pos boxG.Nx boxG.Ny boxG.Nz 0 1 1 3) = 1 := by decide +kernel
    have h4 : cocirc (view3 boxG.Nx boxG.Ny boxG.Nz (fun q => rowMask boxG perBC q * ((applyBC boxG perBC (C0 boxG.Nx boxG.Ny boxG.Nz)).tL.array q *
      (ghostH (⟨boxG.Nx, boxG.Ny, boxG.Nz, Function.update (fun _ => 0) (pos boxG.Nx boxG.Ny boxG.Nz 2 1 1 3) 7⟩ : Fld ℚ)).array q))) 0 1 1 3 = 7 := by
      decide +kernel
    rw [h1, h2, h3, h4]
    norm_num

/-! ### C99: the transverse faces -/

def openBC : Faces String := ⟨"open", "pec", "pec", "pec", "pec", "pec"⟩
theorem openBox : Box openBC false false := box_of (by decide +kernel)

/-- **C99, refuted.** The low x face is not PEC for the user, but it is on every rank but the first (solverFIT3D.py:728-733 replaces the names of all
three low faces). -/
theorem C99_open_refuted : Differs (boxJob openBC) (oneWrite .E 1 0 1 2) := by
  refine differs_of openBox (w := .H) (c := 2) (i := 0) (j := 1) (k := 1) (K' := 2) (x := 0) (y := 7 / 12) ?_ (by decide) rfl ?_ ?_ (by norm_num)
  · intro e he
    simp only [oneWrite, List.mem_cons, List.not_mem_nil, or_false] at he
    rcases he with rfl | rfl
    · refine ⟨by decide, by decide, by decide, by decide, .inr ?_⟩
      intro axis sd ha hne hon
      have : axis = 0 ∨ axis = 2 := by omega
      rcases this with rfl | rfl <;> cases sd <;> first | decide | exact absurd hon (by decide)
    · trivial
  · refine (rank_H openBox.slabs openBox.xy 2 (box_rank openBox) .E 7 (by decide) (by decide) (by decide) (by decide) (by decide) (by decide) (by decide) (by decide)).trans ?_
    rw [first_H_value boxGr (mpiBC 1 2 openBC) _ _ _ _ _ _ _ (h := 0) (a := 1 / 3) (ρ := 1) (e := 0) (by decide) (by decide +kernel) (by decide +kernel) (by decide +kernel) (by decide +kernel)]
    norm_num
  · rw [box_serial openBox, oneWrite, serial_H, first_H_value boxG openBC _ _ _ _ _ _ _ (h := 0) (a := 1 / 3) (ρ := 1) (e := -7) (by decide) (by decide +kernel) (by decide +kernel)
      (by decide +kernel) (by decide +kernel)]
    norm_num

def pmlxBC : Faces String := ⟨"pml", "pec", "pec", "pec", "pec", "pec"⟩
theorem pmlxBox : Box pmlxBC true false := box_of (by decide +kernel)

/-- **C99, refuted for absorbing layers.** A PML at low x exists in the first rank only: the others have no conductivity there. -/
theorem C99_pml_refuted : Differs (boxJob pmlxBC) (oneWrite .J 0 0 1 2) ∧
    (serialMats (boxJob pmlxBC)).sigma.at3 0 0 1 2 ≠ 0 ∧ (rankMats (boxJob pmlxBC) 1 3).sigma.at3 0 0 1 1 = 0 := by
  refine ⟨differs_of pmlxBox (w := .J) (c := 0) (i := 0) (j := 1) (k := 1) (K' := 2) (x := 7) (y := -7 / 2) ?_ (by decide) rfl ?_ ?_ (by norm_num),
    by decide +kernel, by decide +kernel⟩
  · intro e he
    simp only [oneWrite, List.mem_cons, List.not_mem_nil, or_false] at he
    rcases he with rfl | rfl
    · refine ⟨by decide, by decide, by decide, by decide, .inr ?_⟩
      intro axis sd ha hne hon
      have : axis = 1 ∨ axis = 2 := by omega
      rcases this with rfl | rfl <;> cases sd <;> exact absurd hon (by decide)
    · trivial
  · obtain ⟨n1, n2, n3⟩ := pmlxBox.dims
    simp only [syncRun, oneWrite, List.foldl_cons, List.foldl_nil]
    have h := step_keeps_J (size := 2) pmlxBox.slabs pmlxBox.xy 2
      (syncEv (fun r => got ((boxJob pmlxBC).rank r)) 2 2 (fun _ => initState) (DEv.write Which.J 0 0 1 2 7)) (r := 1) (c := 0) (i := 0) (j := 1) (k := 1)
      (by decide) (by decide) (by simp only [n1]; decide) (by simp only [n2]; decide) (by simp only [n3]; decide) (by decide) (by simp only [n3]; decide) pmlxBox.u1
    refine h.trans ?_
    simp only [syncEv]
    rw [syncLocal_lt (by decide)]
    simp only [n1, n2, n3, localWrite]
    rw [if_pos (by decide), Dist.event_write]
    unfold cell
    rw [getW_setW, n1, n2, n3]
    exact Function.update_self ..
  · rw [box_serial pmlxBox, oneWrite, serial_J _ _ _ _ _ _ _ _ _ _ _ _ (by rw [← box_serial pmlxBox]; exact pmlxBox.uS)]
    have h1 : (serialMats (boxJob pmlxBC)).ieps.array (pos boxG.Nx boxG.Ny boxG.Nz 0 0 1 2) = 1 / 2 := by decide +kernel
    have h2 : (serialMats (boxJob pmlxBC)).sigma.array (pos boxG.Nx boxG.Ny boxG.Nz 0 0 1 2) = 4 := by decide +kernel
    rw [h1, h2]
    norm_num

end Mpi
end Wakis
