import Verif.SolverLemmas
import Verif.SolverSpec
import Verif.GridProps

/-!
# Solver properties C16-C19, C21-C23
-/

namespace Wakis
namespace Sol
open Sparse Finset
variable {K : Type _} [Field K]

/-! ### index arithmetic -/

section
variable {Nx Ny Nz i j k : ℕ}

theorem fl_lt (hi : i < Nx) (hj : j < Ny) (hk : k < Nz) : fl Nx Ny i j k < Nx * Ny * Nz := Fld.idx_lt hi hj hk
theorem fl_x : fl Nx Ny (i + 1) j k = fl Nx Ny i j k + 1 := by unfold fl; ring
theorem fl_y : fl Nx Ny i (j + 1) k = fl Nx Ny i j k + Nx := by unfold fl; ring
theorem fl_z : fl Nx Ny i j (k + 1) = fl Nx Ny i j k + Nx * Ny := by unfold fl; ring

theorem pos_lt {c : ℕ} (hc : c < 3) (hi : i < Nx) (hj : j < Ny) (hk : k < Nz) :
    pos Nx Ny Nz c i j k < 3 * (Nx * Ny * Nz) := by
  have := fl_lt hi hj hk
  unfold pos
  have h2 : c * (Nx * Ny * Nz) ≤ 2 * (Nx * Ny * Nz) := Nat.mul_le_mul_right _ (by omega)
  omega

theorem ext_fl (v : Vec K) (c : ℕ) (hi : i < Nx) (hj : j < Ny) (hk : k < Nz) :
    ext (Nx * Ny * Nz) v c (fl Nx Ny i j k) = view3 Nx Ny Nz v c i j k := by
  unfold ext view3 pos
  rw [if_pos (fl_lt hi hj hk)]

/-- The curl matrix is the circulation, wherever the neighbours it needs exist. -/
theorem C0_circ (v : Vec K) {c : ℕ} (hc : c < 3) (hi : i < Nx) (hj : j < Ny) (hk : k < Nz)
    (hi' : c ≠ 0 → i + 1 < Nx) (hj' : c ≠ 1 → j + 1 < Ny) (hk' : c ≠ 2 → k + 1 < Nz) :
    mulVec (3 * (Nx * Ny * Nz)) (C0 Nx Ny Nz) v (pos Nx Ny Nz c i j k) = circ (view3 Nx Ny Nz v) c i j k := by
  have hp := fl_lt hi hj hk
  unfold pos circ
  have : c = 0 ∨ c = 1 ∨ c = 2 := by omega
  rcases this with rfl | rfl | rfl
  · rw [C0_x hp, ← fl_y, ← fl_z, ext_fl v 2 hi hj hk, ext_fl v 1 hi hj hk, ext_fl v 2 hi (hj' (by omega)) hk,
      ext_fl v 1 hi hj (hk' (by omega)), if_pos rfl]
  · rw [C0_y hp, ← fl_x, ← fl_z, ext_fl v 2 hi hj hk, ext_fl v 0 hi hj hk, ext_fl v 2 (hi' (by omega)) hj hk,
      ext_fl v 0 hi hj (hk' (by omega)), if_neg (by omega), if_pos rfl]
  · rw [C0_z hp, ← fl_x, ← fl_y, ext_fl v 1 hi hj hk, ext_fl v 0 hi hj hk, ext_fl v 1 (hi' (by omega)) hj hk,
      ext_fl v 0 hi (hj' (by omega)) hk, if_neg (by omega), if_neg (by omega)]

theorem extB_x (v : Vec K) (c : ℕ) (h : 0 < i) :
    extB (Nx * Ny * Nz) v c (fl Nx Ny i j k) 1 = view3 Nx Ny Nz v c (i - 1) j k := by
  obtain ⟨i, rfl⟩ := Nat.exists_eq_add_of_lt h
  unfold extB view3 pos
  rw [show 0 + i + 1 = i + 1 by ring, fl_x, if_pos (by omega), Nat.add_sub_cancel, Nat.add_sub_cancel]

theorem extB_y (v : Vec K) (c : ℕ) (h : 0 < j) :
    extB (Nx * Ny * Nz) v c (fl Nx Ny i j k) Nx = view3 Nx Ny Nz v c i (j - 1) k := by
  obtain ⟨j, rfl⟩ := Nat.exists_eq_add_of_lt h
  unfold extB view3 pos
  rw [show 0 + j + 1 = j + 1 by ring, fl_y, if_pos (by omega), Nat.add_sub_cancel, Nat.add_sub_cancel]

theorem extB_z (v : Vec K) (c : ℕ) (h : 0 < k) :
    extB (Nx * Ny * Nz) v c (fl Nx Ny i j k) (Nx * Ny) = view3 Nx Ny Nz v c i j (k - 1) := by
  obtain ⟨k, rfl⟩ := Nat.exists_eq_add_of_lt h
  unfold extB view3 pos
  rw [show 0 + k + 1 = k + 1 by ring, fl_z, if_pos (by omega), Nat.add_sub_cancel, Nat.add_sub_cancel]

theorem CT_cocirc (v : Vec K) {c : ℕ} (hc : c < 3) (hi : i < Nx) (hj : j < Ny) (hk : k < Nz)
    (hi' : c ≠ 0 → 0 < i) (hj' : c ≠ 1 → 0 < j) (hk' : c ≠ 2 → 0 < k) :
    mulVec (3 * (Nx * Ny * Nz)) (transpose (C0 Nx Ny Nz)) v (pos Nx Ny Nz c i j k) =
      cocirc (view3 Nx Ny Nz v) c i j k := by
  have hp := fl_lt hi hj hk
  unfold cocirc
  have : c = 0 ∨ c = 1 ∨ c = 2 := by omega
  rcases this with rfl | rfl | rfl
  · rw [pos, CT_x hp, extB_y v 2 (hj' (by omega)), extB_z v 1 (hk' (by omega)), if_pos rfl]; rfl
  · rw [pos, CT_y hp, extB_z v 0 (hk' (by omega)), extB_x v 2 (hi' (by omega)), if_neg (by omega), if_pos rfl]; rfl
  · rw [pos, CT_z hp, extB_x v 1 (hi' (by omega)), extB_y v 0 (hj' (by omega)), if_neg (by omega), if_neg (by omega)]
    rfl
end

/-! ### one update, entry by entry -/

section
variable (g : Grid.Geom K) (bc : Faces String) (ieps imu sigma : Vec K) (dt : K) (uc : Bool)

theorem build_n3 : (build g bc ieps imu sigma dt uc).n3 = 3 * (g.Nx * g.Ny * g.Nz) := rfl

/-- The H update in terms of the plain curl and the masks. -/
theorem advance_H (st : State K) {r : ℕ} (hr : r < 3 * (g.Nx * g.Ny * g.Nz)) :
    (advance (build g bc ieps imu sigma dt uc) st).H r =
      st.H r - dt * (g.iA.array r * imu r * (rowMask g bc r *
        mulVec (3 * (g.Nx * g.Ny * g.Nz)) (C0 g.Nx g.Ny g.Nz)
          (fun q => colMask g bc q * (g.L.array q * st.E q)) r)) := by
  unfold advance
  simp only [build_n3]
  congr 2
  show mulVec _ (opH _ g.iA.toarray imu _ g.L.toarray) st.E r = _
  rw [opH_mulVec _ _ _ _ _ hr, applyBC_mulVec _ _ _ _ hr]
  rfl

/-- The E update in terms of the transposed curl and the masks. -/
theorem advance_E (st : State K) {r : ℕ} (hr : r < 3 * (g.Nx * g.Ny * g.Nz)) :
    (advance (build g bc ieps imu sigma dt uc) st).E r =
      st.E r + dt * (ieps r * (applyBC g bc (C0 g.Nx g.Ny g.Nz)).itA.array r * (colMask g bc r *
        mulVec (3 * (g.Nx * g.Ny * g.Nz)) (transpose (C0 g.Nx g.Ny g.Nz))
          (fun q => rowMask g bc q * ((applyBC g bc (C0 g.Nx g.Ny g.Nz)).tL.array q *
            (advance (build g bc ieps imu sigma dt uc) st).H q)) r) - ieps r * st.J r) := by
  conv_lhs => unfold advance
  simp only [build_n3]
  congr 3
  show mulVec _ (opE _ ieps _ _ _) _ r = _
  rw [opE_mulVec _ _ _ _ _ hr, applyBC_transpose_mulVec _ _ _ _ hr]
  rfl

theorem colMask_one (h : anyFace isPec bc = false) (r : ℕ) : colMask g bc r = 1 := by simp [colMask, h]
theorem rowMask_one (h : anyFace isPmcAny bc = false) (r : ℕ) : rowMask g bc r = 1 := by simp [rowMask, h]

theorem oneStep_started (s : Solver K) (st : State K) (h : st.step0 = false) : oneStep s st = advance s st := by
  simp [oneStep, h]

/-! ### C16 -/

/-- **C16 (H update).** Away from the high faces, with boundary names that mask nothing, `one_step`
subtracts from H `dt / (area * mu)` times the circulation of E (times edge length) around the primary
face of that component. -/
theorem C16_H_update (st : State K) (hst : st.step0 = false)
    (hpec : anyFace isPec bc = false) (hpmc : anyFace isPmcAny bc = false) {c i j k : ℕ} (hc : c < 3)
    (hi : i + 1 < g.Nx) (hj : j + 1 < g.Ny) (hk : k + 1 < g.Nz) :
    let P := pos g.Nx g.Ny g.Nz c i j k
    (oneStep (build g bc ieps imu sigma dt uc) st).H P =
      st.H P - dt * (g.iA.array P * imu P *
        circ (view3 g.Nx g.Ny g.Nz fun q => g.L.array q * st.E q) c i j k) := by
  intro P
  have hr : P < _ := pos_lt hc (by omega : i < g.Nx) (by omega : j < g.Ny) (by omega : k < g.Nz)
  rw [oneStep_started _ _ hst, advance_H _ _ _ _ _ _ _ _ hr, rowMask_one _ _ hpmc, one_mul,
    C0_circ _ hc (by omega) (by omega) (by omega) (fun _ => hi) (fun _ => hj) (fun _ => hk)]
  simp only [colMask_one _ _ hpec, one_mul]

/-- **C16 (E update).** Away from the low faces the E update adds `dt/(eps * dual area)` times the backward
circulation of the *new* H (times dual edge length), minus `dt/eps * J`. -/
theorem C16_E_update (st : State K) (hst : st.step0 = false)
    (hpec : anyFace isPec bc = false) (hpmc : anyFace isPmcAny bc = false) {c i j k : ℕ} (hc : c < 3)
    (hi0 : 0 < i) (hj0 : 0 < j) (hk0 : 0 < k) (hi : i < g.Nx) (hj : j < g.Ny) (hk : k < g.Nz) :
    let P := pos g.Nx g.Ny g.Nz c i j k
    let st' := oneStep (build g bc ieps imu sigma dt uc) st
    let b := applyBC g bc (C0 g.Nx g.Ny g.Nz)
    st'.E P = st.E P + dt * (ieps P * b.itA.array P *
        cocirc (view3 g.Nx g.Ny g.Nz fun q => b.tL.array q * st'.H q) c i j k - ieps P * st.J P) := by
  intro P st' b
  have hr : P < _ := pos_lt hc hi hj hk
  show (oneStep _ st).E P = _
  simp only [st']
  rw [oneStep_started _ _ hst, advance_E _ _ _ _ _ _ _ _ hr, colMask_one _ _ hpec, one_mul,
    CT_cocirc _ hc hi hj hk (fun _ => hi0) (fun _ => hj0) (fun _ => hk0)]
  simp only [rowMask_one _ _ hpmc, one_mul]
  rfl

/-! Interior cells see no mask whatever the boundary names. -/

theorem bcMask_interior (w : Faces K) {Nx Ny Nz c i j k : ℕ} (hc : c < 3) (hi0 : 0 < i) (hj0 : 0 < j) (hk0 : 0 < k)
    (hi : i + 1 < Nx) (hj : j + 1 < Ny) (hk : k + 1 < Nz) :
    (bcMask Nx Ny Nz w).array (pos Nx Ny Nz c i j k) = 1 := by
  have dims : (bcMask Nx Ny Nz w).Nx = Nx ∧ (bcMask Nx Ny Nz w).Ny = Ny ∧ (bcMask Nx Ny Nz w).Nz = Nz := by
    unfold bcMask
    refine ⟨?_, ?_, ?_⟩ <;> simp [maskComp_dims, Fld.new]
  have := bcMask_at3 (w := w) (Nx := Nx) (Ny := Ny) (Nz := Nz) (c := c) (i := i) (j := j) (k := k)
    (by omega) (by omega) (by omega) hc
  simp only [Fld.at3, Fld.part, Fld.N, dims.1, dims.2.1, dims.2.2] at this
  rw [show (bcMask Nx Ny Nz w).array (pos Nx Ny Nz c i j k) =
    (bcMask Nx Ny Nz w).array (c * (Nx * Ny * Nz) + (i + Nx * (j + Ny * k))) from rfl, this]
  simp only [edge, if_neg (show ¬ i = Nx - 1 by omega), if_neg (show ¬ j = Ny - 1 by omega),
    if_neg (show ¬ k = Nz - 1 by omega), if_neg (show ¬ i = 0 by omega), if_neg (show ¬ j = 0 by omega),
    if_neg (show ¬ k = 0 by omega), ite_self]

theorem colMask_interior {c i j k : ℕ} (hc : c < 3) (hi0 : 0 < i) (hj0 : 0 < j) (hk0 : 0 < k)
    (hi : i + 1 < g.Nx) (hj : j + 1 < g.Ny) (hk : k + 1 < g.Nz) :
    colMask g bc (pos g.Nx g.Ny g.Nz c i j k) = 1 := by
  unfold colMask; split_ifs
  · exact bcMask_interior _ hc hi0 hj0 hk0 hi hj hk
  · rfl

theorem rowMask_interior {c i j k : ℕ} (hc : c < 3) (hi0 : 0 < i) (hj0 : 0 < j) (hk0 : 0 < k)
    (hi : i + 1 < g.Nx) (hj : j + 1 < g.Ny) (hk : k + 1 < g.Nz) :
    rowMask g bc (pos g.Nx g.Ny g.Nz c i j k) = 1 := by
  unfold rowMask; split_ifs
  · exact bcMask_interior _ hc hi0 hj0 hk0 hi hj hk
  · rfl

/-- **C16 (interior, any boundary names).** In a cell at least one layer away from every face (two from
the high faces) the update is the documented stencil whatever the six boundary conditions are. -/
theorem C16_interior (st : State K) (hst : st.step0 = false) {c i j k : ℕ} (hc : c < 3)
    (hi0 : 0 < i) (hj0 : 0 < j) (hk0 : 0 < k) (hi : i + 2 < g.Nx) (hj : j + 2 < g.Ny) (hk : k + 2 < g.Nz) :
    let P := pos g.Nx g.Ny g.Nz c i j k
    (oneStep (build g bc ieps imu sigma dt uc) st).H P =
      st.H P - dt * (g.iA.array P * imu P *
        circ (view3 g.Nx g.Ny g.Nz fun q => g.L.array q * st.E q) c i j k) := by
  intro P
  have hr : P < _ := pos_lt hc (by omega : i < g.Nx) (by omega : j < g.Ny) (by omega : k < g.Nz)
  rw [oneStep_started _ _ hst, advance_H _ _ _ _ _ _ _ _ hr,
    rowMask_interior _ _ hc hi0 hj0 hk0 (by omega) (by omega) (by omega), one_mul,
    C0_circ _ hc (by omega) (by omega) (by omega) (by omega) (by omega) (by omega)]
  have m : ∀ c < 3, ∀ i', 0 < i' → i' + 1 < g.Nx → ∀ j', 0 < j' → j' + 1 < g.Ny → ∀ k', 0 < k' → k' + 1 < g.Nz →
      view3 g.Nx g.Ny g.Nz (fun q => colMask g bc q * (g.L.array q * st.E q)) c i' j' k' =
        view3 g.Nx g.Ny g.Nz (fun q => g.L.array q * st.E q) c i' j' k' := by
    intro c hc i' h1 h2 j' h3 h4 k' h5 h6
    simp only [view3]
    rw [colMask_interior g bc hc h1 h3 h5 h2 h4 h6, one_mul]
  congr 3
  unfold circ
  split_ifs
  · rw [m 2 (by omega) i hi0 (by omega) (j + 1) (by omega) (by omega) k hk0 (by omega),
      m 2 (by omega) i hi0 (by omega) j hj0 (by omega) k hk0 (by omega),
      m 1 (by omega) i hi0 (by omega) j hj0 (by omega) (k + 1) (by omega) (by omega),
      m 1 (by omega) i hi0 (by omega) j hj0 (by omega) k hk0 (by omega)]
  · rw [m 0 (by omega) i hi0 (by omega) j hj0 (by omega) (k + 1) (by omega) (by omega),
      m 0 (by omega) i hi0 (by omega) j hj0 (by omega) k hk0 (by omega),
      m 2 (by omega) (i + 1) (by omega) (by omega) j hj0 (by omega) k hk0 (by omega),
      m 2 (by omega) i hi0 (by omega) j hj0 (by omega) k hk0 (by omega)]
  · rw [m 1 (by omega) (i + 1) (by omega) (by omega) j hj0 (by omega) k hk0 (by omega),
      m 1 (by omega) i hi0 (by omega) j hj0 (by omega) k hk0 (by omega),
      m 0 (by omega) i hi0 (by omega) (j + 1) (by omega) (by omega) k hk0 (by omega),
      m 0 (by omega) i hi0 (by omega) j hj0 (by omega) k hk0 (by omega)]

/-! ### C17 -/

/-- Magnetic flux through the primary face of entry `r`: `mu * H * area`. -/
def flux (st : State K) : Vec K := fun r => st.H r / (g.iA.array r * imu r)

theorem div_curl (v : Vec K) {Nx Ny Nz i j k : ℕ} (hi : i + 1 < Nx) (hj : j + 1 < Ny) (hk : k + 1 < Nz) :
    divAt (view3 Nx Ny Nz (mulVec (3 * (Nx * Ny * Nz)) (C0 Nx Ny Nz) v)) i j k = 0 := by
  have h0 := fl_lt (show i < Nx by omega) (show j < Ny by omega) (show k < Nz by omega)
  have h1 := fl_lt hi (show j < Ny by omega) (show k < Nz by omega)
  have h2 := fl_lt (show i < Nx by omega) hj (show k < Nz by omega)
  have h3 := fl_lt (show i < Nx by omega) (show j < Ny by omega) hk
  unfold divAt view3 pos
  rw [C0_x h1, C0_x h0, C0_y h2, C0_y h0, C0_z h3, C0_z h0]
  simp only [fl_x, fl_y, fl_z]
  generalize fl Nx Ny i j k = p
  rw [show p + 1 + Nx * Ny = p + Nx * Ny + 1 by ring, show p + Nx + Nx * Ny = p + Nx * Ny + Nx by ring,
    show p + Nx + 1 = p + 1 + Nx by ring]
  ring

theorem flux_advance (hpmc : anyFace isPmcAny bc = false)
    (hA : ∀ r < 3 * (g.Nx * g.Ny * g.Nz), g.iA.array r * imu r ≠ 0) (st : State K) {r : ℕ}
    (hr : r < 3 * (g.Nx * g.Ny * g.Nz)) :
    flux g imu (advance (build g bc ieps imu sigma dt uc) st) r = flux g imu st r - dt *
        mulVec (3 * (g.Nx * g.Ny * g.Nz)) (C0 g.Nx g.Ny g.Nz)
          (fun q => colMask g bc q * (g.L.array q * st.E q)) r := by
  unfold flux
  rw [advance_H _ _ _ _ _ _ _ _ hr, rowMask_one _ _ hpmc, one_mul, sub_div]
  congr 1
  rw [show ∀ a b c : K, a * (b * c) / b = a * c * (b / b) from fun a b c => by ring, div_self (hA r hr), mul_one]

theorem divAt_step (hpmc : anyFace isPmcAny bc = false)
    (hA : ∀ r < 3 * (g.Nx * g.Ny * g.Nz), g.iA.array r * imu r ≠ 0) (st : State K) {i j k : ℕ}
    (hi : i + 1 < g.Nx) (hj : j + 1 < g.Ny) (hk : k + 1 < g.Nz) :
    divAt (view3 g.Nx g.Ny g.Nz (flux g imu (advance (build g bc ieps imu sigma dt uc) st))) i j k =
      divAt (view3 g.Nx g.Ny g.Nz (flux g imu st)) i j k := by
  have hd := div_curl (fun q => colMask g bc q * (g.L.array q * st.E q)) hi hj hk
  unfold divAt view3 at hd ⊢
  have e : ∀ c < 3, ∀ i' < g.Nx, ∀ j' < g.Ny, ∀ k' < g.Nz, _ := fun c hc i' hi' j' hj' k' hk' =>
    flux_advance g bc ieps imu sigma dt uc hpmc hA st (pos_lt hc hi' hj' hk')
  rw [e 0 (by omega) (i + 1) hi j (by omega) k (by omega), e 0 (by omega) i (by omega) j (by omega) k (by omega),
    e 1 (by omega) i (by omega) (j + 1) hj k (by omega), e 1 (by omega) i (by omega) j (by omega) k (by omega),
    e 2 (by omega) i (by omega) j (by omega) (k + 1) hk, e 2 (by omega) i (by omega) j (by omega) k (by omega)]
  linear_combination (-dt) * hd

theorem advance_step0 (s : Solver K) (st : State K) : (advance s st).step0 = st.step0 := rfl

/-- **C17.** For every grid with non-zero areas and permeabilities, every boundary choice without PMC,
every started solver state, and every run of time steps interleaved with arbitrary assignments to E and
J (all sources that do not write H), the magnetic flux out of every cell not in a last layer is what
it was at the start of the run. -/
theorem C17_flux_conserved (hpmc : anyFace isPmcAny bc = false)
    (hA : ∀ r < 3 * (g.Nx * g.Ny * g.Nz), g.iA.array r * imu r ≠ 0) (st : State K) (hst : st.step0 = false)
    (evs : List (Ev K)) (hw : ∀ e ∈ evs, e.NotWriting .H) {i j k : ℕ}
    (hi : i + 1 < g.Nx) (hj : j + 1 < g.Ny) (hk : k + 1 < g.Nz) :
    divAt (view3 g.Nx g.Ny g.Nz (flux g imu (runEv (build g bc ieps imu sigma dt uc) st evs))) i j k =
      divAt (view3 g.Nx g.Ny g.Nz (flux g imu st)) i j k := by
  induction evs generalizing st with
  | nil => rfl
  | cons e es ih =>
    have hes : ∀ e ∈ es, e.NotWriting .H := fun e he => hw e (List.mem_cons_of_mem _ he)
    have he := hw e (List.mem_cons_self ..)
    show divAt (view3 _ _ _ (flux g imu (runEv _ (event _ st e) es))) i j k = _
    cases e with
    | step =>
      rw [ih _ _ hes]
      · show divAt (view3 _ _ _ (flux g imu (oneStep _ st))) i j k = _
        rw [oneStep_started _ _ hst, divAt_step g bc ieps imu sigma dt uc hpmc hA st hi hj hk]
      · show (oneStep _ st).step0 = false
        rw [oneStep_started _ _ hst, advance_step0, hst]
    | write f n v =>
      cases f with
      | H => exact absurd rfl he
      | E => exact ih _ hst hes
      | J => exact ih _ hst hes

theorem setPlane_zero (f : Fld K) (hf : ∀ n, f.array n = 0) (a m c : ℕ) (v : ℕ → ℕ → ℕ → K) (hv : ∀ i j k, v i j k = 0) (n : ℕ) :
    (setPlane f a m c v).array n = 0 := by
  simp only [setPlane, Fld.setPart, Fld.ravelF, Fld.reshapeF, Fld.part, hv, hf, ite_self]

theorem ghostH_zero (f : Fld K) (hf : ∀ n, f.array n = 0) (n : ℕ) : (ghostH f).array n = 0 := by
  unfold ghostH
  simp only [ne_eq, not_true_eq_false, one_ne_zero, not_false_eq_true, if_true, if_false, OfNat.ofNat_ne_zero,
      OfNat.ofNat_ne_one, OfNat.zero_ne_ofNat, zero_ne_one, OfNat.one_ne_ofNat]
  repeat' first
    | exact hf _
    | (refine setPlane_zero _ ?_ _ _ _ _ (fun _ _ _ => rfl) _; intro n)

theorem ghostE_zero (f : Fld K) (hf : ∀ n, f.array n = 0) (n : ℕ) : (ghostE f).array n = 0 := by
  unfold ghostE
  repeat' first
    | exact hf _
    | (refine setPlane_zero _ ?_ _ _ _ _ (fun _ _ _ => rfl) _; intro n)

/-- **C17 (from a fresh solver).** Starting from zero fields the flux divergence is zero in every such cell
after every run driven through E and J. -/
theorem C17_from_zero (hpmc : anyFace isPmcAny bc = false)
    (hA : ∀ r < 3 * (g.Nx * g.Ny * g.Nz), g.iA.array r * imu r ≠ 0)
    (evs : List (Ev K)) (hw : ∀ e ∈ evs, e.NotWriting .H) {i j k : ℕ}
    (hi : i + 1 < g.Nx) (hj : j + 1 < g.Ny) (hk : k + 1 < g.Nz) :
    divAt (view3 g.Nx g.Ny g.Nz (flux g imu (runEv (build g bc ieps imu sigma dt uc) initState evs))) i j k = 0 := by
  suffices h : ∀ (st : State K), (∀ n, st.H n = 0) →
      divAt (view3 g.Nx g.Ny g.Nz (flux g imu (runEv (build g bc ieps imu sigma dt uc) st evs))) i j k = 0 from
    h initState (fun _ => rfl)
  have zero : ∀ st : State K, (∀ n, st.H n = 0) → divAt (view3 g.Nx g.Ny g.Nz (flux g imu st)) i j k = 0 := by
    intro st h; simp [divAt, view3, flux, h]
  induction evs with
  | nil => exact zero
  | cons e es ih =>
    intro st hz
    have hes : ∀ e ∈ es, e.NotWriting .H := fun e he => hw e (List.mem_cons_of_mem _ he)
    have he := hw e (List.mem_cons_self ..)
    show divAt (view3 _ _ _ (flux g imu (runEv _ (event _ st e) es))) i j k = 0
    cases e with
    | write f n v =>
      cases f with
      | H => exact absurd rfl he
      | E => exact ih hes _ hz
      | J => exact ih hes _ hz
    | step =>
      have key : ∀ st : State K, st.step0 = false → (∀ n, st.H n = 0) →
          divAt (view3 g.Nx g.Ny g.Nz (flux g imu (runEv (build g bc ieps imu sigma dt uc)
            (advance (build g bc ieps imu sigma dt uc) st) es))) i j k = 0 := by
        intro st h0 hz
        rw [C17_flux_conserved g bc ieps imu sigma dt uc hpmc hA _ (by rw [advance_step0, h0]) es hes hi hj hk,
          divAt_step g bc ieps imu sigma dt uc hpmc hA st hi hj hk, zero st hz]
      show divAt (view3 _ _ _ (flux g imu (runEv _ (oneStep _ st) es))) i j k = 0
      unfold oneStep
      split_ifs with h0
      · exact key _ rfl (fun n => ghostH_zero _ hz n)
      · exact key st (by simpa using h0) hz

end

end Sol
end Wakis
