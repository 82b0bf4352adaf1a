import Verif.MpiSlab
import Verif.Stability

/-!
# C109: fields spread by at most one cell per step

`wakis/solverFIT3D.py:379-400` with the curl matrix of `wakis/solverFIT3D.py:714-882`.
-/

namespace Wakis
namespace Sol
open Sparse Grid
variable {K : Type _} [Field K]

/-! ### Specification -/

/-- The cells are at most `n` apart along each axis. -/
def Within (n i j k i' j' k' : ℕ) : Prop := (i ≤ i' + n ∧ i' ≤ i + n) ∧ (j ≤ j' + n ∧ j' ≤ j + n) ∧ (k ≤ k' + n ∧ k' ≤ k + n)

/-- The two states hold the same E, H and J in cell `(i, j, k)`. -/
def SameAt (g : Geom K) (a b : State K) (i j k : ℕ) : Prop :=
  ∀ c < 3, a.E (pos g.Nx g.Ny g.Nz c i j k) = b.E (pos g.Nx g.Ny g.Nz c i j k) ∧ a.H (pos g.Nx g.Ny g.Nz c i j k) = b.H (pos g.Nx g.Ny g.Nz c i j k) ∧
    a.J (pos g.Nx g.Ny g.Nz c i j k) = b.J (pos g.Nx g.Ny g.Nz c i j k)

/-- Two runs of `N` steps: `S m` are the fields after `m` steps, `D m` the same after the assignments (by sources, callbacks, the user) before the next step. -/
structure Runs (s : Solver K) (N : ℕ) (S D : ℕ → State K) : Prop where
  step : ∀ m < N, S (m + 1) = oneStep s (D m)
  flag : ∀ m < N, (D m).step0 = (S m).step0

/-! ### One step -/

theorem pecLike_noPmc {bc : Faces String} (h : PecLike bc) : anyFace isPmcAny bc = false := by
  have key : ∀ s : String, isPec s = true → isPmcAny s = false := by
    intro s hs
    unfold isPec at hs
    unfold isPmcAny
    simp only [Bool.or_eq_true, decide_eq_true_eq] at hs
    rcases hs with (hs | hs) | hs <;> rw [hs] <;> decide
  have h1 : isPmcAny bc.xlo = false := key _ (h 0 .lo (by decide))
  have h2 : isPmcAny bc.ylo = false := key _ (h 1 .lo (by decide))
  have h3 : isPmcAny bc.zlo = false := key _ (h 2 .lo (by decide))
  have h4 : isPmcAny bc.xhi = false := key _ (h 0 .hi (by decide))
  have h5 : isPmcAny bc.yhi = false := key _ (h 1 .hi (by decide))
  have h6 : isPmcAny bc.zhi = false := key _ (h 2 .hi (by decide))
  unfold anyFace
  rw [h1, h2, h3, h4, h5, h6]
  rfl

theorem mask_closed (g : Geom K) {bc : Faces String} (h : PecLike bc) {c i j k : ℕ} (hc : c < 3) (hi : i < g.Nx) (hj : j < g.Ny)
    (hk : k < g.Nz) {axis : ℕ} (ha : axis < 3) (hne : axis ≠ c) (s : Side) (hon : OnFace g.Nx g.Ny g.Nz axis s i j k) :
    colMask g bc (pos g.Nx g.Ny g.Nz c i j k) = 0 := by
  rw [colMask_pos g bc hc hi hj hk]
  refine maskVal_zero _ _ _ _ hc ha hne hon fun a ha3 hac => ⟨fun h0 => ?_, fun h1 => ?_⟩
  · rw [pecFaces_lo]; exact if_pos (h a .lo ha3)
  · rw [pecFaces_hi]; exact if_pos (h a .hi ha3)

section
variable (g : Geom K) {bc : Faces String} (ieps imu sigma : Vec K) (dt : K) (uc : Bool)

/-- The H update behind PEC or PML faces, for every state. -/
theorem closed_H (hbc : PecLike bc) (st : State K) {c i j k : ℕ} (hc : c < 3) (hi : i < g.Nx) (hj : j < g.Ny) (hk : k < g.Nz) :
    (advance (build g bc ieps imu sigma dt uc) st).H (pos g.Nx g.Ny g.Nz c i j k) = st.H (pos g.Nx g.Ny g.Nz c i j k) -
      dt * (g.iA.array (pos g.Nx g.Ny g.Nz c i j k) * imu (pos g.Nx g.Ny g.Nz c i j k) *
        circ (view0 g.Nx g.Ny g.Nz fun q => colMask g bc q * (g.L.array q * st.E q)) c i j k) := by
  rw [advance_H _ _ _ _ _ _ _ _ (pos_lt hc hi hj hk), rowMask_one _ _ (pecLike_noPmc hbc), one_mul, C0_circ0 _ hc hi hj hk]
  · intro c' h1 h2 j' k' h3 h4
    rw [mask_closed g hbc h1 (by omega) h3 h4 (axis := 0) (by decide) (Ne.symm h2) .lo rfl, zero_mul]
  · intro c' h1 h2 i' k' h3 h4
    rw [mask_closed g hbc h1 h3 (by omega) h4 (axis := 1) (by decide) (Ne.symm h2) .lo rfl, zero_mul]

/-- The E update behind PEC or PML faces, for every state. -/
theorem closed_E (hbc : PecLike bc) (st : State K) {c i j k : ℕ} (hc : c < 3) (hi : i < g.Nx) (hj : j < g.Ny) (hk : k < g.Nz) :
    (advance (build g bc ieps imu sigma dt uc) st).E (pos g.Nx g.Ny g.Nz c i j k) = st.E (pos g.Nx g.Ny g.Nz c i j k) +
      dt * (ieps (pos g.Nx g.Ny g.Nz c i j k) * (applyBC g bc (C0 g.Nx g.Ny g.Nz)).itA.array (pos g.Nx g.Ny g.Nz c i j k) * (colMask g bc (pos g.Nx g.Ny g.Nz c i j k) *
        cocirc (view3 g.Nx g.Ny g.Nz fun q => (applyBC g bc (C0 g.Nx g.Ny g.Nz)).tL.array q * (advance (build g bc ieps imu sigma dt uc) st).H q) c i j k) -
        ieps (pos g.Nx g.Ny g.Nz c i j k) * st.J (pos g.Nx g.Ny g.Nz c i j k)) := by
  rw [advance_E _ _ _ _ _ _ _ _ (pos_lt hc hi hj hk)]
  simp only [rowMask_one _ _ (pecLike_noPmc hbc), one_mul]
  by_cases h : (c ≠ 0 → 0 < i) ∧ (c ≠ 1 → 0 < j) ∧ (c ≠ 2 → 0 < k)
  · rw [CT_cocirc _ hc hi hj hk h.1 h.2.1 h.2.2]
  · have hm : colMask g bc (pos g.Nx g.Ny g.Nz c i j k) = 0 := by
      have : (c ≠ 0 ∧ i = 0) ∨ (c ≠ 1 ∧ j = 0) ∨ (c ≠ 2 ∧ k = 0) := by
        by_contra hn
        exact h ⟨fun e => by by_contra; exact hn (.inl ⟨e, by omega⟩), fun e => by by_contra; exact hn (.inr (.inl ⟨e, by omega⟩)), fun e => by by_contra; exact hn (.inr (.inr ⟨e, by omega⟩))⟩
      rcases this with ⟨e, e'⟩ | ⟨e, e'⟩ | ⟨e, e'⟩
      · exact mask_closed g hbc hc hi hj hk (axis := 0) (by decide) (Ne.symm e) .lo e'
      · exact mask_closed g hbc hc hi hj hk (axis := 1) (by decide) (Ne.symm e) .lo e'
      · exact mask_closed g hbc hc hi hj hk (axis := 2) (by decide) (Ne.symm e) .lo e'
    rw [hm, zero_mul, zero_mul]

theorem within_self (n i j k : ℕ) : Within n i j k i j k := by unfold Within; omega

/-- The new H of a cell depends on the cell and its upper neighbours. -/
theorem local_H (hbc : PecLike bc) {a b : State K} {i j k : ℕ} (hi : i < g.Nx) (hj : j < g.Ny) (hk : k < g.Nz)
    (h : ∀ i' j' k', i' < g.Nx → j' < g.Ny → k' < g.Nz → i ≤ i' → i' ≤ i + 1 → j ≤ j' → j' ≤ j + 1 → k ≤ k' → k' ≤ k + 1 → SameAt g a b i' j' k') {c : ℕ} (hc : c < 3) :
    (advance (build g bc ieps imu sigma dt uc) a).H (pos g.Nx g.Ny g.Nz c i j k) = (advance (build g bc ieps imu sigma dt uc) b).H (pos g.Nx g.Ny g.Nz c i j k) := by
  rw [closed_H g ieps imu sigma dt uc hbc a hc hi hj hk, closed_H g ieps imu sigma dt uc hbc b hc hi hj hk, (h i j k hi hj hk le_rfl (by omega) le_rfl (by omega) le_rfl (by omega) c hc).2.1]
  have key : ∀ c' i' j' k', c' < 3 → i ≤ i' → i' ≤ i + 1 → j ≤ j' → j' ≤ j + 1 → k ≤ k' → k' ≤ k + 1 →
      view0 g.Nx g.Ny g.Nz (fun q => colMask g bc q * (g.L.array q * a.E q)) c' i' j' k' = view0 g.Nx g.Ny g.Nz (fun q => colMask g bc q * (g.L.array q * b.E q)) c' i' j' k' := by
    intro c' i' j' k' hc' h1 h2 h3 h4 h5 h6
    unfold view0
    split_ifs with hr
    · simp only [(h i' j' k' hr.1 hr.2.1 hr.2.2 h1 h2 h3 h4 h5 h6 c' hc').1]
    · rfl
  congr 3
  unfold circ
  split_ifs
  all_goals
    congr 1 <;> congr 1 <;> exact key _ _ _ _ (by omega) (by omega) (by omega) (by omega) (by omega) (by omega) (by omega)

/-- One step without the clearing of ghosts: a cell's new fields depend on its neighbours only. -/
theorem local_advance (hbc : PecLike bc) {a b : State K} {i j k : ℕ} (hi : i < g.Nx) (hj : j < g.Ny) (hk : k < g.Nz)
    (h : ∀ i' j' k', i' < g.Nx → j' < g.Ny → k' < g.Nz → Within 1 i j k i' j' k' → SameAt g a b i' j' k') :
    SameAt g (advance (build g bc ieps imu sigma dt uc) a) (advance (build g bc ieps imu sigma dt uc) b) i j k := by
  have hH : ∀ c' i' j' k', c' < 3 → i' ≤ i → i ≤ i' + 1 → j' ≤ j → j ≤ j' + 1 → k' ≤ k → k ≤ k' + 1 →
      (advance (build g bc ieps imu sigma dt uc) a).H (pos g.Nx g.Ny g.Nz c' i' j' k') = (advance (build g bc ieps imu sigma dt uc) b).H (pos g.Nx g.Ny g.Nz c' i' j' k') := by
    intro c' i' j' k' hc' h1 h2 h3 h4 h5 h6
    refine local_H g ieps imu sigma dt uc hbc (by omega) (by omega) (by omega) (fun i2 j2 k2 b1 b2 b3 b4 b5 b6 b7 b8 b9 => h i2 j2 k2 b1 b2 b3 ?_) hc'
    unfold Within
    omega
  have hself := h i j k hi hj hk (within_self 1 i j k)
  intro c hc
  have hE : (advance (build g bc ieps imu sigma dt uc) a).E (pos g.Nx g.Ny g.Nz c i j k) = (advance (build g bc ieps imu sigma dt uc) b).E (pos g.Nx g.Ny g.Nz c i j k) := by
    rw [closed_E g ieps imu sigma dt uc hbc a hc hi hj hk, closed_E g ieps imu sigma dt uc hbc b hc hi hj hk, (hself c hc).1, (hself c hc).2.2]
    have key : ∀ c' i' j' k', c' < 3 → i' ≤ i → i ≤ i' + 1 → j' ≤ j → j ≤ j' + 1 → k' ≤ k → k ≤ k' + 1 →
        view3 g.Nx g.Ny g.Nz (fun q => (applyBC g bc (C0 g.Nx g.Ny g.Nz)).tL.array q * (advance (build g bc ieps imu sigma dt uc) a).H q) c' i' j' k' =
          view3 g.Nx g.Ny g.Nz (fun q => (applyBC g bc (C0 g.Nx g.Ny g.Nz)).tL.array q * (advance (build g bc ieps imu sigma dt uc) b).H q) c' i' j' k' := by
      intro c' i' j' k' hc' h1 h2 h3 h4 h5 h6
      unfold view3
      simp only [hH c' i' j' k' hc' h1 h2 h3 h4 h5 h6]
    congr 5
    unfold cocirc
    split_ifs
    all_goals
      congr 1 <;> congr 1 <;> exact key _ _ _ _ (by omega) (by omega) (by omega) (by omega) (by omega) (by omega) (by omega)
  refine ⟨hE, hH c i j k hc le_rfl (by omega) le_rfl (by omega) le_rfl (by omega), ?_⟩
  show (if (build g bc ieps imu sigma dt uc).useConductivity then fun q => (build g bc ieps imu sigma dt uc).sigma q * (advance (build g bc ieps imu sigma dt uc) a).E q else a.J) _ =
    (if (build g bc ieps imu sigma dt uc).useConductivity then fun q => (build g bc ieps imu sigma dt uc).sigma q * (advance (build g bc ieps imu sigma dt uc) b).E q else b.J) _
  split_ifs
  · simp only [hE]
  · exact (hself c hc).2.2

theorem local_step (hbc : PecLike bc) {a b : State K} (hflag : a.step0 = b.step0) {i j k : ℕ} (hi : i < g.Nx) (hj : j < g.Ny) (hk : k < g.Nz)
    (h : ∀ i' j' k', i' < g.Nx → j' < g.Ny → k' < g.Nz → Within 1 i j k i' j' k' → SameAt g a b i' j' k') :
    SameAt g (oneStep (build g bc ieps imu sigma dt uc) a) (oneStep (build g bc ieps imu sigma dt uc) b) i j k := by
  unfold oneStep
  rw [hflag]
  split_ifs
  · refine local_advance g ieps imu sigma dt uc hbc hi hj hk fun i' j' k' b1 b2 b3 b4 c hc => ?_
    obtain ⟨ZH, hZH⟩ := ghostH_mask (K := K) g.Nx g.Ny g.Nz
    obtain ⟨ZE, hZE⟩ := ghostE_mask (K := K) g.Nx g.Ny g.Nz
    obtain ⟨e1, e2, e3⟩ := h i' j' k' b1 b2 b3 b4 c hc
    have d1 : (build g bc ieps imu sigma dt uc).Nx = g.Nx := rfl
    have d2 : (build g bc ieps imu sigma dt uc).Ny = g.Ny := rfl
    have d3 : (build g bc ieps imu sigma dt uc).Nz = g.Nz := rfl
    simp only [setGhostsTo0, Solver.fld, d1, d2, d3, hZH, hZE, e1, e2, e3, and_self]
  · exact local_advance g ieps imu sigma dt uc hbc hi hj hk h

/-! ### C109 -/

/-- **C109 (partial).** Behind PEC or PML faces (no other kind), for every grid, materials (conductors included) and time step: if two runs start with the same fields in all cells within `N` cells of a
cell, and the assignments made before step `m` keep the fields equal in all cells within `N - m` cells of it, then after `N` steps the fields in the cell are the same: what differs elsewhere has
not arrived.  Missing: other boundaries, `C109_open_refuted`. -/
theorem C109_finite_speed_partial (hbc : PecLike bc) {N : ℕ} {S1 D1 S2 D2 : ℕ → State K} (r1 : Runs (build g bc ieps imu sigma dt uc) N S1 D1)
    (r2 : Runs (build g bc ieps imu sigma dt uc) N S2 D2) (h0 : (S1 0).step0 = (S2 0).step0) {i j k : ℕ} (hi : i < g.Nx) (hj : j < g.Ny) (hk : k < g.Nz)
    (hstart : ∀ i' j' k', i' < g.Nx → j' < g.Ny → k' < g.Nz → Within N i j k i' j' k' → SameAt g (S1 0) (S2 0) i' j' k')
    (hw : ∀ m < N, ∀ i' j' k', i' < g.Nx → j' < g.Ny → k' < g.Nz → Within (N - m) i j k i' j' k' → SameAt g (S1 m) (S2 m) i' j' k' → SameAt g (D1 m) (D2 m) i' j' k') :
    SameAt g (S1 N) (S2 N) i j k := by
  have main : ∀ m ≤ N, (S1 m).step0 = (S2 m).step0 ∧ ∀ i' j' k', i' < g.Nx → j' < g.Ny → k' < g.Nz → Within (N - m) i j k i' j' k' → SameAt g (S1 m) (S2 m) i' j' k' := by
    intro m
    induction m with
    | zero => intro _; exact ⟨h0, hstart⟩
    | succ m ih =>
      intro hm
      obtain ⟨f, p⟩ := ih (by omega)
      have hf : (D1 m).step0 = (D2 m).step0 := by rw [r1.flag m hm, r2.flag m hm, f]
      rw [r1.step m hm, r2.step m hm]
      refine ⟨?_, fun i' j' k' b1 b2 b3 b4 => local_step g ieps imu sigma dt uc hbc hf b1 b2 b3 fun i2 j2 k2 c1 c2 c3 c4 => ?_⟩
      · unfold oneStep
        rw [hf]
        split_ifs
        · rfl
        · exact hf
      · have hwin : Within (N - m) i j k i2 j2 k2 := by unfold Within at *; omega
        exact hw m hm i2 j2 k2 c1 c2 c3 hwin (p i2 j2 k2 c1 c2 c3 hwin)
  exact (main N le_rfl).2 i j k hi hj hk (by unfold Within; omega)

/-- **C109 (a single assignment; partial).** Assigning one entry of E, H or J does not change the fields after `n` steps in any cell more than `n` cells away along some axis. -/
theorem C109_one_write_partial (hbc : PecLike bc) (st : State K) (f : Which) (v : K) {c i j k i' j' k' : ℕ} (hi : i < g.Nx) (hj : j < g.Ny) (hk : k < g.Nz) (hi' : i' < g.Nx) (hj' : j' < g.Ny)
    (hk' : k' < g.Nz) {n : ℕ} (hfar : ¬ Within n i j k i' j' k') :
    SameAt g ((oneStep (build g bc ieps imu sigma dt uc))^[n] st)
      ((oneStep (build g bc ieps imu sigma dt uc))^[n] (event (build g bc ieps imu sigma dt uc) st (.write f (pos g.Nx g.Ny g.Nz c i' j' k') v))) i j k := by
  have run : ∀ st : State K, Runs (build g bc ieps imu sigma dt uc) n (fun m => (oneStep (build g bc ieps imu sigma dt uc))^[m] st) (fun m => (oneStep (build g bc ieps imu sigma dt uc))^[m] st) :=
    fun st => ⟨fun m _ => Function.iterate_succ_apply' .., fun _ _ => rfl⟩
  refine C109_finite_speed_partial g ieps imu sigma dt uc hbc (run st) (run _) ?_ hi hj hk (fun i2 j2 k2 b1 b2 b3 b4 c2 hc2 => ?_) fun _ _ _ _ _ _ _ _ _ h => h
  · cases f <;> rfl
  · have hne : pos g.Nx g.Ny g.Nz c2 i2 j2 k2 ≠ pos g.Nx g.Ny g.Nz c i' j' k' := by
      intro e
      obtain ⟨-, rfl, rfl, rfl⟩ := Mpi.pos_inj b1 b2 b3 hi' hj' hk' e
      exact hfar b4
    simp only [Function.iterate_zero, id_eq]
    cases f
    · exact ⟨by show _ = Function.update st.E _ v _; rw [Function.update_of_ne hne], rfl, rfl⟩
    · exact ⟨rfl, by show _ = Function.update st.H _ v _; rw [Function.update_of_ne hne], rfl⟩
    · exact ⟨rfl, rfl, by show _ = Function.update st.J _ v _; rw [Function.update_of_ne hne]⟩

/-- The claim for any boundary names. -/
def FiniteSpeed (s : Solver K) (g : Geom K) : Prop :=
  ∀ (st : State K) (f : Which) (v : K) (c i j k i' j' k' n : ℕ), c < 3 → i < g.Nx → j < g.Ny → k < g.Nz → i' < g.Nx → j' < g.Ny → k' < g.Nz → ¬ Within n i j k i' j' k' →
    SameAt g ((oneStep s)^[n] st) ((oneStep s)^[n] (event s st (.write f (pos g.Nx g.Ny g.Nz c i' j' k') v))) i j k

theorem C109_closed (hbc : PecLike bc) : FiniteSpeed (build g bc ieps imu sigma dt uc) g :=
  fun st f v _ _ _ _ _ _ _ _ _ h1 h2 h3 h4 h5 h6 h7 => C109_one_write_partial g ieps imu sigma dt uc hbc st f v h1 h2 h3 h4 h5 h6 h7
end

/-- **C109 (refuted for open faces).** With no electric or magnetic face, on every grid of at least three cells in x and two in y (with non-zero lengths, areas and time step), a field at the low
x face arrives at the opposite face, `Nx - 1` cells away, in a single step. -/
theorem C109_open_refuted (g : Geom K) {bc : Faces String} (hpec : anyFace isPec bc = false) (hpmc : anyFace isPmcAny bc = false) (ieps imu sigma : Vec K) {dt : K} (hdt : dt ≠ 0) (uc : Bool)
    (hx : 3 ≤ g.Nx) (hy : 2 ≤ g.Ny) (hz : 1 ≤ g.Nz) (hL : ∀ q < 3 * (g.Nx * g.Ny * g.Nz), g.L.array q ≠ 0)
    (hA : ∀ q < 3 * (g.Nx * g.Ny * g.Nz), g.iA.array q ≠ 0) (hmu : ∀ q < 3 * (g.Nx * g.Ny * g.Nz), imu q ≠ 0) :
    ¬ FiniteSpeed (build g bc ieps imu sigma dt uc) g := by
  intro H
  have hk : 0 < g.Nz := by omega
  have hP : fl g.Nx g.Ny (g.Nx - 1) 0 0 < g.Nx * g.Ny * g.Nz := fl_lt (by omega) (by omega) hk
  have h := (H ⟨fun _ => 0, fun _ => 0, fun _ => 0, false⟩ .E 1 1 (g.Nx - 1) 0 0 0 1 0 1 (by decide) (by omega) (by omega) hk (by omega) (by omega) hk (by unfold Within; omega) 2 (by decide)).2.1
  have hpos : pos g.Nx g.Ny g.Nz 2 (g.Nx - 1) 0 0 < 3 * (g.Nx * g.Ny * g.Nz) := pos_lt (by decide) (by omega) (by omega) hk
  have one : ∀ st : State K, st.step0 = false → (oneStep (build g bc ieps imu sigma dt uc))^[1] st = advance (build g bc ieps imu sigma dt uc) st := by
    intro st hst
    show oneStep _ st = _
    unfold oneStep
    rw [hst]
    rfl
  have hcol : ∀ q, colMask g bc q = 1 := by intro q; unfold colMask; rw [hpec]; rfl
  rw [one _ rfl, one _ rfl, advance_H _ _ _ _ _ _ _ _ hpos, advance_H _ _ _ _ _ _ _ _ hpos, rowMask_one _ _ hpmc] at h
  simp only [hcol, one_mul] at h
  have hN : fl g.Nx g.Ny (g.Nx - 1) 0 0 + 1 = fl g.Nx g.Ny 0 1 0 := by unfold fl; simp only [Nat.mul_zero, Nat.add_zero, Nat.zero_add]; omega
  unfold pos at h
  rw [C0_z hP, C0_z hP] at h
  have hq : fl g.Nx g.Ny 0 1 0 < g.Nx * g.Ny * g.Nz := fl_lt (by omega) (by omega) hk
  have hQ2 : fl g.Nx g.Ny (g.Nx - 1) 0 0 ≠ fl g.Nx g.Ny 0 1 0 := by omega
  rw [hN] at h
  unfold ext at h
  have up : ∀ q, (event (build g bc ieps imu sigma dt uc) (⟨fun _ => 0, fun _ => 0, fun _ => 0, false⟩ : State K) (.write .E (1 * (g.Nx * g.Ny * g.Nz) + fl g.Nx g.Ny 0 1 0) 1)).E q =
      if q = 1 * (g.Nx * g.Ny * g.Nz) + fl g.Nx g.Ny 0 1 0 then 1 else 0 := by
    intro q
    show Function.update (fun _ => (0 : K)) _ 1 q = _
    rw [Function.update_apply]
  have hz0 : ∀ p, p < g.Nx * g.Ny * g.Nz → 0 * (g.Nx * g.Ny * g.Nz) + p ≠ 1 * (g.Nx * g.Ny * g.Nz) + fl g.Nx g.Ny 0 1 0 := fun p hp => by omega
  have hself : 1 * (g.Nx * g.Ny * g.Nz) + fl g.Nx g.Ny (g.Nx - 1) 0 0 ≠ 1 * (g.Nx * g.Ny * g.Nz) + fl g.Nx g.Ny 0 1 0 := by omega
  have hs : fl g.Nx g.Ny (g.Nx - 1) 0 0 + g.Nx < g.Nx * g.Ny * g.Nz := by
    have e : fl g.Nx g.Ny (g.Nx - 1) 0 0 + g.Nx = fl g.Nx g.Ny (g.Nx - 1) 1 0 := by unfold fl; simp only [Nat.mul_zero, Nat.add_zero, Nat.mul_one]
    rw [e]
    exact fl_lt (by omega) (by omega) hk
  rw [if_pos hq, if_pos hP, if_pos hs, if_pos hP] at h
  have upx : ∀ q, (event (build g bc ieps imu sigma dt uc) (⟨fun _ => 0, fun _ => 0, fun _ => 0, false⟩ : State K) (.write .E (1 * (g.Nx * g.Ny * g.Nz) + fl g.Nx g.Ny 0 1 0) 1)).H q = 0 := fun _ => rfl
  simp only [up, upx, if_pos hq, if_pos hP, if_pos hs, if_neg hself, if_neg (hz0 _ hP), if_neg (hz0 _ hs), if_true, mul_zero, mul_one, sub_zero, zero_sub] at h
  have h' := neg_eq_zero.1 h.symm
  rcases mul_eq_zero.1 h' with h' | h'
  · exact hdt h'
  · rcases mul_eq_zero.1 h' with h' | h'
    · rcases mul_eq_zero.1 h' with h' | h'
      · exact hA _ hpos h'
      · exact hmu _ hpos h'
    · exact hL _ (by omega) h'

/-- A grid of 3 × 2 × 2 unit cells. -/
def smallGrid : Geom ℚ := computeGrid 3 2 2 (fun i => i) (fun i => i) fun i => i

/-- Open faces on it: the claim fails. -/
example : ¬ FiniteSpeed (build smallGrid ⟨"open", "open", "open", "open", "open", "open"⟩ (fun _ => 1) (fun _ => 1) (fun _ => 0) (1 / 2) false) smallGrid :=
  C109_open_refuted smallGrid (by decide) (by decide) _ _ _ (by norm_num) _ (by decide) (by decide) (by decide) (by decide +kernel) (by decide +kernel) (by decide +kernel)

/-- Closed and PML faces on it: the claim holds. -/
example : FiniteSpeed (build smallGrid ⟨"pec", "PEC", "pml", "pec", "pml", "pml"⟩ (fun _ => 1) (fun _ => 1) (fun _ => 3) (1 / 2) true) smallGrid :=
  C109_closed smallGrid _ _ _ _ _ (by intro a s ha; interval_cases a <;> cases s <;> decide)

end Sol
end Wakis
