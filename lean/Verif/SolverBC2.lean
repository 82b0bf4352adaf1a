import Verif.SolverBC

/-!
# Boundary conditions: where the natural claims fail (C24 - C28, C37), and what holds instead

Every refutation runs the modelled solver on a 2×2×2 grid of unit cells with unit materials and
`dt = 1`, from a concrete started state.
-/

namespace Wakis
namespace Sol
open Sparse Finset

/-- 2×2×2 unit cells. -/
def unit2 : Grid.Geom ℚ := Grid.computeGrid 2 2 2 (fun i => i) (fun i => i) (fun i => i)

/-- Unit materials, `dt = 1`, on the 2×2×2 grid. -/
def sol2 (bc : Faces String) : Solver ℚ := build unit2 bc (fun _ => 1) (fun _ => 1) (fun _ => 0) 1 false

/-- A started state without current. -/
def stEH (E H : Vec ℚ) : State ℚ := ⟨E, H, fun _ => 0, false⟩

/-- One at entry `r`, zero elsewhere. -/
def delta (r : ℕ) : Vec ℚ := fun n => if n = r then 1 else 0

theorem unit2_L : ∀ r < 24, unit2.L.array r = 1 := by decide +kernel
theorem unit2_iA : ∀ r < 24, unit2.iA.array r = 1 := by decide +kernel

theorem sol2_H (bc : Faces String) (E H : Vec ℚ) {r : ℕ} (hr : r < 24) : (oneStep (sol2 bc) (stEH E H)).H r =
    H r - rowMask unit2 bc r * mulVec 24 (C0 2 2 2) (fun q => colMask unit2 bc q * E q) r := by
  unfold sol2
  rw [oneStep_started _ _ rfl, advance_H _ _ _ _ _ _ _ _ hr, unit2_iA r hr, one_mul, one_mul, one_mul]
  have : mulVec (3 * (unit2.Nx * unit2.Ny * unit2.Nz)) (C0 unit2.Nx unit2.Ny unit2.Nz)
      (fun q => colMask unit2 bc q * (unit2.L.array q * (stEH E H).E q)) r =
      mulVec 24 (C0 2 2 2) (fun q => colMask unit2 bc q * E q) r := by
    refine mulVec_congr (fun _ _ => rfl) fun q hq => ?_
    simp only [unit2_L q hq, one_mul]
    rfl
  rw [this]
  rfl

theorem kick_E (g : Grid.Geom ℚ) (bc : Faces String) (H : Vec ℚ) {r : ℕ} (hr : r < 3 * (g.Nx * g.Ny * g.Nz)) :
    (oneStep (build g bc (fun _ => 1) (fun _ => 1) (fun _ => 0) 1 false) (stEH (fun _ => 0) H)).E r =
      (applyBC g bc (C0 g.Nx g.Ny g.Nz)).itA.array r *
      (colMask g bc r * mulVec (3 * (g.Nx * g.Ny * g.Nz)) (transpose (C0 g.Nx g.Ny g.Nz))
        (fun q => rowMask g bc q * ((applyBC g bc (C0 g.Nx g.Ny g.Nz)).tL.array q * H q)) r) := by
  have hE : ∀ q < 3 * (g.Nx * g.Ny * g.Nz),
      (advance (build g bc (fun _ => 1) (fun _ => 1) (fun _ => 0) 1 false) (stEH (fun _ => 0) H)).H q = H q := by
    intro q hq
    rw [advance_H _ _ _ _ _ _ _ _ hq]
    have : mulVec (3 * (g.Nx * g.Ny * g.Nz)) (C0 g.Nx g.Ny g.Nz)
       (fun q => colMask g bc q * (g.L.array q * (stEH (fun _ => 0) H).E q)) q = 0 := by
      apply mulVec_zero_below; intro j hj; simp [stEH]
    rw [this]; simp [stEH]
  rw [oneStep_started _ _ rfl, advance_E _ _ _ _ _ _ _ _ hr]
  have : mulVec (3 * (g.Nx * g.Ny * g.Nz)) (transpose (C0 g.Nx g.Ny g.Nz))
      (fun q => rowMask g bc q * ((applyBC g bc (C0 g.Nx g.Ny g.Nz)).tL.array q *
        (advance (build g bc (fun _ => 1) (fun _ => 1) (fun _ => 0) 1 false) (stEH (fun _ => 0) H)).H q)) r =
      mulVec (3 * (g.Nx * g.Ny * g.Nz)) (transpose (C0 g.Nx g.Ny g.Nz))
        (fun q => rowMask g bc q * ((applyBC g bc (C0 g.Nx g.Ny g.Nz)).tL.array q * H q)) r := by
    refine mulVec_congr (fun _ _ => rfl) fun q hq => ?_
    simp only [hE q hq]
  rw [this]
  simp only [stEH, one_mul, mul_zero, sub_zero, zero_add]

theorem sol2_E (bc : Faces String) (H : Vec ℚ) {r : ℕ} (hr : r < 24) :
    (oneStep (sol2 bc) (stEH (fun _ => 0) H)).E r = (applyBC unit2 bc (C0 2 2 2)).itA.array r *
      (colMask unit2 bc r * mulVec 24 (transpose (C0 2 2 2))
        (fun q => rowMask unit2 bc q * ((applyBC unit2 bc (C0 2 2 2)).tL.array q * H q)) r) :=
  kick_E unit2 bc H hr

/-! ### C24 -/

/-- PEC everywhere except an absorbing high y face. -/
def bcEdge : Faces String := ⟨"pec", "pec", "pec", "abc", "pec", "pec"⟩

set_option maxRecDepth 100000 in
/-- **C24 refuted in general.** With PEC on the low x face and ABC on the high y face the tangential
`Ez` at the shared edge cell (0,1,0) of the PEC face becomes non-zero in one step from zero. -/
theorem C24_refuted : ¬ TangentialEVanishes unit2 bcEdge (fun _ => 1) (fun _ => 1) (fun _ => 0) 1 false := by
  intro h
  have h1 := h 0 .lo 2 0 1 0 (by decide) (by decide) (by decide) (by decide) (by decide) (by decide) (by decide) (by decide)
    (stEH (fun _ => 0) (delta 2)) rfl rfl [.step] (by simp [Ev.NotEJAt])
  have h2 := sol2_E bcEdge (delta 2) (r := 18) (by decide)
  have h3 : (oneStep (sol2 bcEdge) (stEH (fun _ => 0) (delta 2))).E 18 = 0 := h1
  rw [h3] at h2
  exact absurd h2 (by decide +kernel)

/-- The closed-box theorem applies to six PEC names of mixed spelling. -/
example : ∀ a s, a < 3 → isPec (faceName ⟨"PEC", "electric", "pml", "Pec", "pec", "Electric"⟩ a s) = true := by
  intro a s ha
  have : a = 0 ∨ a = 1 ∨ a = 2 := by omega
  rcases this with rfl | rfl | rfl <;> cases s <;> decide

/-- The partial theorem covers the inner part of a single PEC face: cell (0,1,1) of a 3×3×3 grid, `Ez`,
with PEC on low x only. -/
example : OnFace 3 3 3 0 .lo 0 1 1 ∧ ∀ a s', a < 3 → a ≠ 2 → OnFace 3 3 3 a s' 0 1 1 →
    isPec (faceName ⟨"pec", "abc", "abc", "abc", "periodic", "pmc"⟩ a s') = true := by
  refine ⟨rfl, fun a s' ha h2 hon => ?_⟩
  have : a = 0 ∨ a = 1 := by omega
  rcases this with rfl | rfl <;> cases s' <;> revert hon <;> decide

/-! ### C25 -/

/-- The naive claim of C25: PEC on the low face of x alone decouples the rows. -/
def NoRowCoupling (bc : Faces String) : Prop := isPec bc.xlo = true → ∀ (E H : Vec ℚ) (c i j k : ℕ), c < 3 → i < 2 → j < 2 → k < 2 →
  (oneStep (sol2 bc) (stEH E H)).H (pos 2 2 2 c i j k) = H (pos 2 2 2 c i j k) - circ (view0 2 2 2 E) c i j k

set_option maxRecDepth 100000 in
/-- **C25 refuted without the clean-state hypothesis.** With ABC on the high y face, `Ez` in the edge cell
(0,1,0) enters the update of `Hy` in the last cell (1,0,0) of the previous row. -/
theorem C25_refuted : ¬ NoRowCoupling bcEdge := by
  intro h
  have h1 := h (by decide) (delta 18) (fun _ => 0) 1 1 0 0 (by decide) (by decide) (by decide) (by decide)
  rw [sol2_H _ _ _ (by decide)] at h1
  exact absurd h1 (by decide +kernel)

/-- Non-vacuity of the C25 hypotheses: a non-zero clean state on a 3×3×3 box with PEC low faces. -/
example : let bc : Faces String := ⟨"pec", "abc", "pec", "abc", "pec", "abc"⟩
    let g := Grid.computeGrid 3 3 3 Grid.demoAxis Grid.demoAxis Grid.demoAxis
    isPec bc.xlo = true ∧ isPec bc.ylo = true ∧ isPec bc.zlo = true ∧ anyFace isPmcAny bc = false ∧
    PecClean g bc (fun n => if n = pos 3 3 3 2 1 1 1 then (1 : ℚ) else 0) := by
  intro bc g
  refine ⟨by decide, by decide, by decide, by decide, ?_⟩
  intro axis s c i j k ha hc hne hi hj hk hon hp
  have hi : i < 3 := hi
  have hj : j < 3 := hj
  have hk : k < 3 := hk
  have hon : OnFace 3 3 3 axis s i j k := hon
  show (if pos 3 3 3 c i j k = pos 3 3 3 2 1 1 1 then (1 : ℚ) else 0) = 0
  rw [if_neg]
  intro he
  have : c = 2 ∧ i = 1 ∧ j = 1 ∧ k = 1 := by simp only [pos, fl] at he; omega
  obtain ⟨rfl, rfl, rfl, rfl⟩ := this
  interval_cases axis <;> cases s <;> revert hon <;> decide

/-! ### C26 -/

/-- PEC on the low z face, ABC elsewhere. -/
def bcZ : Faces String := ⟨"abc", "abc", "abc", "abc", "pec", "abc"⟩
/-- The same with PMC on the low x face. -/
def bcZpmc : Faces String := ⟨"pmc", "abc", "abc", "abc", "pec", "abc"⟩
/-- Only the low z face is magnetic, spelled in upper case.  (The z faces are written last, so no other face
overwrites them.) -/
def bcPMC1 : Faces String := ⟨"abc", "abc", "abc", "abc", "PMC", "abc"⟩

set_option maxRecDepth 100000 in
/-- **C26 refuted (spelling).** On a face spelled `PMC` tangential H changes: the per-face test compares the
raw string with `"pmc"`. -/
theorem C26_spelling_refuted : ¬ TangentialHVanishes unit2 bcPMC1 (fun _ => 1) (fun _ => 1) (fun _ => 0) 1 false := by
  intro h
  have h1 := h 2 .lo 1 0 0 0 (by decide) (by decide) (by decide) (by decide) (by decide) (by decide) (by decide) (by decide)
    (stEH (delta (pos 2 2 2 2 0 0 0)) (fun _ => 0)) rfl [.step] (by simp [Ev.NotHAt])
  have h2 : (oneStep (sol2 bcPMC1) (stEH (delta (pos 2 2 2 2 0 0 0)) (fun _ => 0))).H (pos 2 2 2 1 0 0 0) = 0 := h1
  rw [sol2_H _ _ _ (by decide)] at h2
  exact absurd h2 (by decide +kernel)

/-- The second half of C26: whether the low x face is PMC does not matter for H in a cell that does not lie on
that face. -/
def PmcLocal (bc bc' : Faces String) : Prop := ∀ (E H : Vec ℚ) (c i j k : ℕ), c < 3 → 0 < i → i < 2 → j < 2 → k < 2 →
  (oneStep (sol2 bc) (stEH E H)).H (pos 2 2 2 c i j k) = (oneStep (sol2 bc') (stEH E H)).H (pos 2 2 2 c i j k)

set_option maxRecDepth 100000 in
/-- **C26 refuted (side effect).** Declaring PMC instead of ABC on the low x face changes the H update on the
PEC face away from it: there H is frozen (`C26_pec_faces_frozen`), without any PMC it is not. -/
theorem C26_side_effect_refuted : ¬ PmcLocal bcZ bcZpmc := by
  intro h
  have h1 := h (delta (pos 2 2 2 2 1 0 0)) (fun _ => 0) 1 1 0 0 (by decide) (by decide) (by decide) (by decide) (by decide)
  rw [sol2_H _ _ _ (by decide), sol2_H _ _ _ (by decide)] at h1
  exact absurd h1 (by decide +kernel)

/-- The hypotheses of the C26 theorems are met on the inner part of a face: `Hy` in cell (0,1,1) of a 3×3×3
grid with a magnetic low x face. -/
example : let bc : Faces String := ⟨"Magnetic", "abc", "pec", "abc", "periodic", "pec"⟩
    isPmcFace (faceName bc 0 .lo) = true ∧ OnFace 3 3 3 0 .lo 0 1 1 ∧
    ∀ a s', a < 3 → a ≠ 1 → OnFace 3 3 3 a s' 0 1 1 → isPmcFace (faceName bc a s') = true ∨ isPec (faceName bc a s') = true := by
  refine ⟨by decide, rfl, fun a s' ha h2 hon => ?_⟩
  have : a = 0 ∨ a = 2 := by omega
  rcases this with rfl | rfl <;> cases s' <;> revert hon <;> decide

/-! ### C27 -/

section
variable {K : Type _} [Field K]
variable (g : Grid.Geom K) (bc : Faces String) (ieps imu sigma : Vec K) (dt : K) (uc : Bool)

/-- A field continued periodically. -/
def wrapView (Nx Ny Nz : ℕ) (v : ℕ → K) (c i j k : ℕ) : K := v (pos Nx Ny Nz c (i % Nx) (j % Ny) (k % Nz))

/-- The claim of C27 for one axis: with `periodic` on both faces, the H update in the last layer of the axis
(other coordinates inside) uses the first layer at the same transverse position. -/
def PeriodicWraps (axis : ℕ) : Prop :=
  isPeriodic (bc.lo axis) = true → isPeriodic (bc.hi axis) = true → ∀ (st : State K), st.step0 = false →
  ∀ c i j k : ℕ, c < 3 → i < g.Nx → j < g.Ny → k < g.Nz → coord axis i j k + 1 = coord axis g.Nx g.Ny g.Nz →
    (∀ a < 3, a ≠ axis → coord a i j k + 1 < coord a g.Nx g.Ny g.Nz) →
    (oneStep (build g bc ieps imu sigma dt uc) st).H (pos g.Nx g.Ny g.Nz c i j k) = st.H (pos g.Nx g.Ny g.Nz c i j k) -
      dt * (g.iA.array (pos g.Nx g.Ny g.Nz c i j k) * imu (pos g.Nx g.Ny g.Nz c i j k) *
        circ (wrapView g.Nx g.Ny g.Nz fun q => g.L.array q * st.E q) c i j k)

/-- What the H update of `Hy` does in the last x layer when nothing is masked: it reads `Ez` of the first
x layer *one row further* (`j + 1`). -/
theorem C27_actual_x (hpec : anyFace isPec bc = false) (hpmc : anyFace isPmcAny bc = false) (st : State K)
    (hst : st.step0 = false) {j k : ℕ} (hx : 0 < g.Nx) (hj : j + 1 < g.Ny) (hk : k + 1 < g.Nz) :
    let e := view3 g.Nx g.Ny g.Nz fun q => g.L.array q * st.E q
    let P := pos g.Nx g.Ny g.Nz 1 (g.Nx - 1) j k
    (oneStep (build g bc ieps imu sigma dt uc) st).H P = st.H P - dt * (g.iA.array P * imu P *
      ((e 0 (g.Nx - 1) j (k + 1) - e 0 (g.Nx - 1) j k) - (e 2 0 (j + 1) k - e 2 (g.Nx - 1) j k))) := by
  intro e P
  have hi : g.Nx - 1 < g.Nx := by omega
  rw [oneStep_started _ _ hst, advance_H _ _ _ _ _ _ _ _ (pos_lt (by decide) hi (by omega) (by omega)), rowMask_one _ _ hpmc, one_mul]
  simp only [colMask_one _ _ hpec, one_mul, P]
  have s : fl g.Nx g.Ny (g.Nx - 1) j k + 1 = fl g.Nx g.Ny 0 (j + 1) k := by
    rw [← fl_x, Nat.sub_add_cancel hx]; unfold fl; ring
  conv_lhs => rw [pos, C0_y (fl_lt hi (by omega) (by omega)), s, ← fl_z, ext_fl _ 0 hi (by omega) hk, ext_fl _ 0 hi (by omega) (by omega),
    ext_fl _ 2 hx hj (by omega), ext_fl _ 2 hi (by omega) (by omega)]
  rfl

/-- In the last y layer `Hx` reads `Ez` of the first y layer *one plane further* (`k + 1`). -/
theorem C27_actual_y (hpec : anyFace isPec bc = false) (hpmc : anyFace isPmcAny bc = false) (st : State K)
    (hst : st.step0 = false) {i k : ℕ} (hi : i < g.Nx) (hy : 0 < g.Ny) (hk : k + 1 < g.Nz) :
    let e := view3 g.Nx g.Ny g.Nz fun q => g.L.array q * st.E q
    let P := pos g.Nx g.Ny g.Nz 0 i (g.Ny - 1) k
    (oneStep (build g bc ieps imu sigma dt uc) st).H P = st.H P - dt * (g.iA.array P * imu P *
      ((e 2 i 0 (k + 1) - e 2 i (g.Ny - 1) k) - (e 1 i (g.Ny - 1) (k + 1) - e 1 i (g.Ny - 1) k))) := by
  intro e P
  have hj : g.Ny - 1 < g.Ny := by omega
  rw [oneStep_started _ _ hst, advance_H _ _ _ _ _ _ _ _ (pos_lt (by decide) hi hj (by omega)), rowMask_one _ _ hpmc, one_mul]
  simp only [colMask_one _ _ hpec, one_mul, P]
  have s : fl g.Nx g.Ny i (g.Ny - 1) k + g.Nx = fl g.Nx g.Ny i 0 (k + 1) := by
    rw [← fl_y, Nat.sub_add_cancel hy]; unfold fl; ring
  conv_lhs => rw [pos, C0_x (fl_lt hi hj (by omega)), s, ← fl_z, ext_fl _ 2 hi hy hk,
    ext_fl _ 2 hi hj (by omega), ext_fl _ 1 hi hj hk, ext_fl _ 1 hi hj (by omega)]
  rfl

/-- In the last z layer `Hx` reads zero beyond the face: nothing re-enters. -/
theorem C27_actual_z (hpec : anyFace isPec bc = false) (hpmc : anyFace isPmcAny bc = false) (st : State K)
    (hst : st.step0 = false) {i j : ℕ} (hi : i < g.Nx) (hj : j + 1 < g.Ny) (hz : 0 < g.Nz) :
    let e := view3 g.Nx g.Ny g.Nz fun q => g.L.array q * st.E q
    let P := pos g.Nx g.Ny g.Nz 0 i j (g.Nz - 1)
    (oneStep (build g bc ieps imu sigma dt uc) st).H P = st.H P - dt * (g.iA.array P * imu P *
      ((e 2 i (j + 1) (g.Nz - 1) - e 2 i j (g.Nz - 1)) - (0 - e 1 i j (g.Nz - 1)))) := by
  intro e P
  have hk : g.Nz - 1 < g.Nz := by omega
  rw [oneStep_started _ _ hst, advance_H _ _ _ _ _ _ _ _ (pos_lt (by decide) hi (by omega) hk), rowMask_one _ _ hpmc, one_mul]
  simp only [colMask_one _ _ hpec, one_mul, P]
  have s : ext (g.Nx * g.Ny * g.Nz) (fun q => g.L.array q * st.E q) 1 (fl g.Nx g.Ny i j (g.Nz - 1) + g.Nx * g.Ny) = 0 := by
    unfold ext
    rw [if_neg]
    rw [← fl_z, Nat.sub_add_cancel hz]
    have : fl g.Nx g.Ny i j g.Nz = i + g.Nx * j + g.Nx * g.Ny * g.Nz := by unfold fl; ring
    rw [this]; omega
  conv_lhs => rw [pos, C0_x (fl_lt hi (by omega) hk), s, ← fl_y, ext_fl _ 2 hi hj hk,
    ext_fl _ 2 hi (by omega) hk, ext_fl _ 1 hi (by omega) hk]
  rfl

/-- The first cell of an axis, at the same transverse position. -/
def firstOf (axis i j k : ℕ) : ℕ × ℕ × ℕ := (if axis = 0 then 0 else i, if axis = 1 then 0 else j, if axis = 2 then 0 else k)

theorem wrapMetric_tL (L iA : Fld K) (m : Fld K × Fld K) (axis c : ℕ) {i j k : ℕ} (hi : i < m.1.Nx) (hj : j < m.1.Ny)
    (hk : k < m.1.Nz) : (wrapMetric L iA m axis).1.at3 c i j k =
      if c = axis ∧ coord axis i j k = lastIdx m.1 axis then
        L.at3 axis (firstOf axis i j k).1 (firstOf axis i j k).2.1 (firstOf axis i j k).2.2
      else m.1.at3 c i j k := by
  unfold wrapMetric
  simp only
  rw [setPlane_at3 hi hj hk]
  rfl

theorem wrapMetric_itA (L iA : Fld K) (m : Fld K × Fld K) {axis c : ℕ} (ha : axis < 3) (hc : c < 3) {i j k : ℕ}
    (hi : i < m.2.Nx) (hj : j < m.2.Ny) (hk : k < m.2.Nz) : (wrapMetric L iA m axis).2.at3 c i j k =
      if c ≠ axis ∧ coord axis i j k = lastIdx m.2 axis then
        iA.at3 c (firstOf axis i j k).1 (firstOf axis i j k).2.1 (firstOf axis i j k).2.2
      else m.2.at3 c i j k := by
  unfold wrapMetric
  simp only
  rw [setPlane_at3 (by exact hi) (by exact hj) (by exact hk), setPlane_at3 hi hj hk]
  by_cases hl : coord axis i j k = lastIdx m.2 axis
  · interval_cases axis <;> interval_cases c <;> simp [hl, firstOf]
  · simp [hl]

/-- **C27, partial (what does hold): the dual metric is closed around a periodic axis.** With `periodic` on both faces
of one axis only, and no `abc`, the dual length across the wrap is the length of the first cell and the dual areas
there are those of the first layer; every other entry of the dual metric is that of the grid. -/
theorem C27_metric_partial (C : Mat K) {axis : ℕ} (ha : axis < 3) (hlo : isPeriodic (bc.lo axis) = true)
    (hhi : isPeriodic (bc.hi axis) = true)
    (hother : ∀ a < 3, a ≠ axis → ¬ (isPeriodic (bc.lo a) = true ∧ isPeriodic (bc.hi a) = true))
    (habc : anyFace isAbc bc = false) (ht : g.tL.Nx = g.Nx ∧ g.tL.Ny = g.Ny ∧ g.tL.Nz = g.Nz)
    (hA : g.itA.Nx = g.Nx ∧ g.itA.Ny = g.Ny ∧ g.itA.Nz = g.Nz) {c i j k : ℕ} (hc : c < 3)
    (hi : i < g.Nx) (hj : j < g.Ny) (hk : k < g.Nz) :
    let atEnd := coord axis i j k + 1 = coord axis g.Nx g.Ny g.Nz
    let (i', j', k') := firstOf axis i j k
    ((applyBC g bc C).tL.at3 c i j k = if c = axis ∧ atEnd then g.L.at3 c i' j' k' else g.tL.at3 c i j k) ∧
    ((applyBC g bc C).itA.at3 c i j k = if c ≠ axis ∧ atEnd then g.iA.at3 c i' j' k' else g.itA.at3 c i j k) := by
  obtain ⟨t1, t2, t3⟩ := ht
  obtain ⟨a1, a2, a3⟩ := hA
  have e : periodicMetric g bc = wrapMetric g.L g.iA (g.tL, g.itA) axis := by
    have p0 := hother 0 (by decide)
    have p1 := hother 1 (by decide)
    have p2 := hother 2 (by decide)
    simp only [Faces.lo, Faces.hi, if_true, if_false, one_ne_zero, OfNat.ofNat_ne_zero, OfNat.ofNat_ne_one] at p0 p1 p2 hlo hhi
    unfold periodicMetric
    interval_cases axis
    · simp only [if_true] at hlo hhi
      have p1 := p1 (by decide)
      have p2 := p2 (by decide)
      simp [hlo, hhi, p1, p2]
    · simp only [if_true, one_ne_zero, if_false] at hlo hhi
      have p1 := p0 (by decide)
      have p2 := p2 (by decide)
      simp [hlo, hhi, p1, p2]
    · simp only [OfNat.ofNat_ne_zero, OfNat.ofNat_ne_one, if_false] at hlo hhi
      have q0 := p0 (by decide)
      have q1 := p1 (by decide)
      simp [hlo, hhi, q0, q1]
  have h1 : (applyBC g bc C).tL = (wrapMetric g.L g.iA (g.tL, g.itA) axis).1 := by
    unfold applyBC abcMetric; simp [habc, e]
  have h2 : (applyBC g bc C).itA = (wrapMetric g.L g.iA (g.tL, g.itA) axis).2 := by
    unfold applyBC abcMetric; simp [habc, e]
  have l1 : coord axis i j k = lastIdx g.tL axis ↔ coord axis i j k + 1 = coord axis g.Nx g.Ny g.Nz := by
    unfold lastIdx coord; rw [t1, t2, t3]; split_ifs <;> omega
  have l2 : coord axis i j k = lastIdx g.itA axis ↔ coord axis i j k + 1 = coord axis g.Nx g.Ny g.Nz := by
    unfold lastIdx coord; rw [a1, a2, a3]; split_ifs <;> omega
  simp only
  rw [h1, h2, wrapMetric_tL _ _ _ _ _ (by rw [t1]; exact hi) (by rw [t2]; exact hj) (by rw [t3]; exact hk),
    wrapMetric_itA _ _ _ ha hc (by rw [a1]; exact hi) (by rw [a2]; exact hj) (by rw [a3]; exact hk)]
  simp only [l1, l2]
  refine ⟨?_, trivial⟩
  by_cases hca : c = axis
  · subst hca; rfl
  · simp [hca]

end

/-- All six faces periodic. -/
def bcPer : Faces String := ⟨"periodic", "periodic", "periodic", "periodic", "periodic", "periodic"⟩

/-- Non-vacuity of `C27_metric_partial`: periodic along z in a PEC box. -/
example : let bc : Faces String := ⟨"pec", "pec", "pec", "pec", "Periodic", "periodic"⟩
    isPeriodic (bc.lo 2) = true ∧ isPeriodic (bc.hi 2) = true ∧
      (∀ a < 3, a ≠ 2 → ¬ (isPeriodic (bc.lo a) = true ∧ isPeriodic (bc.hi a) = true)) ∧ anyFace isAbc bc = false := by
  decide

set_option maxRecDepth 100000 in
/-- **C27 refuted.** For each of the three axes the periodic claim fails. -/
theorem C27_refuted : ∀ axis < 3, ¬ PeriodicWraps unit2 bcPer (fun _ => 1) (fun _ => 1) (fun _ => 0) 1 false axis := by
  have key : ∀ (axis c i j k r : ℕ), axis < 3 → pos 2 2 2 c i j k < 24 →
      (PeriodicWraps unit2 bcPer (fun _ => 1) (fun _ => 1) (fun _ => 0) 1 false axis →
        (oneStep (sol2 bcPer) (stEH (delta r) (fun _ => 0))).H (pos 2 2 2 c i j k) = 0 -
          1 * (unit2.iA.array (pos 2 2 2 c i j k) * 1 * circ (wrapView 2 2 2 fun q => unit2.L.array q * delta r q) c i j k)) →
      0 - rowMask unit2 bcPer (pos 2 2 2 c i j k) * mulVec 24 (C0 2 2 2) (fun q => colMask unit2 bcPer q * delta r q) (pos 2 2 2 c i j k) ≠
        0 - 1 * (unit2.iA.array (pos 2 2 2 c i j k) * 1 * circ (wrapView 2 2 2 fun q => unit2.L.array q * delta r q) c i j k) →
      ¬ PeriodicWraps unit2 bcPer (fun _ => 1) (fun _ => 1) (fun _ => 0) 1 false axis := by
    intro axis c i j k r _ hlt h1 h2 h
    have := h1 h
    rw [sol2_H _ _ _ hlt] at this
    exact h2 this
  intro axis ha
  interval_cases axis
  · refine key 0 1 1 0 0 (pos 2 2 2 2 0 0 0) (by decide) (by decide) (fun h => ?_) (by decide +kernel)
    exact h (by decide) (by decide) (stEH _ _) rfl 1 1 0 0 (by decide) (by decide) (by decide) (by decide) (by decide) (by decide)
  · refine key 1 0 0 1 0 (pos 2 2 2 2 0 0 0) (by decide) (by decide) (fun h => ?_) (by decide +kernel)
    exact h (by decide) (by decide) (stEH _ _) rfl 0 0 1 0 (by decide) (by decide) (by decide) (by decide) (by decide) (by decide)
  · refine key 2 0 0 0 1 (pos 2 2 2 1 0 0 0) (by decide) (by decide) (fun h => ?_) (by decide +kernel)
    exact h (by decide) (by decide) (stEH _ _) rfl 0 0 0 1 (by decide) (by decide) (by decide) (by decide) (by decide) (by decide)

/-! ### C28 -/

/-- Two boundary choices with the same names up to letter case. -/
def SameNames (bc bc' : Faces String) : Prop :=
  pyLower bc.xlo = pyLower bc'.xlo ∧ pyLower bc.xhi = pyLower bc'.xhi ∧ pyLower bc.ylo = pyLower bc'.ylo ∧
  pyLower bc.yhi = pyLower bc'.yhi ∧ pyLower bc.zlo = pyLower bc'.zlo ∧ pyLower bc.zhi = pyLower bc'.zhi

theorem isPmcFace_eq {s : String} (h : pyLower s ≠ "pmc") : isPmcFace s = (decide (pyLower s = "magnetic")) := by
  unfold isPmcFace
  have : s ≠ "pmc" := by
    rintro rfl
    exact h (by decide)
  simp [this]

theorem tests_congr {s t : String} (h : pyLower s = pyLower t) (hn : ¬ pyLower s = "pmc") :
    isPec s = isPec t ∧ isPmcAny s = isPmcAny t ∧ isPeriodic s = isPeriodic t ∧ isAbc s = isAbc t ∧ isPml s = isPml t ∧
      isPmcFace s = isPmcFace t := by
  refine ⟨by unfold isPec; rw [h], by unfold isPmcAny; rw [h], by unfold isPeriodic; rw [h], by unfold isAbc; rw [h],
    by unfold isPml; rw [h], ?_⟩
  rw [isPmcFace_eq hn, isPmcFace_eq (by rw [← h]; exact hn), h]

/-- **C28 (partial).** If no face is a spelling of `pmc`, letter case does not matter: the solvers are equal,
for every grid, material and time step. -/
theorem C28_case_insensitive_partial {K : Type _} [Field K] (g : Grid.Geom K) (ieps imu sigma : Vec K) (dt : K) (uc : Bool)
    {bc bc' : Faces String} (h : SameNames bc bc') (hno : anyFace (fun s => decide (pyLower s = "pmc")) bc = false) :
    build g bc ieps imu sigma dt uc = build g bc' ieps imu sigma dt uc := by
  obtain ⟨xl, xh, yl, yh, zl, zh⟩ := bc
  obtain ⟨xl', xh', yl', yh', zl', zh'⟩ := bc'
  obtain ⟨h1, h2, h3, h4, h5, h6⟩ := h
  simp only at h1 h2 h3 h4 h5 h6
  simp only [anyFace, Bool.or_eq_false_iff, decide_eq_false_iff_not] at hno
  obtain ⟨⟨⟨⟨⟨n1, n3⟩, n5⟩, n2⟩, n4⟩, n6⟩ := hno
  obtain ⟨a1, b1, c1, d1, e1, f1⟩ := tests_congr h1 n1
  obtain ⟨a2, b2, c2, d2, e2, f2⟩ := tests_congr h2 n2
  obtain ⟨a3, b3, c3, d3, e3, f3⟩ := tests_congr h3 n3
  obtain ⟨a4, b4, c4, d4, e4, f4⟩ := tests_congr h4 n4
  obtain ⟨a5, b5, c5, d5, e5, f5⟩ := tests_congr h5 n5
  obtain ⟨a6, b6, c6, d6, e6, f6⟩ := tests_congr h6 n6
  have : applyBC g ⟨xl, xh, yl, yh, zl, zh⟩ (C0 g.Nx g.Ny g.Nz) = applyBC g ⟨xl', xh', yl', yh', zl', zh'⟩ (C0 g.Nx g.Ny g.Nz) := by
    unfold applyBC periodicMetric abcMetric pecFaces zeroWhere anyFace
    simp only [a1, a2, a3, a4, a5, a6, b1, b2, b3, b4, b5, b6, c1, c2, c3, c4, c5, c6, d1, d2, d3, d4, d5, d6,
      e1, e2, e3, e4, e5, e6, f1, f2, f3, f4, f5, f6]
  unfold build
  rw [this]

example : SameNames ⟨"PEC", "Periodic", "magnetic", "abc", "Pml", "OPEN"⟩ ⟨"pec", "periodic", "MAGNETIC", "ABC", "pml", "open"⟩ ∧
    anyFace (fun s => decide (pyLower s = "pmc")) ⟨"PEC", "Periodic", "magnetic", "abc", "Pml", "OPEN"⟩ = false := by
  unfold SameNames; decide

set_option maxRecDepth 100000 in
/-- **C28 refuted in general.** `PMC` and `pmc` give different solvers: one step from the same state differs. -/
theorem C28_refuted : ∃ bc bc' : Faces String, SameNames bc bc' ∧ sol2 bc ≠ sol2 bc' := by
  refine ⟨bcPMC1, ⟨"abc", "abc", "abc", "abc", "pmc", "abc"⟩, by unfold SameNames; decide, fun h => ?_⟩
  have h1 := congrArg (fun s => (oneStep s (stEH (delta (pos 2 2 2 2 0 0 0)) (fun _ => 0))).H (pos 2 2 2 1 0 0 0)) h
  rw [sol2_H _ _ _ (by decide), sol2_H _ _ _ (by decide)] at h1
  exact absurd h1 (by decide +kernel)

/-! ### C37 -/

section
variable {K : Type _} [Field K]

/-- Construction of a solver together with its effect on the grid object: `self.tL = self.grid.tL` and
`self.itA = self.grid.itA` (solverFIT3D.py:148-151) are the grid's own `Field` objects, and
`_apply_bc_to_C` assigns into them (743-761, 849-861). -/
def buildOn (g : Grid.Geom K) (bc : Faces String) (ieps imu sigma : Vec K) (dt : K) (uc : Bool) : Solver K × Grid.Geom K :=
  let b := applyBC g bc (C0 g.Nx g.Ny g.Nz)
  (build g bc ieps imu sigma dt uc, { g with tL := b.tL, itA := b.itA })

/-- **C37 (partial).** If no axis is periodic on both faces and no high face is `abc`, building a solver leaves
the grid as it was, so a second solver is the one built on a fresh grid, whatever its own names are. -/
theorem C37_grid_unchanged_partial (g : Grid.Geom K) (bc bc2 : Faces String) (ieps imu sigma ieps2 imu2 sigma2 : Vec K)
    (dt dt2 : K) (uc uc2 : Bool)
    (hp : ∀ a < 3, ¬ (isPeriodic (bc.lo a) = true ∧ isPeriodic (bc.hi a) = true)) (ha : ∀ a < 3, isAbc (bc.hi a) = false) :
    (buildOn g bc ieps imu sigma dt uc).2 = g ∧
    (buildOn (buildOn g bc ieps imu sigma dt uc).2 bc2 ieps2 imu2 sigma2 dt2 uc2).1 =
      (buildOn g bc2 ieps2 imu2 sigma2 dt2 uc2).1 := by
  have p0 := hp 0 (by decide)
  have p1 := hp 1 (by decide)
  have p2 := hp 2 (by decide)
  have a0 := ha 0 (by decide)
  have a1 := ha 1 (by decide)
  have a2 := ha 2 (by decide)
  simp only [Faces.lo, Faces.hi, if_true, if_false, one_ne_zero, OfNat.ofNat_ne_zero, OfNat.ofNat_ne_one, not_and, Bool.not_eq_true] at p0 p1 p2 a0 a1 a2
  have h : (buildOn g bc ieps imu sigma dt uc).2 = g := by
    unfold buildOn applyBC abcMetric periodicMetric
    simp only [a0, a1, a2]
    have q0 : (isPeriodic bc.xlo && isPeriodic bc.xhi) = false := by
      cases h : isPeriodic bc.xlo <;> simp [h, p0]
    have q1 : (isPeriodic bc.ylo && isPeriodic bc.yhi) = false := by
      cases h : isPeriodic bc.ylo <;> simp [h, p1]
    have q2 : (isPeriodic bc.zlo && isPeriodic bc.zhi) = false := by
      cases h : isPeriodic bc.zlo <;> simp [h, p2]
    simp [q0, q1, q2]
  exact ⟨h, by rw [h]⟩

end

/-- 3×3×3 unit cells. -/
def unit3 : Grid.Geom ℚ := Grid.computeGrid 3 3 3 (fun i => i) (fun i => i) (fun i => i)

/-- PEC box with a magnetic high x face. -/
def bcMix : Faces String := ⟨"pec", "pmc", "pec", "pec", "pec", "pec"⟩

set_option maxRecDepth 100000 in
/-- **C37 refuted in general.** A solver with PMC on the high x face built after a periodic solver on the same
grid differs from one built on a fresh grid: from the same state the two give different E after one
step. -/
theorem C37_refuted : ∃ (g : Grid.Geom ℚ) (bc bc2 : Faces String) (st : State ℚ) (r : ℕ),
    let b := fun g bc => buildOn g bc (fun _ => 1) (fun _ => 1) (fun _ => 0) 1 false
    (oneStep (b (b g bc).2 bc2).1 st).E r ≠ (oneStep (b g bc2).1 st).E r := by
  refine ⟨unit3, bcPer, bcMix, stEH (fun _ => 0) (delta (pos 3 3 3 2 1 1 1)), pos 3 3 3 1 2 1 1, ?_⟩
  intro b
  have h1 := kick_E unit3 bcMix (delta (pos 3 3 3 2 1 1 1)) (r := pos 3 3 3 1 2 1 1) (by decide)
  have h2 := kick_E (b unit3 bcPer).2 bcMix (delta (pos 3 3 3 2 1 1 1)) (r := pos 3 3 3 1 2 1 1) (by decide)
  rw [show (oneStep (b unit3 bcMix).1 (stEH (fun _ => 0) (delta (pos 3 3 3 2 1 1 1)))).E (pos 3 3 3 1 2 1 1) = _ from h1,
    show (oneStep (b (b unit3 bcPer).2 bcMix).1 (stEH (fun _ => 0) (delta (pos 3 3 3 2 1 1 1)))).E (pos 3 3 3 1 2 1 1) = _ from h2]
  decide +kernel

/-- The partial theorem applies to all-PEC, PML, PMC and low-side ABC boundaries. -/
example : let bc : Faces String := ⟨"abc", "pec", "pml", "pmc", "periodic", "pec"⟩
    (∀ a < 3, ¬ (isPeriodic (bc.lo a) = true ∧ isPeriodic (bc.hi a) = true)) ∧ ∀ a < 3, isAbc (bc.hi a) = false := by decide

end Sol
end Wakis
