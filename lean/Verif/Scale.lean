import Verif.WakeRun

/-!
# Similarity (C115)

A model with all lengths multiplied by `a`, all times by `a` and all conductivities divided by `a` has the same fields.
-/

namespace Wakis
namespace Sol
open Finset Sparse Grid
section
variable {K : Type} [Field K]

/-- All entries of a field times `k`. -/
def kf (k : K) (f : Fld K) : Fld K := ⟨f.Nx, f.Ny, f.Nz, fun n => k * f.array n⟩

/-- All lengths times `a`. -/
def stretch (a : K) (x : ℕ → K) : ℕ → K := fun i => a * x i

theorem kf_setPart (k : K) (f : Fld K) (c : ℕ) (v : ℕ → K) : (kf k f).setPart c (fun p => k * v p) = kf k (f.setPart c v) := by
  have e : (fun n => if c * f.N ≤ n ∧ n < (c + 1) * f.N then k * v (n - c * f.N) else k * f.array n) = fun n => k * (if c * f.N ≤ n ∧ n < (c + 1) * f.N then v (n - c * f.N) else f.array n) := by
    funext n
    rw [mul_ite]
  exact congrArg (Fld.mk f.Nx f.Ny f.Nz) e

theorem kf_part (k : K) (f : Fld K) (c p : ℕ) : (kf k f).part c p = k * f.part c p := rfl

theorem kf_zero (k : K) (Nx Ny Nz : ℕ) : kf k (Fld.new Nx Ny Nz : Fld K) = Fld.new Nx Ny Nz := by
  unfold kf Fld.new
  simp

theorem kf_setPart' (k : K) (f : Fld K) (c : ℕ) {v w : ℕ → K} (h : ∀ p, w p = k * v p) : (kf k f).setPart c w = kf k (f.setPart c v) := by
  rw [← kf_setPart, show w = fun p => k * v p from funext h]

theorem kf_setPlane (k : K) (f : Fld K) (axis m c : ℕ) {v w : ℕ → ℕ → ℕ → K} (h : ∀ i j l, w i j l = k * v i j l) : setPlane (kf k f) axis m c w = kf k (setPlane f axis m c v) := by
  unfold setPlane
  refine kf_setPart' k f c fun p => ?_
  unfold Fld.ravelF
  simp only [mul_ite, ← h]
  rfl

variable [DecidableEq K]

theorem kf_diffField (a : K) (Nx Ny Nz : ℕ) (x y z : ℕ → K) : diffField Nx Ny Nz (stretch a x) (stretch a y) (stretch a z) = kf a (diffField Nx Ny Nz x y z) := by
  unfold diffField
  rw [← kf_setPart', ← kf_setPart', ← kf_setPart', kf_zero]
  all_goals intro p; simp only [Fld.ravelF, stretch]; ring

theorem tilde_stretch (a : K) (x : ℕ → K) (n : ℕ) : tilde (stretch a x) n = stretch a (tilde x n) := by
  funext i
  unfold tilde stretch
  simp only [mul_ite]
  split <;> ring

theorem kf_invArea (a : K) (Nx Ny Nz : ℕ) (L : Fld K) : invArea Nx Ny Nz (kf a L) = kf (1 / a ^ 2) (invArea Nx Ny Nz L) := by
  have e : ∀ u v : K, 1 / (a * u * (a * v)) = 1 / a ^ 2 * (1 / (u * v)) := fun u v => by rw [one_div_mul_one_div]; congr 1; ring
  unfold invArea
  rw [← kf_setPart', ← kf_setPart', ← kf_setPart', kf_zero]
  all_goals intro p; simp only [kf_part]; exact e _ _

theorem kf_invDualArea {a : K} (ha : a ≠ 0) (Nx Ny Nz : ℕ) (L : Fld K) : invDualArea Nx Ny Nz (kf a L) = kf (1 / a ^ 2) (invDualArea Nx Ny Nz L) := by
  have e : ∀ u v : K, guardedInv (a * u * (a * v)) = 1 / a ^ 2 * guardedInv (u * v) := fun u v => by
    unfold guardedInv
    by_cases h : u * v = 0
    · have : a * u * (a * v) = 0 := by rw [show a * u * (a * v) = a ^ 2 * (u * v) by ring, h, mul_zero]
      simp [h, this]
    · have : a * u * (a * v) ≠ 0 := by rw [show a * u * (a * v) = a ^ 2 * (u * v) by ring]; exact mul_ne_zero (pow_ne_zero _ ha) h
      rw [if_pos this, if_pos h, one_div_mul_one_div]; congr 1; ring
  unfold invDualArea
  rw [← kf_setPart', ← kf_setPart', ← kf_setPart', kf_zero]
  all_goals intro p; simp only [kf_part]; exact e _ _

theorem grid_stretch {a : K} (ha : a ≠ 0) (Nx Ny Nz : ℕ) (x y z : ℕ → K) :
    let g := computeGrid Nx Ny Nz x y z
    computeGrid Nx Ny Nz (stretch a x) (stretch a y) (stretch a z) = ⟨Nx, Ny, Nz, stretch a x, stretch a y, stretch a z, kf a g.L, kf (1 / a ^ 2) g.iA, kf a g.tL, kf (1 / a ^ 2) g.itA⟩ := by
  unfold computeGrid
  simp only [tilde_stretch, kf_diffField, kf_invArea, kf_invDualArea ha]

omit [DecidableEq K] in
theorem kf_at3 (k : K) (f : Fld K) (c i j l : ℕ) : (kf k f).at3 c i j l = k * f.at3 c i j l := rfl

omit [DecidableEq K] in
theorem kf_wrap (a b : K) (L iA : Fld K) (m : Fld K × Fld K) (axis : ℕ) :
    wrapMetric (kf a L) (kf b iA) (kf a m.1, kf b m.2) axis = (kf a (wrapMetric L iA m axis).1, kf b (wrapMetric L iA m axis).2) := by
  unfold wrapMetric
  generalize (if axis = 0 then ((1 : ℕ), (2 : ℕ)) else if axis = 1 then (0, 2) else (0, 1)) = c
  obtain ⟨c1, c2⟩ := c
  simp only [Prod.mk.injEq]
  have l1 : ∀ f : Fld K, lastIdx (kf a f) axis = lastIdx f axis := fun _ => rfl
  have l2 : ∀ f : Fld K, lastIdx (kf b f) axis = lastIdx f axis := fun _ => rfl
  refine ⟨?_, ?_⟩
  · rw [l1]
    exact kf_setPlane _ _ _ _ _ fun i j l => kf_at3 _ _ _ _ _ _
  · rw [l2, kf_setPlane b m.2 axis _ c1 fun i j l => kf_at3 b iA c1 _ _ _]
    exact kf_setPlane _ _ _ _ _ fun i j l => kf_at3 _ _ _ _ _ _

omit [DecidableEq K] in
theorem kf_metric (a b : K) {g g' : Geom K} (h1 : g'.L = kf a g.L) (h2 : g'.iA = kf b g.iA) (h3 : g'.tL = kf a g.tL) (h4 : g'.itA = kf b g.itA) (bc : Faces String) :
    abcMetric g' bc (periodicMetric g' bc) = (kf a (abcMetric g bc (periodicMetric g bc)).1, kf b (abcMetric g bc (periodicMetric g bc)).2) := by
  have step : ∀ (p : Bool) (m : Fld K × Fld K) (axis : ℕ), (if p then wrapMetric (kf a g.L) (kf b g.iA) (kf a m.1, kf b m.2) axis else (kf a m.1, kf b m.2)) =
      (kf a (if p then wrapMetric g.L g.iA m axis else m).1, kf b (if p then wrapMetric g.L g.iA m axis else m).2) := by
    intro p m axis
    cases p
    · rfl
    · simp only [if_true]; exact kf_wrap a b _ _ _ _
  have per : periodicMetric g' bc = (kf a (periodicMetric g bc).1, kf b (periodicMetric g bc).2) := by
    unfold periodicMetric
    rw [h1, h2, h3, h4]
    simp only
    split
    · rw [step _ (g.tL, g.itA), step, step]
    · rfl
  rw [per]
  unfold abcMetric
  rw [h1, h2]
  simp only
  split
  · rw [step, step, step]
  · rfl

/-- The state with E and H times `l` and J times `l / a`. -/
def scaleSt (l a : K) (st : State K) : State K := ⟨fun n => l * st.E n, fun n => l * st.H n, fun n => l / a * st.J n, st.step0⟩

/-- The same event for the scaled model. -/
def scaleEv (l a : K) : Ev K → Ev K
  | .step => .step
  | .write .J n v => .write .J n (l / a * v)
  | .write f n v => .write f n (l * v)

/-- How the operators of two similar models are related. -/
structure Similar (a : K) (s s' : Solver K) : Prop where
  nx : s'.Nx = s.Nx
  ny : s'.Ny = s.Ny
  nz : s'.Nz = s.Nz
  M1 : ∀ i j, s'.M1 i j = 1 / a * s.M1 i j
  M2 : ∀ i j, s'.M2 i j = 1 / a * s.M2 i j
  ieps : s'.ieps = s.ieps
  sigma : ∀ i, s'.sigma i = 1 / a * s.sigma i
  dt : s'.dt = a * s.dt
  cond : s'.useConductivity = s.useConductivity

omit [DecidableEq K] in
theorem mmul_scale (n : ℕ) (k l : K) {A A' B B' : Mat K} (hA : ∀ i j, A' i j = k * A i j) (hB : ∀ i j, B' i j = l * B i j) (i j : ℕ) : mmul n A' B' i j = k * l * mmul n A B i j := by
  unfold mmul
  rw [Finset.mul_sum]
  exact sum_congr rfl fun m _ => by rw [hA, hB]; ring

omit [DecidableEq K] in
theorem diag_scale (k : K) (v : Vec K) (i j : ℕ) : diagM (fun n => k * v n) i j = k * diagM v i j := by
  unfold diagM
  split <;> simp

theorem build_similar {a : K} (ha : a ≠ 0) (Nx Ny Nz : ℕ) (x y z : ℕ → K) (bc : Faces String) (ieps imu : Vec K) {sigma sigma' : Vec K} (hs : ∀ i, sigma' i = 1 / a * sigma i) (dt : K) (use : Bool) :
    Similar a (build (computeGrid Nx Ny Nz x y z) bc ieps imu sigma dt use) (build (computeGrid Nx Ny Nz (stretch a x) (stretch a y) (stretch a z)) bc ieps imu sigma' (a * dt) use) := by
  have hg := grid_stretch ha Nx Ny Nz x y z
  simp only at hg
  set g := computeGrid Nx Ny Nz x y z with gdef
  set g' := computeGrid Nx Ny Nz (stretch a x) (stretch a y) (stretch a z) with g'def
  have e1 : g'.L = kf a g.L := by rw [hg]
  have e2 : g'.iA = kf (1 / a ^ 2) g.iA := by rw [hg]
  have e3 : g'.tL = kf a g.tL := by rw [hg]
  have e4 : g'.itA = kf (1 / a ^ 2) g.itA := by rw [hg]
  have hm := kf_metric a (1 / a ^ 2) e1 e2 e3 e4 bc
  have hC : (applyBC g' bc (C0 g'.Nx g'.Ny g'.Nz)).C = (applyBC g bc (C0 g.Nx g.Ny g.Nz)).C := rfl
  have h1 : (applyBC g' bc (C0 g'.Nx g'.Ny g'.Nz)).tL = kf a (applyBC g bc (C0 g.Nx g.Ny g.Nz)).tL := congrArg Prod.fst hm
  have h2 : (applyBC g' bc (C0 g'.Nx g'.Ny g'.Nz)).itA = kf (1 / a ^ 2) (applyBC g bc (C0 g.Nx g.Ny g.Nz)).itA := congrArg Prod.snd hm
  have hk : 1 / a ^ 2 * 1 * 1 * a = 1 / a := by field_simp
  have hk' : 1 * (1 / a ^ 2) * 1 * a = 1 / a := by field_simp
  refine ⟨rfl, rfl, rfl, fun i j => ?_, fun i j => ?_, rfl, hs, rfl, rfl⟩
  · show opH _ g'.iA.toarray imu (applyBC g' bc (C0 g'.Nx g'.Ny g'.Nz)).C g'.L.toarray i j = 1 / a * opH _ g.iA.toarray imu (applyBC g bc (C0 g.Nx g.Ny g.Nz)).C g.L.toarray i j
    rw [hC, e1, e2]
    unfold opH
    rw [← hk]
    exact mmul_scale _ _ _ (mmul_scale _ _ _ (mmul_scale _ _ _ (diag_scale _ _) fun i j => (one_mul _).symm) fun i j => (one_mul _).symm) (diag_scale _ _) i j
  · show opE _ ieps (applyBC g' bc (C0 g'.Nx g'.Ny g'.Nz)).itA.toarray (applyBC g' bc (C0 g'.Nx g'.Ny g'.Nz)).C (applyBC g' bc (C0 g'.Nx g'.Ny g'.Nz)).tL.toarray i j =
      1 / a * opE _ ieps (applyBC g bc (C0 g.Nx g.Ny g.Nz)).itA.toarray (applyBC g bc (C0 g.Nx g.Ny g.Nz)).C (applyBC g bc (C0 g.Nx g.Ny g.Nz)).tL.toarray i j
    rw [hC, h1, h2]
    unfold opE
    rw [← hk']
    exact mmul_scale _ _ _ (mmul_scale _ _ _ (mmul_scale _ _ _ (fun i j => (one_mul _).symm) (diag_scale _ _)) fun i j => (one_mul _).symm) (diag_scale _ _) i j

omit [DecidableEq K] in
theorem kf_ghostH (k : K) (f : Fld K) : ghostH (kf k f) = kf k (ghostH f) := by
  have st : ∀ (p : Prop) [Decidable p] (f : Fld K) (ax m c : ℕ), (if p then setPlane (kf k f) ax m c (fun _ _ _ => 0) else kf k f) = kf k (if p then setPlane f ax m c (fun _ _ _ => 0) else f) := by
    intro p _ f ax m c
    split
    · exact kf_setPlane _ _ _ _ _ fun _ _ _ => (mul_zero _).symm
    · rfl
  have nx : ∀ f : Fld K, (kf k f).Nx = f.Nx := fun _ => rfl
  have ny : ∀ f : Fld K, (kf k f).Ny = f.Ny := fun _ => rfl
  have nz : ∀ f : Fld K, (kf k f).Nz = f.Nz := fun _ => rfl
  unfold ghostH
  simp only [st, nx, ny, nz]

omit [DecidableEq K] in
theorem kf_ghostE (k : K) (f : Fld K) : ghostE (kf k f) = kf k (ghostE f) := by
  unfold ghostE
  rw [kf_setPlane k f _ _ _ (v := fun _ _ _ => 0) fun _ _ _ => (mul_zero _).symm, kf_setPlane k _ _ _ _ (v := fun _ _ _ => 0) fun _ _ _ => (mul_zero _).symm,
    kf_setPlane k _ _ _ _ (v := fun _ _ _ => 0) fun _ _ _ => (mul_zero _).symm]
  rfl

omit [DecidableEq K] in
theorem advance_similar {a l : K} (ha : a ≠ 0) {s s' : Solver K} (h : Similar a s s') (st : State K) : advance s' (scaleSt l a st) = scaleSt l a (advance s st) := by
  have n3 : s'.n3 = s.n3 := by unfold Solver.n3; rw [h.nx, h.ny, h.nz]
  have mv : ∀ (M M' : Mat K) (v : Vec K) (i : ℕ), (∀ i j, M' i j = 1 / a * M i j) → mulVec s.n3 M' (fun n => l * v n) i = l / a * mulVec s.n3 M v i := by
    intro M M' v i hM
    unfold mulVec
    rw [Finset.mul_sum]
    exact sum_congr rfl fun j _ => by rw [hM]; ring
  have hH : (advance s' (scaleSt l a st)).H = fun i => l * (advance s st).H i := by
    funext i
    show l * st.H i - s'.dt * mulVec s'.n3 s'.M1 (fun n => l * st.E n) i = l * (st.H i - s.dt * mulVec s.n3 s.M1 st.E i)
    rw [n3, mv s.M1 s'.M1 st.E i h.M1, h.dt]
    field_simp
  have hE : (advance s' (scaleSt l a st)).E = fun i => l * (advance s st).E i := by
    funext i
    show l * st.E i + s'.dt * (mulVec s'.n3 s'.M2 (advance s' (scaleSt l a st)).H i - s'.ieps i * (l / a * st.J i)) = l * (st.E i + s.dt * (mulVec s.n3 s.M2 (advance s st).H i - s.ieps i * st.J i))
    rw [hH, n3, mv s.M2 s'.M2 _ i h.M2, h.dt, h.ieps]
    field_simp
  have hJ : (advance s' (scaleSt l a st)).J = fun i => l / a * (advance s st).J i := by
    funext i
    show (if s'.useConductivity then fun i => s'.sigma i * (advance s' (scaleSt l a st)).E i else fun n => l / a * st.J n) i = l / a * (if s.useConductivity then fun i => s.sigma i * (advance s st).E i else st.J) i
    rw [h.cond, hE]
    split
    · simp only [h.sigma]; ring
    · rfl
  have e : ∀ st : State K, st = ⟨st.E, st.H, st.J, st.step0⟩ := fun _ => rfl
  rw [e (advance s' _), hH, hE, hJ]
  rfl

omit [DecidableEq K] in
theorem step_similar {a l : K} (ha : a ≠ 0) {s s' : Solver K} (h : Similar a s s') (st : State K) : oneStep s' (scaleSt l a st) = scaleSt l a (oneStep s st) := by
  unfold oneStep
  show (if st.step0 = true then _ else _) = _
  split
  · rw [← advance_similar ha h]
    congr 1
    have fl : ∀ v : Vec K, s'.fld (fun n => l * v n) = kf l (s.fld v) := fun v => by unfold Solver.fld kf; rw [h.nx, h.ny, h.nz]
    unfold setGhostsTo0 scaleSt
    simp only [fl, kf_ghostH, kf_ghostE]
    rfl
  · exact advance_similar ha h st

omit [DecidableEq K] in
theorem run_similar {a l : K} (ha : a ≠ 0) {s s' : Solver K} (h : Similar a s s') (evs : List (Ev K)) (st : State K) : runEv s' (scaleSt l a st) (evs.map (scaleEv l a)) = scaleSt l a (runEv s st evs) := by
  induction evs generalizing st with
  | nil => rfl
  | cons e evs ih =>
    have : event s' (scaleSt l a st) (scaleEv l a e) = scaleSt l a (event s st e) := by
      have up : ∀ (k : K) (v : Vec K) (n : ℕ) (x : K), Function.update (fun m => k * v m) n (k * x) = fun m => k * Function.update v n x m := by
        intro k v n x; funext m
        by_cases hm : m = n
        · subst hm; simp
        · simp [Function.update_of_ne hm]
      match e with
      | .step => exact step_similar ha h st
      | .write .E n v => simp only [event, scaleEv, scaleSt, up]
      | .write .H n v => simp only [event, scaleEv, scaleSt, up]
      | .write .J n v => simp only [event, scaleEv, scaleSt, up]
    show runEv s' (event s' (scaleSt l a st) (scaleEv l a e)) (evs.map (scaleEv l a)) = _
    rw [this, ih]
    rfl
end
end Sol
end Wakis
