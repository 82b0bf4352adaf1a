import Verif.Scale
import Verif.MaterialModel

/-!
# Similarity: materials, time step, runs from user input (C115)
-/

namespace Wakis
namespace Sol
open Finset Sparse Grid
variable {K : Type} [Field K]

/-- The material with its conductivity divided by `a`. -/
def scaleMat (a : K) (m : Material K) : Material K := { m with sigma := m.sigma.map fun s => s / a }

/-- The user's material with its conductivity divided by `a`; a library name becomes the list of its values. -/
def scaleSpec (a : K) (spec : MatSpec K) : MatSpec K :=
  match spec.look with
  | .ok m => .vals (scaleMat a m)
  | .error _ => spec

/-- The tensors with the conductivity divided by `a`. -/
def scaleMats (a : K) (t : Mats K) : Mats K := { t with sigma := kf (1 / a) t.sigma }

theorem look_scale (a : K) (spec : MatSpec K) : (scaleSpec a spec).look = spec.look.map (scaleMat a) := by
  unfold scaleSpec
  cases h : spec.look with
  | ok m => rfl
  | error e => simp only [h]; rfl

theorem kf_mulMatrix (k : K) (f : Fld K) (m : ℕ → ℕ → ℕ → K) : (kf k f).mulMatrix m = kf k (f.mulMatrix m) := by
  unfold Fld.mulMatrix
  simp only
  rw [← kf_setPart', ← kf_setPart', ← kf_setPart', kf_zero]
  · rfl
  all_goals intro p; simp only [Fld.ravelF, Fld.reshapeF, kf_part]; exact mul_assoc _ _ _

theorem kf_add (k : K) (f g : Fld K) : (kf k f).add (kf k g) = kf k (f.add g) := by
  unfold Fld.add
  simp only
  rw [← kf_setPart', ← kf_setPart', ← kf_setPart', kf_zero]
  · rfl
  all_goals intro p; simp only [kf_part]; exact (mul_add _ _ _).symm

theorem kf_addMatrix (k : K) (f : Fld K) {m m' : ℕ → ℕ → ℕ → K} (h : ∀ i j l, m' i j l = k * m i j l) : (kf k f).addMatrix m' = kf k (f.addMatrix m) := by
  unfold Fld.addMatrix
  simp only
  rw [← kf_setPart', ← kf_setPart', ← kf_setPart', kf_zero]
  · rfl
  all_goals intro p; simp only [Fld.ravelF, Fld.reshapeF, kf_part, h]; exact (mul_add _ _ _).symm

theorem kf_clearIn (k : K) (f : Fld K) (mask : ℕ → ℕ → ℕ → Bool) : clearIn (kf k f) mask = (clearIn f mask).map (kf k) := by
  unfold clearIn Fld.mul Fld.addOp
  simp only [bind, Except.bind, Except.map, kf_mulMatrix, kf_add]

variable [LinearOrder K] [IsStrictOrderedRing K]

theorem applySolid_scale {a : K} (ha : 0 < a) (eps0 mu0 sbg : K) (t : Mats K) (mask : ℕ → ℕ → ℕ → Bool) (m : Material K) :
    applySolid eps0 mu0 (sbg / a) (scaleMats a t) mask (scaleMat a m) = (applySolid eps0 mu0 sbg t mask m).map (scaleMats a) := by
  have cl : ∀ f : Fld K, clearIn f mask = .ok (f.add (f.mulMatrix fun i j k => -1 * ind mask i j k)) := fun _ => rfl
  have hp : 0 < sbg / a ↔ 0 < sbg := div_pos_iff_of_pos_right ha
  unfold applySolid
  cases hs : m.sigma with
  | some s =>
    simp only [scaleMat, scaleMats, hs, Option.map, cl, kf_mulMatrix, kf_add, Except.map, Fld.addOp, bind, Except.bind, pure, Except.pure]
    rw [kf_addMatrix (1 / a) _ (m := fun i j k => ind mask i j k * s) fun i j k => by ring]
  | none =>
    simp only [scaleMat, scaleMats, hs, Option.map, cl, kf_mulMatrix, kf_add, Except.map, Fld.addOp, bind, Except.bind, pure, Except.pure, hp]
    split <;> rfl

theorem applyStl_scale {a : K} (ha : 0 < a) (eps0 mu0 sbg : K) (dict : String → Option (MatSpec K)) (solids : List Solid) (t : Mats K) :
    applyStl eps0 mu0 (sbg / a) (fun s => (dict s).map (scaleSpec a)) (scaleMats a t) solids = (applyStl eps0 mu0 sbg dict t solids).map (scaleMats a) := by
  induction solids generalizing t with
  | nil => rfl
  | cons s rest ih =>
    unfold applyStl
    cases hd : dict s.1 with
    | none => rfl
    | some spec =>
      simp only [Option.map, look_scale]
      cases hl : spec.look with
      | error e => rfl
      | ok m =>
        simp only [Except.map, bind, Except.bind, applySolid_scale ha]
        cases applySolid eps0 mu0 sbg t s.2 m with
        | error e => rfl
        | ok t' => exact ih t'

theorem materials_scale {a : K} (ha : 0 < a) (Nx Ny Nz : ℕ) (eps0 mu0 : K) (use0 : Bool) (bg : MatSpec K) (dict : String → Option (MatSpec K)) (solids : List Solid) :
    materials Nx Ny Nz eps0 mu0 use0 (scaleSpec a bg) (fun s => (dict s).map (scaleSpec a)) solids = (materials Nx Ny Nz eps0 mu0 use0 bg dict solids).map (scaleMats a) := by
  unfold materials background
  rw [look_scale]
  cases hl : bg.look with
  | error e => rfl
  | ok m =>
    simp only [Except.map, bind, Except.bind, pure, Except.pure]
    refine Eq.trans ?_ (applyStl_scale ha eps0 mu0 _ dict solids _)
    have e1 : (scaleMat a m).sigma.getD 0 = m.sigma.getD 0 / a := by
      unfold scaleMat
      cases m.sigma with
      | none => simp
      | some s => rfl
    have e2 : (scaleMat a m).sigma.isSome = m.sigma.isSome := by unfold scaleMat; cases m.sigma <;> rfl
    rw [e1, e2]
    congr 1
    unfold scaleMats kf Fld.mulScalar
    simp only [Mats.mk.injEq, true_and, and_true, Fld.mk.injEq]
    refine ⟨rfl, rfl, funext fun n => ?_⟩
    ring

theorem taus_scale {a : K} (ha : 0 < a) (t : Mats K) : taus (scaleMats a t) = (taus t).map fun x => a * x := by
  have h1 : ∀ n, (scaleMats a t).sigma.array n = 1 / a * t.sigma.array n := fun _ => rfl
  have h2 : ∀ n, ((scaleMats a t).sigma.array n ≠ 0 ∧ (scaleMats a t).ieps.array n ≠ 0) ↔ (t.sigma.array n ≠ 0 ∧ t.ieps.array n ≠ 0) := by
    intro n
    rw [h1]
    have : 1 / a ≠ 0 := (one_div_pos.2 ha).ne'
    constructor
    · rintro ⟨p, q⟩; exact ⟨right_ne_zero_of_mul p, q⟩
    · rintro ⟨p, q⟩; exact ⟨mul_ne_zero this p, q⟩
  unfold taus
  simp only [h2, List.map_map]
  refine List.map_congr_left fun n _ => ?_
  show 1 / t.ieps.array n / (1 / a * t.sigma.array n) = a * (1 / t.ieps.array n / t.sigma.array n)
  have := ha.ne'
  rw [one_div a, div_mul_eq_div_div, div_inv_eq_mul]
  ring

theorem pyMin_scale {a : K} (ha : 0 < a) (l : List K) : pyMin (l.map fun x => a * x) = (pyMin l).map fun x => a * x := by
  cases l with
  | nil => rfl
  | cons v l =>
    show Except.ok _ = Except.ok _
    congr 1
    induction l generalizing v with
    | nil => rfl
    | cons w l ih =>
      show (l.map fun x => a * x).foldl min (min (a * v) (a * w)) = a * l.foldl min (min v w)
      rw [← mul_min_of_nonneg _ _ ha.le]
      exact ih _

theorem limitDt_scale {a : K} (ha : 0 < a) (t : Mats K) (d : K) : limitDt (scaleMats a t) (a * d) = (limitDt t d).map fun x => a * x := by
  unfold limitDt
  show (if t.useCond = true then _ else _) = _
  split
  · rw [taus_scale ha, pyMin_scale ha]
    cases pyMin (taus t) with
    | error e => rfl
    | ok tm =>
      simp only [Except.map, bind, Except.bind, pure, Except.pure, mul_lt_mul_iff_right₀ ha]
      split <;> rfl
  · rfl

omit [LinearOrder K] [IsStrictOrderedRing K] in
theorem diffs_scale (a : K) (x : ℕ → K) (n : ℕ) : diffs (stretch a x) n = (diffs x n).map fun v => a * v := by
  unfold diffs
  rw [List.map_map]
  exact List.map_congr_left fun i _ => (mul_sub _ _ _).symm

theorem cflDt_scale {a : ℝ} (ha : 0 < a) (c cfln : ℝ) (dx dy dz : List ℝ) :
    cflDt c cfln (dx.map fun v => a * v) (dy.map fun v => a * v) (dz.map fun v => a * v) = (cflDt c cfln dx dy dz).map fun x => a * x := by
  unfold cflDt
  rw [pyMin_scale ha, pyMin_scale ha, pyMin_scale ha]
  cases pyMin dx with
  | error e => rfl
  | ok mx =>
    cases pyMin dy with
    | error e => rfl
    | ok my =>
      cases pyMin dz with
      | error e => rfl
      | ok mz =>
        simp only [Except.map, bind, Except.bind, pure, Except.pure]
        congr 1
        have e : 1 / (a * mx) ^ 2 + 1 / (a * my) ^ 2 + 1 / (a * mz) ^ 2 = (1 / a) ^ 2 * (1 / mx ^ 2 + 1 / my ^ 2 + 1 / mz ^ 2) := by
          rw [mul_pow, mul_pow, mul_pow, one_div_pow, ← one_div_mul_one_div, ← one_div_mul_one_div, ← one_div_mul_one_div]; ring
        rw [e, Real.sqrt_mul (by positivity), Real.sqrt_sq (by positivity)]
        rw [show c * (1 / a * Real.sqrt (1 / mx ^ 2 + 1 / my ^ 2 + 1 / mz ^ 2)) = c * Real.sqrt (1 / mx ^ 2 + 1 / my ^ 2 + 1 / mz ^ 2) / a by ring, div_div_eq_mul_div]
        ring

/-- The set-up of the scaled model. -/
theorem setUp_scale {a : ℝ} (ha : 0 < a) (c eps0 mu0 cfln : ℝ) (dt : Option ℝ) (nPml Nx Ny Nz : ℕ) (x y z : ℕ → ℝ) {bc : Faces String} (hbc : anyFace isPml bc = false) (bg : MatSpec ℝ)
    (dict : String → Option (MatSpec ℝ)) (solids : List Solid) :
    setUp c eps0 mu0 cfln (dt.map fun d => a * d) nPml Nx Ny Nz (stretch a x) (stretch a y) (stretch a z) bc (scaleSpec a bg) (fun s => (dict s).map (scaleSpec a)) solids =
      (setUp c eps0 mu0 cfln dt nPml Nx Ny Nz x y z bc bg dict solids).map fun p => (scaleMats a p.1, a * p.2) := by
  unfold setUp pmlStage
  rw [materials_scale ha, hbc]
  cases materials Nx Ny Nz eps0 mu0 false bg dict solids with
  | error e => rfl
  | ok t =>
    simp only [Except.map, bind, Except.bind, pure, Except.pure, chooseDt, diffs_scale, cflDt_scale ha, Bool.false_eq_true, if_false]
    cases dt with
    | some d =>
      simp only [Option.map, limitDt_scale ha]
      cases limitDt t d <;> rfl
    | none =>
      simp only [Option.map]
      cases cflDt c cfln (diffs x Nx) (diffs y Ny) (diffs z Nz) with
      | error e => rfl
      | ok d0 =>
        simp only [Except.map, limitDt_scale ha]
        cases limitDt t d0 <;> rfl

end Sol
end Wakis
