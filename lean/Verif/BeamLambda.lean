import Verif.WakeRun
import Verif.WakeModel2

/-!
# C104: the analytic charge distribution is the bunch that was simulated
-/

namespace Wakis
namespace Wake

open Src

noncomputable section

/-- The current, charge per time, that the beam `b` drives through the plane at `z` at time `t`: the current density of `C42_current` times the area of the cell. -/
def throughPlane (b : Beam) (sg zmin z t : ℝ) : ℝ := b.q * b.v * lineDensity sg (z - b.centre zmin t)

lemma gauss_line {σ : ℝ} (hσ : 0 < σ) (x : ℝ) : 1 / (σ * Real.sqrt (2 * Real.pi)) * Real.exp (-(x ^ 2) / (2 * σ ^ 2)) = lineDensity σ x := by
  unfold lineDensity
  rw [Real.sqrt_mul (by positivity) (σ ^ 2), Real.sqrt_sq hσ.le]
  field_simp

lemma lineDensity_neg (σ x : ℝ) : lineDensity σ (-x) = lineDensity σ x := by unfold lineDensity; rw [neg_sq]

/-- What flows through the plane at `z` at the time the wake solver assigns to a test position at distance `s` behind the bunch. -/
lemma through_at (w : WakeArgs) (hv : w.v ≠ 0) {b : Beam} (hb : w.beam = .ok b) (zmin z s : ℝ) :
    throughPlane b w.sigmaz zmin z (w.passes zmin z + s / w.v) = w.q * w.v * lineDensity w.sigmaz (s + w.v * (w.injection - 8.548921333333334 * w.sigmaz / w.v)) := by
  have ho := C43_offset w hv hb zmin z
  have hq : b.q = w.q ∧ b.v = w.v := by
    unfold WakeArgs.beam Beam.init at hb
    cases hb
    exact ⟨rfl, mul_comm _ _⟩
  have hc : b.centre zmin (w.passes zmin z + s / w.v) = b.centre zmin (w.passes zmin z) + s := by
    unfold Beam.centre
    rw [hq.2]
    field_simp
    ring
  unfold throughPlane
  rw [hc, hq.1, hq.2, ← ho, ← lineDensity_neg]
  congr 2
  ring

/-- **C104 (partial).** For a run at the speed of light with default injection time, the charge distribution used for the impedance is, at every point `s` of the axis, the current through any
plane `z` of the box at the time the wake solver assigns to `s` there, divided by charge and velocity. Missing: `C104_slow_refuted`. -/
theorem C104_injected_partial (w : WakeArgs) (h1 : w.beta = 1) (ht : w.ti = none) (hσ : 0 < w.sigmaz) (hq : w.q ≠ 0) {b : Beam} (hb : w.beam = .ok b) (zmin z : ℝ) (s : List ℝ) :
    gaussLambda w.sigmaz s = s.map fun x => throughPlane b w.sigmaz zmin z (w.passes zmin z + x / w.v) / (w.q * w.v) := by
  have hv : w.v ≠ 0 := by unfold WakeArgs.v; rw [h1, one_mul]; unfold cLight; norm_num
  have e : w.injection = 8.548921333333334 * w.sigmaz / w.v := by
    unfold WakeArgs.injection
    rw [ht, h1, Real.sqrt_one, one_mul]
    rfl
  unfold gaussLambda
  refine List.map_congr_left fun x _ => ?_
  rw [through_at w hv hb, e, sub_self, mul_zero, add_zero, gauss_line hσ]
  field_simp

example : ∃ (w : WakeArgs) (b : Beam), w.beta = 1 ∧ w.ti = none ∧ 0 < w.sigmaz ∧ w.q ≠ 0 ∧ w.beam = .ok b :=
  ⟨⟨1, 1, 1, 0, 0, 0, 0, none, 0⟩, _, rfl, rfl, by norm_num, by norm_num, rfl⟩

/-- **C104 (total charge).** The analytic distribution integrates to one. -/
theorem C104_normalised {σ : ℝ} (hσ : 0 < σ) : ∫ x, (gaussLambda σ [x]).getD 0 0 = 1 := by
  have : ∀ x, (gaussLambda σ [x]).getD 0 0 = lineDensity σ x := fun x => gauss_line hσ x
  simp only [this]
  exact lineDensity_integral hσ.ne'

/-- **C104 (slower beams, refuted).** For every slower beam with default injection time the distribution is centred at another position than the bunch: at `s = 0` it is larger than the current
that flows there. -/
theorem C104_slow_refuted (w : WakeArgs) (h0 : 0 < w.beta) (h1 : w.beta < 1) (hσ : 0 < w.sigmaz) (ht : w.ti = none) (hq : 0 < w.q) {b : Beam} (hb : w.beam = .ok b) (zmin z : ℝ) :
    throughPlane b w.sigmaz zmin z (w.passes zmin z + 0 / w.v) / (w.q * w.v) < (gaussLambda w.sigmaz [0]).getD 0 0 := by
  have hc : 0 < cLight := by unfold cLight; norm_num
  have hv : 0 < w.v := mul_pos h0 hc
  have hne := C43_slow_refuted w h0 h1 hσ ht hb zmin z
  have ho := C43_offset w hv.ne' hb zmin z
  have hpos : 0 < w.v * (w.injection - 8.548921333333334 * w.sigmaz / w.v) := by rw [← ho]; linarith
  rw [through_at w hv.ne' hb, zero_add]
  generalize w.v * (w.injection - 8.548921333333334 * w.sigmaz / w.v) = d at hpos
  have e : (gaussLambda w.sigmaz [0]).getD 0 0 = lineDensity w.sigmaz 0 := gauss_line hσ 0
  rw [e, mul_div_cancel_left₀ _ (mul_pos hq hv).ne']
  unfold lineDensity
  refine div_lt_div_of_pos_right ?_ (Real.sqrt_pos.2 (by positivity))
  rw [Real.exp_lt_exp]
  refine div_lt_div_of_pos_right ?_ (by positivity)
  nlinarith

end
end Wake
end Wakis
