import Verif.WakeProps
import Verif.WakeProps4
import Verif.ResultFiles
import Mathlib.MeasureTheory.Integral.IntervalIntegral.Basic
import Mathlib.Analysis.SpecialFunctions.Trigonometric.Bounds

/-! # C121, C122: wake potential and impedance approximate the line integral and the Fourier integrals of the field -/

namespace Wakis
namespace Wake
open Finset intervalIntegral MeasureTheory

/-- Specification: a function of place and time that changes by at most `Lz` per unit of length and `Lt` per unit of time. -/
def SlowField (F : ℝ → ℝ → ℝ) (Lz Lt : ℝ) : Prop := ∀ z t z' t', |F z t - F z' t'| ≤ Lz * |z - z'| + Lt * |t - t'|

/-- Sums over cells approximate integrals: if on every cell the function is within `d` of the sample, the sum is within `d` times the length of the integral. -/
theorem sum_near_integral {E : Type*} [NormedAddCommGroup E] [NormedSpace ℝ E] [CompleteSpace E] {b : ℕ → ℝ} {N : ℕ} (hb : ∀ k < N, b k ≤ b (k + 1)) {G : ℝ → E} (hG : Continuous G)
    {g : ℕ → E} {d : ℝ} (hd : ∀ k < N, ∀ x, b k ≤ x → x ≤ b (k + 1) → ‖G x - g k‖ ≤ d) :
    ‖∑ k ∈ range N, (b (k + 1) - b k) • g k - ∫ x in b 0..b N, G x‖ ≤ d * (b N - b 0) := by
  rw [← sum_integral_adjacent_intervals (fun k _ => hG.intervalIntegrable _ _), ← Finset.sum_sub_distrib, ← Finset.sum_range_sub, Finset.mul_sum]
  refine (norm_sum_le _ _).trans (Finset.sum_le_sum fun k hk => ?_)
  have hk := Finset.mem_range.1 hk
  have e : (b (k + 1) - b k) • g k = ∫ x in b k..b (k + 1), g k := by rw [intervalIntegral.integral_const]
  rw [e, norm_sub_rev, ← intervalIntegral.integral_sub (hG.intervalIntegrable _ _) (intervalIntegrable_const)]
  have := intervalIntegral.norm_integral_le_of_norm_le_const (a := b k) (b := b (k + 1)) (C := d) (f := fun x => G x - g k) fun x hx => by
    rw [Set.uIoc_of_le (hb k hk)] at hx
    exact hd k hk x hx.1.le hx.2
  rwa [abs_of_nonneg (sub_nonneg.2 (hb k hk))] at this

theorem SlowField.continuous {F : ℝ → ℝ → ℝ} {Lz Lt : ℝ} (h : SlowField F Lz Lt) (v t0 z0 : ℝ) : Continuous fun z => F z (t0 + (z - z0) / v) := by
  refine continuous_iff_continuousAt.2 fun x => ?_
  refine tendsto_iff_norm_sub_tendsto_zero.2 ?_
  refine squeeze_zero (fun _ => norm_nonneg _) (fun z => h z (t0 + (z - z0) / v) x (t0 + (x - z0) / v)) ?_
  have : Continuous fun z => Lz * |z - x| + Lt * |t0 + (z - z0) / v - (t0 + (x - z0) / v)| := by fun_prop
  have := this.tendsto x
  simpa using this

/-- **C121.** A longitudinal recording (at most 100000 frames, no skipped cells) on cells with edges `b 0 ≤ b 1 ≤ …` none longer than `h`, whose samples are within `ε` of the values of a field `F` somewhere in
the cell: the wake potential at every `s` whose test particle enters the last cell before the end of the record is the integral of `F`, taken along the model at the times the test particle passes, divided by the
charge in pC, up to an error that is first order in the cell size, the time step and `ε`. -/
theorem C121_line_integral {r : Rec ℝ} {Nt Nz : ℕ} {dt : ℝ} {b : ℕ → ℝ} {md : ℕ → Dset ℝ} {Ez : ℕ → ℕ → ℝ} {zmax : ℝ}
    (hr : Recorded r Nt Nz dt (b 0) zmax md (fun n => .d1 Nz (Ez n))) (w : Par ℝ) (hv : 0 < w.v) (hdt : 0 < dt) (hq : 0 < w.q) (hN : 3 ≤ Nt) (hN' : Nt ≤ 100000) (hdz : Nz ≤ r.ndz) (hskip : w.skip = 0)
    (hzf : ∀ k < Nz, r.zf k = b k) (hd : ∀ k < Nz, r.dz k = b (k + 1) - b k) {h : ℝ} (hb : ∀ k < Nz, b k ≤ b (k + 1) ∧ b (k + 1) - b k ≤ h)
    {F : ℝ → ℝ → ℝ} {Lz Lt ε : ℝ} (hLz : 0 ≤ Lz) (hLt : 0 ≤ Lt) (hF : SlowField F Lz Lt)
    (hS : ∀ n < Nt, ∀ k < Nz, ∃ ζ, b k ≤ ζ ∧ ζ ≤ b (k + 1) ∧ |Ez n k - F ζ (n * dt)| ≤ ε) :
    ∃ s WP, calcLongWP w r = .ok (s, WP) ∧ s.length = WP.length ∧
      ∀ n (hs : n < s.length) (hW : n < WP.length), (s[n] + (zmax - b 0)) / w.v + w.ti < Nt * dt →
        |WP[n] - (∫ z in b 0..b Nz, F z ((s[n] + (z - b 0)) / w.v + w.ti)) / (w.q * 10 ^ 12)| ≤ (Lz * h + Lt * (dt + h / w.v) + ε) * (b Nz - b 0) / (w.q * 10 ^ 12) := by
  refine ⟨_, _, C47_line_integral hr w hv hdt hN hN' hdz hskip, by simp, fun n hs hW hend => ?_⟩
  simp only [List.getElem_map, List.getElem_range] at hend ⊢
  have hQ : 0 < w.q * 10 ^ 12 := by positivity
  have et : ∀ z, (-w.ti * w.v + (n : ℝ) * (dt * w.v) + (z - b 0)) / w.v + w.ti = n * dt + (z - b 0) / w.v := fun z => by field_simp; ring
  simp only [et] at hend ⊢
  rw [← sub_div, abs_div, abs_of_pos hQ]
  refine div_le_div_of_nonneg_right ?_ hQ.le
  have mono : ∀ k ≤ Nz, b 0 ≤ b k := by
    intro k
    induction k with
    | zero => intro _; exact le_rfl
    | succ k ih => intro hk; exact (ih (by omega)).trans (hb k (by omega)).1
  have hvdt : 0 < w.v * dt := mul_pos hv hdt
  have key := sum_near_integral (fun k hk => (hb k hk).1) (hF.continuous w.v (n * dt) (b 0)) (g := fun k => seen Nt Ez (w.v * dt) n k (r.zf k - b 0))
    (d := Lz * h + Lt * (dt + h / w.v) + ε) fun k hk x hx1 hx2 => by
      rw [hzf k hk]
      have hk0 := mono k hk.le
      have hfl0 : 0 ≤ ⌊(b k - b 0) / (w.v * dt)⌋ := Int.floor_nonneg.2 (div_nonneg (sub_nonneg.2 hk0) hvdt.le)
      obtain ⟨m, hm⟩ : ∃ m : ℕ, ⌊(b k - b 0) / (w.v * dt)⌋ = (m : ℤ) := Int.eq_ofNat_of_zero_le hfl0
      have hle := Int.floor_le ((b k - b 0) / (w.v * dt))
      have hlt := Int.lt_floor_add_one ((b k - b 0) / (w.v * dt))
      rw [hm] at hle hlt
      rw [le_div_iff₀ hvdt] at hle
      rw [div_lt_iff₀ hvdt] at hlt
      push_cast at hle hlt
      have m1 : (m : ℝ) * dt ≤ (b k - b 0) / w.v := by rw [le_div_iff₀ hv]; linarith
      have m2 : (b k - b 0) / w.v < m * dt + dt := by rw [div_lt_iff₀ hv]; linarith
      have m3 : (b k - b 0) / w.v ≤ (zmax - b 0) / w.v := div_le_div_of_nonneg_right (by linarith [hzf k hk ▸ hr.greatest.2 k hk]) hv.le
      have hmN : n + m < Nt := by
        have : ((n + m : ℕ) : ℝ) * dt < Nt * dt := by push_cast; nlinarith
        exact_mod_cast lt_of_mul_lt_mul_right this hdt.le
      unfold seen
      rw [hm, if_pos (by exact_mod_cast hmN)]
      rw [show ((n : ℤ) + (m : ℤ)).toNat = n + m by omega]
      obtain ⟨ζ, z1, z2, hz⟩ := hS (n + m) hmN k hk
      have hf := hF x (n * dt + (x - b 0) / w.v) ζ ((n + m : ℕ) * dt)
      have a1 : |x - ζ| ≤ h := by rw [abs_le]; constructor <;> linarith [(hb k hk).2]
      have x1 : (b k - b 0) / w.v ≤ (x - b 0) / w.v := div_le_div_of_nonneg_right (by linarith) hv.le
      have x2 : (x - b 0) / w.v ≤ (b k - b 0) / w.v + h / w.v := by
        rw [← add_div]; exact div_le_div_of_nonneg_right (by linarith [(hb k hk).2]) hv.le
      have a2 : |n * dt + (x - b 0) / w.v - ((n + m : ℕ) : ℝ) * dt| ≤ dt + h / w.v := by
        push_cast
        have hh : 0 ≤ h / w.v := div_nonneg (by linarith [(hb k hk).1, (hb k hk).2]) hv.le
        rw [abs_le]; constructor <;> nlinarith
      have b1 := mul_le_mul_of_nonneg_left a1 hLz
      have b2 := mul_le_mul_of_nonneg_left a2 hLt
      rw [Real.norm_eq_abs]
      rw [abs_sub_comm] at hz
      have := abs_sub_le (F x (n * dt + (x - b 0) / w.v)) (F ζ ((n + m : ℕ) * dt)) (Ez (n + m) k)
      linarith
  rw [Real.norm_eq_abs] at key
  refine le_trans (le_of_eq ?_) key
  congr 2
  refine Finset.sum_congr rfl fun k hk => ?_
  rw [hd k (Finset.mem_range.1 hk), smul_eq_mul, mul_comm]

/-- **C121 (wake length not given).** If no wake length is given, the s axis ends early enough for every value of the wake potential to be the integral up to the same error. -/
theorem C121_whole_axis {r : Rec ℝ} {Nt Nz : ℕ} {dt : ℝ} {b : ℕ → ℝ} {md : ℕ → Dset ℝ} {Ez : ℕ → ℕ → ℝ} {zmax : ℝ}
    (hr : Recorded r Nt Nz dt (b 0) zmax md (fun n => .d1 Nz (Ez n))) (w : Par ℝ) (hv : 0 < w.v) (hdt : 0 < dt) (hq : 0 < w.q) (hN : 3 ≤ Nt) (hN' : Nt ≤ 100000) (hdz : Nz ≤ r.ndz) (hskip : w.skip = 0)
    (hlen : w.wakelength = none)
    (hzf : ∀ k < Nz, r.zf k = b k) (hd : ∀ k < Nz, r.dz k = b (k + 1) - b k) {h : ℝ} (hb : ∀ k < Nz, b k ≤ b (k + 1) ∧ b (k + 1) - b k ≤ h)
    {F : ℝ → ℝ → ℝ} {Lz Lt ε : ℝ} (hLz : 0 ≤ Lz) (hLt : 0 ≤ Lt) (hF : SlowField F Lz Lt)
    (hS : ∀ n < Nt, ∀ k < Nz, ∃ ζ, b k ≤ ζ ∧ ζ ≤ b (k + 1) ∧ |Ez n k - F ζ (n * dt)| ≤ ε) :
    ∃ s WP, calcLongWP w r = .ok (s, WP) ∧ s.length = WP.length ∧ s = axis (-w.ti * w.v) (dt * w.v) s.length ∧
      ∀ n (hs : n < s.length) (hW : n < WP.length),
        |WP[n] - (∫ z in b 0..b Nz, F z ((s[n] + (z - b 0)) / w.v + w.ti)) / (w.q * 10 ^ 12)| ≤ (Lz * h + Lt * (dt + h / w.v) + ε) * (b Nz - b 0) / (w.q * 10 ^ 12) := by
  obtain ⟨s, WP, h1, h2, h3⟩ := C121_line_integral hr w hv hdt hq hN hN' hdz hskip hzf hd hb hLz hLt hF hS
  have h4 := C47_line_integral hr w hv hdt hN hN' hdz hskip
  rw [h1] at h4
  simp only [Except.ok.injEq, Prod.mk.injEq] at h4
  have hl : s.length = arangeLen (-w.ti * w.v) (lengthOf w Nt dt (b 0) zmax) (dt * w.v) := by rw [h4.1]; simp
  refine ⟨s, WP, h1, h2, by rw [hl]; exact h4.1, fun n hs hW => h3 n hs hW ?_⟩
  have e : s[n] = -w.ti * w.v + n * (dt * w.v) := by simp only [h4.1, List.getElem_map, List.getElem_range]
  have hn : n < arangeLen (-w.ti * w.v) (lengthOf w Nt dt (b 0) zmax) (dt * w.v) := hl ▸ hs
  unfold arangeLen at hn
  have hn : (n : ℝ) < (lengthOf w Nt dt (b 0) zmax - -w.ti * w.v) / (dt * w.v) := by
    rw [← Int.cast_natCast n]
    exact Int.lt_ceil.1 (by omega)
  rw [lt_div_iff₀ (mul_pos hdt hv)] at hn
  unfold lengthOf at hn
  rw [hlen, Option.getD_none] at hn
  rw [e, ← sub_pos]
  have : Nt * dt - ((-w.ti * w.v + n * (dt * w.v) + (zmax - b 0)) / w.v + w.ti) = (Nt * dt * w.v - (zmax - b 0) - n * (dt * w.v)) / w.v := by field_simp; ring
  rw [this]
  exact div_pos (by linarith) hv

/-! ### The impedance -/

/-- Specification: the Fourier integral of `W` over the axis from `a` to `b`, at frequency `f` and velocity `v`. -/
noncomputable def fourierInt (W : ℝ → ℝ) (v f a b : ℝ) : ℂ := ∫ s in a..b, (W s : ℂ) * Complex.exp (-2 * Real.pi * Complex.I * ((f * (s / v) : ℝ) : ℂ))

theorem exp_norm (x : ℝ) : ‖Complex.exp (-2 * Real.pi * Complex.I * (x : ℂ))‖ = 1 := by
  have : -2 * Real.pi * Complex.I * (x : ℂ) = ((-2 * Real.pi * x : ℝ) : ℂ) * Complex.I := by push_cast; ring
  rw [this, Complex.norm_exp_ofReal_mul_I]

theorem exp_near (x y : ℝ) : ‖Complex.exp (-2 * Real.pi * Complex.I * (x : ℂ)) - Complex.exp (-2 * Real.pi * Complex.I * (y : ℂ))‖ ≤ 2 * Real.pi * |x - y| := by
  have e : Complex.exp (-2 * Real.pi * Complex.I * (x : ℂ)) - Complex.exp (-2 * Real.pi * Complex.I * (y : ℂ)) =
      Complex.exp (-2 * Real.pi * Complex.I * (y : ℂ)) * (Complex.exp (Complex.I * ((-2 * Real.pi * (x - y) : ℝ) : ℂ)) - 1) := by
    rw [mul_sub, mul_one, ← Complex.exp_add]
    congr 2
    push_cast
    ring
  rw [e, norm_mul, exp_norm, one_mul]
  refine (Real.norm_exp_I_mul_ofReal_sub_one_le).trans ?_
  rw [Real.norm_eq_abs, abs_mul, abs_mul, abs_neg, abs_of_pos (by norm_num : (0:ℝ) < 2), abs_of_pos Real.pi_pos]

/-- Sampled transforms approximate the Fourier integral: `x` holds values within `ε` of a function `W` that is bounded by `B` and changes by at most `L` per unit of length. -/
theorem dtft_near {x : List ℝ} {W : ℝ → ℝ} {s0 ds v f B L ε : ℝ} (hds : 0 < ds) (hv : 0 < v) (hf : 0 ≤ f) (hL : 0 ≤ L) (hB : ∀ s, |W s| ≤ B) (hW : ∀ s s', |W s - W s'| ≤ L * |s - s'|)
    (hx : ∀ j < x.length, |x.getD j 0 - W (s0 + j * ds)| ≤ ε) :
    ‖Complex.exp (-2 * Real.pi * Complex.I * ((f * (s0 / v) : ℝ) : ℂ)) * (dtft x (ds / v) f * ds) - fourierInt W v f s0 (s0 + x.length * ds)‖ ≤
      (L * ds + ε + B * (2 * Real.pi * (f / v) * ds)) * (x.length * ds) := by
  have hcont : Continuous W := by
    refine (LipschitzWith.of_dist_le_mul (K := ⟨L, hL⟩) fun a b => ?_).continuous
    rw [Real.dist_eq, Real.dist_eq]; exact hW a b
  have key := sum_near_integral (b := fun k : ℕ => s0 + k * ds) (N := x.length) (fun k _ => by push_cast; nlinarith)
    (G := fun s => (W s : ℂ) * Complex.exp (-2 * Real.pi * Complex.I * ((f * (s / v) : ℝ) : ℂ))) (by fun_prop)
    (g := fun k : ℕ => (x.getD k 0 : ℂ) * Complex.exp (-2 * Real.pi * Complex.I * ((f * ((s0 + k * ds) / v) : ℝ) : ℂ)))
    (d := L * ds + ε + B * (2 * Real.pi * (f / v) * ds)) fun k hk s h1 h2 => by
      push_cast at h2
      have hs : |s - (s0 + k * ds)| ≤ ds := by rw [abs_le]; constructor <;> linarith
      have e1 := exp_near (f * (s / v)) (f * ((s0 + k * ds) / v))
      have e2 : |f * (s / v) - f * ((s0 + k * ds) / v)| = f / v * |s - (s0 + k * ds)| := by
        rw [show f * (s / v) - f * ((s0 + k * ds) / v) = f / v * (s - (s0 + k * ds)) by ring, abs_mul, abs_of_nonneg (div_nonneg hf hv.le)]
      rw [e2] at e1
      have e3 : 2 * Real.pi * (f / v * |s - (s0 + k * ds)|) ≤ 2 * Real.pi * (f / v) * ds := by
        rw [← mul_assoc]
        exact mul_le_mul_of_nonneg_left hs (mul_nonneg (by positivity) (div_nonneg hf hv.le))
      have hB0 : 0 ≤ B := (abs_nonneg _).trans (hB 0)
      have split : ∀ a b c d : ℂ, a * b - c * d = (a - c) * d + a * (b - d) := fun a b c d => by ring
      rw [split]
      refine (norm_add_le _ _).trans (add_le_add ?_ ?_)
      · rw [norm_mul, exp_norm, mul_one, ← Complex.ofReal_sub, Complex.norm_real, Real.norm_eq_abs]
        have a1 := hW s (s0 + k * ds)
        have a2 := hx k hk
        rw [abs_sub_comm] at a2
        have a3 := mul_le_mul_of_nonneg_left hs hL
        linarith [abs_sub_le (W s) (W (s0 + k * ds)) (x.getD k 0)]
      · rw [norm_mul, Complex.norm_real, Real.norm_eq_abs]
        exact mul_le_mul (hB s) (e1.trans e3) (norm_nonneg _) hB0
  unfold fourierInt
  simp only [Nat.cast_zero, zero_mul, add_zero, add_sub_cancel_left] at key
  refine le_trans (le_of_eq ?_) key
  congr 2
  unfold dtft
  rw [Finset.sum_mul, Finset.mul_sum]
  refine Finset.sum_congr rfl fun k _ => ?_
  have e : Complex.exp (-2 * Real.pi * Complex.I * ((f * ((s0 + k * ds) / v) : ℝ) : ℂ)) =
      Complex.exp (-2 * Real.pi * Complex.I * ((f * (s0 / v) : ℝ) : ℂ)) * Complex.exp (-2 * Real.pi * Complex.I * ((f * (k * (ds / v)) : ℝ) : ℂ)) := by
    rw [← Complex.exp_add]
    congr 1
    push_cast
    ring
  rw [e, Complex.real_smul]
  push_cast
  ring

/-- Quotients of approximations. -/
theorem quotient_near {a b A B : ℂ} {ea eb : ℝ} (ha : ‖a - A‖ ≤ ea) (hb : ‖b - B‖ ≤ eb) (hB : eb < ‖B‖) :
    ‖a / b - A / B‖ ≤ (ea * ‖B‖ + ‖A‖ * eb) / ((‖B‖ - eb) * ‖B‖) := by
  have h0 : 0 ≤ eb := (norm_nonneg _).trans hb
  have hBp : 0 < ‖B‖ := h0.trans_lt hB
  have hb' : ‖B‖ - eb ≤ ‖b‖ := by
    have := norm_sub_norm_le B b
    rw [norm_sub_rev] at this
    linarith
  have hbp : 0 < ‖b‖ := by linarith
  have nb : b ≠ 0 := norm_pos_iff.1 hbp
  have nB : B ≠ 0 := norm_pos_iff.1 hBp
  have e : a / b - A / B = ((a - A) * B - A * (b - B)) / (b * B) := by field_simp; ring
  rw [e, norm_div, norm_mul]
  have hn : ‖(a - A) * B - A * (b - B)‖ ≤ ea * ‖B‖ + ‖A‖ * eb := by
    refine (norm_sub_le _ _).trans (add_le_add ?_ ?_)
    · rw [norm_mul]; exact mul_le_mul_of_nonneg_right ha hBp.le
    · rw [norm_mul]; exact mul_le_mul_of_nonneg_left hb (norm_nonneg _)
  exact div_le_div₀ ((norm_nonneg _).trans hn) hn (mul_pos (by linarith) hBp) (mul_le_mul_of_nonneg_right hb' hBp.le)

/-- **C122.** The impedance calculated from samples `WP` of a wake `W` (V/pC) and samples `lam` of a bunch profile `Λ` (1/m), each within `ε` of a bounded function that changes slowly, on an s axis of step
`ds` that resolves `fmax`: at every frequency returned it is the factor (−1 or i) times the quotient of the Fourier integrals of `10^12 W` and `v Λ` over the axis, up to an error that is first order in the step and
in `ε`, provided the error of the denominator is below its absolute value. -/
theorem C122_fourier {v s0 ds fmax : ℝ} {ns samples : ℕ} (hns : 2 ≤ ns) (hv : 0 < v) (hds : 0 < ds) (hf : 0 < fmax) (hs : 0 < samples) (hres : fmax ≤ v / ds) (hfit : ns ≤ ⌊v / ds / fmax⌋₊ * samples) (fac : ℂ)
    {WP lam : List ℝ} (lW : WP.length = ns) (lL : lam.length = ns) {W Λ : ℝ → ℝ} {BW LW BL LL ε : ℝ} (hLW : 0 ≤ LW) (hLL : 0 ≤ LL)
    (bW : ∀ s, |W s| ≤ BW) (sW : ∀ s s', |W s - W s'| ≤ LW * |s - s'|) (bL : ∀ s, |Λ s| ≤ BL) (sL : ∀ s s', |Λ s - Λ s'| ≤ LL * |s - s'|)
    (hW : ∀ j < ns, |WP.getD j 0 - W (s0 + j * ds)| ≤ ε) (hL : ∀ j < ns, |lam.getD j 0 - Λ (s0 + j * ds)| ≤ ε) :
    ∃ imp : Imp, impedance fac v fmax samples (axis s0 ds ns) WP lam = .ok imp ∧ imp.f.length = imp.Z.length ∧ 1 ≤ imp.f.length ∧
      ∀ m (h1 : m < imp.f.length) (h2 : m < imp.Z.length),
        let f := imp.f[m]
        let N := fourierInt W v f s0 (s0 + ns * ds)
        let D := fourierInt Λ v f s0 (s0 + ns * ds)
        let eN := (LW * ds + ε + BW * (2 * Real.pi * (f / v) * ds)) * (ns * ds)
        let eD := (LL * ds + ε + BL * (2 * Real.pi * (f / v) * ds)) * (ns * ds)
        0 ≤ f ∧ f < fmax ∧ (eD < ‖D‖ → ‖imp.Z[m] - fac * (10 ^ 12 * N) / (v * D)‖ ≤ ‖fac‖ * 10 ^ 12 / v * ((eN * ‖D‖ + ‖N‖ * eD) / ((‖D‖ - eD) * ‖D‖))) := by
  obtain ⟨M, imp, h, hM, -, hδ, hfreq, hmax, -, hZ⟩ := C51_axis (s0 := s0) hns hv hds hf hs hres fac WP lam
  have hZ := hZ (by rw [lW]; exact hfit) (by rw [lL]; exact hfit)
  refine ⟨imp, h, by rw [hZ, List.length_map], by rw [hfreq, List.length_map, List.length_range]; exact hM, fun m h1 h2 => ?_⟩
  have hf0 : 0 ≤ imp.f[m] := by
    simp only [hfreq, List.getElem_map]
    exact mul_nonneg (Nat.cast_nonneg _) hδ.le
  intro f N D eN eD
  refine ⟨hf0, hmax _ (List.getElem_mem _), fun hD => ?_⟩
  have n1 := dtft_near (x := WP) hds hv hf0 hLW bW sW (by rw [lW]; exact hW)
  have n2 := dtft_near (x := lam) hds hv hf0 hLL bL sL (by rw [lL]; exact hL)
  rw [lW] at n1
  rw [lL] at n2
  have q := quotient_near n1 n2 hD
  have eZ : imp.Z[m] = fac * (10 ^ 12 * dtft WP (ds / v) f * ds) / (v * dtft lam (ds / v) f * ds) := by
    simp only [hZ, List.getElem_map]; rfl
  rw [eZ]
  have nv : (v : ℂ) ≠ 0 := Complex.ofReal_ne_zero.2 hv.ne'
  set φ := Complex.exp (-2 * Real.pi * Complex.I * ((f * (s0 / v) : ℝ) : ℂ)) with hφ
  have nφ : φ ≠ 0 := Complex.exp_ne_zero _
  have e : fac * (10 ^ 12 * dtft WP (ds / v) f * ds) / (v * dtft lam (ds / v) f * ds) - fac * (10 ^ 12 * N) / (v * D) =
      fac * 10 ^ 12 / v * (φ * (dtft WP (ds / v) f * ds) / (φ * (dtft lam (ds / v) f * ds)) - N / D) := by
    rw [mul_div_mul_left _ _ nφ, mul_sub, div_mul_div_comm, div_mul_div_comm]
    congr 2 <;> ring
  rw [e, norm_mul, norm_div, norm_mul, Complex.norm_real, Real.norm_eq_abs, abs_of_pos hv, norm_pow, Complex.norm_ofNat]
  refine mul_le_mul_of_nonneg_left q ?_
  exact div_nonneg (mul_nonneg (norm_nonneg _) (by positivity)) hv.le

/-- Specification: the wake potential (V/pC) of a field along the model from `a` to `b`: the integral of the field a test particle sees that is `s` behind, divided by the charge. -/
noncomputable def wakeOf (F : ℝ → ℝ → ℝ) (v ti q a b s : ℝ) : ℝ := (∫ z in a..b, F z ((s + (z - a)) / v + ti)) / (q * 10 ^ 12)

/-- Specification: the Gaussian line density (1/m) of a bunch of length `σ`. -/
noncomputable def gaussian (σ s : ℝ) : ℝ := 1 / (σ * Real.sqrt (2 * Real.pi)) * Real.exp (-(s ^ 2) / (2 * σ ^ 2))

theorem SlowField.continuous' {F : ℝ → ℝ → ℝ} {Lz Lt : ℝ} (h : SlowField F Lz Lt) (v t0 z0 s : ℝ) : Continuous fun z => F z ((s + (z - z0)) / v + t0) := by
  have := h.continuous v (s / v + t0) z0
  refine this.congr fun z => ?_
  congr 1
  ring

theorem wakeOf_slow {F : ℝ → ℝ → ℝ} {Lz Lt : ℝ} (h : SlowField F Lz Lt) {v q a b : ℝ} (hv : 0 < v) (hq : 0 < q) (hab : a ≤ b) (ti s s' : ℝ) :
    |wakeOf F v ti q a b s - wakeOf F v ti q a b s'| ≤ Lt / v * (b - a) / (q * 10 ^ 12) * |s - s'| := by
  have hQ : 0 < q * 10 ^ 12 := by positivity
  unfold wakeOf
  rw [← sub_div, abs_div, abs_of_pos hQ, ← intervalIntegral.integral_sub ((h.continuous' v ti a s).intervalIntegrable _ _) ((h.continuous' v ti a s').intervalIntegrable _ _), div_mul_eq_mul_div]
  refine div_le_div_of_nonneg_right ?_ hQ.le
  have := intervalIntegral.norm_integral_le_of_norm_le_const (a := a) (b := b) (C := Lt / v * |s - s'|) (f := fun z => F z ((s + (z - a)) / v + ti) - F z ((s' + (z - a)) / v + ti)) fun z _ => by
    have := h z ((s + (z - a)) / v + ti) z ((s' + (z - a)) / v + ti)
    rw [sub_self, abs_zero, mul_zero, zero_add, show (s + (z - a)) / v + ti - ((s' + (z - a)) / v + ti) = (s - s') / v by ring, abs_div, abs_of_pos hv] at this
    rw [Real.norm_eq_abs]
    exact this.trans (le_of_eq (by ring))
  rw [abs_of_nonneg (sub_nonneg.2 hab), Real.norm_eq_abs] at this
  exact this.trans (le_of_eq (by ring))

theorem wakeOf_bound {F : ℝ → ℝ → ℝ} {B : ℝ} (hB : ∀ z t, |F z t| ≤ B) {v q a b : ℝ} (hq : 0 < q) (hab : a ≤ b) (ti s : ℝ) : |wakeOf F v ti q a b s| ≤ B * (b - a) / (q * 10 ^ 12) := by
  have hQ : 0 < q * 10 ^ 12 := by positivity
  unfold wakeOf
  rw [abs_div, abs_of_pos hQ]
  refine div_le_div_of_nonneg_right ?_ hQ.le
  have := intervalIntegral.norm_integral_le_of_norm_le_const (a := a) (b := b) (C := B) (f := fun z => F z ((s + (z - a)) / v + ti)) fun z _ => hB z _
  rwa [abs_of_nonneg (sub_nonneg.2 hab), Real.norm_eq_abs] at this

theorem gaussian_bound {σ : ℝ} (hσ : 0 < σ) (s : ℝ) : |gaussian σ s| ≤ 1 / (σ * Real.sqrt (2 * Real.pi)) := by
  have h0 : 0 ≤ 1 / (σ * Real.sqrt (2 * Real.pi)) := by positivity
  unfold gaussian
  rw [abs_mul, abs_of_nonneg h0, abs_of_pos (Real.exp_pos _)]
  refine mul_le_of_le_one_right h0 (Real.exp_le_one_iff.2 ?_)
  rw [neg_div]
  exact neg_nonpos.2 (by positivity)

theorem exp_slow {σ : ℝ} (hσ : 0 < σ) (s s' : ℝ) : |Real.exp (-(s ^ 2) / (2 * σ ^ 2)) - Real.exp (-(s' ^ 2) / (2 * σ ^ 2))| ≤ 1 / σ * |s - s'| := by
  have hd : ∀ x : ℝ, HasDerivAt (fun x => Real.exp (-(x ^ 2) / (2 * σ ^ 2))) (Real.exp (-(x ^ 2) / (2 * σ ^ 2)) * (-(2 * x) / (2 * σ ^ 2))) x := fun x => by
    have h1 : HasDerivAt (fun x : ℝ => -(x ^ 2) / (2 * σ ^ 2)) (-(2 * x) / (2 * σ ^ 2)) x := by
      have := ((hasDerivAt_pow 2 x).neg).div_const (2 * σ ^ 2)
      simpa using this
    exact h1.exp
  have hbd : ∀ x : ℝ, ‖Real.exp (-(x ^ 2) / (2 * σ ^ 2)) * (-(2 * x) / (2 * σ ^ 2))‖ ≤ 1 / σ := fun x => by
    rw [norm_mul, Real.norm_eq_abs, Real.norm_eq_abs, abs_of_pos (Real.exp_pos _), neg_div, Real.exp_neg]
    have e1 := Real.add_one_le_exp (x ^ 2 / (2 * σ ^ 2))
    have e2 : |x| / σ ≤ x ^ 2 / (2 * σ ^ 2) + 1 := by
      have h0 : x ^ 2 / (2 * σ ^ 2) = (|x| / σ) ^ 2 / 2 := by rw [div_pow, sq_abs]; field_simp
      rw [h0]
      nlinarith [sq_nonneg (|x| / σ - 1)]
    have e3 : |-(2 * x) / (2 * σ ^ 2)| = |x| / σ / σ := by
      rw [neg_div, abs_neg, mul_div_mul_left _ _ (two_ne_zero), abs_div, abs_of_pos (pow_pos hσ 2), pow_two, div_div]
    rw [e3, inv_mul_le_iff₀ (Real.exp_pos _), mul_one_div]
    exact div_le_div_of_nonneg_right (e2.trans e1) hσ.le
  have := Convex.norm_image_sub_le_of_norm_hasDerivWithin_le (s := Set.univ) (C := 1 / σ) (f := fun x => Real.exp (-(x ^ 2) / (2 * σ ^ 2))) (fun x _ => (hd x).hasDerivWithinAt) (fun x _ => hbd x) convex_univ
    (Set.mem_univ s') (Set.mem_univ s)
  simpa only [Real.norm_eq_abs] using this

theorem gaussian_slow {σ : ℝ} (hσ : 0 < σ) (s s' : ℝ) : |gaussian σ s - gaussian σ s'| ≤ 1 / (σ * Real.sqrt (2 * Real.pi)) * (1 / σ) * |s - s'| := by
  unfold gaussian
  rw [← mul_sub, abs_mul, abs_of_nonneg (by positivity : 0 ≤ 1 / (σ * Real.sqrt (2 * Real.pi))), mul_assoc]
  exact mul_le_mul_of_nonneg_left (exp_slow hσ s s') (by positivity)

/-- **C122 (from the recording to the impedance).** A longitudinal calculation without a given wake length or charge distribution, from a recording whose samples are within `ε` of a bounded field that changes slowly: at
every frequency returned, the longitudinal impedance is minus the quotient of the Fourier integrals, over the s axis, of the wake of that field and of `v` times the Gaussian bunch, up to an error that is first order in cell size,
time step and `ε`, provided the error of the denominator is below its absolute value. -/
theorem C122_recording {r : Rec ℝ} {Nt Nz : ℕ} {dt : ℝ} {b : ℕ → ℝ} {md : ℕ → Dset ℝ} {Ez : ℕ → ℕ → ℝ} {zmax : ℝ}
    (hr : Recorded r Nt Nz dt (b 0) zmax md (fun n => .d1 Nz (Ez n))) (w : Par ℝ) (hv : 0 < w.v) (hdt : 0 < dt) (hq : 0 < w.q) (hN : 3 ≤ Nt) (hN' : Nt ≤ 100000) (hdz : Nz ≤ r.ndz) (hskip : w.skip = 0)
    (hlen : w.wakelength = none)
    (hzf : ∀ k < Nz, r.zf k = b k) (hd : ∀ k < Nz, r.dz k = b (k + 1) - b k) {h : ℝ} (hb : ∀ k < Nz, b k ≤ b (k + 1) ∧ b (k + 1) - b k ≤ h)
    {F : ℝ → ℝ → ℝ} {Lz Lt BF ε : ℝ} (hLz : 0 ≤ Lz) (hLt : 0 ≤ Lt) (hF : SlowField F Lz Lt) (hBF : ∀ z t, |F z t| ≤ BF)
    (hS : ∀ n < Nt, ∀ k < Nz, ∃ ζ, b k ≤ ζ ∧ ζ ≤ b (k + 1) ∧ |Ez n k - F ζ (n * dt)| ≤ ε)
    {fmax σ : ℝ} (hσ : 0 < σ) (hf : 0 < fmax) (hres : fmax ≤ 1 / dt)
    (hns : 2 ≤ ⌈(Nt * dt * w.v - (zmax - b 0)) / (dt * w.v)⌉₊) (hfit : ⌈(Nt * dt * w.v - (zmax - b 0)) / (dt * w.v)⌉₊ ≤ ⌊1 / dt / fmax⌋₊ * 1001) :
    ∃ o : Out, solveOnlyLong w fmax σ none r = .ok o ∧ o.f.length = o.Z.length ∧ 1 ≤ o.f.length ∧
      ∀ m (h1 : m < o.f.length) (h2 : m < o.Z.length),
        let f := o.f[m]
        let s0 := -w.ti * w.v
        let s1 := s0 + ⌈(Nt * dt * w.v - (zmax - b 0)) / (dt * w.v)⌉₊ * (dt * w.v)
        let N := fourierInt (wakeOf F w.v w.ti w.q (b 0) (b Nz)) w.v f s0 s1
        let D := fourierInt (gaussian σ) w.v f s0 s1
        let len := b Nz - b 0
        let Q := w.q * 10 ^ 12
        let G := 1 / (σ * Real.sqrt (2 * Real.pi))
        let e := (Lz * h + Lt * (dt + h / w.v) + ε) * len / Q
        let eN := (Lt / w.v * len / Q * (dt * w.v) + e + BF * len / Q * (2 * Real.pi * (f / w.v) * (dt * w.v))) * (s1 - s0)
        let eD := (G * (1 / σ) * (dt * w.v) + e + G * (2 * Real.pi * (f / w.v) * (dt * w.v))) * (s1 - s0)
        0 ≤ f ∧ f < fmax ∧ (eD < ‖D‖ → ‖o.Z[m] + 10 ^ 12 * N / (w.v * D)‖ ≤ 10 ^ 12 / w.v * ((eN * ‖D‖ + ‖N‖ * eD) / ((‖D‖ - eD) * ‖D‖))) := by
  obtain ⟨s, WP, hWP, hl, hs, hw⟩ := C121_whole_axis hr w hv hdt hq hN hN' hdz hskip hlen hzf hd hb hLz hLt hF hS
  have hns' : s.length = ⌈(Nt * dt * w.v - (zmax - b 0)) / (dt * w.v)⌉₊ := by
    have h4 := C47_line_integral hr w hv hdt hN hN' hdz hskip
    rw [hWP] at h4
    simp only [Except.ok.injEq, Prod.mk.injEq] at h4
    rw [h4.1, List.length_map, List.length_range]
    unfold arangeLen lengthOf
    rw [hlen, Option.getD_none, Int.ceil_toNat]
    congr 2
    ring
  rw [← hns'] at hns hfit ⊢
  have hab : b 0 ≤ b Nz := by
    have : ∀ k ≤ Nz, b 0 ≤ b k := by
      intro k
      induction k with
      | zero => intro _; exact le_rfl
      | succ k ih => intro hk; exact (ih (by omega)).trans (hb k (by omega)).1
    exact this Nz le_rfl
  have hvd : w.v / (dt * w.v) = 1 / dt := by field_simp
  have e0 : 0 ≤ (Lz * h + Lt * (dt + h / w.v) + ε) * (b Nz - b 0) / (w.q * 10 ^ 12) := by
    have := hw 0 (by omega) (by omega)
    exact (abs_nonneg _).trans this
  have gl : gaussLambda σ s = s.map (gaussian σ) := rfl
  have hget : ∀ j < s.length, s[j]? = some (-w.ti * w.v + j * (dt * w.v)) := fun j hj => by
    rw [hs]
    unfold axis
    rw [List.getElem?_map, List.getElem?_range hj]
    rfl
  obtain ⟨imp, i1, i2, i3, i4⟩ := C122_fourier (s0 := -w.ti * w.v) (ds := dt * w.v) (samples := 1001) (ns := s.length) hns hv (mul_pos hdt hv) hf (by norm_num) (hvd ▸ hres) (by rw [hvd]; exact hfit) (-1)
    (WP := WP) (lam := gaussLambda σ s) hl.symm (by rw [gl, List.length_map]) (W := wakeOf F w.v w.ti w.q (b 0) (b Nz)) (Λ := gaussian σ)
    (LW := Lt / w.v * (b Nz - b 0) / (w.q * 10 ^ 12)) (LL := 1 / (σ * Real.sqrt (2 * Real.pi)) * (1 / σ))
    (by have := sub_nonneg.2 hab; positivity) (by positivity) (wakeOf_bound hBF hq hab w.ti) (wakeOf_slow hF hv hq hab w.ti) (gaussian_bound hσ) (gaussian_slow hσ)
    (fun j hj => by
      have := hw j hj (by omega)
      have eg : s[j] = -w.ti * w.v + j * (dt * w.v) := by
        have := hget j hj
        rw [List.getElem?_eq_getElem hj] at this
        exact Option.some.inj this
      rw [eg] at this
      rw [List.getD_eq_getElem?_getD, List.getElem?_eq_getElem (by omega)]
      exact this)
    (fun j hj => by
      rw [gl, List.getD_eq_getElem?_getD, List.getElem?_map, hget j hj]
      simp only [Option.map_some, Option.getD_some, sub_self, abs_zero]
      exact e0)
  refine ⟨⟨s, WP, [], [], gaussLambda σ s, imp.f, imp.Z, imp.lambdaf, [], [], [], []⟩, ?_, i2, i3, fun m h1 h2 => ?_⟩
  · unfold solveOnlyLong
    rw [hWP]
    simp only [bind, Except.bind, Option.getD_none]
    rw [hs] at i1 ⊢
    have ll : (axis (-w.ti * w.v) (dt * w.v) s.length).length = s.length := by unfold axis; rw [List.length_map, List.length_range]
    rw [ll] at i1
    rw [i1]
    rfl
  · have := i4 m h1 h2
    simp only [norm_neg, norm_one, one_mul, neg_mul, neg_div, sub_neg_eq_add] at this
    simp only [add_sub_cancel_left, neg_mul]
    exact this

/-- A recording of the field `z + t` at the low ends of two cells of length one, four frames one second apart. -/
noncomputable def ramp : Rec ℝ := ⟨4, fun i => i, 2, fun k => k, 2, fun _ => 1, H5.ofWrites (wakeWrites (fun _ => .d1 0 0) 4 fun n => .d1 2 fun k => (k : ℝ) + n)⟩

/-- The hypotheses of C121 are met by a field that depends on place and time. -/
example : ∃ (w : Par ℝ), w.wakelength = none ∧ w.skip = 0 ∧ 0 < w.v ∧ 0 < w.q ∧ Recorded ramp 4 2 1 (((0 : ℕ) : ℝ)) 1 (fun _ => .d1 0 0) (fun n => .d1 2 fun k => (k : ℝ) + n) ∧
    (∀ k : ℕ, k < 2 → ramp.zf k = (k : ℝ)) ∧ (∀ k : ℕ, k < 2 → ramp.dz k = ((k + 1 : ℕ) : ℝ) - k) ∧ SlowField (fun z t => z + t) 1 1 ∧
    (∀ n : ℕ, n < 4 → ∀ k : ℕ, k < 2 → ∃ ζ : ℝ, (k : ℝ) ≤ ζ ∧ ζ ≤ ((k + 1 : ℕ) : ℝ) ∧ |((k : ℝ) + n) - (ζ + n * 1)| ≤ 0) := by
  refine ⟨⟨1, 1, 0, none, 0, false, 1⟩, rfl, rfl, one_pos, one_pos, ⟨rfl, fun i => (mul_one _).symm, rfl, ⟨⟨0, by norm_num, rfl⟩, fun i _ => ?_⟩, ⟨⟨1, by norm_num, ?_⟩, fun i hi => ?_⟩, rfl⟩, fun k _ => rfl, fun k _ => ?_, ?_, ?_⟩
  · show ((0 : ℕ) : ℝ) ≤ (i : ℝ)
    exact_mod_cast Nat.zero_le i
  · show (1 : ℝ) = ((1 : ℕ) : ℝ)
    norm_num
  · show (i : ℝ) ≤ 1
    exact_mod_cast Nat.le_of_lt_succ hi
  · show (1 : ℝ) = _
    push_cast
    ring
  · intro z t z' t'
    rw [one_mul, one_mul, show z + t - (z' + t') = (z - z') + (t - t') by ring]
    exact abs_add_le _ _
  · intro n _ k _
    refine ⟨k, le_rfl, by push_cast; linarith, ?_⟩
    simp

/-- The hypotheses of C122 are met by a wake `cos s` and a constant line density on an axis of step 1/100. -/
example : (2 : ℕ) ≤ 5 ∧ (0 : ℝ) < 1 ∧ (1 : ℝ) ≤ 1 / (1 / 100) ∧ 5 ≤ ⌊(1 : ℝ) / (1 / 100) / 1⌋₊ * 1001 ∧ (∀ s : ℝ, |Real.cos s| ≤ 1) ∧ (∀ s s' : ℝ, |Real.cos s - Real.cos s'| ≤ 1 * |s - s'|) := by
  refine ⟨by norm_num, by norm_num, by norm_num, ?_, Real.abs_cos_le_one, fun s s' => ?_⟩
  · rw [show (1 : ℝ) / (1 / 100) / 1 = ((100 : ℕ) : ℝ) by norm_num, Nat.floor_natCast]
    norm_num
  · rw [one_mul]
    exact Real.abs_cos_sub_cos_le s s'

end Wake
end Wakis
