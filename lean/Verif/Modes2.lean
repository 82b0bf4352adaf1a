import Verif.Modes
import Verif.Converge6
import Mathlib.Analysis.SpecialFunctions.Trigonometric.Bounds
import Mathlib.Analysis.Convex.SpecificFunctions.Deriv
import Mathlib.Analysis.Real.Pi.Bounds

/-!
# C110: the frequencies of the modes
-/

namespace Wakis
namespace Conv
open Finset Sol Sparse Grid

/-! ### sine -/

theorem sin_cubic {x : ℝ} (hx : 0 ≤ x) : x - x ^ 3 / 6 ≤ Real.sin x := by
  have hd : ∀ y : ℝ, HasDerivAt (fun x => Real.sin x - x + x ^ 3 / 6) (Real.cos y - 1 + y ^ 2 / 2) y := by
    intro y
    have h := ((Real.hasDerivAt_sin y).sub (hasDerivAt_id y)).add (((hasDerivAt_id y).pow 3).div_const 6)
    refine h.congr_deriv ?_
    simp; ring
  have hm : Monotone fun x : ℝ => Real.sin x - x + x ^ 3 / 6 := by
    refine monotone_of_deriv_nonneg (fun y => (hd y).differentiableAt) fun y => ?_
    rw [(hd y).deriv]
    linarith [Real.one_sub_sq_div_two_le_cos (x := y)]
  have := hm hx
  simp at this
  linarith

theorem sinc_anti {s t : ℝ} (hs : 0 < s) (hst : s ≤ t) (ht : t ≤ Real.pi) : Real.sin t / t ≤ Real.sin s / s := by
  have h0 : 0 < t := lt_of_lt_of_le hs hst
  have hc := strictConcaveOn_sin_Icc.concaveOn.2 (⟨le_rfl, Real.pi_pos.le⟩ : (0 : ℝ) ∈ Set.Icc 0 Real.pi) (⟨h0.le, ht⟩ : t ∈ Set.Icc 0 Real.pi)
    (sub_nonneg.2 ((div_le_one h0).2 hst)) (show 0 ≤ s / t by positivity) (by ring)
  simp only [smul_eq_mul, Real.sin_zero, mul_zero, zero_add, div_mul_cancel₀ _ h0.ne'] at hc
  rw [div_le_div_iff₀ h0 hs]
  have : s / t * Real.sin t * t = Real.sin t * s := by field_simp
  nlinarith

/-- The tangent bound: `sin²` as a function of the square of its argument lies below its tangents. -/
theorem sin_sq_tangent {x X : ℝ} (hx : 0 ≤ x) (hx' : x ≤ Real.pi / 2) (hX : 0 < X) (hX' : X ≤ Real.pi / 2) :
    Real.sin x ^ 2 ≤ Real.sin X ^ 2 + Real.sin (2 * X) / (2 * X) * (x ^ 2 - X ^ 2) := by
  set c := Real.sin (2 * X) / (2 * X) with hc
  have hd : ∀ y : ℝ, HasDerivAt (fun y => Real.sin y ^ 2 - c * y ^ 2) (Real.sin (2 * y) - c * (2 * y)) y := by
    intro y
    have h := ((Real.hasDerivAt_sin y).pow 2).sub (((hasDerivAt_id y).pow 2).const_mul c)
    refine h.congr_deriv ?_
    simp [Real.sin_two_mul]
  have hcont : ContinuousOn (fun y => Real.sin y ^ 2 - c * y ^ 2) Set.univ := fun y _ => (hd y).continuousAt.continuousWithinAt
  rcases le_total x X with h | h
  · have hm : MonotoneOn (fun y => Real.sin y ^ 2 - c * y ^ 2) (Set.Icc 0 X) := by
      refine monotoneOn_of_deriv_nonneg (convex_Icc 0 X) (hcont.mono (Set.subset_univ _)) (fun y _ => (hd y).differentiableAt.differentiableWithinAt) fun y hy => ?_
      rw [interior_Icc] at hy
      rw [(hd y).deriv]
      have := sinc_anti (s := 2 * y) (t := 2 * X) (by linarith [hy.1]) (by linarith [hy.2]) (by linarith)
      have h2 : 0 < 2 * y := by linarith [hy.1]
      rw [← hc, le_div_iff₀ h2] at this
      linarith
    have := hm ⟨hx, h⟩ ⟨hX.le, le_rfl⟩ h
    simp only at this
    linarith
  · have hm : AntitoneOn (fun y => Real.sin y ^ 2 - c * y ^ 2) (Set.Icc X (Real.pi / 2)) := by
      refine antitoneOn_of_deriv_nonpos (convex_Icc _ _) (hcont.mono (Set.subset_univ _)) (fun y _ => (hd y).differentiableAt.differentiableWithinAt) fun y hy => ?_
      rw [interior_Icc] at hy
      rw [(hd y).deriv]
      have h2 : 0 < 2 * y := by linarith [hy.1]
      have := sinc_anti (s := 2 * X) (t := 2 * y) (by linarith) (by linarith [hy.1]) (by linarith [hy.2])
      rw [← hc, div_le_iff₀ h2] at this
      linarith
    have := hm ⟨le_rfl, hX'⟩ ⟨h, hx'⟩ h
    simp only at this
    linarith

/-- With weights of sum at most one, the mean of the squares of the sines is at most the square of the sine of the root mean square. -/
theorem sin_sq_mean {a b c x y z X : ℝ} (ha : 0 ≤ a) (hb : 0 ≤ b) (hc : 0 ≤ c) (h1 : a + b + c ≤ 1) (hx : 0 ≤ x ∧ x ≤ Real.pi / 2) (hy : 0 ≤ y ∧ y ≤ Real.pi / 2) (hz : 0 ≤ z ∧ z ≤ Real.pi / 2)
    (hX0 : 0 ≤ X) (hX : X ^ 2 = a * x ^ 2 + b * y ^ 2 + c * z ^ 2) :
    X ≤ Real.pi / 2 ∧ a * Real.sin x ^ 2 + b * Real.sin y ^ 2 + c * Real.sin z ^ 2 ≤ Real.sin X ^ 2 := by
  have hp : 0 < Real.pi / 2 := by positivity
  have sq : ∀ w : ℝ, 0 ≤ w ∧ w ≤ Real.pi / 2 → w ^ 2 ≤ (Real.pi / 2) ^ 2 := fun w hw => pow_le_pow_left₀ hw.1 hw.2 2
  have hXp : X ≤ Real.pi / 2 := by
    refine le_of_sq_le_sq ?_ hp.le
    rw [hX]
    have := mul_le_mul_of_nonneg_left (sq x hx) ha
    have := mul_le_mul_of_nonneg_left (sq y hy) hb
    have := mul_le_mul_of_nonneg_left (sq z hz) hc
    nlinarith [sq_nonneg (Real.pi / 2)]
  refine ⟨hXp, ?_⟩
  rcases hX0.eq_or_lt with h0 | h0
  · subst h0
    have z0 : ∀ {a x : ℝ}, 0 ≤ a → a * x ^ 2 = 0 → a * Real.sin x ^ 2 = 0 := by
      intro a x _ h
      rcases mul_eq_zero.1 h with h | h
      · rw [h, zero_mul]
      · rw [pow_eq_zero_iff (by norm_num)] at h; rw [h, Real.sin_zero]; ring
    have e1 : 0 ≤ a * x ^ 2 := by positivity
    have e2 : 0 ≤ b * y ^ 2 := by positivity
    have e3 : 0 ≤ c * z ^ 2 := by positivity
    rw [z0 ha (by nlinarith), z0 hb (by nlinarith), z0 hc (by nlinarith)]
    simp
  · have t1 := mul_le_mul_of_nonneg_left (sin_sq_tangent hx.1 hx.2 h0 hXp) ha
    have t2 := mul_le_mul_of_nonneg_left (sin_sq_tangent hy.1 hy.2 h0 hXp) hb
    have t3 := mul_le_mul_of_nonneg_left (sin_sq_tangent hz.1 hz.2 h0 hXp) hc
    have t4 := mul_le_mul_of_nonneg_left (sin_sq_tangent (x := 0) le_rfl hp.le h0 hXp) (by linarith : 0 ≤ 1 - a - b - c)
    rw [Real.sin_zero] at t4
    generalize Real.sin (2 * X) / (2 * X) = q at t1 t2 t3 t4
    have : a * (Real.sin X ^ 2 + q * (x ^ 2 - X ^ 2)) + b * (Real.sin X ^ 2 + q * (y ^ 2 - X ^ 2)) + c * (Real.sin X ^ 2 + q * (z ^ 2 - X ^ 2)) +
        (1 - a - b - c) * (Real.sin X ^ 2 + q * (0 ^ 2 - X ^ 2)) = Real.sin X ^ 2 := by
      linear_combination (-q) * hX
    linarith

namespace Box
variable (G : Box) {bc : Faces String}

/-- The resonance frequency (angular) of a box with ideal walls and the given wave numbers. -/
noncomputable def trueFreq (κ : ℕ → ℝ) : ℝ := Real.sqrt ((κ 0 ^ 2 + κ 1 ^ 2 + κ 2 ^ 2) / (G.eps * G.mu))

theorem len_pos (d : ℕ) : 0 < G.len d := by
  have := G.hdx; have := G.hdy; have := G.hdz
  unfold len; split_ifs <;> assumption

theorem arg_range {m : ℕ → ℕ} (hm : ∀ d < 3, m d ≤ G.num d) (hn : ∀ d < 3, 0 < G.num d) {d : ℕ} (hd : d < 3) : 0 ≤ G.kappa m d * G.len d / 2 ∧ G.kappa m d * G.len d / 2 ≤ Real.pi / 2 := by
  have hl := G.len_pos d
  have hN : (0 : ℝ) < G.num d := by exact_mod_cast hn d hd
  have e : G.kappa m d * G.len d / 2 = m d / G.num d * (Real.pi / 2) := by unfold kappa; field_simp
  have hp := Real.pi_pos
  rw [e]
  refine ⟨by positivity, ?_⟩
  have : (m d : ℝ) / G.num d ≤ 1 := (div_le_one hN).2 (by exact_mod_cast hm d hd)
  nlinarith

/-- The dispersion relation in terms of sines. -/
theorem disp_iff (m : ℕ → ℕ) {ω : ℝ} (hdt : 0 < G.dt) : G.Dispersion m ω ↔
    Real.sin (ω * G.dt / 2) ^ 2 = G.dt ^ 2 / (G.eps * G.mu * G.len 0 ^ 2) * Real.sin (G.kappa m 0 * G.len 0 / 2) ^ 2 +
      G.dt ^ 2 / (G.eps * G.mu * G.len 1 ^ 2) * Real.sin (G.kappa m 1 * G.len 1 / 2) ^ 2 + G.dt ^ 2 / (G.eps * G.mu * G.len 2 ^ 2) * Real.sin (G.kappa m 2 * G.len 2 / 2) ^ 2 := by
  have h0 := (G.len_pos 0).ne'; have h1 := (G.len_pos 1).ne'; have h2 := (G.len_pos 2).ne'; have he := G.heps.ne'; have hm := G.hmu.ne'; have hd := hdt.ne'
  unfold Dispersion kgrid
  generalize Real.sin (ω * G.dt / 2) = S
  generalize Real.sin (G.kappa m 0 * G.len 0 / 2) = a
  generalize Real.sin (G.kappa m 1 * G.len 1 / 2) = b
  generalize Real.sin (G.kappa m 2 * G.len 2 / 2) = c
  have e : G.eps * G.mu * (2 * S / G.dt) ^ 2 = G.eps * G.mu * 4 / G.dt ^ 2 * S ^ 2 := by ring
  have e2 : (2 * a / G.len 0) ^ 2 + (2 * b / G.len 1) ^ 2 + (2 * c / G.len 2) ^ 2 = G.eps * G.mu * 4 / G.dt ^ 2 *
      (G.dt ^ 2 / (G.eps * G.mu * G.len 0 ^ 2) * a ^ 2 + G.dt ^ 2 / (G.eps * G.mu * G.len 1 ^ 2) * b ^ 2 + G.dt ^ 2 / (G.eps * G.mu * G.len 2 ^ 2) * c ^ 2) := by
    field_simp
    ring
  rw [e, e2]
  exact mul_right_inj' (by positivity)

theorem weights (hcfl : G.dt ^ 2 * (1 / G.dx ^ 2 + 1 / G.dy ^ 2 + 1 / G.dz ^ 2) ≤ G.eps * G.mu) :
    G.dt ^ 2 / (G.eps * G.mu * G.len 0 ^ 2) + G.dt ^ 2 / (G.eps * G.mu * G.len 1 ^ 2) + G.dt ^ 2 / (G.eps * G.mu * G.len 2 ^ 2) ≤ 1 := by
  have hx := G.hdx; have hy := G.hdy; have hz := G.hdz; have he := G.heps; have hm := G.hmu
  have e : G.dt ^ 2 / (G.eps * G.mu * G.len 0 ^ 2) + G.dt ^ 2 / (G.eps * G.mu * G.len 1 ^ 2) + G.dt ^ 2 / (G.eps * G.mu * G.len 2 ^ 2) =
      G.dt ^ 2 * (1 / G.dx ^ 2 + 1 / G.dy ^ 2 + 1 / G.dz ^ 2) / (G.eps * G.mu) := by
    simp only [len, if_true, one_ne_zero, if_false, OfNat.ofNat_ne_zero, OfNat.ofNat_ne_one]
    field_simp
  rw [e]
  exact (div_le_one (by positivity)).2 hcfl

/-- **C110 (every mode rings).** At or below the stability limit every mode has one frequency between zero and half the sampling frequency. -/
theorem C110_unique_frequency (m : ℕ → ℕ) (hdt : 0 < G.dt) (hcfl : G.dt ^ 2 * (1 / G.dx ^ 2 + 1 / G.dy ^ 2 + 1 / G.dz ^ 2) ≤ G.eps * G.mu) :
    ∃! ω : ℝ, 0 ≤ ω ∧ ω * G.dt ≤ Real.pi ∧ G.Dispersion m ω := by
  have he := G.heps; have hm := G.hmu
  set R := G.dt ^ 2 / (G.eps * G.mu * G.len 0 ^ 2) * Real.sin (G.kappa m 0 * G.len 0 / 2) ^ 2 +
      G.dt ^ 2 / (G.eps * G.mu * G.len 1 ^ 2) * Real.sin (G.kappa m 1 * G.len 1 / 2) ^ 2 + G.dt ^ 2 / (G.eps * G.mu * G.len 2 ^ 2) * Real.sin (G.kappa m 2 * G.len 2 / 2) ^ 2 with hR
  have w := G.weights hcfl
  have R0 : 0 ≤ R := by rw [hR]; positivity
  have R1 : R ≤ 1 := by
    refine le_trans ?_ w
    rw [hR]
    have s : ∀ x, Real.sin x ^ 2 ≤ 1 := fun x => Real.sin_sq_le_one x
    gcongr <;> exact mul_le_of_le_one_right (by positivity) (s _)
  have hs1 : Real.sqrt R ≤ 1 := Real.sqrt_le_one.2 R1
  have hs0 := Real.sqrt_nonneg R
  have hp := Real.pi_pos
  have ha : (2 / G.dt * Real.arcsin (Real.sqrt R)) * G.dt / 2 = Real.arcsin (Real.sqrt R) := by field_simp
  refine ⟨2 / G.dt * Real.arcsin (Real.sqrt R), ⟨mul_nonneg (by positivity) (Real.arcsin_nonneg.2 hs0), ?_, ?_⟩, ?_⟩
  · have : 2 / G.dt * Real.arcsin (Real.sqrt R) * G.dt = 2 * Real.arcsin (Real.sqrt R) := by field_simp
    rw [this]
    linarith [Real.arcsin_le_pi_div_two (Real.sqrt R)]
  · rw [G.disp_iff m hdt, ha, Real.sin_arcsin (by linarith) hs1, Real.sq_sqrt R0]
  · rintro ω ⟨h1, h2, h3⟩
    rw [G.disp_iff m hdt] at h3
    have hr : 0 ≤ ω * G.dt / 2 ∧ ω * G.dt / 2 ≤ Real.pi / 2 := ⟨by positivity, by linarith⟩
    have hsn : 0 ≤ Real.sin (ω * G.dt / 2) := Real.sin_nonneg_of_nonneg_of_le_pi hr.1 (by linarith)
    have e : Real.sin (ω * G.dt / 2) = Real.sqrt R := by rw [hR, ← h3, Real.sqrt_sq hsn]
    rw [← e, Real.arcsin_sin (by linarith) hr.2]
    field_simp

/-- **C110 (frequencies).** At or below the stability limit the frequency of a mode is never above the resonance frequency of the box between the walls, and falls short of it at most by the
fraction `(κ h)²/24` for the largest product of wave number and cell length: the error is of second order. -/
theorem C110_frequency {m : ℕ → ℕ} (hm : ∀ d < 3, m d ≤ G.num d) (hn : ∀ d < 3, 0 < G.num d) (hdt : 0 < G.dt)
    (hcfl : G.dt ^ 2 * (1 / G.dx ^ 2 + 1 / G.dy ^ 2 + 1 / G.dz ^ 2) ≤ G.eps * G.mu) {ω : ℝ} (h0 : 0 ≤ ω) (h1 : ω * G.dt ≤ Real.pi) (hdisp : G.Dispersion m ω) {M : ℝ}
    (hM : ∀ d < 3, (G.kappa m d * G.len d) ^ 2 ≤ M) : G.trueFreq (G.kappa m) * (1 - M / 24) ≤ ω ∧ ω ≤ G.trueFreq (G.kappa m) := by
  have he := G.heps; have hmu := G.hmu; have hp := Real.pi_pos
  have l0 := G.len_pos 0; have l1 := G.len_pos 1; have l2 := G.len_pos 2
  have r0 := G.arg_range hm hn (d := 0) (by decide)
  have r1 := G.arg_range hm hn (d := 1) (by decide)
  have r2 := G.arg_range hm hn (d := 2) (by decide)
  have tf0 : 0 ≤ G.trueFreq (G.kappa m) := Real.sqrt_nonneg _
  have tf2 : G.trueFreq (G.kappa m) ^ 2 = (G.kappa m 0 ^ 2 + G.kappa m 1 ^ 2 + G.kappa m 2 ^ 2) / (G.eps * G.mu) := Real.sq_sqrt (by positivity)
  have hr : 0 ≤ ω * G.dt / 2 ∧ ω * G.dt / 2 ≤ Real.pi / 2 := ⟨by positivity, by linarith⟩
  constructor
  · -- lower bound
    by_cases hM24 : 24 ≤ M
    · exact le_trans (mul_nonpos_of_nonneg_of_nonpos tf0 (by linarith)) h0
    push Not at hM24
    have hk : ∀ d < 3, 0 ≤ G.kappa m d ∧ G.kappa m d * (1 - M / 24) ≤ G.kgrid m d := by
      intro d hd
      have hl := G.len_pos d
      have hN : (0 : ℝ) < G.num d := by exact_mod_cast hn d hd
      have k0 : 0 ≤ G.kappa m d := by unfold kappa; positivity
      have c := sin_cubic (G.arg_range hm hn hd).1
      refine ⟨k0, ?_⟩
      unfold kgrid
      rw [le_div_iff₀ hl]
      have hm2 := hM d hd
      have : G.kappa m d * G.len d * (G.kappa m d * G.len d) ^ 2 ≤ G.kappa m d * G.len d * M := mul_le_mul_of_nonneg_left hm2 (by positivity)
      nlinarith
    have hs : Real.sin (ω * G.dt / 2) ≤ ω * G.dt / 2 := Real.sin_le hr.1
    have hsn : 0 ≤ Real.sin (ω * G.dt / 2) := Real.sin_nonneg_of_nonneg_of_le_pi hr.1 (by linarith)
    have up : (2 * Real.sin (ω * G.dt / 2) / G.dt) ^ 2 ≤ ω ^ 2 := by
      refine pow_le_pow_left₀ (by positivity) ?_ 2
      rw [div_le_iff₀ hdt]; linarith
    have hd : G.eps * G.mu * (2 * Real.sin (ω * G.dt / 2) / G.dt) ^ 2 = G.kgrid m 0 ^ 2 + G.kgrid m 1 ^ 2 + G.kgrid m 2 ^ 2 := hdisp
    have sq : ∀ d < 3, (G.kappa m d * (1 - M / 24)) ^ 2 ≤ G.kgrid m d ^ 2 := fun d hd => pow_le_pow_left₀ (mul_nonneg (hk d hd).1 (by linarith)) (hk d hd).2 2
    have s0 := sq 0 (by decide); have s1 := sq 1 (by decide); have s2 := sq 2 (by decide)
    refine le_of_sq_le_sq ?_ h0
    rw [mul_pow, tf2, div_mul_eq_mul_div, div_le_iff₀ (by positivity)]
    have : G.eps * G.mu * (2 * Real.sin (ω * G.dt / 2) / G.dt) ^ 2 ≤ G.eps * G.mu * ω ^ 2 := mul_le_mul_of_nonneg_left up (by positivity)
    simp only [mul_pow] at s0 s1 s2
    linarith
  · -- upper bound
    have X2 : (G.trueFreq (G.kappa m) * G.dt / 2) ^ 2 = G.dt ^ 2 / (G.eps * G.mu * G.len 0 ^ 2) * (G.kappa m 0 * G.len 0 / 2) ^ 2 +
        G.dt ^ 2 / (G.eps * G.mu * G.len 1 ^ 2) * (G.kappa m 1 * G.len 1 / 2) ^ 2 + G.dt ^ 2 / (G.eps * G.mu * G.len 2 ^ 2) * (G.kappa m 2 * G.len 2 / 2) ^ 2 := by
      rw [show (G.trueFreq (G.kappa m) * G.dt / 2) ^ 2 = G.trueFreq (G.kappa m) ^ 2 * G.dt ^ 2 / 4 by ring, tf2]
      field_simp
      ring
    obtain ⟨hX, hle⟩ := sin_sq_mean (by positivity) (by positivity) (by positivity) (G.weights hcfl) r0 r1 r2 (by positivity) X2
    rw [← (G.disp_iff m hdt).1 hdisp] at hle
    have hXn : 0 ≤ G.trueFreq (G.kappa m) * G.dt / 2 := by positivity
    have hsn : 0 ≤ Real.sin (G.trueFreq (G.kappa m) * G.dt / 2) := Real.sin_nonneg_of_nonneg_of_le_pi hXn (by linarith)
    have := le_of_sq_le_sq hle hsn
    by_contra hlt
    push Not at hlt
    have : Real.sin (G.trueFreq (G.kappa m) * G.dt / 2) < Real.sin (ω * G.dt / 2) :=
      Real.sin_lt_sin_of_lt_of_le_pi_div_two (by linarith) hr.2 (by
        have := mul_lt_mul_of_pos_right hlt hdt
        linarith)
    linarith

/-- A mode with a half wave in some direction does oscillate. -/
theorem mode_moves {m : ℕ → ℕ} (hm : ∀ d < 3, m d ≤ G.num d) (hn : ∀ d < 3, 0 < G.num d) (h1 : ∃ d < 3, 0 < m d) {ω : ℝ} (hdisp : G.Dispersion m ω) : Real.sin (ω * G.dt / 2) ≠ 0 := by
  intro h
  obtain ⟨d, hd, hmd⟩ := h1
  have hN : (0 : ℝ) < G.num d := by exact_mod_cast hn d hd
  have hp := Real.pi_pos
  have hl := G.len_pos d
  have hm' : (0 : ℝ) < m d := by exact_mod_cast hmd
  have e : G.kgrid m 0 ^ 2 + G.kgrid m 1 ^ 2 + G.kgrid m 2 ^ 2 = 0 := by
    have := hdisp
    unfold Dispersion at this
    rw [← this, h]; simp
  have k : 0 < G.kgrid m d := by
    have r := G.arg_range hm hn hd
    have : 0 < Real.sin (G.kappa m d * G.len d / 2) := Real.sin_pos_of_pos_of_lt_pi (by unfold kappa; positivity) (by linarith [r.2])
    unfold kgrid; positivity
  have h3 : d = 0 ∨ d = 1 ∨ d = 2 := by omega
  have a := sq_nonneg (G.kgrid m 0); have b := sq_nonneg (G.kgrid m 1); have c := sq_nonneg (G.kgrid m 2)
  have := pow_pos k 2
  rcases h3 with rfl | rfl | rfl <;> linarith

/-- **C110 (a closed box rings, partial).** A box of equal cells with six electric walls and one lossless material, at or below the stability limit.  For all half-wave numbers that fit the grid, not all
zero, and all transverse amplitudes there is one frequency, not above that of the box between the walls and below it at most by a fraction of second order, such that every run from the
samples of the standing wave holds the samples of the standing wave after every number of steps.

The walls are those the solver puts: the high ones are one cell before the end of the box given to the grid (`C110_requested_box_refuted`). -/
theorem C110_rings_partial (hbc : AllPec bc) {m : ℕ → ℕ} (hm : ∀ d < 3, m d ≤ G.num d) (hn : ∀ d < 3, 0 < G.num d) (h1 : ∃ d < 3, 0 < m d) (hdt : 0 < G.dt)
    (hcfl : G.dt ^ 2 * (1 / G.dx ^ 2 + 1 / G.dy ^ 2 + 1 / G.dz ^ 2) ≤ G.eps * G.mu) {A : ℕ → ℝ} (hdiv : G.kgrid m 0 * A 0 + G.kgrid m 1 * A 1 + G.kgrid m 2 * A 2 = 0) {M : ℝ}
    (hM : ∀ d < 3, (G.kappa m d * G.len d) ^ 2 ≤ M) :
    ∃ ω : ℝ, G.trueFreq (G.kappa m) * (1 - M / 24) ≤ ω ∧ ω ≤ G.trueFreq (G.kappa m) ∧ 0 < ω ∧ ω * G.dt ≤ Real.pi ∧
      ∀ (t0 : ℝ) (st : State ℝ), G.Holds (modeE (G.kappa m) A ω G.lo) (modeH (G.kappa m) (G.magn m A ω) ω G.lo) t0 (t0 - G.dt / 2) st → ∀ n : ℕ,
        G.Holds (modeE (G.kappa m) A ω G.lo) (modeH (G.kappa m) (G.magn m A ω) ω G.lo) (t0 + n * G.dt) (t0 + (n - 1 / 2) * G.dt) (G.run bc (fun _ _ => 0) st n) := by
  obtain ⟨ω, ⟨h0, hp, hd⟩, _⟩ := G.C110_unique_frequency m hdt hcfl
  obtain ⟨lo, hi⟩ := G.C110_frequency hm hn hdt hcfl h0 hp hd hM
  have hs := G.mode_moves hm hn h1 hd
  refine ⟨ω, lo, hi, lt_of_le_of_ne h0 ?_, hp, fun t0 st hst n => G.C110_mode hbc (hn 0 (by decide)) (hn 1 (by decide)) (hn 2 (by decide)) m A hdt hs hdiv hd st hst n⟩
  rintro rfl
  exact hs (by simp)

end Box

/-- One half wave along x and y. -/
def m110 (d : ℕ) : ℕ := if d = 2 then 0 else 1

theorem unitCube_kappa (N : ℕ) (hN : 3 ≤ N) : (unitCube N (by omega)).kappa m110 0 = Real.pi * N / ((N : ℝ) - 1) ∧ (unitCube N (by omega)).kappa m110 1 = Real.pi * N / ((N : ℝ) - 1) ∧
    (unitCube N (by omega)).kappa m110 2 = 0 := by
  have h : (N : ℝ) ≠ 0 := by positivity
  have h' : (N : ℝ) - 1 ≠ 0 := by
    have : (3 : ℝ) ≤ N := by exact_mod_cast hN
    linarith
  have e : ((N - 1 : ℕ) : ℝ) = N - 1 := by rw [Nat.cast_sub (by omega)]; simp
  refine ⟨?_, ?_, ?_⟩ <;> simp only [Box.kappa, Box.num, Box.len, unitCube, m110] <;> simp [e]
  · field_simp
  · field_simp

/-- **C110 refuted (the requested box).** The unit cube with `N³` cells, `N ≥ 3`, six electric walls.  Its lowest resonance frequency is `√2 π`; the frequency at which the mode with one half wave along
x and y rings in the solver is higher by a fraction of at least `1/(2N)`: an error of first order. -/
theorem C110_requested_box_refuted (N : ℕ) (hN : 3 ≤ N) {ω : ℝ} (h0 : 0 ≤ ω) (h1 : ω * (unitCube N (by omega)).dt ≤ Real.pi) (hdisp : (unitCube N (by omega)).Dispersion m110 ω) :
    Real.sqrt 2 * Real.pi * (1 + 1 / (2 * N)) ≤ ω := by
  obtain ⟨k0, k1, k2⟩ := unitCube_kappa N hN
  have hN3 : (3 : ℝ) ≤ N := by exact_mod_cast hN
  have hN0 : (N : ℝ) ≠ 0 := by positivity
  have hN1 : (0 : ℝ) < N - 1 := by linarith
  have hp := Real.pi_pos
  have hp2 : Real.pi ^ 2 ≤ 10 := by nlinarith [Real.pi_lt_d2, Real.pi_pos]
  set G := unitCube N (by omega) with hG
  have hnum : ∀ d < 3, m110 d ≤ G.num d ∧ 0 < G.num d := by
    intro d hd
    have h3 : d = 0 ∨ d = 1 ∨ d = 2 := by omega
    rcases h3 with rfl | rfl | rfl <;> simp [hG, m110, Box.num, unitCube] <;> omega
  have hlen : ∀ d, G.len d = 1 / N := by intro d; simp [hG, Box.len, unitCube]
  have hcfl : G.dt ^ 2 * (1 / G.dx ^ 2 + 1 / G.dy ^ 2 + 1 / G.dz ^ 2) ≤ G.eps * G.mu := by
    simp only [hG, unitCube]
    have : (1 / (4 * (N : ℝ))) ^ 2 * (1 / (1 / (N : ℝ)) ^ 2 + 1 / (1 / (N : ℝ)) ^ 2 + 1 / (1 / (N : ℝ)) ^ 2) = 3 / 16 := by field_simp; norm_num
    rw [this]; norm_num
  have hM : ∀ d < 3, (G.kappa m110 d * G.len d) ^ 2 ≤ (Real.pi / (N - 1)) ^ 2 := by
    intro d hd
    have h3 : d = 0 ∨ d = 1 ∨ d = 2 := by omega
    have e : Real.pi * N / ((N : ℝ) - 1) * (1 / N) = Real.pi / (N - 1) := by field_simp
    rcases h3 with rfl | rfl | rfl
    · rw [k0, hlen, e]
    · rw [k1, hlen, e]
    · rw [k2]; simp; positivity
  have lo := (G.C110_frequency (fun d hd => (hnum d hd).1) (fun d hd => (hnum d hd).2) (show 0 < 1 / (4 * (N : ℝ)) by positivity) hcfl h0 h1 hdisp hM).1
  have tf : G.trueFreq (G.kappa m110) = Real.sqrt 2 * Real.pi * (N / (N - 1)) := by
    unfold Box.trueFreq
    rw [k0, k1, k2, show G.eps * G.mu = 1 by simp [hG, unitCube], show ((Real.pi * N / ((N : ℝ) - 1)) ^ 2 + (Real.pi * N / ((N : ℝ) - 1)) ^ 2 + 0 ^ 2) / 1 = 2 * (Real.pi * (N / (N - 1))) ^ 2 by ring,
      Real.sqrt_mul (by norm_num), Real.sqrt_sq (by positivity)]
    ring
  rw [tf] at lo
  refine le_trans ?_ lo
  rw [mul_assoc (Real.sqrt 2 * Real.pi)]
  refine mul_le_mul_of_nonneg_left ?_ (by positivity)
  have e1 : 1 + 1 / (2 * (N : ℝ)) = (2 * N + 1) / (2 * N) := by field_simp
  have e2 : (N : ℝ) / (N - 1) * (1 - (Real.pi / (N - 1)) ^ 2 / 24) = N * (24 * (N - 1) ^ 2 - Real.pi ^ 2) / (24 * (N - 1) ^ 3) := by field_simp
  rw [e1, e2, div_le_div_iff₀ (by positivity) (by positivity)]
  obtain ⟨q, hq⟩ : ∃ q : ℝ, (N : ℝ) = q + 3 := ⟨N - 3, by ring⟩
  have q0 : 0 ≤ q := by linarith
  rw [hq]
  have h10 : (q + 3) * (24 * (q + 3 - 1) ^ 2 - 10) * (2 * (q + 3)) ≤ (q + 3) * (24 * (q + 3 - 1) ^ 2 - Real.pi ^ 2) * (2 * (q + 3)) := by
    refine mul_le_mul_of_nonneg_right (mul_le_mul_of_nonneg_left (by linarith) (by linarith)) (by linarith)
  refine le_trans ?_ h10
  nlinarith [pow_nonneg q0 2, pow_nonneg q0 3, pow_nonneg q0 4]

/-- `√2 π` is the frequency of the mode of the unit cube used in C105 and C106. -/
example : om = Real.sqrt 2 * Real.pi := by
  unfold om; ring

/-- The hypotheses of `C110_rings_partial` are met by the mode with one half wave along x and y, E along z, in the unit cube, and a start exists. -/
example (N : ℕ) (hN : 3 ≤ N) {bc : Faces String} (hbc : AllPec bc) : ∃ ω : ℝ, 0 < ω ∧ ∃ st : State ℝ, ∀ n : ℕ, ∀ i < N - 1, ∀ j < N - 1, ∀ k < N - 1,
    ((unitCube N (by omega)).run bc (fun _ _ => 0) st n).E ((unitCube N (by omega)).at' 2 i j k) =
      Real.sin (Real.pi * i / (N - 1)) * Real.sin (Real.pi * j / (N - 1)) * Real.cos (ω * (n * (unitCube N (by omega)).dt)) := by
  obtain ⟨k0, k1, k2⟩ := unitCube_kappa N hN
  have hN3 : (3 : ℝ) ≤ N := by exact_mod_cast hN
  have hN0 : (N : ℝ) ≠ 0 := by positivity
  have hN1 : (N : ℝ) - 1 ≠ 0 := by linarith
  set G := unitCube N (by omega) with hG
  have hnum : ∀ d < 3, m110 d ≤ G.num d ∧ 0 < G.num d := by
    intro d hd
    have h3 : d = 0 ∨ d = 1 ∨ d = 2 := by omega
    rcases h3 with rfl | rfl | rfl <;> simp [hG, m110, Box.num, unitCube] <;> omega
  have hcfl : G.dt ^ 2 * (1 / G.dx ^ 2 + 1 / G.dy ^ 2 + 1 / G.dz ^ 2) ≤ G.eps * G.mu := by
    simp only [hG, unitCube]
    have : (1 / (4 * (N : ℝ))) ^ 2 * (1 / (1 / (N : ℝ)) ^ 2 + 1 / (1 / (N : ℝ)) ^ 2 + 1 / (1 / (N : ℝ)) ^ 2) = 3 / 16 := by field_simp; norm_num
    rw [this]; norm_num
  have hg2 : G.kgrid m110 2 = 0 := by unfold Box.kgrid; rw [k2]; simp
  obtain ⟨ω, _, _, hω, _, h⟩ := G.C110_rings_partial hbc (m := m110) (fun d hd => (hnum d hd).1) (fun d hd => (hnum d hd).2) ⟨0, by decide, by decide⟩
    (show 0 < 1 / (4 * (N : ℝ)) by positivity) hcfl (A := fun c => if c = 2 then 1 else 0) (by simp [hg2])
    (M := (G.kappa m110 0 * G.len 0) ^ 2 + (G.kappa m110 1 * G.len 1) ^ 2 + (G.kappa m110 2 * G.len 2) ^ 2) (by
      intro d hd
      have h3 : d = 0 ∨ d = 1 ∨ d = 2 := by omega
      have a := sq_nonneg (G.kappa m110 0 * G.len 0); have b := sq_nonneg (G.kappa m110 1 * G.len 1); have c := sq_nonneg (G.kappa m110 2 * G.len 2)
      rcases h3 with rfl | rfl | rfl <;> linarith)
  obtain ⟨st, _, hst⟩ := exists_state G (fun c i j k => modeE (G.kappa m110) (fun c => if c = 2 then 1 else 0) ω G.lo c 0 (G.ePt c i j k))
    (fun c i j k => modeH (G.kappa m110) (G.magn m110 (fun c => if c = 2 then 1 else 0) ω) ω G.lo c (0 - G.dt / 2) (G.hPt c i j k))
  refine ⟨ω, hω, st, fun n i hi j hj k hk => ?_⟩
  have := (h 0 st (fun c _ i hi j hj k hk => hst c i hi.le j hj.le k hk.le) n 2 (by decide) i hi j hj k hk).1
  rw [this]
  have px : Real.pi * N / ((N : ℝ) - 1) * (G.ePt 2 i j k).1 = Real.pi * i / (N - 1) := by
    show Real.pi * N / ((N : ℝ) - 1) * (0 + (i : ℝ) * (1 / N)) = _
    field_simp; ring
  have py : Real.pi * N / ((N : ℝ) - 1) * (G.ePt 2 i j k).2.1 = Real.pi * j / (N - 1) := by
    show Real.pi * N / ((N : ℝ) - 1) * (0 + (j : ℝ) * (1 / N)) = _
    field_simp; ring
  have lo0 : G.lo = (0, 0, 0) := by
    show ((0 : ℝ) + ((0 : ℕ) : ℝ) * (1 / N), (0 : ℝ) + ((0 : ℕ) : ℝ) * (1 / N), (0 : ℝ) + ((0 : ℕ) : ℝ) * (1 / N)) = _
    simp
  simp [modeE, trig, cor, lo0, k0, k1, k2, px, py]

end Conv
end Wakis
