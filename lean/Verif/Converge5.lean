import Verif.Converge4
import Mathlib.Analysis.SpecialFunctions.Trigonometric.Deriv
import Mathlib.Analysis.SpecialFunctions.Trigonometric.Basic

/-!
# C105: order of convergence, and a cavity mode as an instance
-/

namespace Wakis
namespace Conv
open Finset Sol Sparse Grid CurlBound

/-- The constant of the error bound: it depends on the medium, the box, the solution, the time and the distance from the stability limit, not on the grid. -/
noncomputable def errConst (eps mu : ℝ) (lo hi : ℝ × ℝ × ℝ) (mE mH nE nH κ T : ℝ) : ℝ :=
  let V := (cor 0 hi - cor 0 lo) * (cor 1 hi - cor 1 lo) * (cor 2 hi - cor 2 lo)
  Real.sqrt (6 / (1 - κ)) * T * (Real.sqrt (24 * eps * V) * ((nE * (κ * (eps * mu)) + mH / eps) / 24) + Real.sqrt (24 * mu * V) * ((nH * (κ * (eps * mu)) + mE / mu) / 24))

/-- **C105 (second order).** For a given solution in a given box, time and `κ < 1`, there is one constant such that on every uniform grid with its walls on the box, with
every time step allowed by `κ`, the fields of a fresh solver that starts from the samples of the solution differ from it, at every step up to the given time, by at most
the constant times `dx² + dy² + dz²`. -/
theorem C105_second_order {eps mu : ℝ} {lo hi : ℝ × ℝ × ℝ} {ta tb mE mH nE nH : ℝ} (S : Maxwell eps mu lo hi ta tb mE mH nE nH) (hmE : 0 ≤ mE) (hmH : 0 ≤ mH) (hnE : 0 ≤ nE)
    (hnH : 0 ≤ nH) {κ T : ℝ} (hκ : κ < 1) (G : Box) (hG : G.eps = eps ∧ G.mu = mu ∧ G.lo = lo ∧ G.hi = hi) (hnx : 0 < G.nx) (hny : 0 < G.ny) (hnz : 0 < G.nz)
    (hcfl : G.dt ^ 2 * (1 / G.dx ^ 2 + 1 / G.dy ^ 2 + 1 / G.dz ^ 2) ≤ κ * (eps * mu)) {bc : Faces String} (hbc : AllPec bc) {t0 : ℝ} {n : ℕ} (ha : ta ≤ t0 - G.dt / 2)
    (hb : t0 + n * G.dt ≤ tb) (hT : n * G.dt ≤ T) {Jd : ℕ → ℕ → ℝ} (hJ : G.Drives S.J t0 Jd) (st : State ℝ) (h0 : st.step0 = true)
    (hst : ∀ c < 3, ∀ i < G.nx, ∀ j < G.ny, ∀ k < G.nz, st.E (G.at' c i j k) = S.E c t0 (G.ePt c i j k) ∧ st.H (G.at' c i j k) = S.H c (t0 - G.dt / 2) (G.hPt c i j k)) :
    G.l2err S.E S.H (t0 + n * G.dt) (t0 + (n - 1 / 2) * G.dt) (G.run bc Jd st n) ≤ errConst eps mu lo hi mE mH nE nH κ T * (G.dx ^ 2 + G.dy ^ 2 + G.dz ^ 2) := by
  obtain ⟨rfl, rfl, rfl, rfl⟩ := hG
  have e0 : G.l2err S.E S.H t0 (t0 - G.dt / 2) st = 0 := by
    unfold Box.l2err
    rw [Real.sqrt_eq_zero']
    refine le_of_eq (sum_eq_zero fun i hi => sum_eq_zero fun j hj => sum_eq_zero fun k hk => sum_eq_zero fun c hc => ?_)
    obtain ⟨a, b⟩ := hst c (mem_range.1 hc) i (mem_range.1 hi) j (mem_range.1 hj) k (mem_range.1 hk)
    rw [a, b]; ring
  have key := G.C105_converges S hbc hmE hmH hnE hnH hcfl hκ ha hb hJ st h0
  rw [e0, zero_add] at key
  refine key.trans ?_
  have hdt := G.hdt; have hdx := G.hdx; have hdy := G.hdy; have hdz := G.hdz; have heps := G.heps; have hmu := G.hmu
  -- the time step against the cell size
  have dt2 : G.dt ^ 2 ≤ κ * (G.eps * G.mu) * G.h2 := by
    have a1 : 1 ≤ (1 / G.dx ^ 2 + 1 / G.dy ^ 2 + 1 / G.dz ^ 2) * G.h2 := by
      have : 1 / G.dx ^ 2 * G.dx ^ 2 = 1 := by field_simp
      have p : 0 ≤ 1 / G.dx ^ 2 * (G.dy ^ 2 + G.dz ^ 2) + (1 / G.dy ^ 2 + 1 / G.dz ^ 2) * G.h2 := by unfold Box.h2; positivity
      unfold Box.h2 at *
      linarith
    have p2 : 0 ≤ G.h2 := by unfold Box.h2; positivity
    nlinarith [sq_nonneg G.dt]
  have hκ0 : 0 ≤ κ := by
    by_contra hneg
    push Not at hneg
    have : κ * (G.eps * G.mu) < 0 := mul_neg_of_neg_of_pos hneg (mul_pos heps hmu)
    have : 0 ≤ G.dt ^ 2 * (1 / G.dx ^ 2 + 1 / G.dy ^ 2 + 1 / G.dz ^ 2) := by positivity
    linarith
  have hh2 : 0 ≤ G.h2 := by unfold Box.h2; positivity
  -- the volume of the grid against that of the box
  set V := (cor 0 G.hi - cor 0 G.lo) * (cor 1 G.hi - cor 1 G.lo) * (cor 2 G.hi - cor 2 G.lo) with hV
  have eV : V = (G.nx * G.dx) * (G.ny * G.dy) * (G.nz * G.dz) := by
    simp only [hV, cor, Box.hi, Box.lo, Box.ax, Box.ay, Box.az]
    simp
  have VV : G.Vol ≤ 8 * V := by
    have c1 : ((G.nx + 1 : ℕ) : ℝ) * G.dx ≤ 2 * (G.nx * G.dx) := by
      have : (1 : ℝ) ≤ G.nx := by exact_mod_cast hnx
      push_cast; nlinarith
    have c2 : ((G.ny + 1 : ℕ) : ℝ) * G.dy ≤ 2 * (G.ny * G.dy) := by
      have : (1 : ℝ) ≤ G.ny := by exact_mod_cast hny
      push_cast; nlinarith
    have c3 : ((G.nz + 1 : ℕ) : ℝ) * G.dz ≤ 2 * (G.nz * G.dz) := by
      have : (1 : ℝ) ≤ G.nz := by exact_mod_cast hnz
      push_cast; nlinarith
    rw [eV]
    unfold Box.Vol
    calc _ ≤ (2 * (G.nx * G.dx)) * (2 * (G.ny * G.dy)) * (2 * (G.nz * G.dz)) := by gcongr
      _ = _ := by ring
  have V0 : 0 ≤ G.Vol := by unfold Box.Vol; positivity
  have tauB : G.tau mE mH nE nH ≤ (Real.sqrt (24 * G.eps * V) * ((nE * (κ * (G.eps * G.mu)) + mH / G.eps) / 24) +
      Real.sqrt (24 * G.mu * V) * ((nH * (κ * (G.eps * G.mu)) + mE / G.mu) / 24)) * G.h2 := by
    unfold Box.tau
    have s1 : Real.sqrt (3 * G.eps * G.Vol) ≤ Real.sqrt (24 * G.eps * V) := Real.sqrt_le_sqrt (by have := mul_le_mul_of_nonneg_left VV (by positivity : 0 ≤ 3 * G.eps); linarith)
    have s2 : Real.sqrt (3 * G.mu * G.Vol) ≤ Real.sqrt (24 * G.mu * V) := Real.sqrt_le_sqrt (by have := mul_le_mul_of_nonneg_left VV (by positivity : 0 ≤ 3 * G.mu); linarith)
    have d1 : nE * G.dt ^ 2 ≤ nE * (κ * (G.eps * G.mu) * G.h2) := mul_le_mul_of_nonneg_left dt2 hnE
    have d2 : nH * G.dt ^ 2 ≤ nH * (κ * (G.eps * G.mu) * G.h2) := mul_le_mul_of_nonneg_left dt2 hnH
    have b1 : (nE * G.dt ^ 2 + mH / G.eps * G.h2) / 24 ≤ (nE * (κ * (G.eps * G.mu)) + mH / G.eps) / 24 * G.h2 := by linarith
    have b2 : (nH * G.dt ^ 2 + mE / G.mu * G.h2) / 24 ≤ (nH * (κ * (G.eps * G.mu)) + mE / G.mu) / 24 * G.h2 := by linarith
    have m1 := mul_le_mul s1 b1 (by positivity) (Real.sqrt_nonneg _)
    have m2 := mul_le_mul s2 b2 (by positivity) (Real.sqrt_nonneg _)
    linarith
  have t0' : 0 ≤ G.tau mE mH nE nH := by unfold Box.tau; positivity
  have hT0 : 0 ≤ T := le_trans (by positivity) hT
  have step1 : n * G.dt * G.tau mE mH nE nH ≤ T * ((Real.sqrt (24 * G.eps * V) * ((nE * (κ * (G.eps * G.mu)) + mH / G.eps) / 24) +
      Real.sqrt (24 * G.mu * V) * ((nH * (κ * (G.eps * G.mu)) + mE / G.mu) / 24)) * G.h2) := mul_le_mul hT tauB t0' hT0
  refine (mul_le_mul_of_nonneg_left step1 (Real.sqrt_nonneg _)).trans (le_of_eq ?_)
  simp only [errConst, Box.h2, hV]
  ring

/-! ### an instance: a mode of the unit cavity -/

theorem third_sin {A k φ M : ℝ} {f f' : ℝ → ℝ} (hf : ∀ s, f s = A * Real.sin (k * s + φ)) (hf' : ∀ s, f' s = A * k * Real.cos (k * s + φ)) (hM : |A * k ^ 3| ≤ M) (a b : ℝ) :
    ThirdBound f f' a b M := by
  have hl : ∀ s : ℝ, HasDerivAt (fun s => k * s + φ) k s := fun s => by
    simpa using ((hasDerivAt_id s).const_mul k).add_const φ
  have d1 : ∀ s, HasDerivAt f (f' s) s := by
    intro s
    have := ((Real.hasDerivAt_sin _).comp s (hl s)).const_mul A
    rw [hf']
    have e : f = fun s => A * Real.sin (k * s + φ) := funext hf
    rw [e]
    refine this.congr_deriv ?_
    ring
  have d2 : ∀ s, HasDerivAt f' (-(A * k ^ 2) * Real.sin (k * s + φ)) s := by
    intro s
    have := ((Real.hasDerivAt_cos _).comp s (hl s)).const_mul (A * k)
    have e : f' = fun s => A * k * Real.cos (k * s + φ) := funext hf'
    rw [e]
    refine this.congr_deriv ?_
    ring
  have d3 : ∀ s, HasDerivAt (fun s => -(A * k ^ 2) * Real.sin (k * s + φ)) (-(A * k ^ 3) * Real.cos (k * s + φ)) s := by
    intro s
    have := ((Real.hasDerivAt_sin _).comp s (hl s)).const_mul (-(A * k ^ 2))
    refine this.congr_deriv ?_
    ring
  refine ⟨_, _, fun s _ => (d1 s).hasDerivWithinAt, fun s _ => (d2 s).hasDerivWithinAt, fun s _ => (d3 s).hasDerivWithinAt, fun s _ => ?_⟩
  rw [abs_mul, abs_neg]
  exact (mul_le_of_le_one_right (abs_nonneg _) (Real.abs_cos_le_one _)).trans hM

theorem third_zero {f f' : ℝ → ℝ} {M C : ℝ} (hf : ∀ s, f s = C) (hf' : ∀ s, f' s = 0) (hM : 0 ≤ M) (a b : ℝ) : ThirdBound f f' a b M := by
  have e : f = fun _ => C := funext hf
  have e' : f' = fun _ => 0 := funext hf'
  subst e e'
  exact ⟨fun _ => 0, fun _ => 0, fun s _ => (hasDerivAt_const s C).hasDerivWithinAt, fun s _ => (hasDerivAt_const s (0 : ℝ)).hasDerivWithinAt,
    fun s _ => (hasDerivAt_const s (0 : ℝ)).hasDerivWithinAt, fun _ _ => by simpa using hM⟩

theorem third_cos {A k M : ℝ} {f f' : ℝ → ℝ} (hf : ∀ s, f s = A * Real.cos (k * s)) (hf' : ∀ s, f' s = -(A * k * Real.sin (k * s))) (hM : |A * k ^ 3| ≤ M) (a b : ℝ) :
    ThirdBound f f' a b M :=
  third_sin (A := A) (k := k) (φ := Real.pi / 2) (fun s => by rw [hf, Real.sin_add_pi_div_two]) (fun s => by rw [hf', Real.cos_add_pi_div_two]; ring) hM a b

theorem third_sin' {A k M : ℝ} {f f' : ℝ → ℝ} (hf : ∀ s, f s = A * Real.sin (k * s)) (hf' : ∀ s, f' s = A * k * Real.cos (k * s)) (hM : |A * k ^ 3| ≤ M) (a b : ℝ) :
    ThirdBound f f' a b M :=
  third_sin (A := A) (k := k) (φ := 0) (fun s => by rw [hf, add_zero]) (fun s => by rw [hf', add_zero]) hM a b

/-- Angular frequency of the lowest mode of the unit cavity without variation along z. -/
noncomputable def om : ℝ := Real.sqrt 2 * Real.pi

theorem om_sq : om ^ 2 = 2 * Real.pi ^ 2 := by unfold om; rw [mul_pow, Real.sq_sqrt (by norm_num)]
theorem om_pos : 0 < om := mul_pos (by positivity) Real.pi_pos
theorem pi_le_om : Real.pi ≤ om := by
  have h := om_sq
  nlinarith [om_pos, Real.pi_pos, sq_nonneg (om - Real.pi)]

theorem amp {u v M : ℝ} (hu : |u| ≤ 1) (hv : |v| ≤ 1) (hM : 0 ≤ M) (k : ℝ) (hk : |k| ≤ M) : |u * v * k| ≤ M := by
  rw [abs_mul, abs_mul]
  have : |u| * |v| ≤ 1 := mul_le_one₀ hu (abs_nonneg _) hv
  calc |u| * |v| * |k| ≤ 1 * |k| := mul_le_mul_of_nonneg_right this (abs_nonneg _)
    _ ≤ M := by linarith

/-- The mode: `E_z = sin πx sin πy cos ωt`. -/
noncomputable def cavity (ta tb : ℝ) : Maxwell 1 1 (0, 0, 0) (1, 1, 1) ta tb (om ^ 3) (om ^ 3) (om ^ 3) (om ^ 3) where
  E c t p := if c = 2 then Real.sin (Real.pi * p.1) * Real.sin (Real.pi * p.2.1) * Real.cos (om * t) else 0
  H c t p := if c = 0 then -(Real.pi / om) * (Real.sin (Real.pi * p.1) * Real.cos (Real.pi * p.2.1) * Real.sin (om * t))
    else if c = 1 then Real.pi / om * (Real.cos (Real.pi * p.1) * Real.sin (Real.pi * p.2.1) * Real.sin (om * t)) else 0
  J _ _ _ := 0
  dE c d t p := if c = 2 then (if d = 0 then Real.pi * (Real.cos (Real.pi * p.1) * Real.sin (Real.pi * p.2.1) * Real.cos (om * t))
    else if d = 1 then Real.pi * (Real.sin (Real.pi * p.1) * Real.cos (Real.pi * p.2.1) * Real.cos (om * t)) else 0) else 0
  dH c d t p := if c = 0 then (if d = 1 then Real.pi / om * Real.pi * (Real.sin (Real.pi * p.1) * Real.sin (Real.pi * p.2.1) * Real.sin (om * t)) else 0)
    else if c = 1 then (if d = 0 then -(Real.pi / om * Real.pi) * (Real.sin (Real.pi * p.1) * Real.sin (Real.pi * p.2.1) * Real.sin (om * t)) else 0) else 0
  tE c t p := if c = 2 then -om * (Real.sin (Real.pi * p.1) * Real.sin (Real.pi * p.2.1) * Real.sin (om * t)) else 0
  tH c t p := if c = 0 then -Real.pi * (Real.sin (Real.pi * p.1) * Real.cos (Real.pi * p.2.1) * Real.cos (om * t))
    else if c = 1 then Real.pi * (Real.cos (Real.pi * p.1) * Real.sin (Real.pi * p.2.1) * Real.cos (om * t)) else 0
  ampere := by
    intro c hc t _ p _
    have ho := om_pos.ne'
    have hc3 : c = 0 ∨ c = 1 ∨ c = 2 := by omega
    rcases hc3 with rfl | rfl | rfl
    · simp [curlOf]
    · simp [curlOf]
    · simp [curlOf]
      have := om_sq
      field_simp
      linear_combination (-1) * (Real.sin (Real.pi * p.1) * Real.sin (Real.pi * p.2.1) * Real.sin (om * t)) * this
  faraday := by
    intro c hc t _ p _
    have hc3 : c = 0 ∨ c = 1 ∨ c = 2 := by omega
    rcases hc3 with rfl | rfl | rfl <;> simp [curlOf]
  wall := by
    intro c hc d hd hne t _ p _ hp
    by_cases h2 : c = 2
    · subst h2
      have hd2 : d = 0 ∨ d = 1 := by omega
      rcases hd2 with rfl | rfl
      · simp only [cor, if_true] at hp
        rcases hp with h | h <;> simp [h]
      · simp only [cor, one_ne_zero, if_false, if_true] at hp
        rcases hp with h | h <;> simp [h]
    · simp [h2]
  space_E := by
    intro c hc d hd hne t _ p _
    have hM : (0 : ℝ) ≤ om ^ 3 := pow_nonneg om_pos.le 3
    have hk : |Real.pi ^ 3| ≤ om ^ 3 := by
      rw [abs_of_pos (pow_pos Real.pi_pos 3)]; exact pow_le_pow_left₀ Real.pi_pos.le pi_le_om 3
    by_cases h2 : c = 2
    · subst h2
      have hd2 : d = 0 ∨ d = 1 := by omega
      rcases hd2 with rfl | rfl
      · refine third_sin' (A := Real.sin (Real.pi * p.2.1) * Real.cos (om * t)) (k := Real.pi) (fun s => ?_) (fun s => ?_) (amp (Real.abs_sin_le_one _) (Real.abs_cos_le_one _) hM _ hk) _ _
        · simp [put]; ring
        · simp [put]; ring
      · refine third_sin' (A := Real.sin (Real.pi * p.1) * Real.cos (om * t)) (k := Real.pi) (fun s => ?_) (fun s => ?_) (amp (Real.abs_sin_le_one _) (Real.abs_cos_le_one _) hM _ hk) _ _
        · simp [put]; ring
        · simp [put]; ring
    · exact third_zero (C := 0) (fun s => by simp [h2]) (fun s => by simp [h2]) hM _ _
  space_H := by
    intro c hc d hd hne t _ p _
    have hM : (0 : ℝ) ≤ om ^ 3 := pow_nonneg om_pos.le 3
    have hr : |Real.pi / om| ≤ 1 := by
      rw [abs_of_pos (div_pos Real.pi_pos om_pos)]; exact (div_le_one om_pos).2 pi_le_om
    have hk : |Real.pi / om * Real.pi ^ 3| ≤ om ^ 3 := by
      rw [abs_mul, abs_of_pos (pow_pos Real.pi_pos 3)]
      calc |Real.pi / om| * Real.pi ^ 3 ≤ 1 * Real.pi ^ 3 := mul_le_mul_of_nonneg_right hr (pow_pos Real.pi_pos 3).le
        _ ≤ om ^ 3 := by rw [one_mul]; exact pow_le_pow_left₀ Real.pi_pos.le pi_le_om 3
    have hc3 : c = 0 ∨ c = 1 ∨ c = 2 := by omega
    rcases hc3 with rfl | rfl | rfl
    · by_cases h1 : d = 1
      · subst h1
        refine third_cos (A := -(Real.pi / om) * (Real.sin (Real.pi * p.1) * Real.sin (om * t))) (k := Real.pi) (fun s => ?_) (fun s => ?_) ?_ _ _
        · simp [put]; ring
        · simp [put]; ring
        · have := amp (Real.abs_sin_le_one (Real.pi * p.1)) (Real.abs_sin_le_one (om * t)) hM _ hk
          rw [← abs_neg]; convert this using 2; ring
      · have h2 : d = 2 := by omega
        subst h2
        exact third_zero (C := -(Real.pi / om) * (Real.sin (Real.pi * p.1) * Real.cos (Real.pi * p.2.1) * Real.sin (om * t))) (fun s => by simp [put]) (fun s => by simp [put]) hM _ _
    · by_cases h1 : d = 0
      · subst h1
        refine third_cos (A := (Real.pi / om) * (Real.sin (Real.pi * p.2.1) * Real.sin (om * t))) (k := Real.pi) (fun s => ?_) (fun s => ?_) ?_ _ _
        · simp [put]; ring
        · simp [put]; ring
        · have := amp (Real.abs_sin_le_one (Real.pi * p.2.1)) (Real.abs_sin_le_one (om * t)) hM _ hk
          convert this using 2; ring
      · have h2 : d = 2 := by omega
        subst h2
        exact third_zero (C := Real.pi / om * (Real.cos (Real.pi * p.1) * Real.sin (Real.pi * p.2.1) * Real.sin (om * t))) (fun s => by simp [put]) (fun s => by simp [put]) hM _ _
    · exact third_zero (C := 0) (fun s => by simp) (fun s => by simp) hM _ _
  time_E := by
    intro c hc p _
    have hM : (0 : ℝ) ≤ om ^ 3 := pow_nonneg om_pos.le 3
    by_cases h2 : c = 2
    · subst h2
      refine third_cos (A := Real.sin (Real.pi * p.1) * Real.sin (Real.pi * p.2.1)) (k := om) (fun s => ?_) (fun s => ?_)
        (amp (Real.abs_sin_le_one _) (Real.abs_sin_le_one _) hM _ (by rw [abs_of_nonneg hM])) _ _
      · simp
      · simp; ring
    · exact third_zero (C := 0) (fun s => by simp [h2]) (fun s => by simp [h2]) hM _ _
  time_H := by
    intro c hc p _
    have hM : (0 : ℝ) ≤ om ^ 3 := pow_nonneg om_pos.le 3
    have ho := om_pos.ne'
    have hr : |Real.pi / om| ≤ 1 := by
      rw [abs_of_pos (div_pos Real.pi_pos om_pos)]; exact (div_le_one om_pos).2 pi_le_om
    have hk : |Real.pi / om * om ^ 3| ≤ om ^ 3 := by
      rw [abs_mul, abs_of_nonneg hM]
      exact mul_le_of_le_one_left hM hr
    have hc3 : c = 0 ∨ c = 1 ∨ c = 2 := by omega
    rcases hc3 with rfl | rfl | rfl
    · refine third_sin' (A := -(Real.pi / om) * (Real.sin (Real.pi * p.1) * Real.cos (Real.pi * p.2.1))) (k := om) (fun s => ?_) (fun s => ?_) ?_ _ _
      · simp; ring
      · simp; field_simp
      · have := amp (Real.abs_sin_le_one (Real.pi * p.1)) (Real.abs_cos_le_one (Real.pi * p.2.1)) hM _ hk
        rw [← abs_neg]; convert this using 2; ring
    · refine third_sin' (A := (Real.pi / om) * (Real.cos (Real.pi * p.1) * Real.sin (Real.pi * p.2.1))) (k := om) (fun s => ?_) (fun s => ?_) ?_ _ _
      · simp; ring
      · simp; field_simp
      · have := amp (Real.abs_cos_le_one (Real.pi * p.1)) (Real.abs_sin_le_one (Real.pi * p.2.1)) hM _ hk
        convert this using 2; ring
    · exact third_zero (C := 0) (fun s => by simp) (fun s => by simp) hM _ _

/-- `(N+1)³` cubic cells, so that the walls are those of the unit cube, with half the largest stable time step. -/
noncomputable def cube (N : ℕ) (hN : 0 < N) : Box where
  nx := N
  ny := N
  nz := N
  x0 := 0
  y0 := 0
  z0 := 0
  dx := 1 / N
  dy := 1 / N
  dz := 1 / N
  eps := 1
  mu := 1
  dt := 1 / (4 * N)
  hdx := by positivity
  hdy := by positivity
  hdz := by positivity
  heps := one_pos
  hmu := one_pos
  hdt := by positivity

/-- All faces electric. -/
def pec6 : Faces String := ⟨"electric", "electric", "electric", "electric", "electric", "electric"⟩

theorem pec6_all : AllPec pec6 := by
  intro a s ha
  have : a = 0 ∨ a = 1 ∨ a = 2 := by omega
  rcases this with rfl | rfl | rfl <;> cases s <;> exact .inl (by decide)

theorem cube_box (N : ℕ) (hN : 0 < N) : (cube N hN).eps = 1 ∧ (cube N hN).mu = 1 ∧ (cube N hN).lo = (0, 0, 0) ∧ (cube N hN).hi = (1, 1, 1) := by
  have h : (N : ℝ) ≠ 0 := by positivity
  refine ⟨rfl, rfl, ?_, ?_⟩
  · simp [Box.lo, Box.ax, Box.ay, Box.az, cube]
  · simp [Box.hi, Box.ax, Box.ay, Box.az, cube, h]

theorem cube_cfl (N : ℕ) (hN : 0 < N) :
    (cube N hN).dt ^ 2 * (1 / (cube N hN).dx ^ 2 + 1 / (cube N hN).dy ^ 2 + 1 / (cube N hN).dz ^ 2) ≤ 3 / 16 * ((1 : ℝ) * 1) := by
  have h : (N : ℝ) ≠ 0 := by positivity
  have e : (cube N hN).dt ^ 2 * (1 / (cube N hN).dx ^ 2 + 1 / (cube N hN).dy ^ 2 + 1 / (cube N hN).dz ^ 2) = (1 / (4 * (N : ℝ))) ^ 2 * (1 / (1 / (N : ℝ)) ^ 2 + 1 / (1 / (N : ℝ)) ^ 2 + 1 / (1 / (N : ℝ)) ^ 2) := rfl
  rw [e]
  refine le_of_eq ?_
  field_simp
  norm_num

/-- **C105 (a mode of the unit cavity).** Started from the samples of the mode, the solver on `(N+1)³` cells stays within a constant over `N²` of it, up to any time:
the fields computed converge to the mode. -/
theorem C105_cavity (N : ℕ) (hN : 0 < N) {T : ℝ} {n : ℕ} (hT : n * (cube N hN).dt ≤ T) (st : State ℝ) (h0 : st.step0 = true)
    (hst : ∀ c < 3, ∀ i < N, ∀ j < N, ∀ k < N, st.E ((cube N hN).at' c i j k) = (cavity (-1) (T + 1)).E c 0 ((cube N hN).ePt c i j k) ∧
      st.H ((cube N hN).at' c i j k) = (cavity (-1) (T + 1)).H c (-((cube N hN).dt / 2)) ((cube N hN).hPt c i j k)) :
    (cube N hN).l2err (cavity (-1) (T + 1)).E (cavity (-1) (T + 1)).H (n * (cube N hN).dt) ((n - 1 / 2) * (cube N hN).dt) ((cube N hN).run pec6 (fun _ _ => 0) st n) ≤
      errConst 1 1 (0, 0, 0) (1, 1, 1) (om ^ 3) (om ^ 3) (om ^ 3) (om ^ 3) (3 / 16) T * 3 / N ^ 2 := by
  have hM : (0 : ℝ) ≤ om ^ 3 := pow_nonneg om_pos.le 3
  have hdt : (cube N hN).dt ≤ 1 := by
    show 1 / (4 * (N : ℝ)) ≤ 1
    have : (1 : ℝ) ≤ N := by exact_mod_cast hN
    rw [div_le_one (by positivity)]; linarith
  have key := C105_second_order (cavity (-1) (T + 1)) hM hM hM hM (κ := 3 / 16) (T := T) (by norm_num) (cube N hN) (cube_box N hN) hN hN hN (cube_cfl N hN) pec6_all (t0 := 0) (n := n)
    (by linarith) (by linarith) hT (Jd := fun _ _ => 0) (by intro n c hc i hi j hj k hk; simp [cavity]) st h0 (by
      intro c hc i hi j hj k hk
      have := hst c hc i hi j hj k hk
      rw [zero_sub]; exact this)
  rw [zero_add, zero_add] at key
  refine key.trans (le_of_eq ?_)
  have h : (N : ℝ) ≠ 0 := by positivity
  show _ * ((1 / (N : ℝ)) ^ 2 + (1 / (N : ℝ)) ^ 2 + (1 / (N : ℝ)) ^ 2) = _
  field_simp
  ring

/-- The mode is not zero. -/
example : (cavity 0 1).E 2 0 (1 / 2, 1 / 2, 0) = 1 := by
  have e : Real.pi * (1 / 2) = Real.pi / 2 := by ring
  simp only [cavity, if_true, e, Real.sin_pi_div_two, mul_zero, Real.cos_zero, mul_one]

end Conv
end Wakis
