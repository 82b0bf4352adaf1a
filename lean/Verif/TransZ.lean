import Verif.WakeProps2
import Verif.WakeProps4
import Verif.ImpWake
import Mathlib.Analysis.Complex.Exponential

/-!
# C101: the transverse impedance

`calc_trans_Z` (wakeSolver.py:711-769) divides the transform of the transverse wake by that of the charge distribution. The theorems relate the result to the longitudinal impedances of
the cells on both sides of the beam (the Panofsky-Wenzel theorem in the frequency domain).
-/

namespace Wakis
namespace Wake

noncomputable section

/-- What `calc_trans_Z` stores (wakeSolver.py:746-757). -/
structure TransImp where
  fx : List ℝ
  Zx : List ℂ
  fy : List ℝ
  Zy : List ℂ

/-- wakeSolver.py:711-757 `calc_trans_Z`; `lam` is `self.lambdas`, already there (`calc_long_Z` runs first); without it `None * v` raises `TypeError`. -/
def calcTransZ (v fmax : ℝ) (samples : ℕ) (s WPx WPy : List ℝ) (lam : Option (List ℝ)) : Py TransImp :=
  match lam with
  | none => .error .typeError
  | some l => do
    let zx ← impedance Complex.I v fmax samples s WPx l
    let zy ← impedance Complex.I v fmax samples s WPy l
    return ⟨zx.f, zx.Z, zy.f, zy.Z⟩

/-- wakeSolver.py:220-231: `solve("both")` from the map of longitudinal wakes on: transverse wakes, then transverse impedances with the charge distribution `lam`. -/
def transFromMap (v fmax : ℝ) (samples n0 : ℕ) (s : List ℝ) (W : ℕ → ℕ → ℕ → ℝ) (nx : ℕ) (dx : ℕ → ℝ) (ny : ℕ) (dy : ℕ → ℝ) (lam : Option (List ℝ)) : Py TransImp := do
  let (wx, wy) ← calcTransWP n0 s W nx dx ny dy
  calcTransZ v fmax samples s wx wy lam

/-! ### Specification -/

/-- One step of the s axis as a phase: `exp(-i ω ds / v)`. -/
def stepPhase (v ds f : ℝ) : ℂ := Complex.exp (-2 * Real.pi * Complex.I * ((f * (1 * (ds / v)) : ℝ) : ℂ))

/-! ### Lemmas -/

lemma phase_pow (v ds f : ℝ) (j : ℕ) : Complex.exp (-2 * Real.pi * Complex.I * ((f * (j * (ds / v)) : ℝ) : ℂ)) = stepPhase v ds f ^ j := by
  unfold stepPhase
  rw [← Complex.exp_nat_mul]
  congr 1
  push_cast
  ring

lemma getD_mapRange {n j : ℕ} (hj : j < n) (F : ℕ → ℝ) : ((List.range n).map F).getD j 0 = F j := by
  rw [List.getD_eq_getElem?_getD, List.getElem?_map, List.getElem?_range hj]
  rfl

lemma dtft_map (ns : ℕ) (F : ℕ → ℝ) (v ds f : ℝ) : dtft ((List.range ns).map F) (ds / v) f = ∑ j ∈ Finset.range ns, (F j : ℂ) * stepPhase v ds f ^ j := by
  unfold dtft
  rw [List.length_map, List.length_range]
  refine Finset.sum_congr rfl fun j hj => ?_
  rw [getD_mapRange (Finset.mem_range.1 hj), phase_pow]

/-- Summation by parts: the transform of running sums. -/
lemma running (a : ℕ → ℂ) (z c : ℂ) (n : ℕ) :
    (1 - z) * ∑ j ∈ Finset.range n, (c * ∑ m ∈ Finset.range j, a m) * z ^ j = c * (z * ∑ m ∈ Finset.range n, a m * z ^ m) - c * (∑ m ∈ Finset.range n, a m) * z ^ n := by
  induction n with
  | zero => simp
  | succ n ih =>
    rw [Finset.sum_range_succ, mul_add, ih, Finset.sum_range_succ (fun m => a m * z ^ m), Finset.sum_range_succ a]
    ring

lemma impedance_f {a b : ℂ} {v fmax : ℝ} {samples : ℕ} {s W V l : List ℝ} {i j : Imp} (hi : impedance a v fmax samples s W l = .ok i) (hj : impedance b v fmax samples s V l = .ok j) :
    i.f = j.f ∧ i.Z.length = i.f.length := by
  unfold impedance at hi hj
  simp only at hi hj
  split_ifs at hi hj
  cases hi
  cases hj
  simp

/-- The transform of the transverse wake of one plane. -/
lemma trans_dtft (a : ℕ → ℝ) (D : ℝ) (ns : ℕ) (v ds f : ℝ) :
    (1 - stepPhase v ds f) * dtft ((List.range ns).map fun n => -(∑ m ∈ Finset.range n, ds * a m) / D) (ds / v) f =
      -(ds / D : ℂ) * stepPhase v ds f * dtft ((List.range ns).map a) (ds / v) f + (ds / D : ℂ) * ((∑ m ∈ Finset.range ns, a m : ℝ) : ℂ) * stepPhase v ds f ^ ns := by
  rw [dtft_map, dtft_map]
  have h := running (fun m => (a m : ℂ)) (stepPhase v ds f) (-(ds / D : ℂ)) ns
  have e : ∀ j, ((-(∑ m ∈ Finset.range j, ds * a m) / D : ℝ) : ℂ) = -(ds / D : ℂ) * ∑ m ∈ Finset.range j, (a m : ℂ) := fun j => by
    rw [← Finset.mul_sum]
    push_cast
    ring
  simp only [e]
  rw [h]
  push_cast
  ring

lemma dtft_sub (A B : ℕ → ℝ) (ns : ℕ) (v ds f : ℝ) :
    dtft ((List.range ns).map fun m => A m - B m) (ds / v) f = dtft ((List.range ns).map A) (ds / v) f - dtft ((List.range ns).map B) (ds / v) f := by
  rw [dtft_map, dtft_map, dtft_map, ← Finset.sum_sub_distrib]
  refine Finset.sum_congr rfl fun j _ => ?_
  push_cast
  ring

/-! ### C101 -/

/-- **C101 (axes).** Both transverse impedances and the longitudinal one are given at the same frequencies. -/
theorem C101_axes {v fmax : ℝ} {samples : ℕ} {s WP WPx WPy : List ℝ} {l : List ℝ} {T : TransImp} {L : Imp} (hT : calcTransZ v fmax samples s WPx WPy (some l) = .ok T)
    (hL : impedance (-1) v fmax samples s WP l = .ok L) : T.fx = L.f ∧ T.fy = L.f ∧ T.Zx.length = L.f.length ∧ T.Zy.length = L.f.length := by
  unfold calcTransZ at hT
  simp only at hT
  cases hx : impedance Complex.I v fmax samples s WPx l with
  | error e => rw [hx] at hT; cases hT
  | ok i =>
    cases hy : impedance Complex.I v fmax samples s WPy l with
    | error e => rw [hx, hy] at hT; cases hT
    | ok j =>
      rw [hx, hy] at hT
      cases hT
      have h1 := impedance_f hx hL
      have h2 := impedance_f hy hL
      exact ⟨h1.1, h2.1, h1.2.trans (congrArg List.length h1.1), h2.2.trans (congrArg List.length h2.1)⟩

/-- **Specification (Panofsky-Wenzel on an s axis of step `ds`).** `Zt` is the transverse impedance at frequency `f`, `Zp` and `Zm` are the longitudinal impedances of two test
positions at distance `D`: `(1 - z) Zt = i (ds / D) z (Zp - Zm)` with `z = exp(-i ω ds / v)`, up to `tail`, the contribution of the end of the recorded wake. For `ds → 0` this is
`ω Zt = v ∂Z/∂x`. -/
def PanofskyWenzel (v ds D f : ℝ) (Zt Zp Zm tail : ℂ) : Prop :=
  (1 - stepPhase v ds f) * Zt = Complex.I * (ds / D) * stepPhase v ds f * (Zp - Zm) + tail

/-- The contribution of the end of the wake: `net` is the sum of the differences of the two longitudinal wakes over the whole axis of `ns` points. -/
def endTerm (v ds D f : ℝ) (net : ℝ) (ns : ℕ) (lam : List ℝ) : ℂ :=
  Complex.I * (10 ^ 12 * (ds / D) * net) * stepPhase v ds f ^ ns / (v * dtft lam (ds / v) f)

lemma pw_plane (A B : ℕ → ℝ) (D : ℝ) (ns : ℕ) {v ds : ℝ} (hds : ds ≠ 0) (f : ℝ) (lam : List ℝ) :
    PanofskyWenzel v ds D f
      (Complex.I * (10 ^ 12 * dtft ((List.range ns).map fun n => -(∑ m ∈ Finset.range n, ds * (A m - B m)) / D) (ds / v) f * ds) / (v * dtft lam (ds / v) f * ds))
      (-1 * (10 ^ 12 * dtft ((List.range ns).map A) (ds / v) f * ds) / (v * dtft lam (ds / v) f * ds))
      (-1 * (10 ^ 12 * dtft ((List.range ns).map B) (ds / v) f * ds) / (v * dtft lam (ds / v) f * ds))
      (endTerm v ds D f (∑ m ∈ Finset.range ns, (A m - B m)) ns lam) := by
  have h := trans_dtft (fun m => A m - B m) D ns v ds f
  rw [dtft_sub] at h
  unfold PanofskyWenzel endTerm
  have hd : (ds : ℂ) ≠ 0 := by exact_mod_cast hds
  generalize dtft ((List.range ns).map fun n => -(∑ m ∈ Finset.range n, ds * (A m - B m)) / D) (ds / v) f = X at *
  generalize dtft ((List.range ns).map A) (ds / v) f = a at *
  generalize dtft ((List.range ns).map B) (ds / v) f = b at *
  generalize ((∑ m ∈ Finset.range ns, (A m - B m) : ℝ) : ℂ) = t at *
  generalize (v * dtft lam (ds / v) f : ℂ) = L at *
  generalize stepPhase v ds f = z at *
  have hc : ∀ c y : ℂ, c * (y * ds) / (L * ds) = c * y / L := fun c y => by rw [← mul_assoc, mul_div_mul_right _ L hd]
  simp only [hc]
  rw [show (1 - z) * (Complex.I * (10 ^ 12 * X) / L) = Complex.I * 10 ^ 12 * ((1 - z) * X) / L by ring, h]
  ring

/-- **C101 (Panofsky-Wenzel in the frequency domain).** For every map of longitudinal wakes, s axis of constant step, cell sizes and charge distribution (as long as the axis resolves
`fmax` and the wake fits into the transform) the transverse impedances are obtained, and at every frequency they are related to the longitudinal impedances of the cells right/left of and
above/below the beam, computed with the same function and settings, by the discrete Panofsky-Wenzel relation. -/
theorem C101_panofsky {v s0 ds fmax : ℝ} {ns samples n0 nx ny : ℕ} (hns : 3 ≤ ns) (hv : 0 < v) (hds : 0 < ds) (hf : 0 < fmax) (hs : 0 < samples) (hres : fmax ≤ v / ds)
    (hn : 0 < n0) (hx : n0 < nx) (hy : n0 < ny) (W : ℕ → ℕ → ℕ → ℝ) (dx dy : ℕ → ℝ) (lam : List ℝ) (hfit : ns ≤ ⌊v / ds / fmax⌋₊ * samples)
    (hlam : lam.length ≤ ⌊v / ds / fmax⌋₊ * samples) :
    ∃ (T : TransImp) (R L U D : Imp), transFromMap v fmax samples n0 (axis s0 ds ns) W nx dx ny dy (some lam) = .ok T ∧
      impedance (-1) v fmax samples (axis s0 ds ns) ((List.range ns).map (W (n0 + 1) n0)) lam = .ok R ∧
      impedance (-1) v fmax samples (axis s0 ds ns) ((List.range ns).map (W (n0 - 1) n0)) lam = .ok L ∧
      impedance (-1) v fmax samples (axis s0 ds ns) ((List.range ns).map (W n0 (n0 + 1))) lam = .ok U ∧
      impedance (-1) v fmax samples (axis s0 ds ns) ((List.range ns).map (W n0 (n0 - 1))) lam = .ok D ∧
      0 < T.fx.length ∧ T.fy = T.fx ∧ R.f = T.fx ∧ T.Zx.length = T.fx.length ∧ T.Zy.length = T.fx.length ∧
      ∀ (k : ℕ) (f : ℝ), T.fx[k]? = some f →
        PanofskyWenzel v ds (dx (n0 - 1) + dx n0) f (T.Zx.getD k 0) (R.Z.getD k 0) (L.Z.getD k 0)
          (endTerm v ds (dx (n0 - 1) + dx n0) f (∑ m ∈ Finset.range ns, (W (n0 + 1) n0 m - W (n0 - 1) n0 m)) ns lam) ∧
        PanofskyWenzel v ds (dy (n0 - 1) + dy n0) f (T.Zy.getD k 0) (U.Z.getD k 0) (D.Z.getD k 0)
          (endTerm v ds (dy (n0 - 1) + dy n0) f (∑ m ∈ Finset.range ns, (W n0 (n0 + 1) m - W n0 (n0 - 1) m)) ns lam) := by
  have hns' : 2 ≤ ns := by omega
  have hc := C50_panofsky hn (s0 := s0) (ds := ds) hns W dx dy hx hy
  have hlen : ∀ F : ℕ → ℝ, ((List.range ns).map F).length = ns := fun F => by rw [List.length_map, List.length_range]
  have get : ∀ (fac : ℂ) (F : ℕ → ℝ), ∃ i : Imp, impedance fac v fmax samples (axis s0 ds ns) ((List.range ns).map F) lam = .ok i ∧ 0 < i.f.length ∧
      i.Z = i.f.map fun f => fac * (10 ^ 12 * dtft ((List.range ns).map F) (ds / v) f * ds) / (v * dtft lam (ds / v) f * ds) := by
    intro fac F
    obtain ⟨M, i, h1, h2, -, -, h5, -, -, h8⟩ := C51_axis (s0 := s0) hns' hv hds hf hs hres fac ((List.range ns).map F) lam
    refine ⟨i, h1, ?_, h8 ((hlen F).trans_le hfit) hlam⟩
    rw [h5, List.length_map, List.length_range]
    exact h2
  obtain ⟨zx, hzx, hp, ezx⟩ := get Complex.I fun n => -(∑ m ∈ Finset.range n, ds * (W (n0 + 1) n0 m - W (n0 - 1) n0 m)) / (dx (n0 - 1) + dx n0)
  obtain ⟨zy, hzy, -, ezy⟩ := get Complex.I fun n => -(∑ m ∈ Finset.range n, ds * (W n0 (n0 + 1) m - W n0 (n0 - 1) m)) / (dy (n0 - 1) + dy n0)
  obtain ⟨R, hR, -, eR⟩ := get (-1) (W (n0 + 1) n0)
  obtain ⟨L, hL, -, eL⟩ := get (-1) (W (n0 - 1) n0)
  obtain ⟨U, hU, -, eU⟩ := get (-1) (W n0 (n0 + 1))
  obtain ⟨D, hD, -, eD⟩ := get (-1) (W n0 (n0 - 1))
  refine ⟨⟨zx.f, zx.Z, zy.f, zy.Z⟩, R, L, U, D, ?_, hR, hL, hU, hD, hp, (impedance_f hzy hzx).1, (impedance_f hR hzx).1, (impedance_f hzx hzx).2,
    (impedance_f hzy hzx).2.trans (congrArg List.length (impedance_f hzy hzx).1), ?_⟩
  · unfold transFromMap
    rw [hc]
    simp only [bind, Except.bind, calcTransZ]
    rw [hzx]
    simp only
    rw [hzy]
    rfl
  · intro k f hk
    have at' : ∀ {i : Imp} {G : ℝ → ℂ}, i.f = zx.f → i.Z = i.f.map G → i.Z.getD k 0 = G f := by
      intro i G h1 h2
      rw [h2, h1, List.getD_eq_getElem?_getD, List.getElem?_map]
      rw [show zx.f[k]? = some f from hk]
      rfl
    show PanofskyWenzel _ _ _ _ (zx.Z.getD k 0) _ _ _ ∧ PanofskyWenzel _ _ _ _ (zy.Z.getD k 0) _ _ _
    rw [at' rfl ezx, at' (impedance_f hzy hzx).1 ezy, at' (impedance_f hR hzx).1 eR, at' (impedance_f hL hzx).1 eL, at' (impedance_f hU hzx).1 eU, at' (impedance_f hD hzx).1 eD]
    exact ⟨pw_plane _ _ _ ns hds.ne' f lam, pw_plane _ _ _ ns hds.ne' f lam⟩

/-- The hypotheses of `C101_panofsky`: four samples, three cells. -/
example : (3 : ℕ) ≤ 4 ∧ (1 : ℝ) / 2 ≤ 1 / 1 ∧ 4 ≤ ⌊(1 : ℝ) / 1 / (1 / 2)⌋₊ * 2 := by
  have : ⌊(1 : ℝ) / 1 / (1 / 2)⌋₊ = 2 := by norm_num
  rw [this]
  norm_num

lemma inv_exp_sub_one {x : ℂ} (h0 : x ≠ 0) (hx : ‖x‖ ≤ 1 / 2) : ‖1 / (Complex.exp x - 1) - 1 / x‖ ≤ 2 := by
  have hn : 0 < ‖x‖ := norm_pos_iff.2 h0
  have h2 := Complex.norm_exp_sub_one_sub_id_le (x := x) (by linarith)
  have h3 : ‖x‖ / 2 ≤ ‖Complex.exp x - 1‖ := by
    have := norm_sub_norm_le x (-(Complex.exp x - 1 - x))
    rw [norm_neg] at this
    have e : x - -(Complex.exp x - 1 - x) = Complex.exp x - 1 := by ring
    rw [e] at this
    nlinarith
  have h4 : Complex.exp x - 1 ≠ 0 := fun h => by rw [h, norm_zero] at h3; linarith
  rw [div_sub_div _ _ h4 h0, norm_div, norm_mul]
  rw [show 1 * x - (Complex.exp x - 1) * 1 = -(Complex.exp x - 1 - x) by ring, norm_neg, div_le_iff₀ (mul_pos (norm_pos_iff.2 h4) hn)]
  nlinarith

/-- **C101 (accuracy).** Where the relation holds without end term, a step that resolves the frequency (`ω ds / v ≤ 1/2`) gives the transverse impedance of the Panofsky-Wenzel theorem,
`(v/ω)` times the difference quotient of the longitudinal impedance, up to twice the step times that quotient. -/
theorem C101_first_order {v ds D f : ℝ} (hv : 0 < v) (hds : 0 < ds) (hf : 0 < f) (hω : 2 * Real.pi * f * ds / v ≤ 1 / 2) {Zt Zp Zm : ℂ} (h : PanofskyWenzel v ds D f Zt Zp Zm 0) :
    ‖Zt - v / (2 * Real.pi * f) * ((Zp - Zm) / D)‖ ≤ 2 * ds * ‖(Zp - Zm) / D‖ := by
  set θ : ℝ := 2 * Real.pi * f * ds / v with hθ
  have hθ0 : 0 < θ := by positivity
  have hx0 : (Complex.I * θ : ℂ) ≠ 0 := mul_ne_zero Complex.I_ne_zero (by exact_mod_cast hθ0.ne')
  have hxn : ‖(Complex.I * θ : ℂ)‖ ≤ 1 / 2 := by
    rw [norm_mul, Complex.norm_I, one_mul, Complex.norm_real, Real.norm_of_nonneg hθ0.le]
    exact hω
  have hb := inv_exp_sub_one hx0 hxn
  have hz : stepPhase v ds f = (Complex.exp (Complex.I * θ))⁻¹ := by
    unfold stepPhase
    rw [← Complex.exp_neg]
    congr 1
    rw [hθ]
    push_cast
    ring
  have hE : Complex.exp (Complex.I * θ) ≠ 0 := Complex.exp_ne_zero _
  have hE1 : Complex.exp (Complex.I * θ) - 1 ≠ 0 := by
    intro h0
    rw [h0] at hb
    rw [div_zero, zero_sub, norm_neg, norm_div, norm_one] at hb
    have : (0 : ℝ) < ‖(Complex.I * θ : ℂ)‖ := norm_pos_iff.2 hx0
    have h2 : 1 / ‖(Complex.I * θ : ℂ)‖ ≥ 2 := by
      rw [ge_iff_le, le_div_iff₀ this]; linarith
    have h3 := Complex.norm_exp_sub_one_sub_id_le (x := Complex.I * θ) (by linarith)
    rw [h0, zero_sub, norm_neg] at h3
    nlinarith
  unfold PanofskyWenzel at h
  rw [hz, add_zero] at h
  generalize Complex.exp (Complex.I * θ) = E at *
  have hZ : Zt = Complex.I * ds * (1 / (E - 1)) * ((Zp - Zm) / D) := by
    have h1 : (E - 1) * Zt = Complex.I * (ds / D) * (Zp - Zm) := by
      have := congrArg (E * ·) h
      rw [show E * ((1 - E⁻¹) * Zt) = (E - E * E⁻¹) * Zt by ring, show E * (Complex.I * (ds / D) * E⁻¹ * (Zp - Zm)) = (E * E⁻¹) * (Complex.I * (ds / D) * (Zp - Zm)) by ring,
        mul_inv_cancel₀ hE, one_mul] at this
      exact this
    rw [show Complex.I * ds * (1 / (E - 1)) * ((Zp - Zm) / D) = (Complex.I * (ds / D) * (Zp - Zm)) / (E - 1) by ring, ← h1]
    field_simp
  have hq : (v / (2 * Real.pi * f) : ℂ) = Complex.I * ds * (1 / (Complex.I * θ)) := by
    have h1 : (v : ℂ) ≠ 0 := by exact_mod_cast hv.ne'
    have h2 : (f : ℂ) ≠ 0 := by exact_mod_cast hf.ne'
    have h3 : (ds : ℂ) ≠ 0 := by exact_mod_cast hds.ne'
    have h4 : (Real.pi : ℂ) ≠ 0 := by exact_mod_cast Real.pi_ne_zero
    rw [hθ]
    push_cast
    field_simp [Complex.I_ne_zero]
  rw [hZ, hq, ← sub_mul, ← mul_sub, norm_mul, norm_mul, norm_mul, Complex.norm_I, one_mul, Complex.norm_real, Real.norm_of_nonneg hds.le]
  have := mul_le_mul_of_nonneg_left hb hds.le
  have := mul_le_mul_of_nonneg_right this (norm_nonneg ((Zp - Zm) / (D : ℂ)))
  linarith

/-- The end term vanishes if the wakes of the two cells have the same integral, in particular if both have died out and integrate to zero. -/
lemma endTerm_zero (v ds D f : ℝ) (ns : ℕ) (lam : List ℝ) : endTerm v ds D f 0 ns lam = 0 := by simp [endTerm]

/-- The hypotheses of `C101_first_order`: the relation itself for two wakes, `1, -1` right and zero left of the beam. -/
example : PanofskyWenzel 1 (1 / 100) 2 1 (Complex.I * (10 ^ 12 * dtft [0, -(1 / 100) / 2] (1 / 100 / 1) 1 * (1 / 100 : ℝ)) / ((1 : ℝ) * dtft [1] (1 / 100 / 1) 1 * (1 / 100 : ℝ)))
      (-1 * (10 ^ 12 * dtft [1, -1] (1 / 100 / 1) 1 * (1 / 100 : ℝ)) / ((1 : ℝ) * dtft [1] (1 / 100 / 1) 1 * (1 / 100 : ℝ)))
      (-1 * (10 ^ 12 * dtft [0, 0] (1 / 100 / 1) 1 * (1 / 100 : ℝ)) / ((1 : ℝ) * dtft [1] (1 / 100 / 1) 1 * (1 / 100 : ℝ))) 0 ∧
    2 * Real.pi * 1 * (1 / 100) / 1 ≤ (1 : ℝ) / 2 := by
  refine ⟨?_, by have := Real.pi_le_four; linarith⟩
  have h := pw_plane (fun m => if m = 0 then 1 else -1) (fun _ => 0) 2 2 (v := 1) (ds := 1 / 100) (by norm_num) 1 [1]
  rw [show List.range 2 = [0, 1] from rfl] at h
  have e : (∑ m ∈ Finset.range 2, ((if m = 0 then (1 : ℝ) else -1) - 0)) = 0 := by norm_num [Finset.sum_range_succ]
  rw [e, endTerm_zero] at h
  convert h using 1 <;> norm_num [Finset.sum_range_succ]

end
end Wake
end Wakis
