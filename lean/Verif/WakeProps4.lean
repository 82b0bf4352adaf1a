import Verif.WakeProps2

/-!
# C51 (frequency axis of the impedance) and C52 (the impedance itself)
-/

namespace Wakis
namespace Wake

/-! ### The kept bins -/

theorem filter_range_prefix (p : ℕ → Bool) (hp : ∀ a b, a ≤ b → p b = true → p a = true) (N : ℕ) :
    ∃ M ≤ N, (List.range N).filter p = List.range M ∧ (∀ m < M, p m = true) ∧ (M < N → p M = false) := by
  induction N with
  | zero => exact ⟨0, le_refl _, rfl, fun m hm => by omega, fun h => by omega⟩
  | succ n ih =>
    obtain ⟨M, hM, h1, h2, h3⟩ := ih
    rw [List.range_succ, List.filter_append, h1]
    cases hn : p n with
    | false =>
      refine ⟨M, by omega, by simp [hn], h2, fun h => ?_⟩
      rcases Nat.lt_or_ge M n with h' | h'
      · exact h3 h'
      · rw [show M = n by omega]; exact hn
    | true =>
      have : M = n := by
        by_contra hne
        have := h3 (by omega)
        rw [hp M n (by omega) hn] at this
        cases this
      refine ⟨n + 1, le_refl _, by rw [List.range_succ, this]; simp [hn], fun m hm => hp m n (by omega) hn, fun h => by omega⟩

theorem fftFreq_neg {N : ℕ} {d : ℝ} (hd : 0 < d) {m : ℕ} (hm : m < N) (h : ¬m ≤ (N - 1) / 2) : fftFreq N d m < 0 := by
  unfold fftFreq
  rw [if_neg h]
  have : (m : ℝ) < N := by exact_mod_cast hm
  have hN : (0 : ℝ) < N := lt_of_le_of_lt (Nat.cast_nonneg m) this
  exact div_neg_of_neg_of_pos (by linarith) (by positivity)

theorem keptBins_eq {N : ℕ} {d fmax : ℝ} (hd : 0 < d) :
    ∃ M ≤ N, keptBins N d fmax = List.range M ∧ (∀ m < M, m ≤ (N - 1) / 2 ∧ (m : ℝ) / (N * d) < fmax) ∧ (M < N → M ≤ (N - 1) / 2 → fmax ≤ (M : ℝ) / (N * d)) := by
  classical
  obtain ⟨M, h1, h2, h3, h4⟩ := filter_range_prefix (fun m => decide (m ≤ (N - 1) / 2 ∧ (m : ℝ) / (N * d) < fmax)) (fun a b hab hb => by
    rw [decide_eq_true_eq] at hb ⊢
    refine ⟨by omega, lt_of_le_of_lt ?_ hb.2⟩
    have : (a : ℝ) ≤ b := by exact_mod_cast hab
    exact div_le_div_of_nonneg_right this (by positivity)) N
  refine ⟨M, h1, ?_, fun m hm => of_decide_eq_true (h3 m hm), fun hM hM' => ?_⟩
  · rw [← h2]
    unfold keptBins
    refine List.filter_congr fun m hm => ?_
    rw [List.mem_range] at hm
    rw [decide_eq_decide]
    constructor
    · rintro ⟨ha, hb⟩
      have : m ≤ (N - 1) / 2 := by
        by_contra hc
        exact absurd ha (not_le.2 (fftFreq_neg hd hm hc))
      unfold fftFreq at hb
      rw [if_pos this] at hb
      exact ⟨this, hb⟩
    · rintro ⟨ha, hb⟩
      unfold fftFreq
      rw [if_pos ha]
      exact ⟨by positivity, hb⟩
  · have := of_decide_eq_false (h4 hM)
    by_contra hlt
    exact this ⟨hM', not_le.1 hlt⟩

theorem meanStep_axis (s0 ds : ℝ) {ns : ℕ} (hns : 2 ≤ ns) : meanStep (axis s0 ds ns) = ds := by
  have hl : (axis s0 ds ns).length = ns := by unfold axis; rw [List.length_map, List.length_range]
  have hg : ∀ i < ns, (axis s0 ds ns).getD i 0 = s0 + i * ds := fun i hi => by
    unfold axis
    rw [List.getD_eq_getElem?_getD, List.getElem?_map, List.getElem?_range hi]
    rfl
  unfold meanStep
  rw [hl, Finset.sum_congr rfl (g := fun _ => ds) fun i hi => by
    have := Finset.mem_range.1 hi
    rw [hg _ (by omega), hg _ (by omega)]
    push_cast
    ring]
  rw [Finset.sum_const, Finset.card_range, nsmul_eq_mul]
  have : ((ns - 1 : ℕ) : ℝ) ≠ 0 := by exact_mod_cast (by omega : ns - 1 ≠ 0)
  field_simp

/-- The discrete-time Fourier transform of samples taken every `τ` seconds, at frequency `f`. -/
noncomputable def dtft (x : List ℝ) (τ f : ℝ) : ℂ := ∑ j ∈ Finset.range x.length, (x.getD j 0 : ℂ) * Complex.exp (-2 * Real.pi * Complex.I * ((f * (j * τ) : ℝ) : ℂ))

theorem getD_map_mul (x : List ℝ) (c : ℝ) (j : ℕ) : (x.map (· * c)).getD j 0 = x.getD j 0 * c := by
  rw [List.getD_eq_getElem?_getD, List.getD_eq_getElem?_getD, List.getElem?_map]
  cases x[j]? <;> simp

theorem getD_of_length_le {x : List ℝ} {j : ℕ} (h : x.length ≤ j) : x.getD j 0 = 0 := by
  rw [List.getD_eq_getElem?_getD, List.getElem?_eq_none h]
  rfl

/-- A padded transform is the Fourier transform of the samples at the bin's frequency. -/
theorem fftBin_eq_dtft {x : List ℝ} {N m : ℕ} {τ : ℝ} (hτ : τ ≠ 0) (hN : 0 < N) (hx : x.length ≤ N) (c : ℝ) :
    fftBin (x.map (· * c)) N m = c * dtft x τ (m / (N * τ)) := by
  unfold fftBin dtft
  have hsub : Finset.range x.length ⊆ Finset.range N := Finset.range_subset_range.2 hx
  rw [← Finset.sum_subset hsub fun j _ hj => by
    rw [getD_map_mul, getD_of_length_le (not_lt.1 fun h => hj (Finset.mem_range.2 h))]
    simp, Finset.mul_sum]
  refine Finset.sum_congr rfl fun j _ => ?_
  rw [getD_map_mul]
  have hN' : (N : ℂ) ≠ 0 := by exact_mod_cast hN.ne'
  have hτ' : (τ : ℂ) ≠ 0 := by exact_mod_cast hτ
  have : (-2 * Real.pi * Complex.I * j * m / N : ℂ) = -2 * Real.pi * Complex.I * ((m / (N * τ) * (j * τ) : ℝ) : ℂ) := by
    push_cast
    field_simp
  rw [this]
  push_cast
  ring

/-! ### C51 -/

/-- **C51.** For every s axis of constant step `ds`, velocity, `fmax` and number of samples (as long as the axis resolves `fmax`), the impedance is returned on `M` equally spaced
frequencies `0, δ, 2δ, …`, with `1 ≤ M ≤ samples` and all of them below `fmax`; if the axis resolves twice `fmax` the next one would be at or above `fmax`. For wakes that
fit in the transform, the value at each frequency `f` is the quotient of the Fourier transforms of wake and charge distribution at `f`. -/
theorem C51_axis {v s0 ds fmax : ℝ} {ns samples : ℕ} (hns : 2 ≤ ns) (hv : 0 < v) (hds : 0 < ds) (hf : 0 < fmax) (hs : 0 < samples) (hres : fmax ≤ v / ds) (fac : ℂ) (WP lam : List ℝ) :
    let N := ⌊v / ds / fmax⌋₊ * samples
    let δ := v / ds / N
    ∃ (M : ℕ) (imp : Imp), impedance fac v fmax samples (axis s0 ds ns) WP lam = .ok imp ∧
      1 ≤ M ∧ M ≤ samples ∧ 0 < δ ∧ imp.f = (List.range M).map (fun m : ℕ => (m : ℝ) * δ) ∧ (∀ f ∈ imp.f, f < fmax) ∧
      (2 * fmax ≤ v / ds → fmax ≤ M * δ) ∧
      (WP.length ≤ N → lam.length ≤ N →
        imp.Z = imp.f.map fun f => fac * (10 ^ 12 * dtft WP (ds / v) f * ds) / (v * dtft lam (ds / v) f * ds)) := by
  intro N δ
  have hR : 0 < v / ds := div_pos hv hds
  have hq : 1 ≤ v / ds / fmax := by rwa [le_div_iff₀ hf, one_mul]
  have hr : 1 ≤ ⌊v / ds / fmax⌋₊ := Nat.le_floor (by exact_mod_cast hq)
  have hrle : (⌊v / ds / fmax⌋₊ : ℝ) * fmax ≤ v / ds := by
    have := Nat.floor_le (zero_le_one.trans hq)
    rwa [le_div_iff₀ hf] at this
  have hN : 0 < N := Nat.mul_pos hr hs
  have hnfft : nfft v ds fmax samples = (N : ℤ) := by
    unfold nfft
    rw [← Int.natCast_floor_eq_floor (zero_le_one.trans hq)]
    push_cast [N]
    rfl
  have hd : 0 < ds / v := div_pos hds hv
  have hNr : (0 : ℝ) < N := by exact_mod_cast hN
  have hδ : 0 < δ := div_pos hR hNr
  have hfreq : ∀ m : ℕ, (m : ℝ) / (N * (ds / v)) = m * δ := fun m => by
    simp only [δ]; field_simp
  have hNcast : (N : ℝ) = ⌊v / ds / fmax⌋₊ * samples := by simp only [N]; push_cast; ring
  obtain ⟨M, -, hbins, hin, hout⟩ := keptBins_eq (N := N) (d := ds / v) (fmax := fmax) hd
  have hcount : ∀ m : ℕ, (m : ℝ) * δ < fmax → m < samples := by
    intro m hm
    have h1 : (m : ℝ) * (v / ds) < fmax * N := by
      have := mul_lt_mul_of_pos_right hm hNr
      have e : (m : ℝ) * δ * N = m * (v / ds) := by simp only [δ]; field_simp
      rwa [e] at this
    have h2 : fmax * N ≤ (samples : ℝ) * (v / ds) := by
      rw [hNcast]
      calc fmax * (⌊v / ds / fmax⌋₊ * samples) = samples * (⌊v / ds / fmax⌋₊ * fmax) := by ring
        _ ≤ samples * (v / ds) := mul_le_mul_of_nonneg_left hrle (Nat.cast_nonneg _)
    have := lt_of_mul_lt_mul_right (h1.trans_le h2) hR.le
    exact_mod_cast this
  refine ⟨M, ⟨(keptBins N (ds / v) fmax).map (fftFreq N (ds / v)), (keptBins N (ds / v) fmax).map fun m => fac * (fftBin (WP.map (· * 10 ^ 12)) N m * ds) / (fftBin (lam.map (· * v)) N m * ds),
      (keptBins N (ds / v) fmax).map fun m => fftBin (lam.map (· * v)) N m * ds⟩, ?_, ?_, ?_, hδ, ?_, ?_, ?_, ?_⟩
  · unfold impedance
    have hl : (axis s0 ds ns).length = ns := by unfold axis; rw [List.length_map, List.length_range]
    rw [if_neg (by omega)]
    simp only [meanStep_axis s0 ds hns, hnfft]
    rw [if_neg (by omega), Int.toNat_natCast]
  · by_contra hM
    have h0 : M = 0 := by omega
    have := hout (by omega) (by omega)
    rw [h0] at this
    simp at this
    linarith
  · by_contra hM
    have := hcount samples (by rw [← hfreq]; exact (hin samples (by omega)).2)
    omega
  · rw [hbins]
    refine List.map_congr_left fun m hm => ?_
    rw [← hfreq]
    unfold fftFreq
    rw [if_pos (hin m (List.mem_range.1 hm)).1]
  · intro f hfm
    rw [hbins] at hfm
    obtain ⟨m, hm, rfl⟩ := List.mem_map.1 hfm
    have := hin m (List.mem_range.1 hm)
    unfold fftFreq
    rw [if_pos this.1]
    exact this.2
  · intro h2
    by_contra hlt
    rw [not_le] at hlt
    have hMs := hcount M hlt
    have hr2 : 2 ≤ ⌊v / ds / fmax⌋₊ := Nat.le_floor (by rw [le_div_iff₀ hf]; exact_mod_cast h2)
    have hN2 : 2 * samples ≤ N := Nat.mul_le_mul_right _ hr2
    have := hout (by omega) (by omega)
    rw [hfreq] at this
    linarith
  · intro hW hL
    rw [List.map_map, hbins]
    refine List.map_congr_left fun m hm => ?_
    show _ = fac * (10 ^ 12 * dtft WP (ds / v) (fftFreq N (ds / v) m) * ds) / (v * dtft lam (ds / v) (fftFreq N (ds / v) m) * ds)
    have e : fftFreq N (ds / v) m = m / (N * (ds / v)) := by
      unfold fftFreq
      rw [if_pos (hin m (List.mem_range.1 hm)).1]
    rw [e, fftBin_eq_dtft hd.ne' hN hW, fftBin_eq_dtft hd.ne' hN hL]
    push_cast
    rfl

example : (2 : ℕ) ≤ 5 ∧ (0 : ℝ) < 3 ∧ (0 : ℝ) < 1 / 10 ∧ 2 * (4 : ℝ) ≤ 3 / (1 / 10) := by norm_num

/-- **C51 (refuted, coarse axis).** If the step of the s axis does not resolve `fmax`, no frequencies are returned at all: the calculation fails. -/
theorem C51_coarse_refuted {v s0 ds fmax : ℝ} {ns : ℕ} (hns : 2 ≤ ns) (hf : 0 < fmax) (hres : v / ds < fmax) (samples : ℕ) (fac : ℂ) (WP lam : List ℝ) :
    impedance fac v fmax samples (axis s0 ds ns) WP lam = .error .valueError := by
  unfold impedance
  have hl : (axis s0 ds ns).length = ns := by unfold axis; rw [List.length_map, List.length_range]
  rw [if_neg (by omega)]
  simp only [meanStep_axis s0 ds hns]
  rw [if_pos]
  unfold nfft
  have : ⌊v / ds / fmax⌋ ≤ 0 := by
    rw [← Int.lt_add_one_iff, Int.floor_lt]
    push_cast
    rw [div_lt_one hf]
    exact hres
  exact mul_nonpos_of_nonpos_of_nonneg this (by positivity)

/-- **C51 (refuted, long wakes).** The part of a wake beyond the transform length `N = ⌊(v/ds)/fmax⌋ * samples` is ignored: two wakes that agree on their first `N` samples have
the same impedance, whatever follows. -/
theorem C51_truncated_refuted {v s0 ds fmax : ℝ} {ns samples : ℕ} (hns : 2 ≤ ns) (fac : ℂ) (WP WP' lam : List ℝ) (h : ∀ j : ℕ, (j : ℤ) < nfft v ds fmax samples → WP.getD j 0 = WP'.getD j 0) :
    impedance fac v fmax samples (axis s0 ds ns) WP lam = impedance fac v fmax samples (axis s0 ds ns) WP' lam := by
  unfold impedance
  simp only [meanStep_axis s0 ds hns]
  split_ifs with h1 h2
  · rfl
  · rfl
  · have : ∀ m, fftBin (WP.map (· * 10 ^ 12)) (nfft v ds fmax samples).toNat m = fftBin (WP'.map (· * 10 ^ 12)) (nfft v ds fmax samples).toNat m := fun m => by
      unfold fftBin
      refine Finset.sum_congr rfl fun j hj => ?_
      rw [Finset.mem_range] at hj
      rw [getD_map_mul, getD_map_mul, h j (by omega)]
    simp only [this]

/-! ### C52 -/

theorem fftBin_linear (W V : ℕ → ℝ) (a b c : ℝ) (ns N m : ℕ) :
    fftBin (((List.range ns).map fun n => a * W n + b * V n).map (· * c)) N m = a * fftBin (((List.range ns).map W).map (· * c)) N m + b * fftBin (((List.range ns).map V).map (· * c)) N m := by
  unfold fftBin
  rw [Finset.mul_sum, Finset.mul_sum, ← Finset.sum_add_distrib]
  refine Finset.sum_congr rfl fun j _ => ?_
  rw [getD_map_mul, getD_map_mul, getD_map_mul]
  have : ∀ F : ℕ → ℝ, ((List.range ns).map F).getD j 0 = if j < ns then F j else 0 := fun F => by
    split_ifs with h
    · rw [List.getD_eq_getElem?_getD, List.getElem?_map, List.getElem?_range h]; rfl
    · exact getD_of_length_le (by simpa using h)
  rw [this, this, this]
  split_ifs
  · push_cast; ring
  · simp

/-- **C52 (linear in the wake).** Whenever the impedance can be calculated at all, that of a combination of wakes is the combination of the impedances, on the same frequencies. -/
theorem C52_linear (fac : ℂ) (v fmax : ℝ) (samples : ℕ) (s lam : List ℝ) (W V : ℕ → ℝ) (a b : ℝ) (ns : ℕ) {i₁ i₂ : Imp}
    (h₁ : impedance fac v fmax samples s ((List.range ns).map W) lam = .ok i₁) (h₂ : impedance fac v fmax samples s ((List.range ns).map V) lam = .ok i₂) :
    ∃ i, impedance fac v fmax samples s ((List.range ns).map fun n => a * W n + b * V n) lam = .ok i ∧ i.f = i₁.f ∧ i.f = i₂.f ∧ i.lambdaf = i₁.lambdaf ∧
      i.Z = List.zipWith (fun z₁ z₂ : ℂ => (a : ℂ) * z₁ + (b : ℂ) * z₂) i₁.Z i₂.Z := by
  unfold impedance at *
  split_ifs at h₁ h₂ ⊢ with h3
  simp only at h₁ h₂ ⊢
  split_ifs at h₁ h₂ ⊢ with h4
  cases h₁
  cases h₂
  refine ⟨_, rfl, rfl, rfl, rfl, ?_⟩
  simp only [fftBin_linear]
  rw [List.zipWith_map, List.zipWith_self]
  refine List.map_congr_left fun m _ => ?_
  ring

/-- **C52 (fresh charge distribution, partial).** If no charge distribution is cached, or the cached one is that of the current bunch length and s axis, the impedance is the one of the
current wake with the current Gaussian distribution. Missing: `C52_refuted`. -/
theorem C52_fresh_partial (w : WState) (samples : ℕ) (fmax : Option ℝ) (h : w.lambdas = none ∨ w.lambdas = some (gaussLambda w.sigmaz w.s)) {i : Imp}
    (hi : impedance (-1) w.v (fmax.getD w.fmax) samples w.s w.WP (gaussLambda w.sigmaz w.s) = .ok i) :
    calcLongZ w samples fmax = .ok { w with lambdas := some (gaussLambda w.sigmaz w.s), imp := some i } := by
  have : w.lambdas.getD (gaussLambda w.sigmaz w.s) = gaussLambda w.sigmaz w.s := by
    rcases h with h | h <;> rw [h] <;> rfl
  unfold calcLongZ
  simp only [this]
  rw [hi]
  rfl

/-- **C52 (what a second calculation uses).** After a first calculation, any new wake with any new bunch length and s axis, the impedance is computed with the charge distribution of the
first one. -/
theorem C52_stale {w w₁ : WState} {samples : ℕ} {fmax : Option ℝ} (h : calcLongZ w samples fmax = .ok w₁) (sigmaz : ℝ) (s WP : List ℝ) (samples' : ℕ) (fmax' : Option ℝ) :
    calcLongZ (newWake w₁ sigmaz s WP) samples' fmax' =
      (impedance (-1) w.v (fmax'.getD w.fmax) samples' s WP (w.lambdas.getD (gaussLambda w.sigmaz w.s))).map fun i =>
        { newWake w₁ sigmaz s WP with lambdas := some (w.lambdas.getD (gaussLambda w.sigmaz w.s)), imp := some i } := by
  unfold calcLongZ at h
  simp only at h
  cases hi : impedance (-1) w.v (fmax.getD w.fmax) samples w.s w.WP (w.lambdas.getD (gaussLambda w.sigmaz w.s)) with
  | error e => rw [hi] at h; cases h
  | ok i =>
    rw [hi] at h
    cases h
    unfold calcLongZ
    show (impedance (-1) w.v (fmax'.getD w.fmax) samples' s WP (w.lambdas.getD (gaussLambda w.sigmaz w.s)) >>= _) = _
    cases impedance (-1) w.v (fmax'.getD w.fmax) samples' s WP (w.lambdas.getD (gaussLambda w.sigmaz w.s)) <;> rfl

/-- The impedance of a solver on the s axis `[0, 1]` with `v = 1`, `fmax = 1/2` and one sample. -/
theorem small_impedance (WP lam : List ℝ) :
    impedance (-1) 1 (1 / 2) 1 (axis 0 1 2) WP lam = .ok ⟨[0], [-1 * (fftBin (WP.map (· * 10 ^ 12)) 2 0 * (1 : ℝ)) / (fftBin (lam.map (· * 1)) 2 0 * (1 : ℝ))], [fftBin (lam.map (· * 1)) 2 0 * (1 : ℝ)]⟩ := by
  have hn : nfft 1 1 (1 / 2) 1 = 2 := by unfold nfft; norm_num
  have hb : keptBins 2 1 (1 / 2) = [0] := by
    unfold keptBins
    rw [show List.range 2 = [0, 1] from rfl]
    norm_num [List.filter, fftFreq]
  unfold impedance
  have hl : (axis (0 : ℝ) 1 2).length = 2 := by unfold axis; rw [List.length_map, List.length_range]
  rw [if_neg (by omega)]
  simp only [meanStep_axis (0 : ℝ) 1 (le_refl 2), hn, div_one]
  rw [if_neg (by omega)]
  simp only [show (2 : ℤ).toNat = 2 from rfl, hb, List.map_cons, List.map_nil]
  norm_num [fftFreq]

theorem gauss_sum (σ : ℝ) : fftBin ((gaussLambda σ (axis 0 1 2)).map (· * 1)) 2 0 = ((1 / (σ * Real.sqrt (2 * Real.pi)) * (1 + Real.exp (-1 / (2 * σ ^ 2))) : ℝ) : ℂ) := by
  unfold fftBin gaussLambda axis
  rw [show List.range 2 = [0, 1] from rfl]
  simp [Finset.sum_range_succ]
  ring_nf

/-- **C52 (refuted).** Recomputing after the bunch length changed does not use the new charge distribution: the impedance differs from that of a fresh solver. -/
theorem C52_refuted : ∃ (w w₁ w₂ w₃ : WState) (sigmaz : ℝ) (s WP : List ℝ), w.lambdas = none ∧ 0 < w.sigmaz ∧ 0 < sigmaz ∧ calcLongZ w 1 none = .ok w₁ ∧
    calcLongZ (newWake w₁ sigmaz s WP) 1 none = .ok w₂ ∧ calcLongZ (newWake w sigmaz s WP) 1 none = .ok w₃ ∧ w₂.imp.map Imp.lambdaf ≠ w₃.imp.map Imp.lambdaf := by
  let w : WState := ⟨1, 1 / 2, 1, axis 0 1 2, [1, 0], none, none⟩
  have e1 := C52_fresh_partial w 1 none (Or.inl rfl) (small_impedance _ _)
  have e2 := C52_stale e1 2 (axis 0 1 2) [1, 0] 1 none
  rw [show (none : Option ℝ).getD w.fmax = 1 / 2 from rfl, show w.v = 1 from rfl, small_impedance] at e2
  have e3 := C52_fresh_partial (newWake w 2 (axis 0 1 2) [1, 0]) 1 none (Or.inl rfl) (small_impedance _ _)
  refine ⟨w, _, _, _, 2, axis 0 1 2, [1, 0], rfl, one_pos, two_pos, e1, e2, e3, fun h => ?_⟩
  have h' : ([fftBin ((gaussLambda 1 (axis 0 1 2)).map (· * 1)) 2 0 * ((1 : ℝ) : ℂ)] : List ℂ) = [fftBin ((gaussLambda 2 (axis 0 1 2)).map (· * 1)) 2 0 * ((1 : ℝ) : ℂ)] :=
    Option.some.inj h
  rw [gauss_sum, gauss_sum, List.cons.injEq] at h'
  have h2 := h'.1
  rw [Complex.ofReal_one, mul_one, mul_one, Complex.ofReal_inj] at h2
  have hs : 0 < Real.sqrt (2 * Real.pi) := Real.sqrt_pos.2 (by positivity)
  have l1 : 0 < Real.exp (-1 / (2 * 1 ^ 2)) := Real.exp_pos _
  have l2 : Real.exp (-1 / (2 * 2 ^ 2)) < 1 := by rw [Real.exp_lt_one_iff]; norm_num
  have h3 : 2 * (1 + Real.exp (-1 / (2 * 1 ^ 2))) = 1 + Real.exp (-1 / (2 * 2 ^ 2)) := by
    field_simp at h2
    linarith
  linarith

end Wake
end Wakis
