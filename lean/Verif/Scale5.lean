import Verif.Scale3
import Verif.Rerun

/-!
# C115: similar models have similar wakes
-/

namespace Wakis
namespace Wake
open Src Sol Sparse Fld
noncomputable section

/-! ### Specification -/

/-- The grid with all lengths and the time step multiplied by `a`. -/
def scaleGrd (a : ℝ) (g : Grd) : Grd :=
  ⟨g.Nx, g.Ny, g.Nz, fun i => a * g.x i, fun i => a * g.y i, fun i => a * g.z i, fun i => a * g.dx i, fun i => a * g.dy i, fun i => a * g.dz i, a * g.dt, g.ZMIN.map fun z => a * z⟩

/-- The wake run with bunch length, source and test position and injection time multiplied by `a`. -/
def scaleArgs (a : ℝ) (w : WakeArgs) : WakeArgs := ⟨w.q, a * w.sigmaz, w.beta, a * w.xsource, a * w.ysource, a * w.xtest, a * w.ytest, w.ti.map fun t => a * t, w.skip⟩

/-! ### Parts -/

theorem nearest_scale {a : ℝ} (ha : 0 < a) {n : ℕ} {x : ℕ → ℝ} {p : ℝ} {r : ℕ} : IsNearest n (fun i => a * x i) (a * p) r ↔ IsNearest n x p r := by
  have e : ∀ i, |a * x i - a * p| = a * |x i - p| := fun i => by rw [← mul_sub, abs_mul, abs_of_pos ha]
  unfold IsNearest
  simp only [e, mul_le_mul_iff_right₀ ha, mul_lt_mul_iff_right₀ ha]

theorem smallest_scale {a : ℝ} (ha : 0 < a) {n : ℕ} {x : ℕ → ℝ} {m : ℝ} (h : Smallest n x m) : Smallest n (fun i => a * x i) (a * m) := by
  obtain ⟨⟨i, hi, e⟩, h2⟩ := h
  exact ⟨⟨i, hi, by rw [e]⟩, fun i hi => mul_le_mul_of_nonneg_left (h2 i hi) ha.le⟩

theorem largest_scale {a : ℝ} (ha : 0 < a) {n : ℕ} {x : ℕ → ℝ} {m : ℝ} (h : Largest n x m) : Largest n (fun i => a * x i) (a * m) := by
  obtain ⟨⟨i, hi, e⟩, h2⟩ := h
  exact ⟨⟨i, hi, by rw [e]⟩, fun i hi => mul_le_mul_of_nonneg_left (h2 i hi) ha.le⟩

theorem largest_unique {n : ℕ} {x : ℕ → ℝ} {a b : ℝ} (ha : Largest n x a) (hb : Largest n x b) : a = b := by
  obtain ⟨i, hi, rfl⟩ := ha.1
  obtain ⟨l, hl, rfl⟩ := hb.1
  exact le_antisymm (hb.2 i hi) (ha.2 l hl)

theorem injection_scale (a : ℝ) (w : WakeArgs) : (scaleArgs a w).injection = a * w.injection := by
  unfold WakeArgs.injection
  show (w.ti.map fun t => a * t).getD (8.548921333333334 * (a * w.sigmaz) / (Real.sqrt w.beta * w.v)) = _
  cases w.ti with
  | none => show 8.548921333333334 * (a * w.sigmaz) / (Real.sqrt w.beta * w.v) = a * (8.548921333333334 * w.sigmaz / (Real.sqrt w.beta * w.v)); ring
  | some t => rfl

theorem density_scale {a : ℝ} (ha : 0 < a) (sg u : ℝ) : lineDensity (a * sg) (a * u) = lineDensity sg u / a := by
  unfold lineDensity
  have e1 : -((a * u) ^ 2) / (2 * (a * sg) ^ 2) = -(u ^ 2) / (2 * sg ^ 2) := by
    rw [mul_pow, mul_pow, show -(a ^ 2 * u ^ 2) = a ^ 2 * -(u ^ 2) by ring, show 2 * (a ^ 2 * sg ^ 2) = a ^ 2 * (2 * sg ^ 2) by ring, mul_div_mul_left _ _ (by positivity)]
  have e2 : 2 * Real.pi * (a * sg) ^ 2 = a ^ 2 * (2 * Real.pi * sg ^ 2) := by ring
  rw [e1, e2, Real.sqrt_mul (by positivity), Real.sqrt_sq ha.le, div_div, mul_comm a]

theorem centre_scale {a : ℝ} {w : WakeArgs} {b : Beam} (hb : w.beam = .ok b) : ∃ b', (scaleArgs a w).beam = .ok b' ∧ ∀ zmin t, b'.centre (a * zmin) (a * t) = a * b.centre zmin t := by
  unfold WakeArgs.beam Beam.init at hb
  cases hb
  refine ⟨_, rfl, fun zmin t => ?_⟩
  unfold Beam.centre Beam.v
  show a * zmin + cLight * w.beta * (a * t - 8.548921333333334 * (a * w.sigmaz) / (cLight * w.beta)) = a * (zmin + cLight * w.beta * (t - 8.548921333333334 * w.sigmaz / (cLight * w.beta)))
  ring

theorem steps_scale {a : ℝ} (ha : a ≠ 0) (wl ti v zmin zmax dt : ℝ) : stepsFor (a * wl) (a * ti) v (a * zmin) (a * zmax) (a * dt) = stepsFor wl ti v zmin zmax dt := by
  unfold stepsFor
  congr 1
  rw [show a * wl + a * ti * v + (a * zmax - a * zmin) = a * (wl + ti * v + (zmax - zmin)) by ring, div_right_comm, mul_div_mul_left _ _ ha, div_right_comm]

theorem seen_scale {a : ℝ} (ha : a ≠ 0) (l : ℝ) (Nt : ℕ) {Ez Ez' : ℕ → ℕ → ℝ} {k : ℕ} (h : ∀ n < Nt, Ez' n k = l * Ez n k) (vdt : ℝ) (n : ℕ) {d : ℝ} (hd : 0 ≤ d / vdt) :
    seen Nt Ez' (a * vdt) n k (a * d) = l * seen Nt Ez vdt n k d := by
  unfold seen
  rw [mul_div_mul_left _ _ ha]
  split
  · rename_i hlt
    have : 0 ≤ ⌊d / vdt⌋ := Int.floor_nonneg.2 hd
    exact h _ (by omega)
  · rw [mul_zero]

theorem driven_scale {a : ℝ} (ha : 0 < a) {s s' : Solver ℝ} (hs : Similar a s s') {g : Grd} (hf : Fitting s g) {w : WakeArgs} {zmin t : ℝ} {st D : State ℝ} (h : Driven s g w zmin t st D) :
    Driven s' (scaleGrd a g) (scaleArgs a w) (a * zmin) (a * t) (scaleSt (1 / a ^ 2) a st) (scaleSt (1 / a ^ 2) a D) := by
  obtain ⟨b, hb, i, l, hi, hl, sb, hv⟩ := h.J
  obtain ⟨b', hb', hc⟩ := centre_scale (a := a) hb
  have fl : ∀ v : Vec ℝ, s'.fld (fun n => 1 / a ^ 2 / a * v n) = kf (1 / a ^ 2 / a) (s.fld v) := fun v => by unfold Solver.fld kf; rw [hs.nx, hs.ny, hs.nz]
  refine ⟨by unfold scaleSt; rw [h.E], by unfold scaleSt; rw [h.H], h.step0, b', hb', i, l, (nearest_scale ha).2 hi, (nearest_scale ha).2 hl, ?_, fun k hk => ?_⟩
  · show SameBut _ (s'.fld (fun n => 1 / a ^ 2 / a * st.J n)) (s'.fld (fun n => 1 / a ^ 2 / a * D.J n))
    rw [fl, fl]
    refine ⟨rfl, rfl, rfl, fun key c x y z hk hx hy hz hn => ?_⟩
    have e := sb.2.2.2 key c x y z hk hx hy hz fun hh => hn ⟨hh.1, (nearest_scale ha).2 hh.2.1, (nearest_scale ha).2 hh.2.2⟩
    rw [get_at3 (f := s.fld D.J) _ hk hx hy hz, get_at3 (f := s.fld st.J) _ hk hx hy hz] at e
    rw [get_at3 (f := kf _ (s.fld D.J)) _ hk hx hy hz, get_at3 (f := kf _ (s.fld st.J)) _ hk hx hy hz, kf_at3, kf_at3, Except.ok.inj e]
  · show (s'.fld (fun n => 1 / a ^ 2 / a * D.J n)).get _ _ _ _ = _
    rw [fl]
    have hz : Names (.str "z") 2 := names_iff.2 (by decide)
    have hi' : i < s.Nx := by have := hi.1; rwa [hf.Nx] at this
    have hl' : l < s.Ny := by have := hl.1; rwa [hf.Ny] at this
    have hk' : k < s.Nz := by have : k < g.Nz := hk; rwa [hf.Nz] at this
    have e := hv k hk
    rw [get_at3 (f := s.fld D.J) _ hz hi' hl' hk'] at e
    rw [get_at3 (f := kf _ (s.fld D.J)) _ hz hi' hl' hk', kf_at3, Except.ok.inj e, hc]
    show Except.ok _ = Except.ok (w.q * w.v * lineDensity (a * w.sigmaz) (a * g.z k - a * b.centre zmin t) / (a * g.dx i * (a * g.dy l)))
    rw [← mul_sub, density_scale ha]
    congr 1
    ring

/-! ### Wake runs -/

/-- **C115 (wake runs).** Let two solvers be similar (lengths and time step times `a`, conductivities divided by `a`).  A longitudinal wake run (without callback, both starting from zero fields) of the scaled
model, with bunch length, source and test position, injection time and wake length multiplied by `a` and the same charge, has the same number of steps, and every sample of its recording is that of
the original model divided by `a²`. -/
theorem C115_wake_run {a : ℝ} (ha : 0 < a) {s s' : Solver ℝ} (hs : Similar a s s') {g : Grd} {w : WakeArgs} (hf : Fitting s g) (hdt : 0 < s.dt) {wakelength : ℝ} {mon mon' : Option Monitor} {md md' : ℕ → Dset ℝ}
    {o o' : WakeOut} (h : wakesolve s g w wakelength true none mon md initState = .ok o)
    (h' : wakesolve s' (scaleGrd a g) (scaleArgs a w) (a * wakelength) true none mon' md' initState = .ok o') (hN : o.Nt ≤ 100000) :
    o'.Nt = o.Nt ∧ (∀ n < o.Nt, ∀ k < g.Nz, ∃ e, sample o.recording n k = some e ∧ sample o'.recording n k = some (e / a ^ 2)) ∧
      (3 ≤ o.Nt → w.skip = 0 → 0 < w.beta → ∃ sv WP, calcLongWP (w.par wakelength) o.recording = .ok (sv, WP) ∧
        calcLongWP ((scaleArgs a w).par (a * wakelength)) o'.recording = .ok (sv.map fun x => a * x, WP.map fun x => x / a)) := by
  have hf' : Fitting s' (scaleGrd a g) := by
    refine ⟨hf.Nx.trans hs.nx.symm, hf.Ny.trans hs.ny.symm, hf.Nz.trans hs.nz.symm, by rw [hs.nx]; exact hf.posx, by rw [hs.ny]; exact hf.posy, by rw [hs.nz]; exact hf.posz, ?_⟩
    show g.ZMIN.map _ = none
    rw [hf.serial]; rfl
  have hdt' : 0 < s'.dt := by rw [hs.dt]; exact mul_pos ha hdt
  obtain ⟨o1, S1, D1, zmin, zmax, ixt, iyt, Ez1, p1, px, py, pN, p0, pS, pD, pR, pn, pz, pdz, pE, -⟩ := C65_records s g w hf hdt wakelength none mon md initState
  obtain ⟨o2, S2, D2, zmin', zmax', ixt', iyt', Ez2, q1, qx, qy, qN, q0, qS, qD, qR, qn, qz, qdz, qE, -⟩ := C65_records s' (scaleGrd a g) (scaleArgs a w) hf' hdt' (a * wakelength) none mon' md' initState
  obtain rfl := Except.ok.inj (p1.symm.trans h)
  obtain rfl := Except.ok.inj (q1.symm.trans h')
  obtain rfl := nearest_unique ((nearest_scale ha).2 px) qx
  obtain rfl := nearest_unique ((nearest_scale ha).2 py) qy
  have least := pR.least
  rw [pz] at least
  have greatest := pR.greatest
  rw [pz] at greatest
  obtain rfl : a * zmin = zmin' := by
    have b := qR.least; rw [qz] at b; exact smallest_unique (smallest_scale ha least) b
  obtain rfl : a * zmax = zmax' := by
    have b := qR.greatest; rw [qz] at b
    have c := largest_scale ha greatest
    obtain ⟨i, hi, e⟩ := c.1
    obtain ⟨l, hl, e'⟩ := b.1
    exact le_antisymm (e ▸ b.2 i hi) (e' ▸ c.2 l hl)
  have hv : (scaleArgs a w).v = w.v := rfl
  have eN : o2.Nt = o1.Nt := by
    rw [qN, pN, injection_scale, hs.dt, hv, steps_scale ha.ne']
  have e0 : scaleSt (1 / a ^ 2) a (initState : State ℝ) = initState := by
    unfold scaleSt initState
    simp
  have hS : ∀ n ≤ o1.Nt, SameCells s' (S2 n) (scaleSt (1 / a ^ 2) a (S1 n)) ∧ (S2 n).step0 = (S1 n).step0 := by
    intro n
    induction n with
    | zero => intro _; rw [p0, q0, e0]; exact ⟨fun _ _ => ⟨rfl, rfl, rfl⟩, rfl⟩
    | succ n ih =>
      intro hn
      obtain ⟨i1, i2⟩ := ih (by omega)
      obtain ⟨d1, e1⟩ := pD n (by omega)
      obtain ⟨d2, e2⟩ := qD n (by omega)
      have e1' : S1 (n + 1) = oneStep s (D1 n) := e1
      have e2' : S2 (n + 1) = oneStep s' (D2 n) := e2
      have d1' := driven_scale ha hs hf d1
      rw [show a * ((n : ℝ) * s.dt) = n * s'.dt by rw [hs.dt]; ring] at d1'
      rw [e1', e2', ← step_similar ha.ne' hs]
      refine ⟨oneStep_same s' (driven_same hf' d2 d1' i1) (.inl ?_), ?_⟩
      · rw [d2.step0, i2]; exact d1.step0.symm
      · rw [oneStep_step0, oneStep_step0]
  have hEz : ∀ n < o1.Nt, ∀ k < g.Nz, Ez2 n k = 1 / a ^ 2 * Ez1 n k := by
    intro n hn k hk
    have f1 := pE n hn k hk
    have f2 := qE n (eN ▸ hn) k hk
    have hz : Names (.str "z") 2 := names_iff.2 (by decide)
    have hx' : ixt < s.Nx := by have := px.1; rwa [hf.Nx] at this
    have hy' : iyt < s.Ny := by have := py.1; rwa [hf.Ny] at this
    have hk' : k < s.Nz := by rwa [hf.Nz] at hk
    rw [get_at3 (f := s.fld (S1 n).E) _ hz hx' hy' hk'] at f1
    have hx2 : ixt < s'.Nx := hs.nx.symm ▸ hx'
    have hy2 : iyt < s'.Ny := hs.ny.symm ▸ hy'
    have hk2 : k < s'.Nz := hs.nz.symm ▸ hk'
    rw [get_at3 (f := s'.fld (S2 n).E) _ hz hx2 hy2 hk2] at f2
    rw [← Except.ok.inj f1, ← Except.ok.inj f2]
    have e := ((hS n hn.le).1 (pos s'.Nx s'.Ny s'.Nz 2 ixt iyt k) (pos_lt (by decide) hx2 hy2 hk2)).1
    rw [hs.nx, hs.ny, hs.nz] at e
    unfold Solver.fld
    rw [hs.nx, hs.ny, hs.nz]
    exact e
  refine ⟨eN, fun n hn k hk => ⟨Ez1 n k, ?_, ?_⟩, fun h3 hskip hbeta => ?_⟩
  · unfold sample
    rw [pR.file, C49_frames_partial md hN _ hn]
    simp only [hk, if_true]
  · have hk' : k < (scaleGrd a g).Nz := hk
    unfold sample
    rw [qR.file, C49_frames_partial md' (by omega) _ (by omega)]
    simp only [hk', if_true]
    rw [hEz n hn k hk]
    congr 1
    ring
  · have hvp : 0 < w.v := mul_pos hbeta (by unfold cLight; norm_num)
    have k1 := C47_line_integral pR (w.par wakelength) hvp hdt h3 hN (by rw [pn]) hskip
    have k2 := C47_line_integral qR ((scaleArgs a w).par (a * wakelength)) hvp hdt' (by omega) (by omega) (by rw [qn]) hskip
    refine ⟨_, _, k1, k2.trans ?_⟩
    have l1 : lengthOf (w.par wakelength) o1.Nt s.dt zmin zmax = wakelength := rfl
    have l2 : lengthOf ((scaleArgs a w).par (a * wakelength)) o2.Nt s'.dt (a * zmin) (a * zmax) = a * wakelength := rfl
    have ti : ((scaleArgs a w).par (a * wakelength)).ti = a * w.injection := injection_scale a w
    have ns : arangeLen (-(a * w.injection) * w.v) (a * wakelength) (s'.dt * w.v) = arangeLen (-w.injection * w.v) wakelength (s.dt * w.v) := by
      unfold arangeLen
      rw [hs.dt, show a * wakelength - -(a * w.injection) * w.v = a * (wakelength - -w.injection * w.v) by ring, mul_assoc a, mul_div_mul_left _ _ ha.ne']
    simp only [l1, l2, ti]
    show Except.ok ((List.range (arangeLen (-(a * w.injection) * w.v) (a * wakelength) (s'.dt * w.v))).map fun n : ℕ => -(a * w.injection) * w.v + (n : ℝ) * (s'.dt * w.v),
        (List.range (arangeLen (-(a * w.injection) * w.v) (a * wakelength) (s'.dt * w.v))).map fun n : ℕ => (∑ k ∈ Finset.range g.Nz, seen o2.Nt Ez2 (w.v * s'.dt) n k (o2.recording.zf k - a * zmin) * o2.recording.dz k) / (w.q * 10 ^ 12)) = _
    rw [ns]
    congr 2
    · rw [List.map_map]
      refine List.map_congr_left fun n _ => ?_
      show _ = a * (-w.injection * w.v + (n : ℝ) * (s.dt * w.v))
      rw [hs.dt]; ring
    · rw [List.map_map]
      refine List.map_congr_left fun n _ => ?_
      show _ = (∑ k ∈ Finset.range g.Nz, seen o1.Nt Ez1 (w.v * s.dt) n k (o1.recording.zf k - zmin) * o1.recording.dz k) / (w.q * 10 ^ 12) / a
      rw [div_right_comm]
      congr 1
      rw [Finset.sum_div]
      refine Finset.sum_congr rfl fun k hk => ?_
      have hk := Finset.mem_range.1 hk
      rw [eN, qz, qdz, pz, pdz, hs.dt]
      show seen o1.Nt Ez2 (w.v * (a * s.dt)) n k (a * g.z k - a * zmin) * (a * g.dz k) = _
      rw [← mul_sub, mul_left_comm _ a (g.dz k), mul_left_comm w.v a, seen_scale ha.ne' (1 / a ^ 2) o1.Nt (fun n hn => hEz n hn k hk) (w.v * s.dt) n (div_nonneg (sub_nonneg.2 (least.2 k hk)) (mul_pos hvp hdt).le)]
      field_simp

/-! ### Impedance -/

theorem getD_map_times (k : ℝ) (l : List ℝ) (i : ℕ) : (l.map fun x => k * x).getD i 0 = k * l.getD i 0 := by
  rw [List.getD_eq_getElem?_getD, List.getD_eq_getElem?_getD, List.getElem?_map]
  cases l[i]? with
  | none => exact (mul_zero k).symm
  | some x => rfl

theorem fftBin_scale (k : ℝ) (l : List ℝ) (N m : ℕ) : fftBin (l.map fun x => k * x) N m = k * fftBin l N m := by
  unfold fftBin
  rw [Finset.mul_sum]
  refine Finset.sum_congr rfl fun j _ => ?_
  rw [getD_map_times]
  push_cast
  ring

theorem meanStep_scale (a : ℝ) (s : List ℝ) : meanStep (s.map fun x => a * x) = a * meanStep s := by
  unfold meanStep
  rw [List.length_map, mul_div_assoc', Finset.mul_sum]
  congr 1
  refine Finset.sum_congr rfl fun i _ => ?_
  rw [getD_map_times, getD_map_times]
  ring

theorem fftFreq_scale (a : ℝ) (N : ℕ) (d : ℝ) (m : ℕ) : fftFreq N (a * d) m = fftFreq N d m / a := by
  unfold fftFreq
  split
  · rw [div_div]; congr 1; ring
  · rw [div_div]; congr 1; ring

theorem gauss_scale {a : ℝ} (ha : 0 < a) (sg : ℝ) (s : List ℝ) : gaussLambda (a * sg) (s.map fun x => a * x) = (gaussLambda sg s).map fun x => 1 / a * x := by
  unfold gaussLambda
  rw [List.map_map, List.map_map]
  refine List.map_congr_left fun x _ => ?_
  show 1 / (a * sg * Real.sqrt (2 * Real.pi)) * Real.exp (-((a * x) ^ 2) / (2 * (a * sg) ^ 2)) = 1 / a * (1 / (sg * Real.sqrt (2 * Real.pi)) * Real.exp (-(x ^ 2) / (2 * sg ^ 2)))
  have e1 : -((a * x) ^ 2) / (2 * (a * sg) ^ 2) = -(x ^ 2) / (2 * sg ^ 2) := by
    rw [mul_pow, mul_pow, show -(a ^ 2 * x ^ 2) = a ^ 2 * -(x ^ 2) by ring, show 2 * (a ^ 2 * sg ^ 2) = a ^ 2 * (2 * sg ^ 2) by ring, mul_div_mul_left _ _ (by positivity)]
  rw [e1]
  ring

theorem impedance_scale {a : ℝ} (ha : 0 < a) (c : ℂ) (v fmax sg : ℝ) (samples : ℕ) (sv WP : List ℝ) :
    impedance c v (fmax / a) samples (sv.map fun x => a * x) (WP.map fun x => x / a) (gaussLambda (a * sg) (sv.map fun x => a * x)) =
      (impedance c v fmax samples sv WP (gaussLambda sg sv)).map fun r => ⟨r.f.map fun x => x / a, r.Z, r.lambdaf⟩ := by
  have hN : nfft v (a * meanStep sv) (fmax / a) samples = nfft v (meanStep sv) fmax samples := by
    unfold nfft
    congr 2
    rw [div_div, div_div, mul_assoc, mul_left_comm, mul_div_cancel₀ _ ha.ne']
  have hfr : ∀ N m, fftFreq N (a * meanStep sv / v) m = fftFreq N (meanStep sv / v) m / a := fun N m => by rw [mul_div_assoc, fftFreq_scale]
  have hk : ∀ N, keptBins N (a * meanStep sv / v) (fmax / a) = keptBins N (meanStep sv / v) fmax := fun N => by
    unfold keptBins
    refine List.filter_congr fun m _ => ?_
    rw [hfr, decide_eq_decide, div_lt_div_iff_of_pos_right ha, le_div_iff₀ ha, zero_mul]
  have hW : ∀ N m, fftBin ((WP.map fun x => x / a).map (· * 10 ^ 12)) N m * (a * meanStep sv : ℝ) = fftBin (WP.map (· * 10 ^ 12)) N m * (meanStep sv : ℝ) := fun N m => by
    have e : (WP.map fun x => x / a).map (· * 10 ^ 12) = (WP.map (· * 10 ^ 12)).map fun x => 1 / a * x := by
      rw [List.map_map, List.map_map]
      exact List.map_congr_left fun x _ => by show x / a * 10 ^ 12 = 1 / a * (x * 10 ^ 12); ring
    rw [e, fftBin_scale]
    have : (a : ℂ) ≠ 0 := by exact_mod_cast ha.ne'
    generalize fftBin _ N m = X
    push_cast
    field_simp
  have hL : ∀ N m, fftBin ((gaussLambda (a * sg) (sv.map fun x => a * x)).map (· * v)) N m * (a * meanStep sv : ℝ) = fftBin ((gaussLambda sg sv).map (· * v)) N m * (meanStep sv : ℝ) := fun N m => by
    have e : (gaussLambda (a * sg) (sv.map fun x => a * x)).map (· * v) = ((gaussLambda sg sv).map (· * v)).map fun x => 1 / a * x := by
      rw [gauss_scale ha, List.map_map, List.map_map]
      exact List.map_congr_left fun x _ => by show 1 / a * x * v = 1 / a * (x * v); ring
    rw [e, fftBin_scale]
    have : (a : ℂ) ≠ 0 := by exact_mod_cast ha.ne'
    generalize fftBin _ N m = X
    push_cast
    field_simp
  unfold impedance
  rw [List.length_map, meanStep_scale]
  split
  · rfl
  · simp only [hN]
    split
    · rfl
    · show Except.ok _ = Except.ok _
      congr 1
      simp only [Imp.mk.injEq, hk]
      refine ⟨?_, ?_, ?_⟩
      · rw [List.map_map]
        exact List.map_congr_left fun m _ => hfr _ m
      · exact List.map_congr_left fun m _ => by rw [hW, hL]
      · exact List.map_congr_left fun m _ => hL _ m

/-- **C115 (impedance).** From the wake potential of the scaled model (`s` axis times `a`, wake potential divided by `a`, bunch length times `a`), `calc_long_Z` with the maximum frequency divided by `a`
gives exactly the impedance of the original model, at the frequencies divided by `a`; it fails when the original does. -/
theorem C115_impedance {a : ℝ} (ha : 0 < a) (v fmax sg : ℝ) (samples : ℕ) (sv WP : List ℝ) :
    impedance (-1) v (fmax / a) samples (sv.map fun x => a * x) (WP.map fun x => x / a) (gaussLambda (a * sg) (sv.map fun x => a * x)) =
      (impedance (-1) v fmax samples sv WP (gaussLambda sg sv)).map fun r => ⟨r.f.map fun x => x / a, r.Z, r.lambdaf⟩ :=
  impedance_scale ha (-1) v fmax sg samples sv WP

/-! ### From the user's input -/

theorem wake_similar {a : ℝ} (ha : 0 < a) {s s' : Solver ℝ} (sim' : Similar a s s') {g : Grd} (hg' : Fitting s g) (hdt' : 0 < s.dt) {w : WakeArgs} (hskip : w.skip = 0) (hbeta : 0 < w.beta) (wakelength : ℝ)
    (md md' : ℕ → Dset ℝ) :
      ∃ o o', wakesolve s g w wakelength true none none md initState = .ok o ∧ wakesolve s' (scaleGrd a g) (scaleArgs a w) (a * wakelength) true none none md' initState = .ok o' ∧ o'.Nt = o.Nt ∧
        (3 ≤ o.Nt → o.Nt ≤ 100000 → ∃ sv WP, calcLongWP (w.par wakelength) o.recording = .ok (sv, WP) ∧
          calcLongWP ((scaleArgs a w).par (a * wakelength)) o'.recording = .ok (sv.map fun x => a * x, WP.map fun x => x / a) ∧
          ∀ (fmax : ℝ) (samples : ℕ), impedance (-1) w.v (fmax / a) samples (sv.map fun x => a * x) (WP.map fun x => x / a) (gaussLambda (a * w.sigmaz) (sv.map fun x => a * x)) =
            (impedance (-1) w.v fmax samples sv WP (gaussLambda w.sigmaz sv)).map fun r => ⟨r.f.map fun x => x / a, r.Z, r.lambdaf⟩) := by
  obtain ⟨o, S, D, zmin, zmax, ixt, iyt, Ez, p1, px, py, pN, p0, pS, pD, pR, pn, pz, pdz, pE, -⟩ := C65_records s g w hg' hdt' wakelength none none md initState
  have hf2 : Fitting s' (scaleGrd a g) := by
    refine ⟨hg'.Nx.trans sim'.nx.symm, hg'.Ny.trans sim'.ny.symm, hg'.Nz.trans sim'.nz.symm, by rw [sim'.nx]; exact hg'.posx, by rw [sim'.ny]; exact hg'.posy, by rw [sim'.nz]; exact hg'.posz, ?_⟩
    show g.ZMIN.map _ = none
    rw [hg'.serial]; rfl
  have hdt2 : 0 < s'.dt := by rw [sim'.dt]; exact mul_pos ha hdt'
  obtain ⟨o', S', D', zmin', zmax', ixt', iyt', Ez', q1, -, -, qN, -, -, -, qR, -, qz, -⟩ := C65_records s' (scaleGrd a g) (scaleArgs a w) hf2 hdt2 (a * wakelength) none none md' initState
  refine ⟨o, o', p1, q1, ?_, fun h3 hN => ?_⟩
  · have least := pR.least
    rw [pz] at least
    have greatest := pR.greatest
    rw [pz] at greatest
    have b := qR.least
    rw [qz] at b
    have b' := qR.greatest
    rw [qz] at b'
    have e1 := smallest_unique (smallest_scale ha least) b
    have e2 := largest_unique (largest_scale ha greatest) b'
    rw [qN, pN, injection_scale, sim'.dt, ← e1, ← e2]
    show (stepsFor (a * wakelength) (a * w.injection) w.v (a * zmin) (a * zmax) (a * s.dt)).toNat = _
    rw [steps_scale ha.ne']
  · obtain ⟨-, -, k3⟩ := C115_wake_run ha sim' hg' hdt' p1 q1 hN
    obtain ⟨sv, WP, k4, k5⟩ := k3 h3 hskip hbeta
    exact ⟨sv, WP, k4, k5, fun fmax samples => C115_impedance ha w.v fmax w.sigmaz samples sv WP⟩

/-- **C115 (wake and impedance).** Take any model without PML faces that can be set up with a positive time step, and scale it by `a > 0`: lengths, bunch length, source and test position, time step,
injection time and wake length times `a`, conductivities divided by `a`, charge and beam velocity as they are.  The scaled model can be set up; its longitudinal wake run has the same number of steps, its
s axis is `a` times and its wake potential `1 / a` times that of the original (at least 3 and at most 100000 steps, no skipped cells), and its impedance is that of the original at frequencies
divided by `a`. -/
theorem C115_wake {a : ℝ} (ha : 0 < a) {c eps0 mu0 cfln : ℝ} {dt : Option ℝ} {nPml Nx Ny Nz : ℕ} {x y z : ℕ → ℝ} {bc : Faces String} (hbc : anyFace isPml bc = false) {bg : MatSpec ℝ}
    {dict : String → Option (MatSpec ℝ)} {solids : List Solid} {t : Mats ℝ} {d : ℝ} (hd : 0 < d) (h : setUp c eps0 mu0 cfln dt nPml Nx Ny Nz x y z bc bg dict solids = .ok (t, d))
    {g : Grd} (hg : Fitting (build (Grid.computeGrid Nx Ny Nz x y z) bc t.ieps.array t.imu.array t.sigma.array d t.useCond) g) {w : WakeArgs} (hskip : w.skip = 0) (hbeta : 0 < w.beta) (wakelength : ℝ)
    (md md' : ℕ → Dset ℝ) :
    ∃ t', setUp c eps0 mu0 cfln (dt.map fun d => a * d) nPml Nx Ny Nz (fun i => a * x i) (fun i => a * y i) (fun i => a * z i) bc (scaleSpec a bg) (fun s => (dict s).map (scaleSpec a)) solids = .ok (t', a * d) ∧
      let s := build (Grid.computeGrid Nx Ny Nz x y z) bc t.ieps.array t.imu.array t.sigma.array d t.useCond
      let s' := build (Grid.computeGrid Nx Ny Nz (fun i => a * x i) (fun i => a * y i) (fun i => a * z i)) bc t'.ieps.array t'.imu.array t'.sigma.array (a * d) t'.useCond
      ∃ o o', wakesolve s g w wakelength true none none md initState = .ok o ∧ wakesolve s' (scaleGrd a g) (scaleArgs a w) (a * wakelength) true none none md' initState = .ok o' ∧ o'.Nt = o.Nt ∧
        (3 ≤ o.Nt → o.Nt ≤ 100000 → ∃ sv WP, calcLongWP (w.par wakelength) o.recording = .ok (sv, WP) ∧
          calcLongWP ((scaleArgs a w).par (a * wakelength)) o'.recording = .ok (sv.map fun x => a * x, WP.map fun x => x / a) ∧
          ∀ (fmax : ℝ) (samples : ℕ), impedance (-1) w.v (fmax / a) samples (sv.map fun x => a * x) (WP.map fun x => x / a) (gaussLambda (a * w.sigmaz) (sv.map fun x => a * x)) =
            (impedance (-1) w.v fmax samples sv WP (gaussLambda w.sigmaz sv)).map fun r => ⟨r.f.map fun x => x / a, r.Z, r.lambdaf⟩) := by
  have k := setUp_scale ha c eps0 mu0 cfln dt nPml Nx Ny Nz x y z hbc bg dict solids
  rw [h] at k
  refine ⟨scaleMats a t, k, ?_⟩
  have sim := build_similar ha.ne' Nx Ny Nz x y z bc t.ieps.array t.imu.array (sigma := t.sigma.array) (sigma' := (scaleMats a t).sigma.array) (fun i => rfl) d t.useCond
  have hdt : (build (Grid.computeGrid Nx Ny Nz x y z) bc t.ieps.array t.imu.array t.sigma.array d t.useCond).dt = d := rfl
  exact wake_similar ha sim hg (by rw [hdt]; exact hd) hskip hbeta wakelength md md'

end
end Wake
end Wakis
