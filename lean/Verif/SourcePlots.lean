import Verif.SourceProps2

/-!
# C133: pictures of the sources

`plot(t)` of the beam, the plane wave and the wave packet draws what the source does in time.  The model keeps what is drawn: for each axis of the figure the points of its curve and the limits of the values shown.
-/

namespace Wakis
namespace Src
open Fld
noncomputable section

/-- One axis of a figure: `ax.plot(t, v)` and `ax.set_ylim(lo, hi)`. -/
structure Axis where
  pts : List (ℝ × ℝ)
  lo : ℝ
  hi : ℝ

/-- `np.abs(a).max()`; `ValueError` for an empty array. -/
def absMax : List ℝ → Py ℝ
  | [] => .error .valueError
  | a :: l => .ok (l.foldl (fun m v => max m |v|) |a|)

/-- sources.py:111-137 `Beam.plot`, `t` an array: curve of `q v λ` with the reference at 0, limits 0 and 1.3 times the largest magnitude.  `2 * None ** 2` raises `TypeError`. -/
def Beam.plot (b : Beam) (ts : List ℝ) : Py Axis :=
  match b.sigmaz with
  | none => .error .typeError
  | some sg => do
    let src : ℝ → ℝ := fun t =>
      let s0 := -b.v * b.ti
      let s := -b.v * t
      b.q * b.v * (1 / Real.sqrt (2 * Real.pi * sg ^ 2) * Real.exp (-((s - s0) ^ 2) / (2 * sg ^ 2)))
    let m ← absMax (ts.map src)
    return ⟨ts.map fun t => (t, src t), 0, m * 1.3⟩

open Classical in
/-- sources.py:249-281 `PlaneWave.plot`, `t` an array: the curves of Hy and of Ex, zero after `tmax`, limits plus and minus the largest magnitude. -/
def PlaneWave.plot (p : PlaneWave) (ts : List ℝ) : Py (Axis × Axis) := do
  let w := 2 * Real.pi * p.f
  let kz := w / cLight
  let h : ℝ → ℝ := fun t => if ∃ T, p.tmax = some T ∧ T < t then 0 else -p.amplitude * Real.cos (w * t + p.phase)
  let e : ℝ → ℝ := fun t => if ∃ T, p.tmax = some T ∧ T < t then 0 else p.amplitude * Real.cos (w * t + p.phase) / (kz / (mu0 * (p.beta * cLight)))
  let mh ← absMax (ts.map h)
  let me ← absMax (ts.map e)
  return (⟨ts.map fun t => (t, h t), -mh, mh⟩, ⟨ts.map fun t => (t, e t), -me, me⟩)

/-- sources.py:421-457 `WavePacket.plot`, `t` an array: without the transverse profile.  `2 * None ** 2` raises `TypeError`. -/
def WavePacket.plot (p : WavePacket) (ts : List ℝ) (zmin : ℝ) : Py (Axis × Axis) :=
  match p.sigmaz with
  | none => .error .typeError
  | some sz => do
    let w := 2 * Real.pi * p.f
    let gausst : ℝ → ℝ := fun t =>
      let s0 := zmin - p.tinj
      let s := zmin - p.beta * cLight * t
      Real.exp (-((s - s0) ^ 2) / (2 * sz ^ 2))
    let h : ℝ → ℝ := fun t => -p.amplitude * Real.cos (w * t + p.phase) * gausst t
    let e : ℝ → ℝ := fun t => p.amplitude * mu0 * cLight * Real.cos (w * t + p.phase) * gausst t
    let mh ← absMax (ts.map h)
    let me ← absMax (ts.map e)
    return (⟨ts.map fun t => (t, h t), -mh, mh⟩, ⟨ts.map fun t => (t, e t), -me, me⟩)

/-! ### Specification -/

/-- The curve has one point for each time asked for, in their order, and all of it lies between the limits of the axis. -/
def Axis.Shows (A : Axis) (ts : List ℝ) : Prop := A.pts.map Prod.fst = ts ∧ ∀ q ∈ A.pts, A.lo ≤ q.2 ∧ q.2 ≤ A.hi

/-! ### Proofs -/

theorem foldl_max (l : List ℝ) (m : ℝ) : m ≤ l.foldl (fun m v => max m |v|) m ∧ ∀ v ∈ l, |v| ≤ l.foldl (fun m v => max m |v|) m := by
  induction l generalizing m with
  | nil => exact ⟨le_rfl, by simp⟩
  | cons a l ih =>
    obtain ⟨h1, h2⟩ := ih (max m |a|)
    refine ⟨(le_max_left _ _).trans h1, ?_⟩
    intro v hv
    rcases List.mem_cons.1 hv with rfl | hv
    · exact (le_max_right _ _).trans h1
    · exact h2 v hv

theorem absMax_ok {l : List ℝ} {m : ℝ} (h : absMax l = .ok m) : ∀ v ∈ l, |v| ≤ m := by
  cases l with
  | nil => cases h
  | cons a l =>
    cases h
    intro v hv
    rcases List.mem_cons.1 hv with rfl | hv
    · exact (foldl_max l _).1
    · exact (foldl_max l _).2 v hv

theorem absMax_cons (a : ℝ) (l : List ℝ) : ∃ m, absMax (a :: l) = .ok m := ⟨_, rfl⟩

theorem Beam.plot_inv {b : Beam} {ts : List ℝ} {A : Axis} (h : b.plot ts = .ok A) : ∃ sg m, b.sigmaz = some sg ∧ absMax (ts.map fun t => b.q * b.v * lineDensity sg (0 - b.centre 0 t)) = .ok m ∧
    A = ⟨ts.map fun t => (t, b.q * b.v * lineDensity sg (0 - b.centre 0 t)), 0, m * 1.3⟩ := by
  unfold Beam.plot at h
  cases hs : b.sigmaz with
  | none => rw [hs] at h; cases h
  | some sg =>
    rw [hs] at h
    have e : ∀ t, 1 / Real.sqrt (2 * Real.pi * sg ^ 2) * Real.exp (-((-b.v * t - -b.v * b.ti) ^ 2) / (2 * sg ^ 2)) = lineDensity sg (0 - b.centre 0 t) := by
      intro t
      unfold lineDensity Beam.centre
      rw [div_mul_eq_mul_div, one_mul]
      congr 3
      ring
    simp only [e, bind, Except.bind] at h
    split at h
    · cases h
    · rename_i m hm
      cases h
      exact ⟨sg, m, rfl, hm, rfl⟩

/-- **C133 (beam).** For every beam, grid, state of the fields and array of times: each point of the curve of `Beam.plot` is the current through the first plane of cells at that time, that is the current density that `update` writes there
times the area of the cell. -/
theorem C133_beam {b b' : Beam} {g : Grd} {F F' : Flds} {t v : ℝ} {ts : List ℝ} {A : Axis} (hb : b.Fits g) (hx : F.J.Nx = g.Nx) (hy : F.J.Ny = g.Ny) (hz : F.J.Nz = g.Nz) (hM : g.ZMIN = none)
    (hdx : ∀ i < g.Nx, g.dx i ≠ 0) (hdy : ∀ j < g.Ny, g.dy j ≠ 0) (hA : b.plot ts = .ok A) (hv : (t, v) ∈ A.pts) (h : b.update g F t = .ok (b', F')) :
    t ∈ ts ∧ ∃ i j k, IsNearest g.Nx g.x b.xsource i ∧ IsNearest g.Ny g.y b.ysource j ∧ k < g.Nz ∧ (∀ m < g.Nz, g.z k ≤ g.z m) ∧ ∃ J, F'.J.get (i : ℤ) (j : ℤ) (k : ℤ) (.str "z") = .ok J ∧ v = J * (g.dx i * g.dy j) := by
  obtain ⟨sg, m, hs, -, rfl⟩ := Beam.plot_inv hA
  obtain ⟨t0, ht0, e⟩ := List.mem_map.1 hv
  obtain ⟨rfl, rfl⟩ := Prod.mk.inj e
  obtain ⟨sg', zmin, i, j, hs', ⟨k, hk, rfl⟩, hmin, hi, hj, hJ⟩ := C42_current hb hx hy hz hM h
  rw [hs] at hs'
  cases hs'
  refine ⟨ht0, i, j, k, hi, hj, hk, hmin, _, hJ k hk, ?_⟩
  rw [div_mul_cancel₀ _ (mul_ne_zero (hdx i hi.1) (hdy j hj.1))]
  congr 2
  unfold Beam.centre
  ring

theorem lineDensity_nonneg (sg u : ℝ) : 0 ≤ lineDensity sg u := by
  unfold lineDensity
  positivity

/-- **C133 (beam, partial).** For a positive charge moving forward the whole curve is shown.  Missing: `C133_negative_refuted`. -/
theorem C133_beam_shown_partial {b : Beam} {ts : List ℝ} {A : Axis} (hq : 0 ≤ b.q) (hbeta : 0 ≤ b.beta) (hA : b.plot ts = .ok A) : A.Shows ts := by
  obtain ⟨sg, m, hs, hm, rfl⟩ := Beam.plot_inv hA
  have hv : 0 ≤ b.v := mul_nonneg (by unfold cLight; norm_num) hbeta
  refine ⟨by simp [Function.comp_def], ?_⟩
  intro q hqq
  obtain ⟨t0, ht0, rfl⟩ := List.mem_map.1 hqq
  have h0 : 0 ≤ b.q * b.v * lineDensity sg (0 - b.centre 0 t0) := mul_nonneg (mul_nonneg hq hv) (lineDensity_nonneg _ _)
  refine ⟨h0, ?_⟩
  have := absMax_ok hm _ (List.mem_map.2 ⟨t0, ht0, rfl⟩)
  rw [abs_of_nonneg h0] at this
  simp only
  linarith

/-- **C133 (beam, refuted).** For a bunch of negative charge (electrons) no point of the curve is within the limits of the picture, whatever the times. -/
theorem C133_negative_refuted {b : Beam} {ts : List ℝ} {A : Axis} {sg : ℝ} (hs : b.sigmaz = some sg) (hsg : sg ≠ 0) (hq : b.q < 0) (hbeta : 0 < b.beta) (hA : b.plot ts = .ok A) : ∀ q ∈ A.pts, q.2 < A.lo := by
  obtain ⟨sg', m, hs', hm, rfl⟩ := Beam.plot_inv hA
  rw [hs] at hs'
  cases hs'
  have hv : 0 < b.v := mul_pos (by unfold cLight; norm_num) hbeta
  intro q hqq
  obtain ⟨t0, ht0, rfl⟩ := List.mem_map.1 hqq
  refine mul_neg_of_neg_of_pos (mul_neg_of_neg_of_pos hq hv) ?_
  unfold lineDensity
  have := Real.pi_pos
  positivity

theorem PlaneWave.plot_inv {p : PlaneWave} {ts : List ℝ} {A : Axis × Axis} (hA : p.plot ts = .ok A) : ∃ (h e : ℝ → ℝ) (mh me : ℝ), absMax (ts.map h) = .ok mh ∧ absMax (ts.map e) = .ok me ∧
    A = (⟨ts.map fun t => (t, h t), -mh, mh⟩, ⟨ts.map fun t => (t, e t), -me, me⟩) ∧
    (∀ t, h t = open Classical in if ∀ T, p.tmax = some T → t ≤ T then -p.amplitude * Real.cos (2 * Real.pi * p.f * t + p.phase) else 0) ∧
    ∀ t, e t = open Classical in if ∀ T, p.tmax = some T → t ≤ T then p.amplitude * Real.cos (2 * Real.pi * p.f * t + p.phase) / (2 * Real.pi * p.f / cLight / (mu0 * (p.beta * cLight))) else 0 := by
  classical
  have flip : ∀ (t a : ℝ), (if ∃ T, p.tmax = some T ∧ T < t then 0 else a) = if ∀ T, p.tmax = some T → t ≤ T then a else 0 := by
    intro t a
    by_cases h : ∃ T, p.tmax = some T ∧ T < t
    · rw [if_pos h, if_neg]
      obtain ⟨T, h1, h2⟩ := h
      exact fun hh => absurd (hh T h1) (not_le.2 h2)
    · rw [if_neg h, if_pos]
      exact fun T h1 => not_lt.1 fun h2 => h ⟨T, h1, h2⟩
  unfold PlaneWave.plot at hA
  simp only [bind, Except.bind] at hA
  split at hA
  · cases hA
  rename_i mh h1
  split at hA
  · cases hA
  rename_i me h2
  cases hA
  refine ⟨_, _, mh, me, h1, h2, rfl, fun t => ?_, fun t => ?_⟩
  · exact (flip t _).trans (by congr)
  · exact (flip t _).trans (by congr)

/-- **C133 (plane wave).** For every plane wave, state of the fields and array of times: at each time the curves have the values of Hy and Ex that `update` writes at that time into every cell it writes, and the whole of both curves is shown. -/
theorem C133_planeWave {p p' : PlaneWave} {g : Grd} {F F' : Flds} {t : ℝ} {ts : List ℝ} {A : Axis × Axis} (hA : p.plot ts = .ok A) (h : p.update g F t = .ok (p', F')) {X Y Z X' Y' Z' : List ℕ}
    (rx : (p.xs.getD (.slice (some 0) (some g.Nx))).resolve F.H.Nx = .ok X) (ry : (p.ys.getD (.slice (some 0) (some g.Ny))).resolve F.H.Ny = .ok Y) (rz : p.zs.resolve F.H.Nz = .ok Z)
    (rx' : (p.xs.getD (.slice (some 0) (some g.Nx))).resolve F.E.Nx = .ok X') (ry' : (p.ys.getD (.slice (some 0) (some g.Ny))).resolve F.E.Ny = .ok Y') (rz' : p.zs.resolve F.E.Nz = .ok Z') :
    A.1.Shows ts ∧ A.2.Shows ts ∧ (∀ v, (t, v) ∈ A.1.pts → ∀ i < F.H.Nx, ∀ j < F.H.Ny, ∀ k < F.H.Nz, i ∈ X → j ∈ Y → k ∈ Z → F'.H.get (i : ℤ) (j : ℤ) (k : ℤ) (.str "y") = .ok v) ∧
      ∀ v, (t, v) ∈ A.2.pts → ∀ i < F.E.Nx, ∀ j < F.E.Ny, ∀ k < F.E.Nz, i ∈ X' → j ∈ Y' → k ∈ Z' → F'.E.get (i : ℤ) (j : ℤ) (k : ℤ) (.str "x") = .ok v := by
  classical
  obtain ⟨fh, fe, mh, me, h1, h2, rfl, hh, he⟩ := PlaneWave.plot_inv hA
  have shows : ∀ (f : ℝ → ℝ) (m : ℝ), absMax (ts.map f) = .ok m → (⟨ts.map fun t => (t, f t), -m, m⟩ : Axis).Shows ts := by
    intro f m hm
    refine ⟨by simp [Function.comp_def], ?_⟩
    intro q hq
    obtain ⟨t0, ht0, rfl⟩ := List.mem_map.1 hq
    exact abs_le.1 (absMax_ok hm _ (List.mem_map.2 ⟨t0, ht0, rfl⟩))
  unfold PlaneWave.update at h
  simp only [bind, Except.bind] at h
  split at h
  · cases h
  rename_i H g1
  split at h
  · cases h
  rename_i E g2
  cases h
  refine ⟨shows _ _ h1, shows _ _ h2, ?_, ?_⟩
  · intro v hv i hi j hj k hk hX hY hZ
    obtain ⟨t0, ht0, e⟩ := List.mem_map.1 hv
    obtain ⟨rfl, rfl⟩ := Prod.mk.inj e
    have := C01_block_write F.H H (key := .str "y") (c := 1) (names_iff.2 (by decide)) rx ry rz g1 (key' := .str "y") (c' := 1) (names_iff.2 (by decide)) hi hj hk
    rw [if_pos ⟨rfl, hX, hY, hZ⟩] at this
    show H.get _ _ _ _ = _
    rw [this, hh]
  · intro v hv i hi j hj k hk hX hY hZ
    obtain ⟨t0, ht0, e⟩ := List.mem_map.1 hv
    obtain ⟨rfl, rfl⟩ := Prod.mk.inj e
    have := C01_block_write F.E E (key := .str "x") (c := 0) (names_iff.2 (by decide)) rx' ry' rz' g2 (key' := .str "x") (c' := 0) (names_iff.2 (by decide)) hi hj hk
    rw [if_pos ⟨rfl, hX, hY, hZ⟩] at this
    show E.get _ _ _ _ = _
    rw [this, he]

theorem packet_le (amplitude f phase beta tinj sxy sz t x y : ℝ) : |packetAt amplitude f phase beta tinj sxy sz t x y| ≤ |packetAt amplitude f phase beta tinj sxy sz t 0 0| := by
  unfold packetAt
  rw [abs_mul, abs_mul, abs_mul _ (Real.exp (-((beta * cLight * t - tinj) ^ 2) / (2 * sz ^ 2))), abs_mul _ (Real.exp (-(0 ^ 2 + 0 ^ 2) / (2 * sxy ^ 2)))]
  have e : |Real.exp (-(x ^ 2 + y ^ 2) / (2 * sxy ^ 2))| ≤ |Real.exp (-((0 : ℝ) ^ 2 + 0 ^ 2) / (2 * sxy ^ 2))| := by
    rw [abs_of_pos (Real.exp_pos _), abs_of_pos (Real.exp_pos _)]
    refine Real.exp_le_exp.2 ?_
    rw [show -((0 : ℝ) ^ 2 + 0 ^ 2) / (2 * sxy ^ 2) = 0 by norm_num]
    exact div_nonpos_of_nonpos_of_nonneg (by nlinarith [sq_nonneg x, sq_nonneg y]) (by positivity)
  gcongr

theorem WavePacket.plot_of {p : WavePacket} {sz : ℝ} (hs : p.sigmaz = some sz) (t0 : ℝ) (ts : List ℝ) (zmin : ℝ) : ∃ mh me, p.plot (t0 :: ts) zmin =
    .ok (⟨(t0 :: ts).map fun t => (t, -packetAt p.amplitude p.f p.phase p.beta p.tinj 1 sz t 0 0), -mh, mh⟩, ⟨(t0 :: ts).map fun t => (t, mu0 * cLight * packetAt p.amplitude p.f p.phase p.beta p.tinj 1 sz t 0 0), -me, me⟩) ∧
    absMax ((t0 :: ts).map fun t => -packetAt p.amplitude p.f p.phase p.beta p.tinj 1 sz t 0 0) = .ok mh ∧ absMax ((t0 :: ts).map fun t => mu0 * cLight * packetAt p.amplitude p.f p.phase p.beta p.tinj 1 sz t 0 0) = .ok me := by
  have e1 : ∀ t, -p.amplitude * Real.cos (2 * Real.pi * p.f * t + p.phase) * Real.exp (-((zmin - p.beta * cLight * t - (zmin - p.tinj)) ^ 2) / (2 * sz ^ 2)) = -packetAt p.amplitude p.f p.phase p.beta p.tinj 1 sz t 0 0 := by
    intro t
    unfold packetAt
    rw [show zmin - p.beta * cLight * t - (zmin - p.tinj) = -(p.beta * cLight * t - p.tinj) by ring, neg_sq, show -((0 : ℝ) ^ 2 + 0 ^ 2) / (2 * 1 ^ 2) = 0 by norm_num, Real.exp_zero]
    ring
  have e2 : ∀ t, p.amplitude * mu0 * cLight * Real.cos (2 * Real.pi * p.f * t + p.phase) * Real.exp (-((zmin - p.beta * cLight * t - (zmin - p.tinj)) ^ 2) / (2 * sz ^ 2)) = mu0 * cLight * packetAt p.amplitude p.f p.phase p.beta p.tinj 1 sz t 0 0 := by
    intro t
    unfold packetAt
    rw [show zmin - p.beta * cLight * t - (zmin - p.tinj) = -(p.beta * cLight * t - p.tinj) by ring, neg_sq, show -((0 : ℝ) ^ 2 + 0 ^ 2) / (2 * 1 ^ 2) = 0 by norm_num, Real.exp_zero]
    ring
  obtain ⟨mh, hh⟩ := absMax_cons (-packetAt p.amplitude p.f p.phase p.beta p.tinj 1 sz t0 0 0) (ts.map fun t => -packetAt p.amplitude p.f p.phase p.beta p.tinj 1 sz t 0 0)
  obtain ⟨me, he⟩ := absMax_cons (mu0 * cLight * packetAt p.amplitude p.f p.phase p.beta p.tinj 1 sz t0 0 0) (ts.map fun t => mu0 * cLight * packetAt p.amplitude p.f p.phase p.beta p.tinj 1 sz t 0 0)
  refine ⟨mh, me, ?_, hh, he⟩
  unfold WavePacket.plot
  rw [hs]
  simp only [e1, e2, bind, Except.bind, List.map_cons, hh, he]
  rfl

/-- **C133 (wave packet, partial).** A packet over a square cross-section, after any update: its picture is of the fields on the axis.  For every time asked for, the curves have the largest values of Hy and Ex that an update at that time can
write, and exactly the written ones in a cell whose centre is on the axis; the whole of both curves is shown; the parameter `zmin` does not matter.  Missing: before the first update, `C133_packet_refuted`. -/
theorem C133_packet_partial {p p1 p' : WavePacket} {g : Grd} {F0 F1 F F' : Flds} {t t1 : ℝ} (hxs : p.xs = none) (hys : p.ys = none) (hN : g.Nx = g.Ny) (hE : F.E.Nx = g.Nx ∧ F.E.Ny = g.Ny) (hH : F.H.Nx = g.Nx ∧ F.H.Ny = g.Ny)
    {kz : ℕ} (hkz : p.zs = kz) (hEz : kz < F.E.Nz) (hHz : kz < F.H.Nz) (h1 : p.update g F0 t1 = .ok (p1, F1)) (h : p.update g F t = .ok (p', F')) {ts : List ℝ} (ht : t ∈ ts) (zmin : ℝ) :
    ∃ A, p1.plot ts zmin = .ok A ∧ A.1.Shows ts ∧ A.2.Shows ts ∧ ∃ vh ve, (t, vh) ∈ A.1.pts ∧ (t, ve) ∈ A.2.pts ∧
      ∀ i < g.Nx, ∀ j < g.Ny, ∃ wh we, F'.H.get (i : ℤ) (j : ℤ) (kz : ℤ) (.str "y") = .ok wh ∧ F'.E.get (i : ℤ) (j : ℤ) (kz : ℤ) (.str "x") = .ok we ∧ |wh| ≤ |vh| ∧ |we| ≤ |ve| ∧
        (g.x j = 0 → g.y i = 0 → wh = vh ∧ we = ve) := by
  have hp1 : p1.sigmaz = some (p.widths g).2 ∧ p1.amplitude = p.amplitude ∧ p1.f = p.f ∧ p1.phase = p.phase ∧ p1.beta = p.beta ∧ p1.tinj = p.tinj := by
    unfold WavePacket.update at h1
    simp only [bind, Except.bind] at h1
    split at h1
    · cases h1
    split at h1
    · cases h1
    split at h1
    · cases h1
    split at h1
    · cases h1
    split at h1
    · cases h1
    cases h1
    exact ⟨rfl, rfl, rfl, rfl, rfl, rfl⟩
  obtain ⟨hs, ea, ef, ep, eb, et⟩ := hp1
  obtain ⟨t0, l, rfl⟩ : ∃ t0 l, ts = t0 :: l := by
    cases ts with
    | nil => cases ht
    | cons a l => exact ⟨a, l, rfl⟩
  obtain ⟨mh, me, hplot, m1, m2⟩ := WavePacket.plot_of hs t0 l zmin
  have shows : ∀ (f : ℝ → ℝ) (m : ℝ), absMax ((t0 :: l).map f) = .ok m → (⟨(t0 :: l).map fun t => (t, f t), -m, m⟩ : Axis).Shows (t0 :: l) := by
    intro f m hm
    refine ⟨by simp [Function.comp_def], ?_⟩
    intro q hq
    obtain ⟨t0, ht0, rfl⟩ := List.mem_map.1 hq
    exact abs_le.1 (absMax_ok hm _ (List.mem_map.2 ⟨t0, ht0, rfl⟩))
  refine ⟨_, hplot, shows _ _ m1, shows _ _ m2, _, _, List.mem_map.2 ⟨t, ht, rfl⟩, List.mem_map.2 ⟨t, ht, rfl⟩, fun i hi j hj => ?_⟩
  obtain ⟨q1, q2⟩ := C62_actual hxs hys hN hE hH hkz hEz hHz h i hi j hj
  have w : packetAt p1.amplitude p1.f p1.phase p1.beta p1.tinj 1 (p.widths g).2 t 0 0 = packetAt p.amplitude p.f p.phase p.beta p.tinj (p.widths g).1 (p.widths g).2 t 0 0 := by
    rw [ea, ef, ep, eb, et]
    unfold packetAt
    rw [show -((0 : ℝ) ^ 2 + 0 ^ 2) / (2 * 1 ^ 2) = 0 by norm_num, show -((0 : ℝ) ^ 2 + 0 ^ 2) / (2 * (p.widths g).1 ^ 2) = 0 by norm_num]
  refine ⟨_, _, q1, q2, ?_, ?_, ?_⟩
  · rw [w, abs_neg, abs_neg]
    exact packet_le _ _ _ _ _ _ _ _ _ _
  · rw [w, abs_mul, abs_mul (mu0 * cLight)]
    exact mul_le_mul_of_nonneg_left (packet_le _ _ _ _ _ _ _ _ _ _) (abs_nonneg _)
  · intro hx hy
    rw [hx, hy, w]
    exact ⟨rfl, rfl⟩

/-- **C133 (wave packet, refuted).** A packet of the default length (`sigmaz` not given) can be made and can be injected, but its picture cannot be drawn before the first update: `plot` raises `TypeError`, whatever the times. -/
theorem C133_packet_refuted (xs ys : Option (Option ℤ × Option ℤ)) (zs : ℤ) (sigmaxy : Option ℝ) (tinj f amplitude beta phase : ℝ) :
    ∃ p, WavePacket.init xs ys zs none sigmaxy (some tinj) none (some f) amplitude beta phase = .ok p ∧ ∀ ts zmin, p.plot ts zmin = .error .typeError := ⟨_, rfl, fun _ _ => rfl⟩

example : demoBeam.Fits demoGrd ∧ (∃ A, demoBeam.plot [1, 3] = .ok A ∧ ∃ v, ((3 : ℝ), v) ∈ A.pts) ∧ (∃ b' F', demoBeam.update demoGrd demoFlds 3 = .ok (b', F')) ∧ 0 ≤ demoBeam.q ∧ 0 ≤ demoBeam.beta :=
  ⟨.inl rfl, ⟨_, rfl, _, List.mem_cons_of_mem _ (List.mem_cons_self ..)⟩, C42_updates demoBeam (g := demoGrd) (F := demoFlds) 3 rfl (by unfold demoGrd; decide) (.inl rfl) rfl rfl rfl, by unfold demoBeam; norm_num, by unfold demoBeam; norm_num⟩

example : ∃ A, ({ demoBeam with q := -1 } : Beam).plot [1, 3] = .ok A ∧ ∃ q ∈ A.pts, q.2 < A.lo := by
  obtain ⟨A, hA, hm⟩ : ∃ A, ({ demoBeam with q := -1 } : Beam).plot [1, 3] = .ok A ∧ ∃ q, q ∈ A.pts := ⟨_, rfl, _, List.mem_cons_self ..⟩
  obtain ⟨q, hq⟩ := hm
  exact ⟨A, hA, q, hq, C133_negative_refuted (sg := 0.01) rfl (by norm_num) (by norm_num) (by unfold demoBeam; norm_num) hA q hq⟩

example : ∃ p p' F' A, PlaneWave.init none none (.int 0) (some 3) (some 1) 1 1 0 = .ok p ∧ p.update demoGrd demoFlds 0 = .ok (p', F') ∧ p.plot [0, 5] = .ok A ∧
    (p.xs.getD (.slice (some 0) (some demoGrd.Nx))).resolve demoFlds.H.Nx = .ok (List.range 2) ∧ ∃ v, ((0 : ℝ), v) ∈ A.1.pts := ⟨_, _, _, _, rfl, rfl, rfl, resolve_full 2, _, List.mem_cons_self ..⟩

example : ∃ p p' F', WavePacket.init none none 1 none none (some 1) none (some 3) 1 1 0 = .ok p ∧ p.xs = none ∧ p.ys = none ∧
    p.update { demoGrd with Ny := 2 } ⟨Fld.new 2 2 4, Fld.new 2 2 4, Fld.new 2 2 4⟩ 0 = .ok (p', F') := ⟨_, _, _, rfl, rfl, rfl, rfl⟩

end
end Src
end Wakis
