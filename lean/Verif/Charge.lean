import Verif.Scale5
import Verif.WakeProps3d

/-!
# C117: the wake potential does not depend on the bunch charge

The wake potential is given per charge; the fields are linear.
-/

namespace Wakis
namespace Wake
open Src Sol Sparse Fld
noncomputable section

/-! ### Specification -/

/-- The same wake run with `l` times the charge. -/
def WakeArgs.charged (l : ℝ) (w : WakeArgs) : WakeArgs := { w with q := l * w.q }

/-! ### Parts -/

theorem similar_one (s : Solver ℝ) : Similar 1 s s := ⟨rfl, rfl, rfl, fun _ _ => by ring, fun _ _ => by ring, rfl, fun _ => by ring, (one_mul _).symm, rfl⟩

theorem driven_charge (l : ℝ) {s : Solver ℝ} {g : Grd} (hf : Fitting s g) {w : WakeArgs} {zmin t : ℝ} {st D : State ℝ} (h : Driven s g w zmin t st D) :
    Driven s g (w.charged l) zmin t (scaleSt l 1 st) (scaleSt l 1 D) := by
  obtain ⟨b, hb, i, m, hi, hm, sb, hv⟩ := h.J
  have hc : ∃ b', (w.charged l).beam = .ok b' ∧ b'.centre zmin t = b.centre zmin t := by
    unfold WakeArgs.beam Beam.init at hb
    cases hb
    exact ⟨_, rfl, rfl⟩
  obtain ⟨b', hb', hc⟩ := hc
  have fl : ∀ v : Vec ℝ, s.fld (fun n => l / 1 * v n) = kf l (s.fld v) := fun v => by unfold Solver.fld kf; rw [div_one]
  refine ⟨by unfold scaleSt; rw [h.E], by unfold scaleSt; rw [h.H], h.step0, b', hb', i, m, hi, hm, ?_, fun k hk => ?_⟩
  · show SameBut _ (s.fld (fun n => l / 1 * st.J n)) (s.fld (fun n => l / 1 * D.J n))
    rw [fl, fl]
    refine ⟨rfl, rfl, rfl, fun key c x y z hk hx hy hz hn => ?_⟩
    have e := sb.2.2.2 key c x y z hk hx hy hz hn
    rw [get_at3 (f := s.fld D.J) _ hk hx hy hz, get_at3 (f := s.fld st.J) _ hk hx hy hz] at e
    rw [get_at3 (f := kf _ (s.fld D.J)) _ hk hx hy hz, get_at3 (f := kf _ (s.fld st.J)) _ hk hx hy hz, kf_at3, kf_at3, Except.ok.inj e]
  · show (s.fld (fun n => l / 1 * D.J n)).get _ _ _ _ = _
    rw [fl]
    have hz : Names (.str "z") 2 := names_iff.2 (by decide)
    have hi' : i < s.Nx := by have := hi.1; rwa [hf.Nx] at this
    have hl' : m < s.Ny := by have := hm.1; rwa [hf.Ny] at this
    have hk' : k < s.Nz := by rwa [hf.Nz] at hk
    have e := hv k hk
    rw [get_at3 (f := s.fld D.J) _ hz hi' hl' hk'] at e
    rw [get_at3 (f := kf _ (s.fld D.J)) _ hz hi' hl' hk', kf_at3, Except.ok.inj e, hc]
    show Except.ok _ = Except.ok (l * w.q * w.v * lineDensity w.sigmaz (g.z k - b.centre zmin t) / (g.dx i * g.dy m))
    congr 1
    ring

/-- Two runs of the same solver from zero fields, the second with `l` times the charge: all its fields are `l` times those of the first. -/
theorem states_charge (l : ℝ) {s : Solver ℝ} {g : Grd} (hf : Fitting s g) {w : WakeArgs} {zmin : ℝ} {N : ℕ} {S1 D1 S2 D2 : ℕ → State ℝ} (p0 : S1 0 = initState) (q0 : S2 0 = initState)
    (pD : ∀ n < N, Driven s g w zmin (n * s.dt) (S1 n) (D1 n) ∧ S1 (n + 1) = oneStep s (D1 n))
    (qD : ∀ n < N, Driven s g (w.charged l) zmin (n * s.dt) (S2 n) (D2 n) ∧ S2 (n + 1) = oneStep s (D2 n)) :
    ∀ n ≤ N, SameCells s (S2 n) (scaleSt l 1 (S1 n)) ∧ (S2 n).step0 = (S1 n).step0 := by
  intro n
  have e0 : scaleSt l 1 (initState : State ℝ) = initState := by
    unfold scaleSt initState
    simp
  induction n with
  | zero => intro _; rw [p0, q0, e0]; exact ⟨fun _ _ => ⟨rfl, rfl, rfl⟩, rfl⟩
  | succ n ih =>
    intro hn
    obtain ⟨i1, i2⟩ := ih (by omega)
    obtain ⟨d1, e1⟩ := pD n (by omega)
    obtain ⟨d2, e2⟩ := qD n (by omega)
    have d1' := driven_charge l hf d1
    rw [e1, e2, ← step_similar one_ne_zero (similar_one s)]
    refine ⟨oneStep_same s (driven_same hf d2 d1' i1) (.inl ?_), ?_⟩
    · rw [d2.step0, i2]; exact d1.step0.symm
    · rw [oneStep_step0, oneStep_step0]

theorem get_charge {l : ℝ} {s : Solver ℝ} {a b : State ℝ} (h : SameCells s b (scaleSt l 1 a)) {i j k : ℕ} (hi : i < s.Nx) (hj : j < s.Ny) (hk : k < s.Nz) {x y : ℝ}
    (hx : (s.fld a.E).get (i : ℤ) (j : ℤ) (k : ℤ) (.str "z") = .ok x) (hy : (s.fld b.E).get (i : ℤ) (j : ℤ) (k : ℤ) (.str "z") = .ok y) : y = l * x := by
  have hz : Names (.str "z") 2 := names_iff.2 (by decide)
  rw [get_at3 (f := s.fld a.E) _ hz hi hj hk] at hx
  rw [get_at3 (f := s.fld b.E) _ hz hi hj hk] at hy
  rw [← Except.ok.inj hx, ← Except.ok.inj hy]
  exact (h (pos s.Nx s.Ny s.Nz 2 i j k) (pos_lt (by decide) hi hj hk)).1

/-! ### Longitudinal runs -/

/-- **C117 (partial: longitudinal runs).** A longitudinal wake run of any solver from zero fields, and the same run with `l ≠ 0` times the (nonzero) charge: every sample of the recording is `l` times that of
the first run, and the wake potential, with its s axis, is exactly the same (at least 3 and at most 100000 steps, no skipped cells), hence so is the impedance. Missing: `C117_both_refuted`. -/
theorem C117_charge_partial {l : ℝ} (hl : l ≠ 0) {s : Solver ℝ} {g : Grd} (hf : Fitting s g) (hdt : 0 < s.dt) {w : WakeArgs} (hq : w.q ≠ 0) (hskip : w.skip = 0) (hbeta : 0 < w.beta) (wakelength : ℝ)
    (mon mon' : Option Monitor) (md md' : ℕ → Dset ℝ) :
    ∃ o o', wakesolve s g w wakelength true none mon md initState = .ok o ∧ wakesolve s g (w.charged l) wakelength true none mon' md' initState = .ok o' ∧ o'.Nt = o.Nt ∧
      (o.Nt ≤ 100000 → ∀ n < o.Nt, ∀ k < g.Nz, ∃ e, sample o.recording n k = some e ∧ sample o'.recording n k = some (l * e)) ∧
      (3 ≤ o.Nt → o.Nt ≤ 100000 → ∃ sv WP, calcLongWP (w.par wakelength) o.recording = .ok (sv, WP) ∧ calcLongWP ((w.charged l).par wakelength) o'.recording = .ok (sv, WP)) := by
  obtain ⟨o1, S1, D1, zmin, zmax, ixt, iyt, Ez1, p1, px, py, pN, p0, pS, pD, pR, pn, pz, pdz, pE, -⟩ := C65_records s g w hf hdt wakelength none mon md initState
  obtain ⟨o2, S2, D2, zmin', zmax', ixt', iyt', Ez2, q1, qx, qy, qN, q0, qS, qD, qR, qn, qz, qdz, qE, -⟩ := C65_records s g (w.charged l) hf hdt wakelength none mon' md' initState
  obtain rfl := C44_unique px qx
  obtain rfl := C44_unique py qy
  have least := pR.least
  rw [pz] at least
  have greatest := pR.greatest
  rw [pz] at greatest
  obtain rfl : zmin = zmin' := by have b := qR.least; rw [qz] at b; exact smallest_unique least b
  obtain rfl : zmax = zmax' := by have b := qR.greatest; rw [qz] at b; exact largest_unique greatest b
  have eN : o2.Nt = o1.Nt := by rw [qN, pN]; rfl
  have hS := states_charge l hf p0 q0 pD fun n hn => qD n (eN ▸ hn)
  have hEz : ∀ n < o1.Nt, ∀ k < g.Nz, Ez2 n k = l * Ez1 n k := fun n hn k hk =>
    get_charge (hS n hn.le).1 (hf.Nx ▸ px.1) (hf.Ny ▸ py.1) (hf.Nz ▸ hk) (pE n hn k hk) (qE n (eN ▸ hn) k hk)
  refine ⟨o1, o2, p1, q1, eN, fun hN n hn k hk => ⟨Ez1 n k, ?_, ?_⟩, fun h3 hN => ?_⟩
  · unfold sample
    rw [pR.file, C49_frames_partial md hN _ hn]
    simp only [hk, if_true]
  · unfold sample
    rw [qR.file, C49_frames_partial md' (by omega) _ (by omega)]
    simp only [hk, if_true]
    rw [hEz n hn k hk]
  · have hvp : 0 < w.v := mul_pos hbeta (by unfold cLight; norm_num)
    have k1 := C47_line_integral pR (w.par wakelength) hvp hdt h3 hN (by rw [pn]) hskip
    have k2 := C47_line_integral qR ((w.charged l).par wakelength) hvp hdt (by omega) (by omega) (by rw [qn]) hskip
    refine ⟨_, _, k1, k2.trans ?_⟩
    show Except.ok ((List.range (arangeLen (-w.injection * w.v) wakelength (s.dt * w.v))).map fun n : ℕ => -w.injection * w.v + (n : ℝ) * (s.dt * w.v),
        (List.range (arangeLen (-w.injection * w.v) wakelength (s.dt * w.v))).map fun n : ℕ => (∑ k ∈ Finset.range g.Nz, seen o2.Nt Ez2 (w.v * s.dt) n k (o2.recording.zf k - zmin) * o2.recording.dz k) / (l * w.q * 10 ^ 12)) =
      Except.ok ((List.range (arangeLen (-w.injection * w.v) wakelength (s.dt * w.v))).map fun n : ℕ => -w.injection * w.v + (n : ℝ) * (s.dt * w.v),
        (List.range (arangeLen (-w.injection * w.v) wakelength (s.dt * w.v))).map fun n : ℕ => (∑ k ∈ Finset.range g.Nz, seen o1.Nt Ez1 (w.v * s.dt) n k (o1.recording.zf k - zmin) * o1.recording.dz k) / (w.q * 10 ^ 12))
    congr 2
    refine List.map_congr_left fun n _ => ?_
    have e : (∑ k ∈ Finset.range g.Nz, seen o2.Nt Ez2 (w.v * s.dt) n k (o2.recording.zf k - zmin) * o2.recording.dz k) =
        l * ∑ k ∈ Finset.range g.Nz, seen o1.Nt Ez1 (w.v * s.dt) n k (o1.recording.zf k - zmin) * o1.recording.dz k := by
      rw [Finset.mul_sum]
      refine Finset.sum_congr rfl fun k hk => ?_
      have hk := Finset.mem_range.1 hk
      rw [eN, qz, qdz, pz, pdz, ← mul_assoc]
      have := seen_scale (a := 1) one_ne_zero l o1.Nt (fun n hn => hEz n hn k hk) (w.v * s.dt) n (div_nonneg (sub_nonneg.2 (least.2 k hk)) (mul_pos hvp hdt).le)
      rw [one_mul, one_mul] at this
      rw [this]
    rw [e, mul_assoc, mul_div_mul_left _ _ hl]

/-! ### Runs of both planes -/

/-- The wake at sample `n` of the `m`-th recorded transverse cell, as computed. -/
def cellWake (r : Py (List ℝ × List (List ℝ))) (m n : ℕ) : Option ℝ := r.toOption.bind fun x => (x.2[m]?).bind fun l => l[n]?

theorem both_core {l : ℝ} (hl : l ≠ 0) {s : Solver ℝ} {g : Grd} (hf : Fitting s g) (hdt : 0 < s.dt) {w : WakeArgs} (hq : w.q ≠ 0) (hskip : w.skip = 0) (hbeta : 0 < w.beta) (wakelength : ℝ)
    (mon mon' : Option Monitor) (md md' : ℕ → Dset ℝ) {ixt iyt : ℕ} (hx : IsNearest g.Nx g.x w.xtest ixt) (hy : IsNearest g.Ny g.y w.ytest iyt) (h1 : 0 < ixt) (h2 : ixt + 1 < g.Nx) (h3 : 0 < iyt)
    (h4 : iyt + 1 < g.Ny) :
    ∃ (o o' : WakeOut) (S D : ℕ → State ℝ) (zmin zmax : ℝ) (Ez : ℕ → ℕ → ℕ → ℕ → ℝ), wakesolve s g w wakelength false none mon md initState = .ok o ∧ wakesolve s g (w.charged l) wakelength false none mon' md' initState = .ok o' ∧ o'.Nt = o.Nt ∧
      o.Nt = (stepsFor wakelength w.injection w.v zmin zmax s.dt).toNat ∧ Largest g.Nz g.z zmax ∧ S 0 = initState ∧ (∀ n < o.Nt, Driven s g w zmin (n * s.dt) (S n) (D n) ∧ S (n + 1) = oneStep s (D n)) ∧
      (∀ n < o.Nt, ∀ a < 3, ∀ b < 3, ∀ k < g.Nz, (s.fld (S n).E).get ((ixt - 1 + a : ℕ) : ℤ) ((iyt - 1 + b : ℕ) : ℤ) (k : ℤ) (.str "z") = .ok (Ez n a b k)) ∧ Smallest g.Nz g.z zmin ∧
      (3 ≤ o.Nt → o.Nt ≤ 100000 → ∀ n < arangeLen (-w.injection * w.v) wakelength (s.dt * w.v), ∃ W0 W1,
        W0 = (∑ k ∈ Finset.range g.Nz, seen o.Nt (fun m k => Ez m 0 0 k) (w.v * s.dt) n k (g.z k - zmin) * g.dz k) / (w.q * 10 ^ 12) ∧
        cellWake (calcLongWP3d (w.par wakelength) o.recording) 0 n = some W0 ∧ cellWake (calcLongWP3d (w.par wakelength) o.recording) 1 n = some W1 ∧
        cellWake (calcLongWP3d ((w.charged l).par wakelength) o'.recording) 0 n = some W0 ∧
        cellWake (calcLongWP3d ((w.charged l).par wakelength) o'.recording) 1 n = some (W1 + (1 / l - 1) * (W0 / (w.q * 10 ^ 12)))) := by
  obtain ⟨o1, S1, D1, zmin, zmax, Ez1, p1, pN, p0, pS, pD, pR, pn, pz, pdz, pE, -⟩ := C65_both_partial s g w hf hdt wakelength none mon md initState hx hy h1 h2 h3 h4
  obtain ⟨o2, S2, D2, zmin', zmax', Ez2, q1, qN, q0, qS, qD, qR, qn, qz, qdz, qE, -⟩ := C65_both_partial s g (w.charged l) hf hdt wakelength none mon' md' initState hx hy h1 h2 h3 h4
  have least := pR.least
  rw [pz] at least
  have greatest := pR.greatest
  rw [pz] at greatest
  obtain rfl : zmin = zmin' := by have b := qR.least; rw [qz] at b; exact smallest_unique least b
  obtain rfl : zmax = zmax' := by have b := qR.greatest; rw [qz] at b; exact largest_unique greatest b
  have eN : o2.Nt = o1.Nt := by rw [qN, pN]; rfl
  have hS := states_charge l hf p0 q0 pD fun n hn => qD n (eN ▸ hn)
  have hEz : ∀ n < o1.Nt, ∀ a < 3, ∀ b < 3, ∀ k < g.Nz, Ez2 n a b k = l * Ez1 n a b k := fun n hn a ha b hb k hk =>
    get_charge (hS n hn.le).1 (by rw [← hf.Nx]; omega) (by rw [← hf.Ny]; omega) (hf.Nz ▸ hk) (pE n hn a ha b hb k hk) (qE n (eN ▸ hn) a ha b hb k hk)
  refine ⟨o1, o2, S1, D1, zmin, zmax, Ez1, p1, q1, eN, pN, greatest, p0, pD, pE, least, fun hN3 hN n hn => ?_⟩
  have hvp : 0 < w.v := mul_pos hbeta (by unfold cLight; norm_num)
  have hzz : zzPos w.skip g.Nz = List.range g.Nz := by rw [hskip]; exact zzPos_zero _
  have k1 := C48_actual (w.par wakelength) pR hvp hdt hN3 hN (by show (zzPos w.skip g.Nz).length ≤ _; rw [hzz, List.length_range, pn]) rfl hq
  have k2 := C48_actual ((w.charged l).par wakelength) qR hvp hdt (by omega) (by omega) (by show (zzPos w.skip g.Nz).length ≤ _; rw [hzz, List.length_range, qn]) rfl (mul_ne_zero hl hq)
  have hI1 : ∀ m < 3, cellIntegral (w.par wakelength) o1.recording o1.Nt g.Nz s.dt zmin Ez1 m n = ∑ k ∈ Finset.range g.Nz, seen o1.Nt (fun t k => Ez1 t 0 m k) (w.v * s.dt) n k (g.z k - zmin) * g.dz k := by
    intro m hm
    unfold cellIntegral cellSum
    show ∑ k ∈ Finset.range (zzPos w.skip g.Nz).length, seen o1.Nt (fun t k => Ez1 t (m / 3) (m % 3) ((zzPos w.skip g.Nz).getD k 0)) (w.v * s.dt) n k (o1.recording.zf ((zzPos w.skip g.Nz).getD k 0) - zmin) * o1.recording.dz k = _
    rw [hzz, List.length_range, pz, pdz, Nat.div_eq_of_lt hm, Nat.mod_eq_of_lt hm]
    refine Finset.sum_congr rfl fun k hk => ?_
    have hk := Finset.mem_range.1 hk
    unfold seen
    simp only [getD_range hk]
  have hI2 : ∀ m < 3, cellIntegral ((w.charged l).par wakelength) o2.recording o2.Nt g.Nz s.dt zmin Ez2 m n = l * cellIntegral (w.par wakelength) o1.recording o1.Nt g.Nz s.dt zmin Ez1 m n := by
    intro m hm
    rw [hI1 m hm, Finset.mul_sum]
    unfold cellIntegral cellSum
    show ∑ k ∈ Finset.range (zzPos w.skip g.Nz).length, seen o2.Nt (fun t k => Ez2 t (m / 3) (m % 3) ((zzPos w.skip g.Nz).getD k 0)) (w.v * s.dt) n k (o2.recording.zf ((zzPos w.skip g.Nz).getD k 0) - zmin) * o2.recording.dz k = _
    rw [hzz, List.length_range, qz, qdz, Nat.div_eq_of_lt hm, Nat.mod_eq_of_lt hm]
    refine Finset.sum_congr rfl fun k hk => ?_
    have hk := Finset.mem_range.1 hk
    have := seen_scale (a := 1) one_ne_zero l o1.Nt (Ez := fun t k => Ez1 t 0 m k) (Ez' := fun t k => Ez2 t 0 m k) (fun n hn => hEz n hn 0 (by decide) m hm k hk) (w.v * s.dt) n
      (div_nonneg (sub_nonneg.2 (least.2 k hk)) (mul_pos hvp hdt).le)
    rw [one_mul, one_mul] at this
    rw [← mul_assoc, ← this, eN]
    unfold seen
    simp only [getD_range hk]
  have hns1 : nsOf (w.par wakelength) o1.Nt s.dt zmin zmax = arangeLen (-w.injection * w.v) wakelength (s.dt * w.v) := rfl
  have hns2 : nsOf ((w.charged l).par wakelength) o2.Nt s.dt zmin zmax = arangeLen (-w.injection * w.v) wakelength (s.dt * w.v) := rfl
  have read : ∀ (x : List ℝ) (f : ℕ → ℕ → ℝ) (m : ℕ), m < (2 * 1 + 1) * (2 * 1 + 1) → cellWake (.ok (x, (List.range ((2 * 1 + 1) * (2 * 1 + 1))).map fun m => (List.range (arangeLen (-w.injection * w.v) wakelength (s.dt * w.v))).map (f m))) m n = some (f m n) := by
    intro x f m hm
    unfold cellWake
    simp only [Except.toOption, Option.bind_some]
    rw [List.getElem?_map, List.getElem?_range hm]
    simp only [Option.map_some, Option.bind_some]
    rw [List.getElem?_map, List.getElem?_range hn]
    rfl
  rw [hns1] at k1
  rw [hns2] at k2
  have hQ : w.q * 10 ^ 12 ≠ 0 := mul_ne_zero hq (by positivity)
  have e1 := fun m (hm : m < (2 * 1 + 1) * (2 * 1 + 1)) => read _ (fun m n => ∑ i ∈ Finset.range (m + 1), cellIntegral (w.par wakelength) o1.recording o1.Nt g.Nz s.dt zmin Ez1 i n / (w.q * 10 ^ 12) ^ (m + 1 - i)) m hm |> (congrArg (fun r => cellWake r m n) k1).trans
  have e2 := fun m (hm : m < (2 * 1 + 1) * (2 * 1 + 1)) => read _ (fun m n => ∑ i ∈ Finset.range (m + 1), cellIntegral ((w.charged l).par wakelength) o2.recording o2.Nt g.Nz s.dt zmin Ez2 i n / (l * w.q * 10 ^ 12) ^ (m + 1 - i)) m hm |> (congrArg (fun r => cellWake r m n) k2).trans
  refine ⟨cellIntegral (w.par wakelength) o1.recording o1.Nt g.Nz s.dt zmin Ez1 0 n / (w.q * 10 ^ 12),
    (cellIntegral (w.par wakelength) o1.recording o1.Nt g.Nz s.dt zmin Ez1 0 n / (w.q * 10 ^ 12) + cellIntegral (w.par wakelength) o1.recording o1.Nt g.Nz s.dt zmin Ez1 1 n) / (w.q * 10 ^ 12), ?_, ?_, ?_, ?_, ?_⟩
  · rw [hI1 0 (by decide)]
  · rw [show cellWake _ 0 n = _ from e1 0 (by decide)]
    simp [Finset.sum_range_succ]
  · rw [show cellWake _ 1 n = _ from e1 1 (by decide)]
    simp only [Finset.sum_range_succ, Finset.sum_range_zero, zero_add, Option.some.injEq]
    field_simp
    ring
  · rw [show cellWake _ 0 n = _ from e2 0 (by decide)]
    simp only [Finset.sum_range_succ, Finset.sum_range_zero, zero_add, Option.some.injEq, hI2 0 (by decide)]
    rw [tsub_zero, pow_one, mul_assoc, mul_div_mul_left _ _ hl]
  · rw [show cellWake _ 1 n = _ from e2 1 (by decide)]
    simp only [Finset.sum_range_succ, Finset.sum_range_zero, zero_add, Option.some.injEq, hI2 0 (by decide), hI2 1 (by decide)]
    field_simp
    ring

/-- **C117 (both planes: what happens).** In a run of both planes the wake of the first transverse cell is still the same; but the wake of the second
cell is `W₁ + (1/l - 1) · W₀ / Q`, where `W₀`, `W₁` are the wakes of the first and second cell with the original charge and `Q` this charge (in pC). -/
theorem C117_both_actual {l : ℝ} (hl : l ≠ 0) {s : Solver ℝ} {g : Grd} (hf : Fitting s g) (hdt : 0 < s.dt) {w : WakeArgs} (hq : w.q ≠ 0) (hskip : w.skip = 0) (hbeta : 0 < w.beta) (wakelength : ℝ)
    (mon mon' : Option Monitor) (md md' : ℕ → Dset ℝ) {ixt iyt : ℕ} (hx : IsNearest g.Nx g.x w.xtest ixt) (hy : IsNearest g.Ny g.y w.ytest iyt) (h1 : 0 < ixt) (h2 : ixt + 1 < g.Nx) (h3 : 0 < iyt)
    (h4 : iyt + 1 < g.Ny) :
    ∃ o o', wakesolve s g w wakelength false none mon md initState = .ok o ∧ wakesolve s g (w.charged l) wakelength false none mon' md' initState = .ok o' ∧ o'.Nt = o.Nt ∧
      (3 ≤ o.Nt → o.Nt ≤ 100000 → ∀ n < arangeLen (-w.injection * w.v) wakelength (s.dt * w.v), ∃ W0 W1,
        cellWake (calcLongWP3d (w.par wakelength) o.recording) 0 n = some W0 ∧ cellWake (calcLongWP3d (w.par wakelength) o.recording) 1 n = some W1 ∧
        cellWake (calcLongWP3d ((w.charged l).par wakelength) o'.recording) 0 n = some W0 ∧
        cellWake (calcLongWP3d ((w.charged l).par wakelength) o'.recording) 1 n = some (W1 + (1 / l - 1) * (W0 / (w.q * 10 ^ 12)))) := by
  obtain ⟨o, o', S, D, zmin, zmax, Ez, a1, a2, a3, -, -, -, -, -, -, a4⟩ := both_core hl hf hdt hq hskip hbeta wakelength mon mon' md md' hx hy h1 h2 h3 h4
  refine ⟨o, o', a1, a2, a3, fun h h' n hn => ?_⟩
  obtain ⟨W0, W1, -, k⟩ := a4 h h' n hn
  exact ⟨W0, W1, k⟩

/-- **C117 (refuted for both planes).** On every grid with a single layer, for every solver with non-zero permittivity and every charged beam in the corner of the recorded block of cells, changing the
charge by any factor `l ≠ 1` changes the computed wake of the second cell of the block (at the second sample). -/
theorem C117_both_refuted {l : ℝ} (hl : l ≠ 0) (hl1 : l ≠ 1) {s : Solver ℝ} {g : Grd} (hf : Fitting s g) (hz1 : g.Nz = 1) (hdt : 0 < s.dt) (hi : ∀ q, s.ieps q ≠ 0) {w : WakeArgs} (hq : w.q ≠ 0)
    (hskip : w.skip = 0) (hbeta : 0 < w.beta) (hs : w.sigmaz ≠ 0) (wakelength : ℝ) (mon mon' : Option Monitor) (md md' : ℕ → Dset ℝ) {ixt iyt : ℕ} (hx : IsNearest g.Nx g.x w.xtest ixt)
    (hy : IsNearest g.Ny g.y w.ytest iyt) (h1 : 0 < ixt) (h2 : ixt + 1 < g.Nx) (h3 : 0 < iyt) (h4 : iyt + 1 < g.Ny) (hxs : IsNearest g.Nx g.x w.xsource (ixt - 1)) (hys : IsNearest g.Ny g.y w.ysource (iyt - 1))
    (hd : g.dx (ixt - 1) ≠ 0 ∧ g.dy (iyt - 1) ≠ 0 ∧ g.dz 0 ≠ 0) (hlen : 1 < arangeLen (-w.injection * w.v) wakelength (s.dt * w.v))
    (hsteps : 3 ≤ ⌊(wakelength + w.injection * w.v) / (w.v * s.dt)⌋ ∧ ⌊(wakelength + w.injection * w.v) / (w.v * s.dt)⌋ ≤ 100000) :
    ∃ o o', wakesolve s g w wakelength false none mon md initState = .ok o ∧ wakesolve s g (w.charged l) wakelength false none mon' md' initState = .ok o' ∧
      cellWake (calcLongWP3d ((w.charged l).par wakelength) o'.recording) 1 1 ≠ cellWake (calcLongWP3d (w.par wakelength) o.recording) 1 1 := by
  obtain ⟨o, o', S, D, zmin, zmax, Ez, a1, a2, -, aN, ag, a0, aD, aE, az, a4⟩ := both_core hl hf hdt hq hskip hbeta wakelength mon mon' md md' hx hy h1 h2 h3 h4
  have hzz : zmax - zmin = 0 := by
    obtain ⟨m, hm, em⟩ := az.1
    obtain ⟨m', hm', em'⟩ := ag.1
    obtain rfl : m = 0 := by omega
    obtain rfl : m' = 0 := by omega
    exact sub_eq_zero.2 (em'.trans em.symm)
  have hNt : 3 ≤ o.Nt ∧ o.Nt ≤ 100000 := by
    rw [aN]
    unfold stepsFor
    rw [hzz, add_zero, div_div]
    have e := hsteps.1
    have hpos : 0 ≤ (wakelength + w.injection * w.v) / (w.v * s.dt) := by
      by_contra h
      have := Int.floor_lt.2 (show (wakelength + w.injection * w.v) / (w.v * s.dt) < ((0 : ℤ) : ℝ) by push_cast; linarith)
      omega
    unfold pyInt
    rw [if_pos hpos]
    omega
  obtain ⟨hN3, hN⟩ := hNt
  refine ⟨o, o', a1, a2, fun e => ?_⟩
  obtain ⟨W0, W1, k0, -, k2, -, k4⟩ := a4 hN3 hN 1 hlen
  rw [k2, k4] at e
  have e := Option.some.inj e
  have hQ : w.q * 10 ^ 12 ≠ 0 := mul_ne_zero hq (by positivity)
  have hne : 1 / l - 1 ≠ 0 := by
    rw [sub_ne_zero, Ne, div_eq_iff hl, one_mul]
    exact fun h => hl1 h.symm
  have hW0 : W0 = 0 := by
    have : (1 / l - 1) * (W0 / (w.q * 10 ^ 12)) = 0 := by linarith
    rcases mul_eq_zero.1 this with h | h
    · exact absurd h hne
    · exact (div_eq_zero_iff.1 h).resolve_right hQ
  have hvp : 0 < w.v := mul_pos hbeta (by unfold cLight; norm_num)
  have hzm : g.z 0 - zmin = 0 := by
    obtain ⟨m, hm, em⟩ := az.1
    obtain rfl : m = 0 := by omega
    rw [← em, sub_self]
  rw [hW0, hz1, Finset.sum_range_one, hzm] at k0
  unfold seen at k0
  rw [zero_div, Int.floor_zero, if_pos (by omega), show ((1 : ℕ) + (0 : ℤ)).toNat = 1 from rfl] at k0
  have hE0 : Ez 1 0 0 0 = 0 := by
    rcases div_eq_zero_iff.1 k0.symm with h | h
    · exact (mul_eq_zero.1 h).resolve_right hd.2.2
    · exact absurd h hQ
  obtain ⟨hD, hS1⟩ := aD 0 (by omega)
  rw [a0] at hD
  obtain ⟨b, -, i0, l0, hi0, hl0, -, hval⟩ := hD.J
  obtain rfl := nearest_unique hxs hi0
  obtain rfl := nearest_unique hys hl0
  have hnames : Names (.str "z") 2 := names_iff.2 (by decide)
  have nx : ixt - 1 < s.Nx := by rw [← hf.Nx]; omega
  have ny : iyt - 1 < s.Ny := by rw [← hf.Ny]; omega
  have nz : 0 < s.Nz := hf.posz
  have f := aE 1 (by omega) 0 (by decide) 0 (by decide) 0 (by omega)
  have v := hval 0 (by omega)
  rw [Nat.add_zero, Nat.add_zero, get_at3 (f := s.fld (S 1).E) _ hnames nx ny nz, hE0, hS1] at f
  rw [get_at3 (f := s.fld (D 0).J) _ hnames nx ny nz] at v
  have f1 : (s.fld (oneStep s (D 0)).E).at3 2 (ixt - 1) (iyt - 1) 0 = -(s.dt * (s.ieps (2 * (s.fld (D 0).J).N + (ixt - 1 + s.Nx * (iyt - 1 + s.Ny * 0))) * (s.fld (D 0).J).at3 2 (ixt - 1) (iyt - 1) 0)) :=
    first_E s (D 0) hD.E hD.H _
  rw [Except.ok.inj v] at f1
  have f := Except.ok.inj f
  rw [f1] at f
  refine (neg_ne_zero.2 (mul_ne_zero hdt.ne' (mul_ne_zero (hi _) (div_ne_zero (mul_ne_zero (mul_ne_zero hq hvp.ne') ?_) (mul_ne_zero hd.1 hd.2.1))))) f
  unfold lineDensity
  refine div_ne_zero (Real.exp_pos _).ne' (Real.sqrt_pos.2 ?_).ne'
  have := Real.pi_pos
  have := sq_pos_of_ne_zero hs
  positivity

/-- One layer of 3×3 unit cells with unit materials, time step 1. -/
def oneLayer : Solver ℝ :=
  build (Grid.computeGrid 3 3 1 (fun i => (i : ℝ)) (fun i => (i : ℝ)) fun i => (i : ℝ)) ⟨"pec", "pec", "pec", "pec", "periodic", "periodic"⟩ (fun _ => 1) (fun _ => 1) (fun _ => 0) 1 false

example (l : ℝ) (hl : l ≠ 0) : ∃ o o', wakesolve oneLayer ⟨3, 3, 1, fun i => i, fun i => i, fun i => i, fun _ => 1, fun _ => 1, fun _ => 1, 1, none⟩ ⟨1, 1, 1, 0, 0, 1, 1, some 0, 0⟩ 4 true none none (fun _ => .d1 0 0) initState = .ok o ∧
    wakesolve oneLayer ⟨3, 3, 1, fun i => i, fun i => i, fun i => i, fun _ => 1, fun _ => 1, fun _ => 1, 1, none⟩ ⟨l * 1, 1, 1, 0, 0, 1, 1, some 0, 0⟩ 4 true none none (fun _ => .d1 0 0) initState = .ok o' ∧ o'.Nt = o.Nt := by
  obtain ⟨o, o', h, h', e, -⟩ := C117_charge_partial (w := ⟨1, 1, 1, 0, 0, 1, 1, some 0, 0⟩) (s := oneLayer) (g := ⟨3, 3, 1, fun i => i, fun i => i, fun i => i, fun _ => 1, fun _ => 1, fun _ => 1, 1, none⟩) hl
    ⟨rfl, rfl, rfl, by decide, by decide, by decide, rfl⟩ one_pos one_ne_zero rfl one_pos 4 none none (fun _ => .d1 0 0) (fun _ => .d1 0 0)
  exact ⟨o, o', h, h', e⟩

example (l : ℝ) (hl : l ≠ 0) (hl1 : l ≠ 1) : ∃ o o', wakesolve oneLayer ⟨3, 3, 1, fun i => i, fun i => i, fun i => i, fun _ => 1, fun _ => 1, fun _ => 1, 1, none⟩ ⟨1, 1, 1 / cLight, 0, 0, 1, 1, some 0, 0⟩ 4 false none none (fun _ => .d1 0 0) initState = .ok o ∧
    wakesolve oneLayer ⟨3, 3, 1, fun i => i, fun i => i, fun i => i, fun _ => 1, fun _ => 1, fun _ => 1, 1, none⟩ ⟨l * 1, 1, 1 / cLight, 0, 0, 1, 1, some 0, 0⟩ 4 false none none (fun _ => .d1 0 0) initState = .ok o' ∧
    cellWake (calcLongWP3d (WakeArgs.par ⟨l * 1, 1, 1 / cLight, 0, 0, 1, 1, some 0, 0⟩ 4) o'.recording) 1 1 ≠ cellWake (calcLongWP3d (WakeArgs.par ⟨1, 1, 1 / cLight, 0, 0, 1, 1, some 0, 0⟩ 4) o.recording) 1 1 := by
  have hc : (cLight : ℝ) ≠ 0 := by unfold cLight; norm_num
  have hv : (WakeArgs.mk 1 1 (1 / cLight) 0 0 1 1 (some 0) 0).v = 1 := div_mul_cancel₀ _ hc
  have hi : (WakeArgs.mk 1 1 (1 / cLight) 0 0 1 1 (some 0) 0).injection = 0 := rfl
  have n0 : IsNearest 3 (fun i : ℕ => (i : ℝ)) 0 0 := ⟨by decide, fun k _ => by simp, fun k hk => by omega⟩
  have n1 : IsNearest 3 (fun i : ℕ => (i : ℝ)) 1 1 := ⟨by decide, fun k _ => by simp, fun k hk => by
    obtain rfl : k = 0 := by omega
    norm_num⟩
  refine C117_both_refuted (w := ⟨1, 1, 1 / cLight, 0, 0, 1, 1, some 0, 0⟩) hl hl1 ⟨rfl, rfl, rfl, by decide, by decide, by decide, rfl⟩ rfl one_pos (fun _ => one_ne_zero) one_ne_zero rfl
    (div_pos one_pos (by unfold cLight; norm_num)) one_ne_zero 4 none none _ _ (ixt := 1) (iyt := 1) n1 n1 (by decide) (by decide) (by decide) (by decide) n0 n0 ⟨one_ne_zero, one_ne_zero, one_ne_zero⟩ ?_ ?_
  · rw [hv, hi]
    show 1 < arangeLen (-(0 : ℝ) * 1) 4 (1 * 1)
    unfold arangeLen
    norm_num
  · rw [hv, hi]
    show 3 ≤ ⌊((4 : ℝ) + 0 * 1) / (1 * 1)⌋ ∧ ⌊((4 : ℝ) + 0 * 1) / (1 * 1)⌋ ≤ 100000
    norm_num

end
end Wake
end Wakis
