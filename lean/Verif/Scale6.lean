import Verif.Scale4
import Verif.Charge
import Verif.TransZ
import Verif.ResultFiles

/-!
# C115: similar models have similar transverse wakes
-/

namespace Wakis
namespace Wake
open Src Sol Sparse Fld
noncomputable section

/-! ### Specification -/

/-- The results of `solve("both")` with s axis times `a`, wakes and charge distribution divided by `a`, frequencies divided by `a`, and the same impedances and spectrum. -/
def scaleOut (a : ℝ) (o : Out) : Out :=
  ⟨o.s.map fun x => a * x, o.WP.map fun x => x / a, o.WPx.map fun x => x / a, o.WPy.map fun x => x / a, o.lambdas.map fun x => x / a, o.f.map fun x => x / a, o.Z, o.lambdaf,
    o.fx.map fun x => x / a, o.Zx, o.fy.map fun x => x / a, o.Zy⟩

/-! ### Parts -/

/-- The grid of the scaled model fits the scaled solver. -/
theorem fitting_scale {a : ℝ} {s s' : Solver ℝ} (hs : Similar a s s') {g : Grd} (hf : Fitting s g) : Fitting s' (scaleGrd a g) := by
  refine ⟨hf.Nx.trans hs.nx.symm, hf.Ny.trans hs.ny.symm, hf.Nz.trans hs.nz.symm, by rw [hs.nx]; exact hf.posx, by rw [hs.ny]; exact hf.posy, by rw [hs.nz]; exact hf.posz, ?_⟩
  show g.ZMIN.map _ = none
  rw [hf.serial]; rfl

/-- The fields of the scaled run: E divided by `a²`. -/
theorem states_scale {a : ℝ} (ha : 0 < a) {s s' : Solver ℝ} (hs : Similar a s s') {g : Grd} (hf : Fitting s g) {w : WakeArgs} {zmin : ℝ} {N : ℕ} {S1 D1 S2 D2 : ℕ → State ℝ} (p0 : S1 0 = initState) (q0 : S2 0 = initState)
    (pD : ∀ n < N, Driven s g w zmin (n * s.dt) (S1 n) (D1 n) ∧ S1 (n + 1) = oneStep s (D1 n))
    (qD : ∀ n < N, Driven s' (scaleGrd a g) (scaleArgs a w) (a * zmin) (n * s'.dt) (S2 n) (D2 n) ∧ S2 (n + 1) = oneStep s' (D2 n)) :
    ∀ n ≤ N, SameCells s' (S2 n) (scaleSt (1 / a ^ 2) a (S1 n)) ∧ (S2 n).step0 = (S1 n).step0 := by
  have e0 : scaleSt (1 / a ^ 2) a (initState : State ℝ) = initState := by
    unfold scaleSt initState
    simp
  intro n
  induction n with
  | zero => intro _; rw [p0, q0, e0]; exact ⟨fun _ _ => ⟨rfl, rfl, rfl⟩, rfl⟩
  | succ n ih =>
    intro hn
    obtain ⟨i1, i2⟩ := ih (by omega)
    obtain ⟨d1, e1⟩ := pD n (by omega)
    obtain ⟨d2, e2⟩ := qD n (by omega)
    have d1' := driven_scale ha hs hf d1
    rw [show a * ((n : ℝ) * s.dt) = n * s'.dt by rw [hs.dt]; ring] at d1'
    rw [e1, e2, ← step_similar ha.ne' hs]
    refine ⟨oneStep_same s' (driven_same (fitting_scale hs hf) d2 d1' i1) (.inl ?_), ?_⟩
    · rw [d2.step0, i2]; exact d1.step0.symm
    · rw [oneStep_step0, oneStep_step0]

/-- A reading of the E field in the scaled run. -/
theorem get_scale {a : ℝ} {s s' : Solver ℝ} (hs : Similar a s s') {S1 S2 : State ℝ} (h : SameCells s' S2 (scaleSt (1 / a ^ 2) a S1)) {i j k : ℕ} (hi : i < s.Nx) (hj : j < s.Ny) (hk : k < s.Nz) {x y : ℝ}
    (h1 : (s.fld S1.E).get (i : ℤ) (j : ℤ) (k : ℤ) (.str "z") = .ok x) (h2 : (s'.fld S2.E).get (i : ℤ) (j : ℤ) (k : ℤ) (.str "z") = .ok y) : y = 1 / a ^ 2 * x := by
  have hz : Names (.str "z") 2 := names_iff.2 (by decide)
  have hx2 : i < s'.Nx := hs.nx.symm ▸ hi
  have hy2 : j < s'.Ny := hs.ny.symm ▸ hj
  have hk2 : k < s'.Nz := hs.nz.symm ▸ hk
  rw [get_at3 (f := s.fld S1.E) _ hz hi hj hk] at h1
  rw [get_at3 (f := s'.fld S2.E) _ hz hx2 hy2 hk2] at h2
  rw [← Except.ok.inj h1, ← Except.ok.inj h2]
  have e := (h (pos s'.Nx s'.Ny s'.Nz 2 i j k) (pos_lt (by decide) hx2 hy2 hk2)).1
  rw [hs.nx, hs.ny, hs.nz] at e
  unfold Solver.fld
  rw [hs.nx, hs.ny, hs.nz]
  exact e

/-! ### The map of longitudinal wakes -/

/-- **C115 (runs of both planes).** The run of both planes of the scaled model completes when that of the original does (test particle not in an outer layer of cells); it has the same number of steps,
its s axis is `a` times and every wake of its map (one per cell of the block of 3 by 3) `1 / a` times that of the original. -/
theorem C115_both_run {a : ℝ} (ha : 0 < a) {s s' : Solver ℝ} (hs : Similar a s s') {g : Grd} {w : WakeArgs} (hf : Fitting s g) (hdt : 0 < s.dt) (hq : w.q ≠ 0) (hskip : w.skip = 0) (hbeta : 0 < w.beta)
    (wakelength : ℝ) (mon mon' : Option Monitor) (md md' : ℕ → Dset ℝ) {ixt iyt : ℕ} (hx : IsNearest g.Nx g.x w.xtest ixt) (hy : IsNearest g.Ny g.y w.ytest iyt) (h1 : 0 < ixt) (h2 : ixt + 1 < g.Nx) (h3 : 0 < iyt)
    (h4 : iyt + 1 < g.Ny) :
    ∃ o o', wakesolve s g w wakelength false none mon md initState = .ok o ∧ wakesolve s' (scaleGrd a g) (scaleArgs a w) (a * wakelength) false none mon' md' initState = .ok o' ∧ o'.Nt = o.Nt ∧
      (3 ≤ o.Nt → o.Nt ≤ 100000 → ∃ (sv : List ℝ) (W : List (List ℝ)), W.length = 9 ∧ (∀ l ∈ W, l.length = sv.length) ∧ calcLongWP3d (w.par wakelength) o.recording = .ok (sv, W) ∧
        calcLongWP3d ((scaleArgs a w).par (a * wakelength)) o'.recording = .ok (sv.map fun x => a * x, W.map fun l => l.map fun x => x / a)) := by
  have hf' := fitting_scale hs hf
  have hdt' : 0 < s'.dt := by rw [hs.dt]; exact mul_pos ha hdt
  obtain ⟨o1, S1, D1, zmin, zmax, Ez1, p1, pN, p0, pS, pD, pR, pn, pz, pdz, pE, -⟩ := C65_both_partial s g w hf hdt wakelength none mon md initState hx hy h1 h2 h3 h4
  obtain ⟨o2, S2, D2, zmin', zmax', Ez2, q1, qN, q0, qS, qD, qR, qn, qz, qdz, qE, -⟩ := C65_both_partial s' (scaleGrd a g) (scaleArgs a w) hf' hdt' (a * wakelength) none mon' md' initState
    ((nearest_scale ha).2 hx) ((nearest_scale ha).2 hy) h1 h2 h3 h4
  have least := pR.least
  rw [pz] at least
  have greatest := pR.greatest
  rw [pz] at greatest
  obtain rfl : a * zmin = zmin' := by
    have b := qR.least; rw [qz] at b; exact smallest_unique (smallest_scale ha least) b
  obtain rfl : a * zmax = zmax' := by
    have b := qR.greatest; rw [qz] at b; exact largest_unique (largest_scale ha greatest) b
  have hv : (scaleArgs a w).v = w.v := rfl
  have eN : o2.Nt = o1.Nt := by
    rw [qN, pN, injection_scale, hs.dt, hv, steps_scale ha.ne']
  have hS := states_scale ha hs hf p0 q0 pD fun n hn => qD n (eN ▸ hn)
  have hEz : ∀ n < o1.Nt, ∀ i < 3, ∀ j < 3, ∀ k < g.Nz, Ez2 n i j k = 1 / a ^ 2 * Ez1 n i j k := fun n hn i hi j hj k hk =>
    get_scale hs (hS n hn.le).1 (by rw [← hf.Nx]; omega) (by rw [← hf.Ny]; omega) (hf.Nz ▸ hk) (pE n hn i hi j hj k hk) (qE n (eN ▸ hn) i hi j hj k hk)
  refine ⟨o1, o2, p1, q1, eN, fun hN3 hN => ?_⟩
  have hvp : 0 < w.v := mul_pos hbeta (by unfold cLight; norm_num)
  have hzz : zzPos w.skip g.Nz = List.range g.Nz := by rw [hskip]; exact zzPos_zero _
  have k1 := C48_actual (w.par wakelength) pR hvp hdt hN3 hN (by show (zzPos w.skip g.Nz).length ≤ _; rw [hzz, List.length_range, pn]) rfl hq
  have k2 := C48_actual ((scaleArgs a w).par (a * wakelength)) qR hvp hdt' (by omega) (by omega) (by show (zzPos w.skip g.Nz).length ≤ _; rw [hzz, List.length_range, qn]; rfl) rfl hq
  have hI : ∀ m < 9, ∀ n, cellIntegral ((scaleArgs a w).par (a * wakelength)) o2.recording o2.Nt g.Nz s'.dt (a * zmin) Ez2 m n = cellIntegral (w.par wakelength) o1.recording o1.Nt g.Nz s.dt zmin Ez1 m n / a := by
    intro m hm n
    unfold cellIntegral cellSum
    show ∑ k ∈ Finset.range (zzPos w.skip g.Nz).length, seen o2.Nt (fun t k => Ez2 t (m / 3) (m % 3) ((zzPos w.skip g.Nz).getD k 0)) (w.v * s'.dt) n k (o2.recording.zf ((zzPos w.skip g.Nz).getD k 0) - a * zmin) * o2.recording.dz k =
      (∑ k ∈ Finset.range (zzPos w.skip g.Nz).length, seen o1.Nt (fun t k => Ez1 t (m / 3) (m % 3) ((zzPos w.skip g.Nz).getD k 0)) (w.v * s.dt) n k (o1.recording.zf ((zzPos w.skip g.Nz).getD k 0) - zmin) * o1.recording.dz k) / a
    rw [hzz, List.length_range, qz, qdz, pz, pdz, Finset.sum_div, eN, hs.dt]
    refine Finset.sum_congr rfl fun k hk => ?_
    have hk := Finset.mem_range.1 hk
    rw [getD_range hk]
    show seen o1.Nt (fun t k => Ez2 t (m / 3) (m % 3) ((List.range g.Nz).getD k 0)) (w.v * (a * s.dt)) n k (a * g.z k - a * zmin) * (a * g.dz k) = _
    rw [← mul_sub, mul_left_comm _ a (g.dz k), mul_left_comm w.v a, seen_scale ha.ne' (1 / a ^ 2) o1.Nt (Ez := fun t k => Ez1 t (m / 3) (m % 3) ((List.range g.Nz).getD k 0)) (fun n hn => by
      show Ez2 n (m / 3) (m % 3) ((List.range g.Nz).getD k 0) = 1 / a ^ 2 * Ez1 n (m / 3) (m % 3) ((List.range g.Nz).getD k 0)
      rw [getD_range hk]
      exact hEz n hn (m / 3) (by omega) (m % 3) (by omega) k hk) (w.v * s.dt) n (div_nonneg (sub_nonneg.2 (least.2 k hk)) (mul_pos hvp hdt).le)]
    field_simp
  refine ⟨_, _, ?_, ?_, k1, k2.trans ?_⟩
  · rw [List.length_map, List.length_range]; rfl
  · intro l hl
    obtain ⟨m, -, rfl⟩ := List.mem_map.1 hl
    rw [List.length_map, List.length_map]
  have ti : ((scaleArgs a w).par (a * wakelength)).ti = a * w.injection := injection_scale a w
  have ns : nsOf ((scaleArgs a w).par (a * wakelength)) o2.Nt s'.dt (a * zmin) (a * zmax) = nsOf (w.par wakelength) o1.Nt s.dt zmin zmax := by
    unfold nsOf
    rw [ti]
    show arangeLen (-(a * w.injection) * w.v) (a * wakelength) (s'.dt * w.v) = arangeLen (-w.injection * w.v) wakelength (s.dt * w.v)
    unfold arangeLen
    rw [hs.dt, show a * wakelength - -(a * w.injection) * w.v = a * (wakelength - -w.injection * w.v) by ring, mul_assoc a, mul_div_mul_left _ _ ha.ne']
  rw [ns]
  congr 2
  · rw [List.map_map]
    refine List.map_congr_left fun n _ => ?_
    rw [ti]
    show -(a * w.injection) * w.v + (n : ℝ) * (s'.dt * w.v) = a * (-w.injection * w.v + (n : ℝ) * (s.dt * w.v))
    rw [hs.dt]; ring
  · rw [List.map_map]
    refine List.map_congr_left fun m hm => ?_
    have hm' : m < 9 := List.mem_range.1 hm
    show _ = List.map _ (List.map _ _)
    rw [List.map_map]
    refine List.map_congr_left fun n _ => ?_
    show _ = (∑ l ∈ Finset.range (m + 1), cellIntegral (w.par wakelength) o1.recording o1.Nt g.Nz s.dt zmin Ez1 l n / (w.q * 10 ^ 12) ^ (m + 1 - l)) / a
    rw [Finset.sum_div]
    refine Finset.sum_congr rfl fun l hl => ?_
    have := Finset.mem_range.1 hl
    rw [show cellIntegral ((scaleArgs a w).par (a * wakelength)) o2.recording o2.Nt (scaleGrd a g).Nz s'.dt (a * zmin) Ez2 l n = _ from hI l (by omega) n]
    exact div_right_comm _ _ _

/-! ### Transverse wake and impedance -/

/-- **C115 (transverse wake).** From a map of longitudinal wakes divided by `a` over an s axis multiplied by `a`, with cell sizes multiplied by `a`, `calc_trans_WP` gives the transverse wakes
divided by `a`; it fails when the original does. -/
theorem C115_trans_wake {a : ℝ} (ha : a ≠ 0) (n0 : ℕ) (sv : List ℝ) (W : ℕ → ℕ → ℕ → ℝ) (nx : ℕ) (dx : ℕ → ℝ) (ny : ℕ) (dy : ℕ → ℝ) :
    calcTransWP n0 (sv.map fun x => a * x) (fun i j m => W i j m / a) nx (fun i => a * dx i) ny (fun i => a * dy i) =
      (calcTransWP n0 sv W nx dx ny dy).map fun p => (p.1.map fun x => x / a, p.2.map fun x => x / a) := by
  have hr : ∀ (X : ℕ → ℝ) (u v : ℝ) (n : ℕ), runInt (fun m => X m / a) (a * v - a * u) n = runInt X (v - u) n := fun X u v n => by
    unfold runInt
    rw [← Finset.sum_div]
    field_simp
  have hd : ∀ x d e : ℝ, x / (a * d + a * e) = x / (d + e) / a := fun x d e => by
    rw [← mul_add, div_div, mul_comm]
  have hm : ∀ i j, mapCell n0 (fun i j m => W i j m / a) i j = (mapCell n0 W i j).map fun X m => X m / a := fun i j => by
    simp only [mapCell, bind, Except.bind, pure, Except.pure]
    cases pyIndex (2 * n0 + 1) i with
    | error e => rfl
    | ok p => cases pyIndex (2 * n0 + 1) j <;> rfl
  have hz : ∀ (n : ℕ) (d : ℕ → ℝ) i, sizeAt n (fun i => a * d i) i = (sizeAt n d i).map fun x => a * x := fun n d i => by
    simp only [sizeAt, bind, Except.bind, pure, Except.pure]
    cases pyIndex n i <;> rfl
  match sv with
  | [] => rfl
  | [_] => rfl
  | [_, _] => rfl
  | s0 :: s1 :: s2 :: t =>
    simp only [calcTransWP, List.map_cons, bind, Except.bind, pure, Except.pure, hm, hz]
    cases mapCell n0 W (n0 + 1) n0 with
    | error e => rfl
    | ok xp =>
    cases mapCell n0 W ((n0 : ℤ) - 1) n0 with
    | error e => rfl
    | ok xm =>
    cases sizeAt nx dx ((n0 : ℤ) - 1) with
    | error e => rfl
    | ok d1 =>
    cases sizeAt nx dx n0 with
    | error e => rfl
    | ok d2 =>
    cases mapCell n0 W n0 (n0 + 1) with
    | error e => rfl
    | ok yp =>
    cases mapCell n0 W n0 ((n0 : ℤ) - 1) with
    | error e => rfl
    | ok ym =>
    cases sizeAt ny dy ((n0 : ℤ) - 1) with
    | error e => rfl
    | ok e1 =>
    cases sizeAt ny dy n0 with
    | error e => rfl
    | ok e2 =>
    simp only [Except.map, hr, hd, List.map_map, List.length_cons, List.length_map]
    rfl

/-- **C115 (transverse impedance).** `calc_trans_Z` on the transverse wakes of the scaled model gives the transverse impedances of the original at the frequencies divided by `a`. -/
theorem C115_trans_impedance {a : ℝ} (ha : 0 < a) (v fmax sg : ℝ) (samples n0 : ℕ) (sv : List ℝ) (W : ℕ → ℕ → ℕ → ℝ) (nx : ℕ) (dx : ℕ → ℝ) (ny : ℕ) (dy : ℕ → ℝ) :
    transFromMap v (fmax / a) samples n0 (sv.map fun x => a * x) (fun i j m => W i j m / a) nx (fun i => a * dx i) ny (fun i => a * dy i) (some (gaussLambda (a * sg) (sv.map fun x => a * x))) =
      (transFromMap v fmax samples n0 sv W nx dx ny dy (some (gaussLambda sg sv))).map fun T => ⟨T.fx.map fun x => x / a, T.Zx, T.fy.map fun x => x / a, T.Zy⟩ := by
  simp only [transFromMap, C115_trans_wake ha.ne', calcTransZ, bind, Except.bind, pure, Except.pure]
  cases calcTransWP n0 sv W nx dx ny dy with
  | error e => rfl
  | ok p =>
    simp only [Except.map, impedance_scale ha]
    cases impedance Complex.I v fmax samples sv p.1 (gaussLambda sg sv) with
    | error e => rfl
    | ok zx =>
      simp only
      cases impedance Complex.I v fmax samples sv p.2 (gaussLambda sg sv) with
      | error e => rfl
      | ok zy => rfl

/-- **C115 (solve both).** `solve("both")` on recordings whose maps of longitudinal wakes are similar gives similar results, and fails when the original does. -/
theorem C115_solve_both {a : ℝ} (ha : 0 < a) {p p' : Par ℝ} (hn : p'.nTrans = p.nTrans) (hv : p'.v = p.v) {r r' : Rec ℝ} {sv : List ℝ} {W : List (List ℝ)} (h : calcLongWP3d p r = .ok (sv, W))
    (h' : calcLongWP3d p' r' = .ok (sv.map fun x => a * x, W.map fun l => l.map fun x => x / a)) (fmax sigmaz : ℝ) (nx : ℕ) (dx : ℕ → ℝ) (ny : ℕ) (dy : ℕ → ℝ) :
    solveBoth p' (fmax / a) (a * sigmaz) none nx (fun i => a * dx i) ny (fun i => a * dy i) r' = (solveBoth p fmax sigmaz none nx dx ny dy r).map (scaleOut a) := by
  have hg : ∀ n, (W.map fun l => l.map fun x => x / a).getD n [] = (W.getD n []).map fun x => x / a := fun n => by
    rw [List.getD_eq_getElem?_getD, List.getD_eq_getElem?_getD, List.getElem?_map]
    cases W[n]? <;> rfl
  have hg2 : ∀ (l : List ℝ) (m : ℕ), (l.map fun x => x / a).getD m 0 = l.getD m 0 / a := fun l m => by
    rw [List.getD_eq_getElem?_getD, List.getD_eq_getElem?_getD, List.getElem?_map]
    cases l[m]? with
    | none => exact (zero_div a).symm
    | some x => rfl
  have hl : gaussLambda (a * sigmaz) (sv.map fun x => a * x) = (gaussLambda sigmaz sv).map fun x => x / a := by
    rw [gauss_scale ha]
    exact List.map_congr_left fun x _ => by ring
  simp only [solveBoth, h, h', hn, hv, bind, Except.bind, pure, Except.pure, hg, hg2, C115_trans_wake ha.ne', Option.getD_none]
  cases calcTransWP p.nTrans sv (fun i j m => (W.getD (i * (2 * p.nTrans + 1) + j) []).getD m 0) nx dx ny dy with
  | error e => rfl
  | ok t =>
  simp only [Except.map, impedance_scale ha]
  cases impedance (-1) p.v fmax 1001 sv (W.getD (p.nTrans * (2 * p.nTrans + 1) + p.nTrans) []) (gaussLambda sigmaz sv) with
  | error e => rfl
  | ok z =>
  simp only
  cases impedance Complex.I p.v fmax 1001 sv t.1 (gaussLambda sigmaz sv) with
  | error e => rfl
  | ok zx =>
  simp only
  cases impedance Complex.I p.v fmax 1001 sv t.2 (gaussLambda sigmaz sv) with
  | error e => rfl
  | ok zy =>
    simp only [hl]
    rfl

/-- **C115 (both planes, from the user's input).** Take any model without PML faces that can be set up with a positive time step, and scale it by `a > 0` as in `C115_wake`; let the test particle not be in
an outer layer of cells. The scaled model can be set up, its run of both planes has the same number of steps, and `solve("both")` on its recording (maximum frequency divided by `a`; 3 to 100000 steps, no
skipped cells) gives the s axis times `a`, the longitudinal and transverse wakes divided by `a`, and the longitudinal and transverse impedances of the original at frequencies divided by `a`. -/
theorem C115_both {a : ℝ} (ha : 0 < a) {c eps0 mu0 cfln : ℝ} {dt : Option ℝ} {nPml Nx Ny Nz : ℕ} {x y z : ℕ → ℝ} {bc : Faces String} (hbc : anyFace isPml bc = false) {bg : MatSpec ℝ}
    {dict : String → Option (MatSpec ℝ)} {solids : List Solid} {t : Mats ℝ} {d : ℝ} (hd : 0 < d) (h : setUp c eps0 mu0 cfln dt nPml Nx Ny Nz x y z bc bg dict solids = .ok (t, d))
    {g : Grd} (hg : Fitting (build (Grid.computeGrid Nx Ny Nz x y z) bc t.ieps.array t.imu.array t.sigma.array d t.useCond) g) {w : WakeArgs} (hq : w.q ≠ 0) (hskip : w.skip = 0) (hbeta : 0 < w.beta)
    (wakelength : ℝ) (mon mon' : Option Monitor) (md md' : ℕ → Dset ℝ) {ixt iyt : ℕ} (hx : IsNearest g.Nx g.x w.xtest ixt) (hy : IsNearest g.Ny g.y w.ytest iyt) (h1 : 0 < ixt) (h2 : ixt + 1 < g.Nx) (h3 : 0 < iyt)
    (h4 : iyt + 1 < g.Ny) :
    ∃ t', setUp c eps0 mu0 cfln (dt.map fun d => a * d) nPml Nx Ny Nz (fun i => a * x i) (fun i => a * y i) (fun i => a * z i) bc (scaleSpec a bg) (fun s => (dict s).map (scaleSpec a)) solids = .ok (t', a * d) ∧
      let s := build (Grid.computeGrid Nx Ny Nz x y z) bc t.ieps.array t.imu.array t.sigma.array d t.useCond
      let s' := build (Grid.computeGrid Nx Ny Nz (fun i => a * x i) (fun i => a * y i) (fun i => a * z i)) bc t'.ieps.array t'.imu.array t'.sigma.array (a * d) t'.useCond
      ∃ o o', wakesolve s g w wakelength false none mon md initState = .ok o ∧ wakesolve s' (scaleGrd a g) (scaleArgs a w) (a * wakelength) false none mon' md' initState = .ok o' ∧ o'.Nt = o.Nt ∧
        (3 ≤ o.Nt → o.Nt ≤ 100000 → ∀ fmax, solveBoth ((scaleArgs a w).par (a * wakelength)) (fmax / a) (a * w.sigmaz) none g.Nx (scaleGrd a g).dx g.Ny (scaleGrd a g).dy o'.recording =
          (solveBoth (w.par wakelength) fmax w.sigmaz none g.Nx g.dx g.Ny g.dy o.recording).map (scaleOut a)) := by
  have k := setUp_scale ha c eps0 mu0 cfln dt nPml Nx Ny Nz x y z hbc bg dict solids
  rw [h] at k
  refine ⟨scaleMats a t, k, ?_⟩
  have sim := build_similar ha.ne' Nx Ny Nz x y z bc t.ieps.array t.imu.array (sigma := t.sigma.array) (sigma' := (scaleMats a t).sigma.array) (fun i => rfl) d t.useCond
  have hdt : (build (Grid.computeGrid Nx Ny Nz x y z) bc t.ieps.array t.imu.array t.sigma.array d t.useCond).dt = d := rfl
  obtain ⟨o, o', e1, e2, e3, e4⟩ := C115_both_run ha sim hg (by rw [hdt]; exact hd) hq hskip hbeta wakelength mon mon' md md' hx hy h1 h2 h3 h4
  refine ⟨o, o', e1, e2, e3, fun hN3 hN fmax => ?_⟩
  obtain ⟨sv, W, -, -, f1, f2⟩ := e4 hN3 hN
  exact C115_solve_both ha (p := w.par wakelength) (p' := (scaleArgs a w).par (a * wakelength)) rfl rfl f1 f2 fmax w.sigmaz g.Nx g.dx g.Ny g.dy

/-- A run as in `C115_both` with 100 steps exists: the conducting box of `box_case`, test particle in cell (1, 1). -/
example {a : ℝ} (ha : 0 < a) : ∃ (t t' : Mats ℝ) (o o' : WakeOut), setUp 1 1 1 (1 / 2) (some (1 / 10 ^ 9)) 0 4 4 5 (fun i => (i : ℝ) ^ 2) (fun i => (i : ℝ) ^ 2) (fun i => (i : ℝ) ^ 2) ⟨"pec", "pec", "pmc", "pec", "periodic", "periodic"⟩
      (.vals ⟨.fin 2, .fin 1, some 3⟩) (fun _ => none) [] = .ok (t, 1 / 10 ^ 9) ∧
    wakesolve (build (Grid.computeGrid 4 4 5 (fun i => (i : ℝ) ^ 2) (fun i => (i : ℝ) ^ 2) (fun i => (i : ℝ) ^ 2)) ⟨"pec", "pec", "pmc", "pec", "periodic", "periodic"⟩ t.ieps.array t.imu.array t.sigma.array (1 / 10 ^ 9) t.useCond)
      ⟨4, 4, 5, fun i => i, fun i => i, fun i => i, fun _ => 1, fun _ => 1, fun _ => 1, 1 / 10 ^ 9, none⟩ ⟨1, 1, 1, 1, 1, 1, 1, some 0, 0⟩ 26 false none none (fun _ => .d1 0 0) initState = .ok o ∧ o.Nt = 100 ∧
    wakesolve (build (Grid.computeGrid 4 4 5 (fun i => a * (i : ℝ) ^ 2) (fun i => a * (i : ℝ) ^ 2) (fun i => a * (i : ℝ) ^ 2)) ⟨"pec", "pec", "pmc", "pec", "periodic", "periodic"⟩ t'.ieps.array t'.imu.array t'.sigma.array (a * (1 / 10 ^ 9)) t'.useCond)
      (scaleGrd a ⟨4, 4, 5, fun i => i, fun i => i, fun i => i, fun _ => 1, fun _ => 1, fun _ => 1, 1 / 10 ^ 9, none⟩) (scaleArgs a ⟨1, 1, 1, 1, 1, 1, 1, some 0, 0⟩) (a * 26) false none none (fun _ => .d1 0 0) initState = .ok o' ∧
    ∀ fmax, solveBoth ((scaleArgs a ⟨1, 1, 1, 1, 1, 1, 1, some 0, 0⟩).par (a * 26)) (fmax / a) (a * 1) none 4 (fun _ => a * 1) 4 (fun _ => a * 1) o'.recording =
      (solveBoth ((WakeArgs.mk 1 1 1 1 1 1 1 (some 0) 0).par 26) fmax 1 none 4 (fun _ => 1) 4 (fun _ => 1) o.recording).map (scaleOut a) := by
  obtain ⟨t, h⟩ := box_case
  have n1 : IsNearest 4 (fun i : ℕ => (i : ℝ)) 1 1 := ⟨by decide, fun k _ => by simp, fun k hk => by
    obtain rfl : k = 0 := by omega
    norm_num⟩
  have hg : Fitting (build (Grid.computeGrid 4 4 5 (fun i => (i : ℝ) ^ 2) (fun i => (i : ℝ) ^ 2) (fun i => (i : ℝ) ^ 2)) ⟨"pec", "pec", "pmc", "pec", "periodic", "periodic"⟩ t.ieps.array t.imu.array t.sigma.array (1 / 10 ^ 9) t.useCond)
      ⟨4, 4, 5, fun i => i, fun i => i, fun i => i, fun _ => 1, fun _ => 1, fun _ => 1, 1 / 10 ^ 9, none⟩ := ⟨rfl, rfl, rfl, show 0 < 4 by decide, show 0 < 4 by decide, show 0 < 5 by decide, rfl⟩
  obtain ⟨t', h', o, o', e1, e2, e3, e4⟩ := C115_both ha (by decide) (by norm_num) h hg (w := ⟨1, 1, 1, 1, 1, 1, 1, some 0, 0⟩) one_ne_zero rfl one_pos 26 none none (fun _ => .d1 0 0) (fun _ => .d1 0 0) n1 n1
    (by decide) (show 1 + 1 < 4 by decide) (by decide) (show 1 + 1 < 4 by decide)
  obtain ⟨o1, S, D, zmin, zmax, Ez, p1, pN, p0, pS, pD, pR, pn, pz, -⟩ := C65_both_partial _ _ ⟨1, 1, 1, 1, 1, 1, 1, some 0, 0⟩ hg (show (0 : ℝ) < 1 / 10 ^ 9 by norm_num) 26 none none (fun _ => .d1 0 0) initState n1 n1
    (by decide) (show 1 + 1 < 4 by decide) (by decide) (show 1 + 1 < 4 by decide)
  obtain rfl := Except.ok.inj (p1.symm.trans e1)
  have l := pR.least
  have m := pR.greatest
  rw [pz] at l m
  have z0 : zmin = 0 := smallest_unique l ⟨⟨0, show 0 < 5 by decide, by simp⟩, fun i _ => Nat.cast_nonneg i⟩
  have z4 : zmax = 4 := largest_unique m ⟨⟨4, show 4 < 5 by decide, by norm_num⟩, fun i hi => by
    have : i ≤ 4 := Nat.lt_succ_iff.1 hi
    show (i : ℝ) ≤ 4
    exact_mod_cast this⟩
  have hN : o1.Nt = 100 := by
    rw [pN, z0, z4]
    show (stepsFor 26 0 (1 * Src.cLight) 0 4 (1 / 10 ^ 9 : ℝ)).toNat = 100
    have e : stepsFor 26 0 (1 * Src.cLight) 0 4 (1 / 10 ^ 9 : ℝ) = 100 := by
      unfold stepsFor pyInt Src.cLight
      norm_num
    rw [e]
    rfl
  exact ⟨t, t', o1, o', h, p1, hN, e2, fun fmax => e4 (by omega) (by omega) fmax⟩

end
end Wake
end Wakis
