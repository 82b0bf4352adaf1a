import Verif.SolverModel
import Verif.SourceProps
import Verif.WakeProps
import Verif.WakeProps2

/-!
# A whole wake run: `wakesolve` (C43, C65, C67, C68)

`wakis/routines.py:220-459` for a single process, `wakis/wakeSolver.py:132-197`.
Plotting, logging, `save_J` and the closing of files are not modelled.
-/

namespace Wakis
namespace Wake
open Src Sol Sparse
noncomputable section

/-! ### Model -/

/-- wakeSolver.py:132-197: the constructor arguments of a `WakeSolver` used by `wakesolve`. -/
structure WakeArgs where
  q : ℝ
  sigmaz : ℝ
  beta : ℝ
  xsource : ℝ
  ysource : ℝ
  xtest : ℝ
  ytest : ℝ
  ti : Option ℝ
  skip : ℕ

/-- wakeSolver.py:137 `v = beta * c_light`. -/
def WakeArgs.v (w : WakeArgs) : ℝ := w.beta * cLight

/-- wakeSolver.py:155-163. -/
def WakeArgs.injection (w : WakeArgs) : ℝ := w.ti.getD (8.548921333333334 * w.sigmaz / (Real.sqrt w.beta * w.v))

/-- routines.py:357-364: the beam of the run; `ti` is not passed on. -/
def WakeArgs.beam (w : WakeArgs) : Py Beam := Beam.init w.xsource w.ysource w.beta w.q (some w.sigmaz) none

/-- What a run works with: the solver with its coordinates, the recorded block and the callback's effect on the fields. -/
structure Job where
  s : Solver ℝ
  g : Grd
  xx : Sel
  yy : Sel
  callback : Option (ℝ → State ℝ → State ℝ)

/-- Loop variables: fields, beam, frames written so far (latest last), monitor if there is one. -/
structure Run where
  st : State ℝ
  beam : Beam
  frames : List (Dset ℝ)
  mon : Option Monitor

/-- routines.py:411: `getattr(self, "E")[x, y, z, "z"]`, stored as a dataset; integers in the key drop the axis (only both or none occur). -/
def Job.record (j : Job) (st : State ℝ) : Py (Dset ℝ) := do
  let b ← (j.s.fld st.E).getitem (fun a b c => Real.sqrt (a ^ 2 + b ^ 2 + c ^ 2)) j.xx j.yy (.slice (some 0) (some j.g.Nz)) (.str "z")
  match j.xx with
  | .int _ => return .d1 b.zs.length (b.val 0 0)
  | .slice _ _ => return .d3 b.xs.length b.ys.length b.zs.length b.val

/-- A field as the monitor reads it: component `c` at cell `(i, j, k)`. -/
def Job.cells (j : Job) (a : Vec ℝ) : ℕ → ℕ → ℕ → ℕ → ℝ := fun c x y z => (j.s.fld a).at3 c x y z

/-- routines.py:413-437: one pass of the time loop. -/
def Job.body (j : Job) (n : ℕ) (r : Run) : Py Run := do
  let p ← r.beam.update j.g ⟨j.s.fld r.st.E, j.s.fld r.st.H, j.s.fld r.st.J⟩ (n * j.s.dt)
  let st : State ℝ := { r.st with E := p.2.E.array, H := p.2.H.array, J := p.2.J.array }
  let d ← j.record st
  let st := oneStep j.s st
  let mon := r.mon.map fun m => m.update (j.cells st.E) j.s.dt
  let st := match j.callback with | some f => f (n * j.s.dt) st | none => st
  return ⟨st, p.1, r.frames ++ [d], mon⟩

/-- `for n in range(Nt)`. -/
def Job.loop (j : Job) : ℕ → Run → Py Run
  | 0, r => .ok r
  | n + 1, r => do let r ← j.loop n r; j.body n r

/-- What a run leaves: the final fields and monitor, and the recording as `read_Ez` returns it. -/
structure WakeOut where
  Nt : ℕ
  st : State ℝ
  mon : Option Monitor
  recording : Rec ℝ

/-- routines.py:366-399: the recording of `Nt` frames, `t = np.arange(0, Nt*dt, dt)`, `z` and `dz` as they are. -/
def Run.out (r : Run) (s : Solver ℝ) (g : Grd) (md : ℕ → Dset ℝ) (Nt : ℕ) : WakeOut :=
  ⟨Nt, r.st, r.mon, ⟨arangeLen 0 (Nt * s.dt) s.dt, fun i : ℕ => 0 + (i : ℝ) * s.dt, g.Nz, g.z, g.Nz, g.dz, H5.ofWrites (wakeWrites md Nt fun n => r.frames.getD n (.d1 0 0))⟩⟩

/-- routines.py:325-437 `wakesolve(wakelength, compute_plane)` up to the call of `wake.solve`, on one process; `md` stands for the transverse metadata, which the wake does not use. -/
def wakesolve (s : Solver ℝ) (g : Grd) (w : WakeArgs) (wakelength : ℝ) (longitudinal : Bool) (callback : Option (ℝ → State ℝ → State ℝ)) (mon : Option Monitor) (md : ℕ → Dset ℝ) (st : State ℝ) :
    Py WakeOut := do
  let ixt ← nearest g.Nx g.x w.xtest
  let iyt ← nearest g.Ny g.y w.ytest
  let xx : Sel := if longitudinal then .int ixt else .slice (some ((ixt : ℤ) - 1)) (some (ixt + 2))
  let yy : Sel := if longitudinal then .int iyt else .slice (some ((iyt : ℤ) - 1)) (some (iyt + 2))
  let zmax ← maxOf g.Nz g.z
  let zmin ← Wake.minOf g.Nz g.z
  let tmax := (wakelength + w.injection * w.v + (zmax - zmin)) / w.v
  let Nt := (pyInt (tmax / s.dt)).toNat
  let beam ← w.beam
  let r ← Job.loop ⟨s, g, xx, yy, callback⟩ Nt ⟨st, beam, [], mon⟩
  return r.out s g md Nt

/-- The parameters with which `wake.solve` evaluates the recording (routines.py:343, 455). -/
def WakeArgs.par (w : WakeArgs) (wakelength : ℝ) : Par ℝ := ⟨w.q, w.v, w.injection, some wakelength, w.skip, false, 1⟩

/-! ### C43 -/

/-- The time at which, according to the wake solver, the position `s = 0` passes `z`. -/
def WakeArgs.passes (w : WakeArgs) (zmin z : ℝ) : ℝ := (z - zmin) / w.v + w.injection

/-- The wake integration does use that time: the sample at `s = 0` of cell `z` is taken at step `int(passes / dt)`. -/
theorem passes_used (w : WakeArgs) (wl : ℝ) (su : Setup ℝ) (z : ℝ) : timeIndex (w.par wl) su 0 z 0 = pyInt (w.passes su.zmin z / su.dt) := by
  unfold timeIndex WakeArgs.passes WakeArgs.par
  simp only
  congr 2
  ring

/-- **C43 (what happens).** At the time the wake solver takes for `s = 0` at `z`, the bunch centre is off by the difference of the two injection times. -/
theorem C43_offset (w : WakeArgs) (hv : w.v ≠ 0) {b : Beam} (hb : w.beam = .ok b) (zmin z : ℝ) :
    b.centre zmin (w.passes zmin z) - z = w.v * (w.injection - 8.548921333333334 * w.sigmaz / w.v) := by
  unfold WakeArgs.beam Beam.init at hb
  cases hb
  unfold Beam.centre WakeArgs.passes Beam.v
  have e : cLight * w.beta = w.v := mul_comm _ _
  simp only [e]
  field_simp
  ring

/-- **C43 (partial).** With `beta = 1` and the default injection time the bunch centre passes every `z` at the time the wake solver takes for `s = 0` there. -/
theorem C43_partial (w : WakeArgs) (h1 : w.beta = 1) (ht : w.ti = none) {b : Beam} (hb : w.beam = .ok b) (zmin z : ℝ) : b.centre zmin (w.passes zmin z) = z := by
  have hv : w.v ≠ 0 := by unfold WakeArgs.v; rw [h1, one_mul]; unfold cLight; norm_num
  have := C43_offset w hv hb zmin z
  have e : w.injection = 8.548921333333334 * w.sigmaz / w.v := by
    unfold WakeArgs.injection
    rw [ht, h1, Real.sqrt_one, one_mul]
    rfl
  rw [e, sub_self, mul_zero] at this
  linarith

/-- **C43 (refuted for slow beams).** With the default injection time and any `0 < beta < 1` it does not, at any position. -/
theorem C43_slow_refuted (w : WakeArgs) (h0 : 0 < w.beta) (h1 : w.beta < 1) (hs : 0 < w.sigmaz) (ht : w.ti = none) {b : Beam} (hb : w.beam = .ok b) (zmin z : ℝ) :
    z < b.centre zmin (w.passes zmin z) := by
  have hc : 0 < cLight := by unfold cLight; norm_num
  have hv : 0 < w.v := mul_pos h0 hc
  have := C43_offset w hv.ne' hb zmin z
  have hq : Real.sqrt w.beta < 1 := by rw [Real.sqrt_lt' one_pos, one_pow]; exact h1
  have hq0 : 0 < Real.sqrt w.beta := Real.sqrt_pos.2 h0
  have e : w.injection = 8.548921333333334 * w.sigmaz / (Real.sqrt w.beta * w.v) := by unfold WakeArgs.injection; rw [ht]; rfl
  have hlt : 8.548921333333334 * w.sigmaz / w.v < w.injection := by
    rw [e]
    exact div_lt_div_of_pos_left (by positivity) (by positivity) (by nlinarith)
  have := mul_pos hv (sub_pos.2 hlt)
  linarith

/-- **C43 (refuted for a given injection time).** A user-supplied injection time other than the beam's default is not passed to the beam. -/
theorem C43_given_refuted (w : WakeArgs) (h0 : 0 < w.beta) {t : ℝ} (ht : w.ti = some t) (hne : t ≠ 8.548921333333334 * w.sigmaz / w.v) {b : Beam} (hb : w.beam = .ok b) (zmin z : ℝ) :
    b.centre zmin (w.passes zmin z) ≠ z := by
  have hc : 0 < cLight := by unfold cLight; norm_num
  have hv : 0 < w.v := mul_pos h0 hc
  have := C43_offset w hv.ne' hb zmin z
  have e : w.injection = t := by unfold WakeArgs.injection; rw [ht]; rfl
  rw [e] at this
  intro h
  rw [h, sub_self] at this
  rcases mul_eq_zero.1 this.symm with h' | h'
  · exact hv.ne' h'
  · exact hne (sub_eq_zero.1 h')

example : ∃ w : WakeArgs, w.beta = 1 ∧ w.ti = none ∧ ∃ b, w.beam = .ok b := ⟨⟨1, 1, 1, 0, 0, 0, 0, none, 0⟩, rfl, rfl, _, rfl⟩
example : ∃ w : WakeArgs, 0 < w.beta ∧ w.beta < 1 ∧ 0 < w.sigmaz ∧ w.ti = none := ⟨⟨1, 1, 1 / 2, 0, 0, 0, 0, none, 0⟩, by norm_num, by norm_num, by norm_num, rfl⟩

/-! ### C65: the loop -/

/-- The fields `st'` are `st` driven by the beam at time `t`: E and H are the same and J is the same except in the column of cells nearest to the source, where its z component is
the beam's current density at that time. -/
structure Driven (s : Solver ℝ) (g : Grd) (w : WakeArgs) (zmin t : ℝ) (st st' : State ℝ) : Prop where
  E : st'.E = st.E
  H : st'.H = st.H
  step0 : st'.step0 = st.step0
  J : ∃ b : Beam, w.beam = .ok b ∧ ∃ i l, IsNearest g.Nx g.x w.xsource i ∧ IsNearest g.Ny g.y w.ysource l ∧
    SameBut (fun c x y _ => c = 2 ∧ IsNearest g.Nx g.x w.xsource x ∧ IsNearest g.Ny g.y w.ysource y) (s.fld st.J) (s.fld st'.J) ∧
    ∀ k < g.Nz, (s.fld st'.J).get (i : ℤ) (l : ℤ) (k : ℤ) (.str "z") = .ok (w.q * w.v * lineDensity w.sigmaz (g.z k - b.centre zmin t) / (g.dx i * g.dy l))

/-- The grid the sources see is the solver's. -/
structure Fitting (s : Solver ℝ) (g : Grd) : Prop where
  Nx : g.Nx = s.Nx
  Ny : g.Ny = s.Ny
  Nz : g.Nz = s.Nz
  posx : 0 < s.Nx
  posy : 0 < s.Ny
  posz : 0 < s.Nz
  serial : g.ZMIN = none

/-- What the loop keeps: `S` are the fields before each step, `D` the driven ones. -/
structure Trace (j : Job) (w : WakeArgs) (zmin : ℝ) (mon : Option Monitor) (N : ℕ) (S D : ℕ → State ℝ) (r : Run) : Prop where
  final : r.st = S N
  fits : r.beam.Fits j.g
  beam : ∃ b, w.beam = .ok b ∧ r.beam.xsource = b.xsource ∧ r.beam.ysource = b.ysource ∧ r.beam.beta = b.beta ∧ r.beam.q = b.q ∧ r.beam.sigmaz = b.sigmaz ∧ r.beam.ti = b.ti
  driven : ∀ n < N, Driven j.s j.g w zmin (n * j.s.dt) (S n) (D n)
  step : ∀ n < N, S (n + 1) = (j.callback.getD fun _ => id) (n * j.s.dt) (oneStep j.s (D n))
  frames : r.frames.length = N ∧ ∀ n < N, ∃ d, j.record (S n) = .ok d ∧ r.frames[n]? = some d
  mon : r.mon = mon.map fun m => (List.range N).foldl (fun m n => m.update (j.cells (oneStep j.s (D n)).E) j.s.dt) m

theorem smallest_unique {n : ℕ} {x : ℕ → ℝ} {a b : ℝ} (ha : Smallest n x a) (hb : Smallest n x b) : a = b := by
  obtain ⟨i, hi, rfl⟩ := ha.1
  obtain ⟨l, hl, rfl⟩ := hb.1
  exact le_antisymm (ha.2 l hl) (hb.2 i hi)

theorem loop_trace (j : Job) (w : WakeArgs) (hf : Fitting j.s j.g) {zmin : ℝ} (hz : Smallest j.g.Nz j.g.z zmin) (hrec : ∀ st, ∃ d, j.record st = .ok d) {b : Beam} (hb : w.beam = .ok b)
    (mon : Option Monitor) (st : State ℝ) (N : ℕ) : ∃ S D r, j.loop N ⟨st, b, [], mon⟩ = .ok r ∧ S 0 = st ∧ Trace j w zmin mon N S D r := by
  have hc : b.cache = none := by unfold WakeArgs.beam Beam.init at hb; cases hb; rfl
  induction N with
  | zero =>
    refine ⟨fun _ => st, fun _ => st, _, rfl, rfl, rfl, Or.inl hc, ⟨b, hb, rfl, rfl, rfl, rfl, rfl, rfl⟩, fun n h => by omega, fun n h => by omega, ⟨rfl, fun n h => by omega⟩, ?_⟩
    cases mon <;> rfl
  | succ N ih =>
    obtain ⟨S, D, r, hr, h0, T⟩ := ih
    obtain ⟨b0, hb0, e1, e2, e3, e4, e5, e6⟩ := T.beam
    obtain rfl : b0 = b := Except.ok.inj (hb0.symm.trans hb)
    have hsig : b0.sigmaz = some w.sigmaz := by unfold WakeArgs.beam Beam.init at hb; cases hb; rfl
    have hq : b0.q = w.q := by unfold WakeArgs.beam Beam.init at hb; cases hb; rfl
    have hbeta : b0.beta = w.beta := by unfold WakeArgs.beam Beam.init at hb; cases hb; rfl
    have hxs : b0.xsource = w.xsource := by unfold WakeArgs.beam Beam.init at hb; cases hb; rfl
    have hys : b0.ysource = w.ysource := by unfold WakeArgs.beam Beam.init at hb; cases hb; rfl
    have hv : r.beam.v = w.v := by unfold Beam.v WakeArgs.v; rw [e3, hbeta, mul_comm]
    obtain ⟨b', F', hu⟩ := C42_updates r.beam (g := j.g) (F := ⟨j.s.fld r.st.E, j.s.fld r.st.H, j.s.fld r.st.J⟩) (N * j.s.dt) (e5.trans hsig)
      ⟨by rw [hf.Nx]; exact hf.posx, by rw [hf.Ny]; exact hf.posy, by rw [hf.Nz]; exact hf.posz⟩ T.fits hf.Nx.symm hf.Ny.symm hf.Nz.symm
    obtain ⟨uE, uH, uF, uJ⟩ := C41_beam T.fits hf.Nx.symm hf.Ny.symm hu
    obtain ⟨sg, zm, i, l, hsg, ⟨m, hm, hzm⟩, hzmin, hi, hl, hJ⟩ := C42_current T.fits hf.Nx.symm hf.Ny.symm hf.Nz.symm hf.serial hu
    obtain ⟨c, sg', J', -, -, hb', hF', -⟩ := Beam.update_inv hu
    have hsg' : sg = w.sigmaz := by rw [e5, hsig] at hsg; exact (Option.some.inj hsg).symm
    have hzm' : zm = zmin := smallest_unique ⟨⟨m, hm, hzm⟩, hzmin⟩ hz
    subst hzm' hsg'
    rw [e1, hxs] at hi uJ
    rw [e2, hys] at hl uJ
    let D' : State ℝ := { r.st with E := F'.E.array, H := F'.H.array, J := F'.J.array }
    obtain ⟨d, hd⟩ := hrec D'
    have hFJ : F'.J = j.s.fld D'.J := by
      obtain ⟨d1, d2, d3, -⟩ := uJ
      show F'.J = ⟨j.s.Nx, j.s.Ny, j.s.Nz, F'.J.array⟩
      rw [show j.s.Nx = F'.J.Nx from d1.symm, show j.s.Ny = F'.J.Ny from d2.symm, show j.s.Nz = F'.J.Nz from d3.symm]
    have hbody : j.body N r = .ok ⟨(j.callback.getD fun _ => id) (N * j.s.dt) (oneStep j.s D'), b', r.frames ++ [d], r.mon.map fun m => m.update (j.cells (oneStep j.s D').E) j.s.dt⟩ := by
      unfold Job.body
      rw [hu]
      simp only [bind, Except.bind]
      have hd' : j.record { E := F'.E.array, H := F'.H.array, J := F'.J.array, step0 := r.st.step0 } = .ok d := hd
      rw [hd']
      cases j.callback <;> rfl
    have hDriven : Driven j.s j.g w zm (N * j.s.dt) (S N) D' := by
      rw [← T.final]
      refine ⟨by show F'.E.array = r.st.E; rw [uE]; rfl, by show F'.H.array = r.st.H; rw [uH]; rfl, rfl, b0, hb, i, l, hi, hl, ?_, fun k hk => ?_⟩
      · rw [← hFJ]; exact uJ
      · rw [← hFJ, hJ k hk, hv, e4, hq]
        unfold Beam.centre
        rw [hv, e6, show b0.v = w.v by unfold Beam.v WakeArgs.v; rw [hbeta, mul_comm]]
    refine ⟨fun n => if n ≤ N then S n else (j.callback.getD fun _ => id) (N * j.s.dt) (oneStep j.s D'), fun n => if n < N then D n else D',
      ⟨(j.callback.getD fun _ => id) (N * j.s.dt) (oneStep j.s D'), b', r.frames ++ [d], r.mon.map fun m => m.update (j.cells (oneStep j.s D').E) j.s.dt⟩, ?_, ?_, ?_, ?_, ?_, ?_, ?_, ?_, ?_⟩
    · show (j.loop N _ >>= fun r => j.body N r) = _
      rw [hr]
      exact hbody
    · simp only [Nat.zero_le, if_true]; exact h0
    · show _ = if N + 1 ≤ N then _ else _
      rw [if_neg (by omega)]
    · exact uF
    · refine ⟨b0, hb, ?_⟩
      rw [hb']
      exact ⟨e1, e2, e3, e4, e5, e6⟩
    · intro n hn
      rcases Nat.lt_or_ge n N with h | h
      · simp only [h.le, h, if_true]; exact T.driven n h
      · obtain rfl : n = N := by omega
        simp only [le_refl, lt_irrefl, if_true, if_false]; exact hDriven
    · intro n hn
      rcases Nat.lt_or_ge n N with h | h
      · simp only [show n + 1 ≤ N from h, h, if_true]; exact T.step n h
      · obtain rfl : n = N := by omega
        simp only [show ¬n + 1 ≤ n by omega, lt_irrefl, if_false]
    · refine ⟨by rw [List.length_append, T.frames.1]; rfl, fun n hn => ?_⟩
      rcases Nat.lt_or_ge n N with h | h
      · obtain ⟨d', h1, h2⟩ := T.frames.2 n h
        refine ⟨d', by simp only [h.le, if_true]; exact h1, ?_⟩
        rw [List.getElem?_append_left (by rw [T.frames.1]; exact h)]
        exact h2
      · obtain rfl : n = N := by omega
        refine ⟨d, ?_, ?_⟩
        · simp only [le_refl, if_true]
          rw [← hd]
          have : D'.E = (S n).E := hDriven.E
          unfold Job.record
          rw [this]
        · rw [List.getElem?_append_right (by rw [T.frames.1]), T.frames.1, Nat.sub_self]
          rfl
    · rw [T.mon, List.range_succ]
      cases mon with
      | none => rfl
      | some m0 =>
        simp only [Option.map_some, List.foldl_append, List.foldl_cons, List.foldl_nil, lt_irrefl, if_false]
        rw [List.foldl_ext (fun m n => Monitor.update m (j.cells (oneStep j.s (if n < N then D n else D')).E) j.s.dt) (fun m n => Monitor.update m (j.cells (oneStep j.s (D n)).E) j.s.dt) m0
          fun m n hn => by rw [if_pos (List.mem_range.1 hn)]]

theorem record_long {s : Solver ℝ} {g : Grd} (hf : Fitting s g) (cb : Option (ℝ → State ℝ → State ℝ)) {i l : ℕ} (hi : i < g.Nx) (hl : l < g.Ny) (st : State ℝ) :
    ∃ v : ℕ → ℝ, Job.record ⟨s, g, .int i, .int l, cb⟩ st = .ok (.d1 g.Nz v) ∧ ∀ k < g.Nz, (s.fld st.E).get (i : ℤ) (l : ℤ) (k : ℤ) (.str "z") = .ok (v k) := by
  have e : (s.fld st.E).toMatrix (.str "z") = some (Fld.reshapeF (s.fld st.E).Nx (s.fld st.E).Ny ((s.fld st.E).part 2)) := rfl
  have hi' : (Sel.int (i : ℤ)).resolve (s.fld st.E).Nx = .ok [i] := by
    show (do let a ← pyIndex s.Nx i; return [a]) = _
    rw [pyIndex_natCast (by rw [← hf.Nx]; exact hi)]
    rfl
  have hl' : (Sel.int (l : ℤ)).resolve (s.fld st.E).Ny = .ok [l] := by
    show (do let a ← pyIndex s.Ny l; return [a]) = _
    rw [pyIndex_natCast (by rw [← hf.Ny]; exact hl)]
    rfl
  have hz' : (Sel.slice (some 0) (some (g.Nz : ℤ))).resolve (s.fld st.E).Nz = .ok (List.range g.Nz) := by
    rw [show (s.fld st.E).Nz = g.Nz from hf.Nz.symm]
    exact resolve_full g.Nz
  refine ⟨fun k => Fld.reshapeF (s.fld st.E).Nx (s.fld st.E).Ny ((s.fld st.E).part 2) i l ((List.range g.Nz).getD k 0), ?_, fun k hk => ?_⟩
  · unfold Job.record Fld.getitem
    simp only [e, Fld.index3, Fld.resolve3, hi', hl', hz', bind, Except.bind, pure, Except.pure]
    simp
  · have hk' : (Sel.int (k : ℤ)).resolve (s.fld st.E).Nz = .ok [k] := by
      show (do let a ← pyIndex s.Nz k; return [a]) = _
      rw [pyIndex_natCast (by rw [← hf.Nz]; exact hk)]
      rfl
    unfold Fld.get
    simp only [e, Fld.index3, Fld.resolve3, hi', hl', hk', bind, Except.bind, pure, Except.pure]
    rw [List.getD_eq_getElem?_getD (l := List.range _), List.getElem?_range hk]
    rfl

theorem wakeWrites_congr {md f f' : ℕ → Dset ℝ} {Nt : ℕ} (h : ∀ n < Nt, f n = f' n) : wakeWrites md Nt f = wakeWrites md Nt f' := by
  unfold wakeWrites
  congr 1
  refine List.map_congr_left fun n hn => ?_
  rw [h n (List.mem_range.1 hn)]

theorem minOf_exists {n : ℕ} (hn : 0 < n) (x : ℕ → ℝ) : ∃ m, Wake.minOf n x = .ok m ∧ Smallest n x m := by
  have : ∃ m, Wake.minOf n x = .ok m := by unfold Wake.minOf; rw [if_neg (by omega)]; exact ⟨_, rfl⟩
  obtain ⟨m, hm⟩ := this
  exact ⟨m, hm, minOf_iff.1 hm⟩

theorem maxOf_exists {n : ℕ} (hn : 0 < n) (x : ℕ → ℝ) : ∃ m, Wake.maxOf n x = .ok m ∧ Largest n x m := by
  have : ∃ m, Wake.maxOf n x = .ok m := by unfold Wake.maxOf; rw [if_neg (by omega)]; exact ⟨_, rfl⟩
  obtain ⟨m, hm⟩ := this
  exact ⟨m, hm, maxOf_iff.1 hm⟩

theorem arangeLen_mul {dt : ℝ} (hdt : 0 < dt) (N : ℕ) : arangeLen 0 (N * dt) dt = N := by
  unfold arangeLen
  rw [sub_zero, mul_div_assoc, div_self hdt.ne', mul_one, Int.ceil_natCast]
  rfl

/-- **C65.** Every longitudinal run on one process succeeds and records `Nt = int(tmax/dt)` frames. There are fields `S 0, S 1, …, S Nt`, starting with the initial ones, such that
each `S (n+1)` results from `S n` by putting in the beam current at time `n*dt`, one time step and the callback at `n*dt`; frame `n` holds `Ez` of `S n` along the cells nearest to the test
position, and the monitor was updated with the field after every step. -/
theorem C65_records (s : Solver ℝ) (g : Grd) (w : WakeArgs) (hf : Fitting s g) (hdt : 0 < s.dt) (wakelength : ℝ) (cb : Option (ℝ → State ℝ → State ℝ)) (mon : Option Monitor) (md : ℕ → Dset ℝ)
    (st : State ℝ) :
    ∃ (out : WakeOut) (S D : ℕ → State ℝ) (zmin zmax : ℝ) (ixt iyt : ℕ) (Ez : ℕ → ℕ → ℝ), wakesolve s g w wakelength true cb mon md st = .ok out ∧
      IsNearest g.Nx g.x w.xtest ixt ∧ IsNearest g.Ny g.y w.ytest iyt ∧
      out.Nt = (stepsFor wakelength w.injection w.v zmin zmax s.dt).toNat ∧
      S 0 = st ∧ out.st = S out.Nt ∧
      (∀ n < out.Nt, Driven s g w zmin (n * s.dt) (S n) (D n) ∧ S (n + 1) = (cb.getD fun _ => id) (n * s.dt) (oneStep s (D n))) ∧
      Recorded out.recording out.Nt g.Nz s.dt zmin zmax md (fun n => .d1 g.Nz (Ez n)) ∧ out.recording.ndz = g.Nz ∧ out.recording.zf = g.z ∧ out.recording.dz = g.dz ∧
      (∀ n < out.Nt, ∀ k < g.Nz, (s.fld (S n).E).get (ixt : ℤ) (iyt : ℤ) (k : ℤ) (.str "z") = .ok (Ez n k)) ∧
      out.mon = mon.map fun m => (List.range out.Nt).foldl (fun m n => m.update (fun c i j k => (s.fld (oneStep s (D n)).E).at3 c i j k) s.dt) m := by
  obtain ⟨ixt, hx, hx'⟩ := C44_nearest (by rw [hf.Nx]; exact hf.posx : 0 < g.Nx) g.x w.xtest
  obtain ⟨iyt, hy, hy'⟩ := C44_nearest (by rw [hf.Ny]; exact hf.posy : 0 < g.Ny) g.y w.ytest
  obtain ⟨zmax, hzx, hzx'⟩ := maxOf_exists (by rw [hf.Nz]; exact hf.posz : 0 < g.Nz) g.z
  obtain ⟨zmin, hzn, hzn'⟩ := minOf_exists (by rw [hf.Nz]; exact hf.posz : 0 < g.Nz) g.z
  obtain ⟨b, hb⟩ : ∃ b, w.beam = .ok b := ⟨_, rfl⟩
  have hix : ixt < g.Nx := hx'.1
  have hiy : iyt < g.Ny := hy'.1
  have hrec : ∀ st, ∃ d, Job.record ⟨s, g, .int ixt, .int iyt, cb⟩ st = .ok d := fun st => by
    obtain ⟨v, hv, -⟩ := record_long hf cb hix hiy st
    exact ⟨_, hv⟩
  obtain ⟨S, D, r, hr, h0, T⟩ := loop_trace ⟨s, g, .int ixt, .int iyt, cb⟩ w hf hzn' hrec hb mon st (stepsFor wakelength w.injection w.v zmin zmax s.dt).toNat
  have hEz : ∀ n, ∃ v : ℕ → ℝ, n < (stepsFor wakelength w.injection w.v zmin zmax s.dt).toNat →
      r.frames.getD n (.d1 0 0) = .d1 g.Nz v ∧ ∀ k < g.Nz, (s.fld (S n).E).get (ixt : ℤ) (iyt : ℤ) (k : ℤ) (.str "z") = .ok (v k) := fun n => by
    obtain ⟨v, hv, hv'⟩ := record_long hf cb hix hiy (S n)
    refine ⟨v, fun hn => ⟨?_, hv'⟩⟩
    obtain ⟨d, h1, h2⟩ := T.frames.2 n hn
    rw [List.getD_eq_getElem?_getD, h2]
    rw [hv] at h1
    exact (Except.ok.inj h1).symm
  choose Ez hEz using hEz
  refine ⟨r.out s g md (stepsFor wakelength w.injection w.v zmin zmax s.dt).toNat, S, D, zmin, zmax, ixt, iyt, Ez, ?_, hx', hy', ?_⟩
  · unfold wakesolve
    rw [hx, hy, hzx, hzn, hb]
    simp only [bind, Except.bind, if_true]
    rw [show (pyInt ((wakelength + w.injection * w.v + (zmax - zmin)) / w.v / s.dt)).toNat = (stepsFor wakelength w.injection w.v zmin zmax s.dt).toNat from rfl, hr]
    rfl
  · refine ⟨rfl, h0, T.final, fun n hn => ⟨T.driven n hn, T.step n hn⟩, ⟨?_, fun i => ?_, rfl, hzn', hzx', ?_⟩, rfl, rfl, rfl, fun n hn => (hEz n hn).2, T.mon⟩
    · exact arangeLen_mul hdt _
    · show (0 : ℝ) + (i : ℝ) * s.dt = _
      rw [zero_add]
    · show H5.ofWrites _ = H5.ofWrites _
      exact congrArg H5.ofWrites (wakeWrites_congr fun n hn => (hEz n hn).1)

/-- **C65 (the wake is that of the simulated fields).** For runs of up to 100000 steps without skipped cells, the wake potential computed from the recording is, at every point `s_n` of the s axis
that lies at least one `v*dt` below the wake length, the sum over the cells of the simulated `Ez`, at the step when a test particle `s_n` behind the reference passes the cell, times the cell length, per charge. -/
theorem C65_wake (s : Solver ℝ) (g : Grd) (w : WakeArgs) (hf : Fitting s g) (hdt : 0 < s.dt) (hbeta : 0 < w.beta) (hskip : w.skip = 0) (wakelength : ℝ) (cb : Option (ℝ → State ℝ → State ℝ))
    (mon : Option Monitor) (md : ℕ → Dset ℝ) (st : State ℝ) :
    ∃ (out : WakeOut) (S D : ℕ → State ℝ) (zmin : ℝ) (ixt iyt : ℕ) (Ez : ℕ → ℕ → ℝ), wakesolve s g w wakelength true cb mon md st = .ok out ∧ Smallest g.Nz g.z zmin ∧
      IsNearest g.Nx g.x w.xtest ixt ∧ IsNearest g.Ny g.y w.ytest iyt ∧ S 0 = st ∧
      (∀ n < out.Nt, Driven s g w zmin (n * s.dt) (S n) (D n) ∧ S (n + 1) = (cb.getD fun _ => id) (n * s.dt) (oneStep s (D n))) ∧
      (∀ n < out.Nt, ∀ k < g.Nz, (s.fld (S n).E).get (ixt : ℤ) (iyt : ℤ) (k : ℤ) (.str "z") = .ok (Ez n k)) ∧
      (3 ≤ out.Nt → out.Nt ≤ 100000 → ∃ sv WP, calcLongWP (w.par wakelength) out.recording = .ok (sv, WP) ∧ sv.length = WP.length ∧
        ∀ n < sv.length, sv.getD n 0 = -w.injection * w.v + n * (s.dt * w.v) ∧
          (sv.getD n 0 + w.v * s.dt ≤ wakelength →
            (∀ k < g.Nz, n + ⌊(g.z k - zmin) / (w.v * s.dt)⌋₊ < out.Nt) ∧
            WP.getD n 0 = (∑ k ∈ Finset.range g.Nz, Ez (n + ⌊(g.z k - zmin) / (w.v * s.dt)⌋₊) k * g.dz k) / (w.q * 10 ^ 12))) := by
  obtain ⟨out, S, D, zmin, zmax, ixt, iyt, Ez, h1, h2, h3, h4, h5, h6, h7, h8, h9, h10, h11, h12, h13⟩ := C65_records s g w hf hdt wakelength cb mon md st
  have hz : Smallest g.Nz g.z zmin := by have := h8.least; rwa [h10] at this
  have hzx : Largest g.Nz g.z zmax := by have := h8.greatest; rwa [h10] at this
  refine ⟨out, S, D, zmin, ixt, iyt, Ez, h1, hz, h2, h3, h5, h7, h12, fun hN hN' => ?_⟩
  have hv : 0 < w.v := mul_pos hbeta (by unfold cLight; norm_num)
  have hvd := mul_pos hv hdt
  have key := C47_line_integral h8 (w.par wakelength) hv hdt hN hN' (by rw [h9]) hskip
  refine ⟨_, _, key, by simp, fun n hn => ?_⟩
  rw [List.length_map, List.length_range] at hn
  have eg : ∀ (f : ℕ → ℝ) (N : ℕ), n < N → ((List.range N).map f).getD n 0 = f n := fun f N h => by
    rw [List.getD_eq_getElem?_getD, List.getElem?_map, List.getElem?_range h]; rfl
  refine ⟨eg _ _ hn, fun hs => ?_⟩
  rw [eg _ _ hn] at hs
  rw [eg _ _ hn]
  have hrec : ∀ k < g.Nz, (n : ℤ) + ⌊(g.z k - zmin) / (w.v * s.dt)⌋ < out.Nt := fun k hk => by
    let su : Setup ℝ := ⟨s.dt, zmin, zmax, [], wakelength, 0, 0⟩
    have := C46_recorded (w.par wakelength) su hv hdt (hz.2 k hk) (hzx.2 k hk) n hs
    rw [timeIndex_eq (w.par wakelength) su hv hdt (hz.2 k hk)] at this
    have h0 : 0 ≤ ⌊(g.z k - zmin) / (w.v * s.dt)⌋ := Int.floor_nonneg.2 (div_nonneg (sub_nonneg.2 (hz.2 k hk)) hvd.le)
    have e1 : stepsFor su.wakelength (w.par wakelength).ti (w.par wakelength).v su.zmin su.zmax su.dt = stepsFor wakelength w.injection w.v zmin zmax s.dt := rfl
    have e2 : (su.zmin : ℝ) = zmin ∧ (w.par wakelength).v = w.v ∧ su.dt = s.dt := ⟨rfl, rfl, rfl⟩
    rw [e1, e2.1, e2.2.1, e2.2.2] at this
    rw [h4]
    omega
  have hnat : ∀ k < g.Nz, ⌊(g.z k - zmin) / (w.v * s.dt)⌋ = (⌊(g.z k - zmin) / (w.v * s.dt)⌋₊ : ℤ) := fun k hk =>
    (Int.natCast_floor_eq_floor (div_nonneg (sub_nonneg.2 (hz.2 k hk)) hvd.le)).symm
  refine ⟨fun k hk => ?_, ?_⟩
  · have := hrec k hk
    rw [hnat k hk] at this
    omega
  · show (∑ k ∈ Finset.range g.Nz, _) / (w.q * 10 ^ 12) = _
    congr 1
    refine Finset.sum_congr rfl fun k hk => ?_
    have hk := Finset.mem_range.1 hk
    rw [h10, h11]
    unfold seen
    have e : (w.par wakelength).v = w.v := rfl
    rw [e, if_pos (hrec k hk), hnat k hk]
    congr 1

/-- `slice(i - 1, i + 2)` around an inner cell. -/
theorem resolve_around {n i : ℕ} (h0 : 0 < i) (h1 : i + 1 < n) : (Sel.slice (some ((i : ℤ) - 1)) (some (i + 2))).resolve n = .ok [i - 1, i, i + 1] := by
  have e1 : clipBound n ((i : ℤ) - 1) = i - 1 := by unfold clipBound; split_ifs <;> omega
  have e2 : clipBound n ((i : ℤ) + 2) = i + 2 := by unfold clipBound; split_ifs <;> omega
  simp only [Sel.resolve, sliceLo, sliceHi, e1, e2]
  rw [show i + 2 - (i - 1) = 3 by omega, show List.range 3 = [0, 1, 2] from rfl]
  simp only [List.map_cons, List.map_nil]
  congr 2
  · omega
  · congr 1
    · omega
    · congr 1
      omega

theorem record_both {s : Solver ℝ} {g : Grd} (hf : Fitting s g) (cb : Option (ℝ → State ℝ → State ℝ)) {i l : ℕ} (hi : 0 < i) (hi' : i + 1 < g.Nx) (hl : 0 < l) (hl' : l + 1 < g.Ny) (st : State ℝ) :
    ∃ v : ℕ → ℕ → ℕ → ℝ, Job.record ⟨s, g, .slice (some ((i : ℤ) - 1)) (some (i + 2)), .slice (some ((l : ℤ) - 1)) (some (l + 2)), cb⟩ st = .ok (.d3 3 3 g.Nz v) ∧
      ∀ a < 3, ∀ b < 3, ∀ k < g.Nz, (s.fld st.E).get ((i - 1 + a : ℕ) : ℤ) ((l - 1 + b : ℕ) : ℤ) (k : ℤ) (.str "z") = .ok (v a b k) := by
  have e : (s.fld st.E).toMatrix (.str "z") = some (Fld.reshapeF (s.fld st.E).Nx (s.fld st.E).Ny ((s.fld st.E).part 2)) := rfl
  have hx : (Sel.slice (some ((i : ℤ) - 1)) (some (i + 2))).resolve (s.fld st.E).Nx = .ok [i - 1, i, i + 1] := resolve_around hi (by show i + 1 < s.Nx; rw [← hf.Nx]; exact hi')
  have hy : (Sel.slice (some ((l : ℤ) - 1)) (some (l + 2))).resolve (s.fld st.E).Ny = .ok [l - 1, l, l + 1] := resolve_around hl (by show l + 1 < s.Ny; rw [← hf.Ny]; exact hl')
  have hz : (Sel.slice (some 0) (some (g.Nz : ℤ))).resolve (s.fld st.E).Nz = .ok (List.range g.Nz) := by
    rw [show (s.fld st.E).Nz = g.Nz from hf.Nz.symm]
    exact resolve_full g.Nz
  refine ⟨fun a b k => Fld.reshapeF (s.fld st.E).Nx (s.fld st.E).Ny ((s.fld st.E).part 2) ([i - 1, i, i + 1].getD a 0) ([l - 1, l, l + 1].getD b 0) ((List.range g.Nz).getD k 0), ?_, fun a ha b hb k hk => ?_⟩
  · unfold Job.record Fld.getitem
    simp only [e, Fld.index3, Fld.resolve3, hx, hy, hz, bind, Except.bind, pure, Except.pure]
    simp
  · have ga : [i - 1, i, i + 1].getD a 0 = i - 1 + a := by interval_cases a <;> simp <;> omega
    have gb : [l - 1, l, l + 1].getD b 0 = l - 1 + b := by interval_cases b <;> simp <;> omega
    have h1 : (Sel.int ((i - 1 + a : ℕ) : ℤ)).resolve (s.fld st.E).Nx = .ok [i - 1 + a] := by
      show (do let a ← pyIndex s.Nx _; return [a]) = _
      rw [pyIndex_natCast (by rw [← hf.Nx]; omega)]
      rfl
    have h2 : (Sel.int ((l - 1 + b : ℕ) : ℤ)).resolve (s.fld st.E).Ny = .ok [l - 1 + b] := by
      show (do let a ← pyIndex s.Ny _; return [a]) = _
      rw [pyIndex_natCast (by rw [← hf.Ny]; omega)]
      rfl
    have h3 : (Sel.int (k : ℤ)).resolve (s.fld st.E).Nz = .ok [k] := by
      show (do let a ← pyIndex s.Nz k; return [a]) = _
      rw [pyIndex_natCast (by rw [← hf.Nz]; exact hk)]
      rfl
    unfold Fld.get
    simp only [e, Fld.index3, Fld.resolve3, h1, h2, h3, bind, Except.bind, pure, Except.pure, ga, gb]
    rw [List.getD_eq_getElem?_getD (l := List.range _), List.getElem?_range hk]
    rfl

/-- **C65 (both planes, partial).** If the test cell is not on the edge of the grid, a run that also computes the transverse plane records, with the same fields `S n`, the block of three by three cells around the
test cell. Missing: `C65_edge_refuted`. -/
theorem C65_both_partial (s : Solver ℝ) (g : Grd) (w : WakeArgs) (hf : Fitting s g) (hdt : 0 < s.dt) (wakelength : ℝ) (cb : Option (ℝ → State ℝ → State ℝ)) (mon : Option Monitor) (md : ℕ → Dset ℝ)
    (st : State ℝ) {ixt iyt : ℕ} (hx : IsNearest g.Nx g.x w.xtest ixt) (hy : IsNearest g.Ny g.y w.ytest iyt) (h1 : 0 < ixt) (h2 : ixt + 1 < g.Nx) (h3 : 0 < iyt) (h4 : iyt + 1 < g.Ny) :
    ∃ (out : WakeOut) (S D : ℕ → State ℝ) (zmin zmax : ℝ) (Ez : ℕ → ℕ → ℕ → ℕ → ℝ), wakesolve s g w wakelength false cb mon md st = .ok out ∧
      out.Nt = (stepsFor wakelength w.injection w.v zmin zmax s.dt).toNat ∧
      S 0 = st ∧ out.st = S out.Nt ∧
      (∀ n < out.Nt, Driven s g w zmin (n * s.dt) (S n) (D n) ∧ S (n + 1) = (cb.getD fun _ => id) (n * s.dt) (oneStep s (D n))) ∧
      Recorded out.recording out.Nt g.Nz s.dt zmin zmax md (fun n => .d3 3 3 g.Nz (Ez n)) ∧ out.recording.ndz = g.Nz ∧ out.recording.zf = g.z ∧ out.recording.dz = g.dz ∧
      (∀ n < out.Nt, ∀ a < 3, ∀ b < 3, ∀ k < g.Nz, (s.fld (S n).E).get ((ixt - 1 + a : ℕ) : ℤ) ((iyt - 1 + b : ℕ) : ℤ) (k : ℤ) (.str "z") = .ok (Ez n a b k)) ∧
      out.mon = mon.map fun m => (List.range out.Nt).foldl (fun m n => m.update (fun c i j k => (s.fld (oneStep s (D n)).E).at3 c i j k) s.dt) m := by
  obtain ⟨ixt', hx1, hx'⟩ := C44_nearest (by rw [hf.Nx]; exact hf.posx : 0 < g.Nx) g.x w.xtest
  obtain ⟨iyt', hy1, hy'⟩ := C44_nearest (by rw [hf.Ny]; exact hf.posy : 0 < g.Ny) g.y w.ytest
  obtain rfl : ixt' = ixt := C44_unique hx' hx
  obtain rfl : iyt' = iyt := C44_unique hy' hy
  obtain ⟨zmax, hzx, hzx'⟩ := maxOf_exists (by rw [hf.Nz]; exact hf.posz : 0 < g.Nz) g.z
  obtain ⟨zmin, hzn, hzn'⟩ := minOf_exists (by rw [hf.Nz]; exact hf.posz : 0 < g.Nz) g.z
  obtain ⟨b, hb⟩ : ∃ b, w.beam = .ok b := ⟨_, rfl⟩
  obtain ⟨j, hj⟩ : ∃ j : Job, j = ⟨s, g, .slice (some ((ixt' : ℤ) - 1)) (some (ixt' + 2)), .slice (some ((iyt' : ℤ) - 1)) (some (iyt' + 2)), cb⟩ := ⟨_, rfl⟩
  have hR := fun st => record_both hf cb h1 h2 h3 h4 st
  rw [← hj] at hR
  obtain ⟨S, D, r, hr, h0, T⟩ := loop_trace j w (by rw [hj]; exact hf) (zmin := zmin) (by rw [hj]; exact hzn') (fun st => (hR st).imp' (fun v => .d3 3 3 g.Nz v) fun v hv => hv.1) hb mon st
    (stepsFor wakelength w.injection w.v zmin zmax s.dt).toNat
  have hEz : ∀ n, ∃ v : ℕ → ℕ → ℕ → ℝ, n < (stepsFor wakelength w.injection w.v zmin zmax s.dt).toNat →
      r.frames.getD n (.d1 0 0) = .d3 3 3 g.Nz v ∧ ∀ a < 3, ∀ b < 3, ∀ k < g.Nz, (s.fld (S n).E).get ((ixt' - 1 + a : ℕ) : ℤ) ((iyt' - 1 + b : ℕ) : ℤ) (k : ℤ) (.str "z") = .ok (v a b k) := fun n => by
    obtain ⟨v, hv, hv'⟩ := hR (S n)
    refine ⟨v, fun hn => ⟨?_, hv'⟩⟩
    obtain ⟨d, e1, e2⟩ := T.frames.2 n hn
    rw [List.getD_eq_getElem?_getD, e2]
    rw [hv] at e1
    exact (Except.ok.inj e1).symm
  choose Ez hEz using hEz
  refine ⟨r.out s g md (stepsFor wakelength w.injection w.v zmin zmax s.dt).toNat, S, D, zmin, zmax, Ez, ?_, ?_⟩
  · unfold wakesolve
    rw [hx1, hy1, hzx, hzn, hb]
    simp only [bind, Except.bind, if_false, Bool.false_eq_true]
    rw [show (pyInt ((wakelength + w.injection * w.v + (zmax - zmin)) / w.v / s.dt)).toNat = (stepsFor wakelength w.injection w.v zmin zmax s.dt).toNat from rfl, ← hj, hr]
    rfl
  · subst hj
    refine ⟨rfl, h0, T.final, fun n hn => ⟨T.driven n hn, T.step n hn⟩, ⟨?_, fun i => ?_, rfl, hzn', hzx', ?_⟩, rfl, rfl, rfl, fun n hn => (hEz n hn).2, T.mon⟩
    · exact arangeLen_mul hdt _
    · show (0 : ℝ) + (i : ℝ) * s.dt = _
      rw [zero_add]
    · show H5.ofWrites _ = H5.ofWrites _
      exact congrArg H5.ofWrites (wakeWrites_congr fun n hn => (hEz n hn).1)

/-- Non-vacuity: on a grid of three by three by one unit cells the test position at the centre of the middle cell meets the hypotheses. -/
example : ∃ (s : Solver ℝ) (g : Grd) (w : WakeArgs), Fitting s g ∧ 0 < s.dt ∧ 0 < w.beta ∧ w.skip = 0 ∧ IsNearest g.Nx g.x w.xtest 1 ∧ IsNearest g.Ny g.y w.ytest 1 ∧ 1 + 1 < g.Nx ∧ 1 + 1 < g.Ny := by
  have h : IsNearest 3 (fun i => (i : ℝ)) 1 1 := by
    refine ⟨by norm_num, fun i _ => by norm_num, fun i hi => ?_⟩
    obtain rfl : i = 0 := by omega
    norm_num
  exact ⟨⟨3, 3, 1, fun _ _ => 0, fun _ _ => 0, fun _ => 0, fun _ => 0, 1, false⟩,
    ⟨3, 3, 1, fun i => i, fun i => i, fun _ => 0, fun _ => 1, fun _ => 1, fun _ => 1, 1, none⟩, ⟨1, 1, 1, 1, 1, 1, 1, none, 0⟩, ⟨rfl, rfl, rfl, by norm_num, by norm_num, by norm_num, rfl⟩, one_pos, one_pos, rfl, h, h,
    by norm_num, by norm_num⟩

/-- **C65 (refuted on the edge).** With the test cell in the first column of a grid of at least three columns, every frame of a run that also computes the transverse plane is empty. -/
theorem C65_edge_refuted {s : Solver ℝ} {g : Grd} (hf : Fitting s g) (h3 : 3 ≤ g.Nx) (yy : Sel) (cb : Option (ℝ → State ℝ → State ℝ)) (st : State ℝ) {d : Dset ℝ}
    (h : Job.record ⟨s, g, .slice (some (((0 : ℕ) : ℤ) - 1)) (some (((0 : ℕ) : ℤ) + 2)), yy, cb⟩ st = .ok d) : ∃ ny nz v, d = .d3 0 ny nz v := by
  have e : (s.fld st.E).toMatrix (.str "z") = some (Fld.reshapeF (s.fld st.E).Nx (s.fld st.E).Ny ((s.fld st.E).part 2)) := rfl
  have hx : (Sel.slice (some (((0 : ℕ) : ℤ) - 1)) (some (((0 : ℕ) : ℤ) + 2))).resolve (s.fld st.E).Nx = .ok [] := by
    rw [show (s.fld st.E).Nx = g.Nx from hf.Nx.symm]
    have e1 : clipBound g.Nx (((0 : ℕ) : ℤ) - 1) = g.Nx - 1 := by unfold clipBound; split_ifs <;> omega
    have e2 : clipBound g.Nx (((0 : ℕ) : ℤ) + 2) = 2 := by unfold clipBound; split_ifs <;> omega
    simp only [Sel.resolve, sliceLo, sliceHi, e1, e2]
    rw [show 2 - (g.Nx - 1) = 0 by omega]
    rfl
  unfold Job.record Fld.getitem at h
  simp only [e, Fld.index3, Fld.resolve3, hx, bind, Except.bind, pure, Except.pure] at h
  cases hy : yy.resolve (s.fld st.E).Ny with
  | error e => rw [hy] at h; cases h
  | ok ys =>
    rw [hy] at h
    simp only at h
    cases hz : (Sel.slice (some 0) (some (g.Nz : ℤ))).resolve (s.fld st.E).Nz with
    | error e => rw [hz] at h; cases h
    | ok zs =>
      rw [hz] at h
      cases h
      exact ⟨_, _, _, rfl⟩

/-! ### C68 -/

/-- **C68 (what happens).** In a run without callback a new monitor ends up with the Fourier sum of the fields at the times `dt, 2*dt, …, Nt*dt`, each with the phase of the step before: the
accumulated value times `exp(-2πi f dt)` is the sum over `n = 1, …, Nt` of the field at time `n*dt` times `exp(-2πi f n dt)`. -/
theorem C68_actual (s : Solver ℝ) (g : Grd) (w : WakeArgs) (hf : Fitting s g) (hdt : 0 < s.dt) (wakelength : ℝ) (freqs : List ℝ) (md : ℕ → Dset ℝ) (st : State ℝ) :
    ∃ (out : WakeOut) (S D : ℕ → State ℝ) (zmin zmax : ℝ) (m : Monitor), wakesolve s g w wakelength true none (some (Monitor.new freqs)) md st = .ok out ∧ Smallest g.Nz g.z zmin ∧ Largest g.Nz g.z zmax ∧
      out.Nt = (stepsFor wakelength w.injection w.v zmin zmax s.dt).toNat ∧ S 0 = st ∧ out.st = S out.Nt ∧
      (∀ n < out.Nt, Driven s g w zmin (n * s.dt) (S n) (D n) ∧ S (n + 1) = oneStep s (D n)) ∧ out.mon = some m ∧
      ∀ c f i j k, m.acc c f i j k * Complex.exp (-2 * Complex.I * Real.pi * (freqs.getD f 0) * (s.dt : ℝ)) =
        ∑ n ∈ Finset.range out.Nt, ((s.fld (S (n + 1)).E).at3 c i j k : ℂ) * Complex.exp (-2 * Complex.I * Real.pi * (freqs.getD f 0) * (((n + 1 : ℕ) : ℝ) * s.dt : ℝ)) := by
  obtain ⟨out, S, D, zmin, zmax, ixt, iyt, Ez, h1, h2, h3, h4, h5, h6, h7, h8, h9, h10, h11, h12, h13⟩ := C65_records s g w hf hdt wakelength none (some (Monitor.new freqs)) md st
  have hz : Smallest g.Nz g.z zmin := by have := h8.least; rwa [h10] at this
  have hzx : Largest g.Nz g.z zmax := by have := h8.greatest; rwa [h10] at this
  refine ⟨out, S, D, zmin, zmax, _, h1, hz, hzx, h4, h5, h6, h7, h13, fun c f i j k => ?_⟩
  let us : List ((ℕ → ℕ → ℕ → ℕ → ℝ) × ℝ) := (List.range out.Nt).map fun n => (fun c i j k => (s.fld (oneStep s (D n)).E).at3 c i j k, s.dt)
  have hd : ∀ u, us.head? = some u → u.2 = s.dt := by
    intro u hu
    obtain ⟨n, -, rfl⟩ := List.mem_map.1 (List.mem_of_mem_head? hu)
    rfl
  have key := (C55_fourier_sum freqs s.dt us hd).2 c f i j k
  have e : us.foldl (fun m u => m.update u.1 u.2) (Monitor.new freqs) = (List.range out.Nt).foldl (fun m n => m.update (fun c i j k => (s.fld (oneStep s (D n)).E).at3 c i j k) s.dt) (Monitor.new freqs) := by
    rw [List.foldl_map]
  rw [e] at key
  rw [key, Finset.sum_mul, show us.length = out.Nt by simp [us]]
  refine Finset.sum_congr rfl fun n hn => ?_
  have hn := Finset.mem_range.1 hn
  have eg : us.getD n (fun _ _ _ _ => 0, 0) = (fun c i j k => (s.fld (oneStep s (D n)).E).at3 c i j k, s.dt) := by
    rw [List.getD_eq_getElem?_getD, List.getElem?_map, List.getElem?_range hn]; rfl
  rw [eg, (h7 n hn).2, mul_assoc, ← Complex.exp_add]
  congr 2
  push_cast
  ring

/-- **C68 (refuted).** There is a run of one step in which the monitor's value differs from the Fourier sum of the field over the times of the run. -/
theorem C68_refuted : ∃ (s : Solver ℝ) (g : Grd) (w : WakeArgs) (wakelength : ℝ) (st : State ℝ) (out : WakeOut) (m : Monitor), Fitting s g ∧ 0 < s.dt ∧
    wakesolve s g w wakelength true none (some (Monitor.new [1])) (fun _ => .d1 0 0) st = .ok out ∧ out.mon = some m ∧ out.Nt = 1 ∧
    m.acc 0 0 0 0 0 ≠ ((s.fld out.st.E).at3 0 0 0 0 : ℂ) * Complex.exp (-2 * Complex.I * Real.pi * (1 : ℝ) * (s.dt : ℝ)) := by
  let s : Solver ℝ := ⟨1, 1, 1, fun _ _ => 0, fun _ _ => 0, fun _ => 0, fun _ => 0, 1 / 2, false⟩
  let g : Grd := ⟨1, 1, 1, fun _ => 0, fun _ => 0, fun _ => 0, fun _ => 1, fun _ => 1, fun _ => 1, 1 / 2, none⟩
  let w : WakeArgs := ⟨1, 1, 1, 0, 0, 0, 0, some 0, 0⟩
  let st : State ℝ := ⟨fun _ => 1, fun _ => 0, fun _ => 0, false⟩
  have hf : Fitting s g := ⟨rfl, rfl, rfl, one_pos, one_pos, one_pos, rfl⟩
  have hdt : (0 : ℝ) < s.dt := by show (0 : ℝ) < 1 / 2; norm_num
  have hstay : ∀ st : State ℝ, st.step0 = false → (oneStep s st).E = st.E := by
    intro st h
    unfold oneStep
    rw [h]
    funext n
    show st.E n + 1 / 2 * (mulVec s.n3 (fun _ _ => 0) _ n - 0 * st.J n) = st.E n
    simp [mulVec]
  obtain ⟨out, S, D, zmin, zmax, m, h1, hz, hzx, hN, h0, hlast, hstep, hm, hacc⟩ := C68_actual s g w hf hdt (cLight / 2) [1] (fun _ => .d1 0 0) st
  have hc : cLight ≠ 0 := by unfold cLight; norm_num
  obtain rfl : zmin = 0 := by obtain ⟨i, -, rfl⟩ := hz.1; rfl
  obtain rfl : zmax = 0 := by obtain ⟨i, -, rfl⟩ := hzx.1; rfl
  have hN1 : out.Nt = 1 := by
    rw [hN]
    have e : (cLight / 2 + w.injection * w.v + (0 - 0)) / w.v / s.dt = 1 := by
      have e1 : w.injection = 0 := rfl
      have e2 : w.v = cLight := one_mul _
      have e3 : s.dt = 1 / 2 := rfl
      rw [e1, e2, e3]
      field_simp
      ring
    unfold stepsFor pyInt
    rw [e]
    norm_num
  have hE : (S 1).E = fun _ => 1 := by
    have := hstep 0 (by omega)
    rw [this.2, hstay (D 0) (by rw [this.1.step0, h0]), this.1.E, h0]
  refine ⟨s, g, w, cLight / 2, st, out, m, hf, hdt, h1, hm, hN1, ?_⟩
  have ha := hacc 0 0 0 0 0
  have hexp : Complex.exp (-2 * Complex.I * Real.pi * (1 : ℝ) * (s.dt : ℝ)) = -1 := by
    have e3 : s.dt = 1 / 2 := rfl
    rw [e3, show (-2 * Complex.I * Real.pi * (1 : ℝ) * ((1 / 2 : ℝ) : ℂ) : ℂ) = -(Real.pi * Complex.I) by push_cast; ring, Complex.exp_neg, Complex.exp_pi_mul_I]
    norm_num
  have hval : (s.fld (S 1).E).at3 0 0 0 0 = 1 := by rw [hE]; rfl
  rw [hN1, Finset.sum_range_one] at ha
  rw [hlast, hN1, hval, hexp]
  have e4 : (([1] : List ℝ).getD 0 0) = 1 := rfl
  rw [e4, hexp, zero_add, hval, show ((((0 + 1 : ℕ) : ℝ) * s.dt : ℝ)) = s.dt by push_cast; ring, hexp] at ha
  intro h
  rw [h] at ha
  norm_num at ha

/-! ### C67 -/

/-- What a `WakeSolver` keeps of a recording between calculations: the file, if it is still open, with the arrays read from it (wakeSolver.py:166-170, 1325-1340). -/
structure Cache where
  recording : Option (Rec ℝ)

/-- wakeSolver.py:199-243, 321-326, 402-407: `solve(compute_plane="longitudinal")` up to the wake potential. `read_Ez` is called only if no file is open; the file is closed and forgotten at
the end of a calculation, but stays open if the calculation raises an exception. `file` is what `Ez_file` names now. -/
def solveLong (p : Par ℝ) (file : Rec ℝ) (c : Cache) : Cache × Py (List ℝ × List ℝ) :=
  let r := c.recording.getD file
  match calcLongWP p r with
  | .ok x => (⟨none⟩, .ok x)
  | .error e => (⟨some r⟩, .error e)

/-- The state after a history of calculations, each with its parameters and the file present at that time. -/
def history (h : List (Par ℝ × Rec ℝ)) (c : Cache) : Cache := h.foldl (fun c q => (solveLong q.1 q.2 c).1) c

/-- **C67 (partial).** After any history of calculations that did not raise an exception, the next one evaluates the recording its file name points at. Missing: `C67_refuted`. -/
theorem C67_current_partial (h : List (Par ℝ × Rec ℝ)) (hok : ∀ q ∈ h, ∃ x, calcLongWP q.1 q.2 = .ok x) (p : Par ℝ) (file : Rec ℝ) :
    (solveLong p file (history h ⟨none⟩)).2 = calcLongWP p file := by
  have key : history h ⟨none⟩ = ⟨none⟩ := by
    unfold history
    induction h with
    | nil => rfl
    | cons q l ih =>
      rw [List.foldl_cons]
      obtain ⟨x, hx⟩ := hok q List.mem_cons_self
      have : (solveLong q.1 q.2 ⟨none⟩).1 = ⟨none⟩ := by
        unfold solveLong
        simp only [Option.getD_none, hx]
      rw [this]
      exact ih fun q' hq' => hok q' (List.mem_cons_of_mem _ hq')
  rw [key]
  unfold solveLong
  simp only [Option.getD_none]
  cases calcLongWP p file <;> rfl

/-- **C67 (what happens after an exception).** After a calculation that raised an exception, the next one evaluates the recording of the failed one, whatever the file name points at. -/
theorem C67_failed {p : Par ℝ} {file : Rec ℝ} {e : PyErr} (he : calcLongWP p file = .error e) (p' : Par ℝ) (file' : Rec ℝ) :
    (solveLong p' file' (solveLong p file ⟨none⟩).1).2 = calcLongWP p' file := by
  have : (solveLong p file ⟨none⟩).1 = ⟨some file⟩ := by
    unfold solveLong
    simp only [Option.getD_none, he]
  rw [this]
  unfold solveLong
  simp only [Option.getD_some]
  cases calcLongWP p' file <;> rfl

/-- A recording of four frames of one cell in which the field is `e`. -/
def flatRec (e : ℝ) : Rec ℝ := ⟨4, fun i => i, 1, fun _ => 0, 1, fun _ => 1, H5.ofWrites (wakeWrites (fun _ => .d1 0 0) 4 fun _ => .d1 1 fun _ => e)⟩

def flatPar (skip : ℕ) : Par ℝ := ⟨1, 1, 0, some 1, skip, false, 1⟩

theorem flatRec_recorded (e : ℝ) : Recorded (flatRec e) 4 1 1 0 0 (fun _ => .d1 0 0) (fun _ => .d1 1 fun _ => e) :=
  ⟨rfl, fun i => (mul_one _).symm, rfl, ⟨⟨0, by norm_num, rfl⟩, fun i _ => le_refl _⟩, ⟨⟨0, by norm_num, rfl⟩, fun i _ => le_refl _⟩, rfl⟩

theorem flatRec_wake (e : ℝ) : calcLongWP (flatPar 0) (flatRec e) = .ok ([0], [e / 10 ^ 12]) := by
  rw [C47_line_integral (flatRec_recorded e) (flatPar 0) one_pos one_pos (by norm_num) (by norm_num) (le_refl 1) rfl]
  have hn : arangeLen (-(flatPar 0).ti * (flatPar 0).v) (lengthOf (flatPar 0) 4 1 0 0) (1 * (flatPar 0).v) = 1 := by
    norm_num [arangeLen, lengthOf, flatPar]
  simp only [hn]
  rw [show List.range 1 = [0] from rfl]
  simp [flatPar, flatRec, seen]

/-- **C67 (refuted).** There is a history (a calculation that fails because of `skip_cells`, then one without skipped cells for another recording) whose result is not the wake of the current recording. -/
theorem C67_refuted : ∃ (h : List (Par ℝ × Rec ℝ)) (p : Par ℝ) (file : Rec ℝ) (x : List ℝ × List ℝ), (solveLong p file (history h ⟨none⟩)).2 = .ok x ∧ calcLongWP p file ≠ .ok x := by
  refine ⟨[(flatPar 1, flatRec 0)], flatPar 0, flatRec 1, ([0], [0 / 10 ^ 12]), ?_, ?_⟩
  · have he := C47_skip_refuted (flatRec_recorded 0) (flatPar 1) (by norm_num) (by norm_num) one_pos (by norm_num [flatPar])
    exact (C67_failed he (flatPar 0) (flatRec 1)).trans (flatRec_wake 0)
  · rw [flatRec_wake]
    intro h
    have := congrArg Prod.snd (Except.ok.inj h)
    norm_num at this

example : ∃ q : Par ℝ × Rec ℝ, ∃ x, calcLongWP q.1 q.2 = .ok x := ⟨(flatPar 0, flatRec 3), _, flatRec_wake 3⟩

end
end Wake
end Wakis
