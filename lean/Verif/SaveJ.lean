import Verif.Geometry
import Verif.Planes

/-!
# C147: wake runs that record the current (`save_J`)

`wakis/routines.py:375-379, 386-397, 418-419`: with `save_J=True` a run on one process also writes a file `Jz.h5`, with the z component of J in the cells where Ez is recorded, step by step.
-/

namespace Wakis
namespace Wake
open Src Sol Sparse Fld
noncomputable section

/-! ### Model -/

/-- routines.py:402-411, 419 `save_to_h5(self, hfJ, "J", xx, yy, zz, "z", n)`: the function that reads E (`Job.record`), called for J. -/
def Job.recordJ (j : Job) (st : State ℝ) : Py (Dset ℝ) := j.record { st with E := st.J }

/-- routines.py:413-437 with `save_J`: one pass of the time loop; the second component are the frames of `Jz.h5` so far. -/
def Job.bodyJ (j : Job) (n : ℕ) (q : Run × List (Dset ℝ)) : Py (Run × List (Dset ℝ)) := do
  let p ← q.1.beam.update j.g ⟨j.s.fld q.1.st.E, j.s.fld q.1.st.H, j.s.fld q.1.st.J⟩ (n * j.s.dt)
  let st : State ℝ := { q.1.st with E := p.2.E.array, H := p.2.H.array, J := p.2.J.array }
  let d ← j.record st
  let dJ ← j.recordJ st
  let st := oneStep j.s st
  let mon := q.1.mon.map fun m => m.update (j.cells st.E) j.s.dt
  let st := match j.callback with | some f => f (n * j.s.dt) st | none => st
  return (⟨st, p.1, q.1.frames ++ [d], mon⟩, q.2 ++ [dJ])

/-- `for n in range(Nt)`. -/
def Job.loopJ (j : Job) : ℕ → Run × List (Dset ℝ) → Py (Run × List (Dset ℝ))
  | 0, q => .ok q
  | n + 1, q => do let q ← j.loopJ n q; j.bodyJ n q

/-- routines.py:325-450 `wakesolve(wakelength, compute_plane, save_J=True)` up to the call of `wake.solve`, on one process: what the run leaves, and the file `Jz.h5` (its metadata are `md`, too). -/
def wakesolveJ (s : Solver ℝ) (g : Grd) (w : WakeArgs) (wakelength : ℝ) (longitudinal : Bool) (callback : Option (ℝ → State ℝ → State ℝ)) (mon : Option Monitor) (md : ℕ → Dset ℝ) (st : State ℝ) :
    Py (WakeOut × H5 ℝ) := do
  let ixt ← nearest g.Nx g.x w.xtest
  let iyt ← nearest g.Ny g.y w.ytest
  let xx : Sel := if longitudinal then .int ixt else .slice (some ((ixt : ℤ) - 1)) (some (ixt + 2))
  let yy : Sel := if longitudinal then .int iyt else .slice (some ((iyt : ℤ) - 1)) (some (iyt + 2))
  let zmax ← maxOf g.Nz g.z
  let zmin ← Wake.minOf g.Nz g.z
  let tmax := (wakelength + w.injection * w.v + (zmax - zmin)) / w.v
  let Nt := (pyInt (tmax / s.dt)).toNat
  let beam ← w.beam
  let q ← Job.loopJ ⟨s, g, xx, yy, callback⟩ Nt (⟨st, beam, [], mon⟩, [])
  return (q.1.out s g md Nt, H5.ofWrites (wakeWrites md Nt fun n => q.2.getD n (.d1 0 0)))

/-! ### Specification -/

/-- The file `F` holds, under the name of step `n`, one dataset: the values `v` along z. -/
def HoldsColumn (F : H5 ℝ) (n Nz : ℕ) (v : ℕ → ℝ) : Prop := ∃ u, (∀ d, (frameName n, d) ∈ F ↔ d = .d1 Nz u) ∧ ∀ k < Nz, u k = v k

/-- The file `F` holds, under the name of step `n`, one dataset: a block of three by three columns, with the values `v` in its column `(a, b)`. -/
def HoldsInBlock (F : H5 ℝ) (n Nz a b : ℕ) (v : ℕ → ℝ) : Prop := ∃ u, (∀ d, (frameName n, d) ∈ F ↔ d = .d3 3 3 Nz u) ∧ ∀ k < Nz, u a b k = v k

/-! ### Recording the current does not act on the run -/

/-- Whether a selection can be read does not depend on the values. -/
theorem record_ok (j : Job) {st : State ℝ} (st' : State ℝ) {d : Dset ℝ} (h : j.record st = .ok d) : ∃ d', j.record st' = .ok d' := by
  have e : ∀ st : State ℝ, (j.s.fld st.E).toMatrix (.str "z") = some (Fld.reshapeF (j.s.fld st.E).Nx (j.s.fld st.E).Ny ((j.s.fld st.E).part 2)) := fun _ => rfl
  have er : (j.s.fld st.E).resolve3 j.xx j.yy (.slice (some 0) (some j.g.Nz)) = (j.s.fld st'.E).resolve3 j.xx j.yy (.slice (some 0) (some j.g.Nz)) := rfl
  unfold Job.record Fld.getitem at h ⊢
  simp only [e, Fld.index3, bind, Except.bind, pure, Except.pure] at h ⊢
  rw [er] at h
  cases hr : (j.s.fld st'.E).resolve3 j.xx j.yy (.slice (some 0) (some j.g.Nz)) with
  | error x => rw [hr] at h; exact absurd h (by simp)
  | ok v => cases j.xx <;> exact ⟨_, rfl⟩

theorem bodyJ_fst (j : Job) (n : ℕ) (q : Run × List (Dset ℝ)) : (j.bodyJ n q).map Prod.fst = j.body n q.1 := by
  unfold Job.bodyJ Job.body
  simp only [bind, Except.bind, pure, Except.pure]
  cases hp : q.1.beam.update j.g ⟨j.s.fld q.1.st.E, j.s.fld q.1.st.H, j.s.fld q.1.st.J⟩ (n * j.s.dt) with
  | error e => rfl
  | ok p =>
    simp only
    cases hd : j.record { q.1.st with E := p.2.E.array, H := p.2.H.array, J := p.2.J.array } with
    | error e => rfl
    | ok d =>
      obtain ⟨d', hd'⟩ := record_ok j { q.1.st with E := p.2.J.array, H := p.2.H.array, J := p.2.J.array } hd
      have hd2 : j.recordJ { q.1.st with E := p.2.E.array, H := p.2.H.array, J := p.2.J.array } = .ok d' := hd'
      simp only [hd2]
      rfl

theorem loopJ_fst (j : Job) (q : Run × List (Dset ℝ)) : ∀ n, (j.loopJ n q).map Prod.fst = j.loop n q.1
  | 0 => rfl
  | n + 1 => by
    have ih := loopJ_fst j q n
    unfold Job.loopJ Job.loop
    rw [← ih]
    cases j.loopJ n q with
    | error e => rfl
    | ok a => exact bodyJ_fst j n a

/-- **C147 (the run is the same).** A wake run asked to record the current does exactly what it does otherwise: it ends or fails in the same way, with the same fields, monitor and recording of Ez. -/
theorem C147_same_run (s : Solver ℝ) (g : Grd) (w : WakeArgs) (wakelength : ℝ) (long : Bool) (cb : Option (ℝ → State ℝ → State ℝ)) (mon : Option Monitor) (md : ℕ → Dset ℝ) (st : State ℝ) :
    (wakesolveJ s g w wakelength long cb mon md st).map Prod.fst = wakesolve s g w wakelength long cb mon md st := by
  unfold wakesolveJ wakesolve
  simp only [bind, Except.bind, pure, Except.pure]
  cases nearest g.Nx g.x w.xtest with
  | error e => rfl
  | ok ixt =>
  cases nearest g.Ny g.y w.ytest with
  | error e => rfl
  | ok iyt =>
  cases maxOf g.Nz g.z with
  | error e => rfl
  | ok zmax =>
  cases Wake.minOf g.Nz g.z with
  | error e => rfl
  | ok zmin =>
  cases w.beam with
  | error e => rfl
  | ok b =>
    simp only
    rw [← loopJ_fst ⟨s, g, _, _, cb⟩ (⟨st, b, [], mon⟩, [])]
    cases Job.loopJ ⟨s, g, _, _, cb⟩ _ (⟨st, b, [], mon⟩, []) with
    | error e => rfl
    | ok q => rfl

/-! ### What is recorded -/

/-- What the loop keeps: `S` are the fields before each step, `D` the driven ones, whose J is recorded. -/
structure TraceJ (j : Job) (w : WakeArgs) (zmin : ℝ) (N : ℕ) (S D : ℕ → State ℝ) (q : Run × List (Dset ℝ)) : Prop where
  final : q.1.st = S N
  fits : q.1.beam.Fits j.g
  beam : ∃ b, w.beam = .ok b ∧ q.1.beam.xsource = b.xsource ∧ q.1.beam.ysource = b.ysource ∧ q.1.beam.beta = b.beta ∧ q.1.beam.q = b.q ∧ q.1.beam.sigmaz = b.sigmaz ∧ q.1.beam.ti = b.ti
  driven : ∀ n < N, Driven j.s j.g w zmin (n * j.s.dt) (S n) (D n)
  step : ∀ n < N, S (n + 1) = (j.callback.getD fun _ => id) (n * j.s.dt) (oneStep j.s (D n))
  frames : q.2.length = N ∧ ∀ n < N, ∃ d, j.recordJ (D n) = .ok d ∧ q.2[n]? = some d

theorem loopJ_trace (j : Job) (w : WakeArgs) (hf : Fitting j.s j.g) {zmin : ℝ} (hz : Smallest j.g.Nz j.g.z zmin) (hrec : ∀ st, ∃ d, j.record st = .ok d) {b : Beam} (hb : w.beam = .ok b)
    (mon : Option Monitor) (st : State ℝ) (N : ℕ) : ∃ S D q, j.loopJ N (⟨st, b, [], mon⟩, []) = .ok q ∧ S 0 = st ∧ TraceJ j w zmin N S D q := by
  have hc : b.cache = none := by unfold WakeArgs.beam Beam.init at hb; cases hb; rfl
  induction N with
  | zero => exact ⟨fun _ => st, fun _ => st, _, rfl, rfl, rfl, Or.inl hc, ⟨b, hb, rfl, rfl, rfl, rfl, rfl, rfl⟩, fun n h => by omega, fun n h => by omega, ⟨rfl, fun n h => by omega⟩⟩
  | succ N ih =>
    obtain ⟨S, D, q, hr, h0, T⟩ := ih
    obtain ⟨r, Fs⟩ := q
    obtain ⟨b0, hb0, e1, e2, e3, e4, e5, e6⟩ := T.beam
    obtain rfl : b0 = b := Except.ok.inj (hb0.symm.trans hb)
    have hsig : b0.sigmaz = some w.sigmaz := by unfold WakeArgs.beam Beam.init at hb; cases hb; rfl
    have hq : b0.q = w.q := by unfold WakeArgs.beam Beam.init at hb; cases hb; rfl
    have hbeta : b0.beta = w.beta := by unfold WakeArgs.beam Beam.init at hb; cases hb; rfl
    have hxs : b0.xsource = w.xsource := by unfold WakeArgs.beam Beam.init at hb; cases hb; rfl
    have hys : b0.ysource = w.ysource := by unfold WakeArgs.beam Beam.init at hb; cases hb; rfl
    have hv : r.beam.v = w.v := by unfold Beam.v WakeArgs.v; rw [e3, hbeta, mul_comm]
    obtain ⟨b', F', hu⟩ := C42_updates r.beam (g := j.g) (F := ⟨j.s.fld r.st.E, j.s.fld r.st.H, j.s.fld r.st.J⟩) (N * j.s.dt) (e5.trans hsig)
      ⟨by rw [hf.Nx]; exact hf.posx, by rw [hf.Ny]; exact hf.posy, by rw [hf.Nz]; exact hf.posz⟩ T.fits hf.Nx.symm hf.Ny.symm hf.Nz.symm
    obtain ⟨uE, uH, uF, uJ⟩ := C41_beam T.fits hf.Nx.symm hf.Ny.symm hu
    obtain ⟨sg, zm, i, l, hsg, ⟨m, hm, hzm⟩, hzmin, hi, hl, hJ⟩ := C42_current T.fits hf.Nx.symm hf.Ny.symm hf.Nz.symm hf.serial hu
    obtain ⟨c, sg', J', -, -, hb', hF', -⟩ := Beam.update_inv hu
    have hsg' : sg = w.sigmaz := by rw [e5, hsig] at hsg; exact (Option.some.inj hsg).symm
    have hzm' : zm = zmin := smallest_unique ⟨⟨m, hm, hzm⟩, hzmin⟩ hz
    subst hzm' hsg'
    rw [e1, hxs] at hi uJ
    rw [e2, hys] at hl uJ
    let D' : State ℝ := { r.st with E := F'.E.array, H := F'.H.array, J := F'.J.array }
    obtain ⟨d, hd⟩ := hrec D'
    obtain ⟨dJ, hdJ⟩ := hrec { D' with E := D'.J }
    have hFJ : F'.J = j.s.fld D'.J := by
      obtain ⟨d1, d2, d3, -⟩ := uJ
      show F'.J = ⟨j.s.Nx, j.s.Ny, j.s.Nz, F'.J.array⟩
      rw [show j.s.Nx = F'.J.Nx from d1.symm, show j.s.Ny = F'.J.Ny from d2.symm, show j.s.Nz = F'.J.Nz from d3.symm]
    have hbody : j.bodyJ N (r, Fs) = .ok (⟨(j.callback.getD fun _ => id) (N * j.s.dt) (oneStep j.s D'), b', r.frames ++ [d], r.mon.map fun m => m.update (j.cells (oneStep j.s D').E) j.s.dt⟩, Fs ++ [dJ]) := by
      unfold Job.bodyJ
      simp only [hu, bind, Except.bind]
      have hd' : j.record { E := F'.E.array, H := F'.H.array, J := F'.J.array, step0 := r.st.step0 } = .ok d := hd
      have hdJ' : j.recordJ { E := F'.E.array, H := F'.H.array, J := F'.J.array, step0 := r.st.step0 } = .ok dJ := hdJ
      simp only [hd', hdJ']
      cases j.callback <;> rfl
    have hDriven : Driven j.s j.g w zm (N * j.s.dt) (S N) D' := by
      rw [← T.final]
      refine ⟨by show F'.E.array = r.st.E; rw [uE]; rfl, by show F'.H.array = r.st.H; rw [uH]; rfl, rfl, b0, hb, i, l, hi, hl, ?_, fun k hk => ?_⟩
      · rw [← hFJ]; exact uJ
      · rw [← hFJ, hJ k hk, hv, e4, hq]
        unfold Beam.centre
        rw [hv, e6, show b0.v = w.v by unfold Beam.v WakeArgs.v; rw [hbeta, mul_comm]]
    refine ⟨fun n => if n ≤ N then S n else (j.callback.getD fun _ => id) (N * j.s.dt) (oneStep j.s D'), fun n => if n < N then D n else D',
      (⟨(j.callback.getD fun _ => id) (N * j.s.dt) (oneStep j.s D'), b', r.frames ++ [d], r.mon.map fun m => m.update (j.cells (oneStep j.s D').E) j.s.dt⟩, Fs ++ [dJ]), ?_, ?_, ?_, ?_, ?_, ?_, ?_, ?_⟩
    · show (j.loopJ N _ >>= fun r => j.bodyJ N r) = _
      rw [hr]
      exact hbody
    · simp only [Nat.zero_le, if_true]; exact h0
    · show _ = if N + 1 ≤ N then _ else _
      rw [if_neg (by omega)]
    · exact uF
    · refine ⟨b0, hb, ?_⟩
      rw [hb']
      exact ⟨e1, e2, e3, e4, e5, e6⟩
    · intro n hn
      rcases Nat.lt_or_ge n N with h | h
      · simp only [h.le, h, if_true]; exact T.driven n h
      · obtain rfl : n = N := by omega
        simp only [le_refl, lt_irrefl, if_true, if_false]; exact hDriven
    · intro n hn
      rcases Nat.lt_or_ge n N with h | h
      · simp only [show n + 1 ≤ N from h, h, if_true]; exact T.step n h
      · obtain rfl : n = N := by omega
        simp only [show ¬n + 1 ≤ n by omega, lt_irrefl, if_false]
    · have hl : Fs.length = N := T.frames.1
      refine ⟨by show (Fs ++ [dJ]).length = _; rw [List.length_append, hl]; rfl, fun n hn => ?_⟩
      rcases Nat.lt_or_ge n N with h | h
      · obtain ⟨d', h1, h2⟩ := T.frames.2 n h
        refine ⟨d', by simp only [h, if_true]; exact h1, ?_⟩
        show (Fs ++ [dJ])[n]? = _
        rw [List.getElem?_append_left (by rw [hl]; exact h)]
        exact h2
      · obtain rfl : n = N := by omega
        refine ⟨dJ, ?_, ?_⟩
        · simp only [lt_irrefl, if_false]
          exact hdJ
        · show (Fs ++ [dJ])[n]? = _
          rw [List.getElem?_append_right (by rw [hl]), hl, Nat.sub_self]
          rfl

theorem frameName_inj {m n : ℕ} (h : frameName m = frameName n) : m = n := by
  unfold frameName at h
  have := congrArg Geo.numeral (List.cons.inj h).2
  rwa [Geo.numeral_zfill, Geo.numeral_zfill] at this

theorem mem_file {md : ℕ → Dset ℝ} {Nt : ℕ} {f : ℕ → Dset ℝ} {n : ℕ} (hn : n < Nt) (d : Dset ℝ) : (frameName n, d) ∈ H5.ofWrites (wakeWrites md Nt f) ↔ d = f n := by
  unfold H5.ofWrites wakeWrites
  rw [List.mem_insertionSort, List.mem_append]
  constructor
  · rintro (h | h)
    · obtain ⟨p, hp, e⟩ := List.mem_map.1 h
      have hm : p.1 ∈ metaNames := (List.mem_zipIdx hp).2.2 ▸ List.getElem_mem _
      have := frameName_lt_meta n hm
      rw [(Prod.mk.inj e).1] at this
      exact absurd this (lt_irrefl _)
    · obtain ⟨m, -, e⟩ := List.mem_map.1 h
      obtain rfl := frameName_inj (Prod.mk.inj e).1
      exact (Prod.mk.inj e).2.symm
  · rintro rfl
    exact .inr (List.mem_map.2 ⟨n, List.mem_range.2 hn, rfl⟩)

/-- **C147 (what the file holds: one column).** In a longitudinal run that records the current, `Jz.h5` holds for every step, under the name of the step, the z component of J in the column of cells nearest to
the test particle, at the moment the step begins: `S n` are the fields before step `n`, `D n` these with the beam's current at the time of the step. -/
theorem C147_column (s : Solver ℝ) (g : Grd) (w : WakeArgs) (hf : Fitting s g) (wakelength : ℝ) (cb : Option (ℝ → State ℝ → State ℝ)) (mon : Option Monitor) (md : ℕ → Dset ℝ) (st : State ℝ) :
    ∃ (o : WakeOut) (F : H5 ℝ) (S D : ℕ → State ℝ) (zmin : ℝ) (ixt iyt : ℕ), wakesolveJ s g w wakelength true cb mon md st = .ok (o, F) ∧ Smallest g.Nz g.z zmin ∧
      IsNearest g.Nx g.x w.xtest ixt ∧ IsNearest g.Ny g.y w.ytest iyt ∧ S 0 = st ∧ o.st = S o.Nt ∧
      (∀ n < o.Nt, Driven s g w zmin (n * s.dt) (S n) (D n) ∧ S (n + 1) = (cb.getD fun _ => id) (n * s.dt) (oneStep s (D n))) ∧
      ∀ n < o.Nt, ∃ v, HoldsColumn F n g.Nz v ∧ ∀ k < g.Nz, (s.fld (D n).J).get (ixt : ℤ) (iyt : ℤ) (k : ℤ) (.str "z") = .ok (v k) := by
  obtain ⟨ixt, hx, hx'⟩ := C44_nearest (by rw [hf.Nx]; exact hf.posx : 0 < g.Nx) g.x w.xtest
  obtain ⟨iyt, hy, hy'⟩ := C44_nearest (by rw [hf.Ny]; exact hf.posy : 0 < g.Ny) g.y w.ytest
  obtain ⟨zmax, hzx, hzx'⟩ := maxOf_exists (by rw [hf.Nz]; exact hf.posz : 0 < g.Nz) g.z
  obtain ⟨zmin, hzn, hzn'⟩ := minOf_exists (by rw [hf.Nz]; exact hf.posz : 0 < g.Nz) g.z
  obtain ⟨b, hb⟩ : ∃ b, w.beam = .ok b := ⟨_, rfl⟩
  have hrec : ∀ st, ∃ d, Job.record ⟨s, g, .int ixt, .int iyt, cb⟩ st = .ok d := fun st => by
    obtain ⟨v, hv, -⟩ := record_long hf cb hx'.1 hy'.1 st
    exact ⟨_, hv⟩
  obtain ⟨S, D, q, hr, h0, T⟩ := loopJ_trace ⟨s, g, .int ixt, .int iyt, cb⟩ w hf hzn' hrec hb mon st (pyInt ((wakelength + w.injection * w.v + (zmax - zmin)) / w.v / s.dt)).toNat
  refine ⟨q.1.out s g md (pyInt ((wakelength + w.injection * w.v + (zmax - zmin)) / w.v / s.dt)).toNat,
    H5.ofWrites (wakeWrites md (pyInt ((wakelength + w.injection * w.v + (zmax - zmin)) / w.v / s.dt)).toNat fun n => q.2.getD n (.d1 0 0)), S, D, zmin, ixt, iyt, ?_, hzn', hx', hy', h0, T.final,
    fun n hn => ⟨T.driven n hn, T.step n hn⟩, fun n hn => ?_⟩
  · unfold wakesolveJ
    rw [hx, hy, hzx, hzn, hb]
    simp only [bind, Except.bind, if_true]
    rw [hr]
    rfl
  · obtain ⟨v, hv, hv'⟩ := record_long hf cb hx'.1 hy'.1 { D n with E := (D n).J }
    obtain ⟨d, h1, h2⟩ := T.frames.2 n hn
    obtain rfl : d = .d1 g.Nz v := Except.ok.inj (h1.symm.trans hv)
    refine ⟨v, ⟨v, ?_, fun _ _ => rfl⟩, hv'⟩
    intro d
    refine (mem_file (md := md) (f := fun n => q.2.getD n (.d1 0 0)) hn d).trans ?_
    rw [List.getD_eq_getElem?_getD, h2]
    rfl

/-- **C147 (what the file holds: the block).** In a run of both planes that records the current, with the block inside the grid, `Jz.h5` holds for every step the z component of J in the three by three columns
around the test particle. Missing: blocks that reach over the border of the grid. -/
theorem C147_block_partial (s : Solver ℝ) (g : Grd) (w : WakeArgs) (hf : Fitting s g) (wakelength : ℝ) (cb : Option (ℝ → State ℝ → State ℝ)) (mon : Option Monitor) (md : ℕ → Dset ℝ) (st : State ℝ)
    {ixt iyt : ℕ} (hx' : IsNearest g.Nx g.x w.xtest ixt) (hy' : IsNearest g.Ny g.y w.ytest iyt) (h1 : 0 < ixt) (h2 : ixt + 1 < g.Nx) (h3 : 0 < iyt) (h4 : iyt + 1 < g.Ny) :
    ∃ (o : WakeOut) (F : H5 ℝ) (S D : ℕ → State ℝ) (zmin : ℝ), wakesolveJ s g w wakelength false cb mon md st = .ok (o, F) ∧ Smallest g.Nz g.z zmin ∧ S 0 = st ∧ o.st = S o.Nt ∧
      (∀ n < o.Nt, Driven s g w zmin (n * s.dt) (S n) (D n) ∧ S (n + 1) = (cb.getD fun _ => id) (n * s.dt) (oneStep s (D n))) ∧
      ∀ n < o.Nt, ∀ a < 3, ∀ b < 3, ∃ v, HoldsInBlock F n g.Nz a b v ∧ ∀ k < g.Nz, (s.fld (D n).J).get ((ixt - 1 + a : ℕ) : ℤ) ((iyt - 1 + b : ℕ) : ℤ) (k : ℤ) (.str "z") = .ok (v k) := by
  obtain ⟨ixt', hx, hx2⟩ := C44_nearest (by rw [hf.Nx]; exact hf.posx : 0 < g.Nx) g.x w.xtest
  obtain ⟨iyt', hy, hy2⟩ := C44_nearest (by rw [hf.Ny]; exact hf.posy : 0 < g.Ny) g.y w.ytest
  obtain rfl : ixt' = ixt := C44_unique hx2 hx'
  obtain rfl : iyt' = iyt := C44_unique hy2 hy'
  obtain ⟨zmax, hzx, hzx'⟩ := maxOf_exists (by rw [hf.Nz]; exact hf.posz : 0 < g.Nz) g.z
  obtain ⟨zmin, hzn, hzn'⟩ := minOf_exists (by rw [hf.Nz]; exact hf.posz : 0 < g.Nz) g.z
  obtain ⟨b, hb⟩ : ∃ b, w.beam = .ok b := ⟨_, rfl⟩
  have hrec : ∀ st, ∃ d, Job.record ⟨s, g, .slice (some ((ixt' : ℤ) - 1)) (some (ixt' + 2)), .slice (some ((iyt' : ℤ) - 1)) (some (iyt' + 2)), cb⟩ st = .ok d := fun st => by
    obtain ⟨v, hv, -⟩ := record_both hf cb h1 h2 h3 h4 st
    exact ⟨_, hv⟩
  obtain ⟨S, D, q, hr, h0, T⟩ := loopJ_trace ⟨s, g, .slice (some ((ixt' : ℤ) - 1)) (some (ixt' + 2)), .slice (some ((iyt' : ℤ) - 1)) (some (iyt' + 2)), cb⟩ w hf hzn' hrec hb mon st
    (pyInt ((wakelength + w.injection * w.v + (zmax - zmin)) / w.v / s.dt)).toNat
  refine ⟨q.1.out s g md (pyInt ((wakelength + w.injection * w.v + (zmax - zmin)) / w.v / s.dt)).toNat,
    H5.ofWrites (wakeWrites md (pyInt ((wakelength + w.injection * w.v + (zmax - zmin)) / w.v / s.dt)).toNat fun n => q.2.getD n (.d1 0 0)), S, D, zmin, ?_, hzn', h0, T.final,
    fun n hn => ⟨T.driven n hn, T.step n hn⟩, fun n hn a ha b hb => ?_⟩
  · unfold wakesolveJ
    rw [hx, hy, hzx, hzn, hb]
    simp only [bind, Except.bind, Bool.false_eq_true, if_false]
    rw [hr]
    rfl
  · obtain ⟨v, hv, hv'⟩ := record_both hf cb h1 h2 h3 h4 { D n with E := (D n).J }
    obtain ⟨d, h1, h2⟩ := T.frames.2 n hn
    obtain rfl : d = .d3 3 3 g.Nz v := Except.ok.inj (h1.symm.trans hv)
    refine ⟨v a b, ⟨v, ?_, fun _ _ => rfl⟩, hv' a ha b hb⟩
    intro d
    refine (mem_file (md := md) (f := fun n => q.2.getD n (.d1 0 0)) hn d).trans ?_
    rw [List.getD_eq_getElem?_getD, h2]
    rfl

/-- **C147 (the bunch).** With the test particle in the column of the bunch, `Jz.h5` holds the current density of the bunch: at step `n` and cell `k`, charge times speed times the line density at
`z_k` of a bunch that has moved for the time `n dt`, over the cross section of the cell. -/
theorem C147_bunch (s : Solver ℝ) (g : Grd) (w : WakeArgs) (hf : Fitting s g) (wakelength : ℝ) (cb : Option (ℝ → State ℝ → State ℝ)) (mon : Option Monitor) (md : ℕ → Dset ℝ) (st : State ℝ)
    {i l : ℕ} (hi : IsNearest g.Nx g.x w.xsource i) (hl : IsNearest g.Ny g.y w.ysource l) (hit : IsNearest g.Nx g.x w.xtest i) (hlt : IsNearest g.Ny g.y w.ytest l) {b : Beam} (hb : w.beam = .ok b) :
    ∃ (o : WakeOut) (F : H5 ℝ) (zmin : ℝ), wakesolveJ s g w wakelength true cb mon md st = .ok (o, F) ∧ Smallest g.Nz g.z zmin ∧
      ∀ n < o.Nt, HoldsColumn F n g.Nz fun k => w.q * w.v * lineDensity w.sigmaz (g.z k - b.centre zmin (n * s.dt)) / (g.dx i * g.dy l) := by
  obtain ⟨o, F, S, D, zmin, ixt, iyt, h1, h2, h3, h4, -, -, h5, h6⟩ := C147_column s g w hf wakelength cb mon md st
  obtain rfl : i = ixt := C44_unique hit h3
  obtain rfl : l = iyt := C44_unique hlt h4
  refine ⟨o, F, zmin, h1, h2, fun n hn => ?_⟩
  obtain ⟨v, ⟨u, hu, huv⟩, hv⟩ := h6 n hn
  obtain ⟨b', hb', i', l', hi', hl', -, hval⟩ := (h5 n hn).1.J
  obtain rfl : b = b' := Except.ok.inj (hb.symm.trans hb')
  obtain rfl : i = i' := C44_unique hi hi'
  obtain rfl : l = l' := C44_unique hl hl'
  exact ⟨u, hu, fun k hk => (huv k hk).trans (Except.ok.inj ((hv k hk).symm.trans (hval k hk)))⟩

/-- **C147 (beside the bunch).** With the test particle in any other column (of cells that do not conduct), from zero fields, `Jz.h5` holds zeros for all steps, whatever the charge. -/
theorem C147_beside (s : Solver ℝ) (g : Grd) (w : WakeArgs) (hf : Fitting s g) (wakelength : ℝ) (mon : Option Monitor) (md : ℕ → Dset ℝ)
    {i l : ℕ} (hit : IsNearest g.Nx g.x w.xtest i) (hlt : IsNearest g.Ny g.y w.ytest l) (hne : ¬ (IsNearest g.Nx g.x w.xsource i ∧ IsNearest g.Ny g.y w.ysource l))
    (hs : s.useConductivity = true → ∀ k < s.Nz, s.sigma (pos s.Nx s.Ny s.Nz 2 i l k) = 0) :
    ∃ (o : WakeOut) (F : H5 ℝ), wakesolveJ s g w wakelength true none mon md initState = .ok (o, F) ∧ ∀ n < o.Nt, HoldsColumn F n g.Nz fun _ => 0 := by
  obtain ⟨o, F, S, D, zmin, ixt, iyt, h1, h2, h3, h4, h0, -, h5, h6⟩ := C147_column s g w hf wakelength none mon md initState
  obtain rfl : i = ixt := C44_unique hit h3
  obtain rfl : l = iyt := C44_unique hlt h4
  have bi : i < s.Nx := by rw [← hf.Nx]; exact hit.1
  have bl : l < s.Ny := by rw [← hf.Ny]; exact hlt.1
  have dz : ∀ n < o.Nt, ∀ k < s.Nz, (S n).J (pos s.Nx s.Ny s.Nz 2 i l k) = 0 → (D n).J (pos s.Nx s.Ny s.Nz 2 i l k) = 0 := fun n hn k hk h => by
    rw [driven_entry (h5 n hn).1 (by decide) bi bl hk fun h => hne h.2, h]
  have sz : ∀ n ≤ o.Nt, ∀ k < s.Nz, (S n).J (pos s.Nx s.Ny s.Nz 2 i l k) = 0 := fun n => by
    induction n with
    | zero => intro _ k _; rw [h0]; rfl
    | succ n ih =>
      intro hn k hk
      rw [(h5 n (by omega)).2]
      exact oneStep_J_zero s (D n) (dz n (by omega) k hk (ih (by omega) k hk)) fun h => hs h k hk
  refine ⟨o, F, h1, fun n hn => ?_⟩
  obtain ⟨v, ⟨u, hu, huv⟩, hv⟩ := h6 n hn
  refine ⟨u, hu, fun k hk => ?_⟩
  have hk' : k < s.Nz := by rwa [hf.Nz] at hk
  have e := hv k hk
  rw [get_at3 (f := s.fld (D n).J) _ (names_iff.2 (by decide) : Names (.str "z") 2) bi bl hk'] at e
  have e : (D n).J (pos s.Nx s.Ny s.Nz 2 i l k) = v k := Except.ok.inj e
  rw [huv k hk, ← e]
  exact dz n hn k hk' (sz n hn.le k hk')

/-- Three by three by one unit cells, the bunch and the test particle in the centre: the current of the bunch is recorded, and the run is the one without. -/
example : ∃ o F b zmin, wakesolveJ oneLayer ⟨3, 3, 1, fun i => i, fun i => i, fun i => i, fun _ => 1, fun _ => 1, fun _ => 1, 1, none⟩ ⟨1, 1, 1, 1, 1, 1, 1, some 0, 0⟩ 4 true none none (fun _ => .d1 0 0) initState = .ok (o, F) ∧
    wakesolve oneLayer ⟨3, 3, 1, fun i => i, fun i => i, fun i => i, fun _ => 1, fun _ => 1, fun _ => 1, 1, none⟩ ⟨1, 1, 1, 1, 1, 1, 1, some 0, 0⟩ 4 true none none (fun _ => .d1 0 0) initState = .ok o ∧
    ∀ n < o.Nt, HoldsColumn F n 1 fun k => 1 * (1 * cLight) * lineDensity 1 (k - Beam.centre b zmin (n * 1)) / (1 * 1) := by
  have n1 : IsNearest 3 (fun i : ℕ => (i : ℝ)) 1 1 := ⟨by decide, fun k _ => by simp, fun k hk => by
    obtain rfl : k = 0 := by omega
    norm_num⟩
  obtain ⟨o, F, zmin, e1, -, e2⟩ := C147_bunch oneLayer ⟨3, 3, 1, fun i => i, fun i => i, fun i => i, fun _ => 1, fun _ => 1, fun _ => 1, 1, none⟩ ⟨1, 1, 1, 1, 1, 1, 1, some 0, 0⟩
    ⟨rfl, rfl, rfl, by decide, by decide, by decide, rfl⟩ 4 none none (fun _ => .d1 0 0) initState n1 n1 n1 n1 rfl
  refine ⟨o, F, _, zmin, e1, ?_, e2⟩
  rw [← C147_same_run, e1]
  rfl

/-- The same with the bunch in the corner: zeros in the column of the test particle. -/
example : ∃ o F, wakesolveJ oneLayer ⟨3, 3, 1, fun i => i, fun i => i, fun i => i, fun _ => 1, fun _ => 1, fun _ => 1, 1, none⟩ ⟨1, 1, 1, 0, 0, 1, 1, some 0, 0⟩ 4 true none none (fun _ => .d1 0 0) initState = .ok (o, F) ∧
    ∀ n < o.Nt, HoldsColumn F n 1 fun _ => 0 := by
  have n0 : IsNearest 3 (fun i : ℕ => (i : ℝ)) 0 0 := ⟨by decide, fun k _ => by simp, fun k hk => by omega⟩
  have n1 : IsNearest 3 (fun i : ℕ => (i : ℝ)) 1 1 := ⟨by decide, fun k _ => by simp, fun k hk => by
    obtain rfl : k = 0 := by omega
    norm_num⟩
  exact C147_beside oneLayer ⟨3, 3, 1, fun i => i, fun i => i, fun i => i, fun _ => 1, fun _ => 1, fun _ => 1, 1, none⟩ ⟨1, 1, 1, 0, 0, 1, 1, some 0, 0⟩
    ⟨rfl, rfl, rfl, by decide, by decide, by decide, rfl⟩ 4 none (fun _ => .d1 0 0) n1 n1 (fun h => absurd (C44_unique h.1 n0) (by decide)) fun _ _ _ => rfl

example : ∃ o F, wakesolveJ oneLayer ⟨3, 3, 1, fun i => i, fun i => i, fun i => i, fun _ => 1, fun _ => 1, fun _ => 1, 1, none⟩ ⟨1, 1, 1, 0, 0, 1, 1, some 0, 0⟩ 4 false none none (fun _ => .d1 0 0) initState = .ok (o, F) ∧
    ∀ n < o.Nt, ∃ v, HoldsInBlock F n 1 0 0 v := by
  have n1 : IsNearest 3 (fun i : ℕ => (i : ℝ)) 1 1 := ⟨by decide, fun k _ => by simp, fun k hk => by
    obtain rfl : k = 0 := by omega
    norm_num⟩
  obtain ⟨o, F, S, D, zmin, e1, -, -, -, -, e2⟩ := C147_block_partial oneLayer ⟨3, 3, 1, fun i => i, fun i => i, fun i => i, fun _ => 1, fun _ => 1, fun _ => 1, 1, none⟩ ⟨1, 1, 1, 0, 0, 1, 1, some 0, 0⟩
    ⟨rfl, rfl, rfl, by decide, by decide, by decide, rfl⟩ 4 none none (fun _ => .d1 0 0) initState n1 n1 (by decide) (by decide) (by decide) (by decide)
  exact ⟨o, F, e1, fun n hn => (e2 n hn 0 (by decide) 0 (by decide)).imp fun v h => h.1⟩

end
end Wake
end Wakis
