import Verif.Emsolve
import Verif.WakeRun
import Verif.MpiBounds

/-!
# C107: a wake run against a plain run with the same beam

`wakesolve` (`wakis/routines.py:413-437`) and `emsolve` (`wakis/routines.py:170-212`) each have a time loop of their own.
-/

namespace Wakis
namespace Wake
open Src Sol Sparse Fld
noncomputable section

/-! ### Model -/

/-- sources.py:73-110 as `emsolve(source=beam)` calls it (routines.py:176-177): the effect of `beam.update(solver, t)` on the fields.  Simplified: the cell indices that `update` keeps
after its first call are looked up at every call (`update_cached` shows that this is the same); fields stay as they are if `update` raises an exception. -/
def beamSource (b : Beam) (s : Solver ℝ) (g : Grd) : ℝ → State ℝ → State ℝ := fun t st =>
  match b.update g ⟨s.fld st.E, s.fld st.H, s.fld st.J⟩ t with
  | .ok p => { st with E := p.2.E.array, H := p.2.H.array, J := p.2.J.array }
  | .error _ => st

/-- The boundary names with every 'abc' of a low face replaced by 'open' (a name `_apply_bc_to_C` does not know, solverFIT3D.py:714-882). -/
def openLow (bc : Faces String) : Faces String :=
  { bc with
    xlo := if isAbc bc.xlo then "open" else bc.xlo
    ylo := if isAbc bc.ylo then "open" else bc.ylo
    zlo := if isAbc bc.zlo then "open" else bc.zlo }

/-! ### The property -/

/-- A wake run leaves the fields that `emsolve` leaves after as many steps, from the same fields, with the run's beam as source and the same callback. -/
def SameFields (s : Solver ℝ) (bc : Faces String) : Prop :=
  ∀ (g : Grd) (w : WakeArgs) (wakelength : ℝ) (longitudinal gpu : Bool) (cb : Option (ℝ → State ℝ → State ℝ)) (mon : Option Monitor) (md : ℕ → Dset ℝ) (st : State ℝ) (out : WakeOut) (b : Beam),
    w.beam = .ok b → wakesolve s g w wakelength longitudinal cb mon md st = .ok out →
    ∃ L, emsolve s bc ⟨some (beamSource b s g), cb, gpu⟩ out.Nt st = .ok L ∧ L.st = out.st

/-! ### Proof -/

/-- Keeping the indices of the first update changes nothing. -/
theorem update_cached {b : Beam} {g : Grd} {c : ℕ × ℕ × ℝ} (h : b.locate g = .ok c) (F : Flds) (t : ℝ) :
    ({ b with cache := some c } : Beam).update g F t = b.update g F t := by
  unfold Beam.update
  rw [h]
  rfl

theorem loop_fields (j : Job) (gpu : Bool) (b : Beam) (mon : Option Monitor) (st : State ℝ) (N : ℕ) : ∀ r, j.loop N ⟨st, b, [], mon⟩ = .ok r →
    (r.beam = b ∨ ∃ c, b.locate j.g = .ok c ∧ r.beam = { b with cache := some c }) ∧
      r.st = (List.range N).foldl (fun st (n : ℕ) => specStep j.s ⟨some (beamSource b j.s j.g), j.callback, gpu⟩ ((n : ℝ) * j.s.dt) st) st := by
  induction N with
  | zero => intro r h; cases h; exact ⟨.inl rfl, rfl⟩
  | succ N ih =>
    intro r' h
    simp only [Job.loop, bind, Except.bind] at h
    cases hr : j.loop N ⟨st, b, [], mon⟩ with
    | error e => rw [hr] at h; cases h
    | ok r =>
      rw [hr] at h
      simp only at h
      obtain ⟨hb, hst⟩ := ih r hr
      have hup : ∀ F t, r.beam.update j.g F t = b.update j.g F t := by
        intro F t
        rcases hb with e | ⟨c, hc, e⟩
        · rw [e]
        · rw [e]; exact update_cached hc F t
      unfold Job.body at h
      rw [hup] at h
      simp only [bind, Except.bind] at h
      cases hu : b.update j.g ⟨j.s.fld r.st.E, j.s.fld r.st.H, j.s.fld r.st.J⟩ (N * j.s.dt) with
      | error e => rw [hu] at h; cases h
      | ok p =>
        rw [hu] at h
        simp only at h
        split at h
        · cases h
        · obtain ⟨b', F'⟩ := p
          obtain ⟨c, sg, J, hc, -, hb', -, -⟩ := Beam.update_inv hu
          rw [List.range_succ, List.foldl_append, List.foldl_cons, List.foldl_nil, ← hst]
          have hs : beamSource b j.s j.g (N * j.s.dt) r.st = { r.st with E := F'.E.array, H := F'.H.array, J := F'.J.array } := by
            unfold beamSource
            rw [hu]
          unfold specStep
          simp only [Option.getD_some, hs]
          cases h
          refine ⟨.inr ⟨c, hc, hb'⟩, ?_⟩
          cases j.callback <;> rfl

/-- The fields a wake run leaves, whatever the boundary names. -/
theorem wake_fields {s : Solver ℝ} {g : Grd} {w : WakeArgs} {wakelength : ℝ} {longitudinal : Bool} {cb : Option (ℝ → State ℝ → State ℝ)} {mon : Option Monitor} {md : ℕ → Dset ℝ}
    {st : State ℝ} {out : WakeOut} {b : Beam} (hb : w.beam = .ok b) (h : wakesolve s g w wakelength longitudinal cb mon md st = .ok out) (gpu : Bool) :
    out.st = (List.range out.Nt).foldl (fun st (n : ℕ) => specStep s ⟨some (beamSource b s g), cb, gpu⟩ ((n : ℝ) * s.dt) st) st := by
  unfold wakesolve at h
  rw [hb] at h
  simp only [bind, Except.bind] at h
  split at h
  · cases h
  split at h
  · cases h
  split at h
  · cases h
  split at h
  · cases h
  split at h
  · cases h
  rename_i r hr
  cases h
  exact (loop_fields _ gpu b mon st _ r hr).2

/-- **C107 (partial).** Without 'abc' faces a wake run leaves exactly the fields of `emsolve` with the same beam, callback, initial fields and number of steps.  Missing: `C107_refuted`. -/
theorem C107_same_fields_partial (s : Solver ℝ) {bc : Faces String} (hbc : anyFace isAbc bc = false) : SameFields s bc := by
  intro g w wakelength longitudinal gpu cb mon md st out b hb h
  obtain ⟨L, h1, -, h3⟩ := C39_order s hbc ⟨some (beamSource b s g), cb, gpu⟩ out.Nt st
  exact ⟨L, h1, h3.trans (wake_fields hb h gpu).symm⟩

/-- **C107 (what happens with 'abc').** With 'abc' faces a wake run leaves the fields of a run of the same solver in which the absorbing boundary is never applied. -/
theorem C107_never_applied {s : Solver ℝ} {g : Grd} {w : WakeArgs} {wakelength : ℝ} {longitudinal : Bool} {cb : Option (ℝ → State ℝ → State ℝ)} {mon : Option Monitor}
    {md : ℕ → Dset ℝ} {st : State ℝ} {out : WakeOut} {b : Beam} (hb : w.beam = .ok b) (h : wakesolve s g w wakelength longitudinal cb mon md st = .ok out) (gpu : Bool) :
    ∃ L, emsolve s ⟨"open", "open", "open", "open", "open", "open"⟩ ⟨some (beamSource b s g), cb, gpu⟩ out.Nt st = .ok L ∧ L.st = out.st :=
  C107_same_fields_partial s (by decide) g w wakelength longitudinal gpu cb mon md st out b hb h

theorem isAbc_others {s : String} (h : isAbc s = true) : isPec s = false ∧ isPmcAny s = false ∧ isPmcFace s = false ∧ isPeriodic s = false ∧ isPml s = false := by
  unfold isAbc at h
  have h : pyLower s = "abc" := by simpa using h
  refine ⟨?_, ?_, ?_, ?_, ?_⟩
  · unfold isPec; rw [h]; decide
  · unfold isPmcAny; rw [h]; decide
  · unfold isPmcFace
    rw [h, Bool.or_eq_false_iff]
    refine ⟨by decide, ?_⟩
    rw [decide_eq_false_iff_not]
    rintro rfl
    revert h
    decide
  · unfold isPeriodic; rw [h]; decide
  · unfold isPml; rw [h]; decide

theorem opened {s : String} : isPec (if isAbc s then "open" else s) = isPec s ∧ isPmcAny (if isAbc s then "open" else s) = isPmcAny s ∧
    isPmcFace (if isAbc s then "open" else s) = isPmcFace s ∧ isPeriodic (if isAbc s then "open" else s) = isPeriodic s ∧ isPml (if isAbc s then "open" else s) = isPml s ∧
    isAbc (if isAbc s then "open" else s) = false := by
  by_cases h : isAbc s = true
  · obtain ⟨h1, h2, h3, h4, h5⟩ := isAbc_others h
    rw [if_pos h, h1, h2, h3, h4, h5]
    decide
  · rw [if_neg h]
    exact ⟨rfl, rfl, rfl, rfl, rfl, by simpa using h⟩

/-- **C107 (low 'abc' faces are open).** As long as no high face is 'abc', the solver built with 'abc' on low faces is the solver built with 'open' there, so a wake run cannot tell the two
names apart: same result, recording included. -/
theorem C107_low_abc_is_open (g0 : Grid.Geom ℝ) {bc : Faces String} (hhi : isAbc bc.xhi = false ∧ isAbc bc.yhi = false ∧ isAbc bc.zhi = false) (ieps imu sigma : Vec ℝ) (dt : ℝ) (uc : Bool)
    (g : Grd) (w : WakeArgs) (wakelength : ℝ) (longitudinal : Bool) (cb : Option (ℝ → State ℝ → State ℝ)) (mon : Option Monitor) (md : ℕ → Dset ℝ) (st : State ℝ) :
    wakesolve (build g0 bc ieps imu sigma dt uc) g w wakelength longitudinal cb mon md st =
      wakesolve (build g0 (openLow bc) ieps imu sigma dt uc) g w wakelength longitudinal cb mon md st := by
  have e : build g0 bc ieps imu sigma dt uc = build g0 (openLow bc) ieps imu sigma dt uc := by
    obtain ⟨h1, h2, h3⟩ := hhi
    have ax := @opened bc.xlo
    have ay := @opened bc.ylo
    have az := @opened bc.zlo
    have p1 : ∀ t : String → Bool, t (openLow bc).xlo = t bc.xlo → t (openLow bc).ylo = t bc.ylo → t (openLow bc).zlo = t bc.zlo → anyFace t (openLow bc) = anyFace t bc := by
      intro t a b c
      unfold anyFace
      rw [a, b, c]
      rfl
    have p2 : ∀ (t : String → Bool) (v : Faces ℝ), t (openLow bc).xlo = t bc.xlo → t (openLow bc).ylo = t bc.ylo → t (openLow bc).zlo = t bc.zlo → zeroWhere t (openLow bc) v = zeroWhere t bc v := by
      intro t v a b c
      unfold zeroWhere
      rw [a, b, c]
      rfl
    have q1 := p1 isPec ax.1 ay.1 az.1
    have q2 := p1 isPmcAny ax.2.1 ay.2.1 az.2.1
    have q3 := p1 isPml ax.2.2.2.2.1 ay.2.2.2.2.1 az.2.2.2.2.1
    have q4 : pecFaces (K := ℝ) (openLow bc) = pecFaces bc := by unfold pecFaces; rw [q1, p2 isPec _ ax.1 ay.1 az.1]
    have q5 : periodicMetric g0 (openLow bc) = periodicMetric g0 bc := by
      unfold periodicMetric
      rw [show isPeriodic (openLow bc).xlo = _ from ax.2.2.2.1, show isPeriodic (openLow bc).ylo = _ from ay.2.2.2.1, show isPeriodic (openLow bc).zlo = _ from az.2.2.2.1]
      rfl
    have q6 : ∀ m, abcMetric g0 (openLow bc) m = abcMetric g0 bc m := by
      intro m
      have r : ∀ bc' : Faces String, isAbc bc'.xhi = false → isAbc bc'.yhi = false → isAbc bc'.zhi = false → abcMetric g0 bc' m = m := by
        intro bc' a b c
        unfold abcMetric
        simp only [a, b, c, Bool.false_eq_true, if_false, ite_self]
      rw [r _ h1 h2 h3, r (openLow bc) h1 h2 h3]
    have q7 := fun v : Faces ℝ => p2 isPmcFace v ax.2.2.1 ay.2.2.1 az.2.2.1
    unfold build applyBC
    simp only [q1, q2, q3, q4, q5, q6, q7]
  rw [e]

/-! ### With 'abc' the two differ -/

/-- The fields of the counterexample's first step: from zero fields, only the current counts. -/
theorem first_E (s : Solver ℝ) (st : State ℝ) (hE : st.E = fun _ => 0) (hH : st.H = fun _ => 0) (q : ℕ) : (oneStep s st).E q = -(s.dt * (s.ieps q * st.J q)) := by
  have key : ∀ st' : State ℝ, (∀ n, st'.E n = 0) → (∀ n, st'.H n = 0) → st'.J = st.J → (advance s st').E q = -(s.dt * (s.ieps q * st.J q)) := by
    intro st' h1 h2 h3
    have e1 : st'.E = fun _ => 0 := funext h1
    show st'.E q + s.dt * (mulVec s.n3 s.M2 (fun i => st'.H i - s.dt * mulVec s.n3 s.M1 st'.E i) q - s.ieps q * st'.J q) = _
    rw [mulVec_zero_below _ _ _ (fun n _ => by rw [h2, e1, mulVec_zero, mul_zero, sub_zero]), h1, h3]
    ring
  unfold oneStep
  split
  · refine key _ (fun n => ?_) (fun n => ?_) rfl
    · exact (Mpi.ghost_zero (s.fld st.E) (fun q => congrFun hE q) n).1
    · exact (Mpi.ghost_zero (s.fld st.H) (fun q => congrFun hH q) n).2
  · exact key _ (fun n => congrFun hE n) (fun n => congrFun hH n) rfl

/-- The names of the counterexample. -/
def lowAbc : Faces String := ⟨"abc", "open", "open", "open", "open", "open"⟩

theorem lowAbc_one : ¬ TwoSided lowAbc := by unfold TwoSided; decide

/-- Only the low x face is 'abc'. -/
theorem lowAbc_names : isAbc lowAbc.xlo = true ∧ anyFace isAbc (openLow lowAbc) = false := by decide

theorem nearest_unique {n : ℕ} {x : ℕ → ℝ} {a : ℝ} {r r' : ℕ} (h : IsNearest n x a r) (h' : IsNearest n x a r') : r = r' := by
  rcases lt_trichotomy r r' with l | l | l
  · have := h'.2.2 r l; have := h.2.1 r' h'.1; linarith
  · exact l
  · have := h.2.2 r' l; have := h'.2.1 r h.1; linarith

/-- After a run of one step from zero fields, Ez is non-zero in the beam's column and zero elsewhere. -/
theorem beam_kick {s : Solver ℝ} {g : Grd} {w : WakeArgs} (hf : Fitting s g) (hdt : 0 < s.dt) (hi : ∀ q, s.ieps q ≠ 0)
    (hq : w.q ≠ 0) (hv : w.v ≠ 0) (hs : w.sigmaz ≠ 0) {i j : ℕ} (hx : IsNearest g.Nx g.x w.xsource i) (hy : IsNearest g.Ny g.y w.ysource j) (hd : g.dx i ≠ 0 ∧ g.dy j ≠ 0)
    {wakelength : ℝ} {mon : Option Monitor} {md : ℕ → Dset ℝ} {out : WakeOut} (hout : wakesolve s g w wakelength true none mon md initState = .ok out) (h1 : out.Nt = 1) :
    (∀ k < s.Nz, (s.fld out.st.E).at3 2 i j k ≠ 0) ∧ ∀ i' < s.Nx, ∀ k < s.Nz, i' ≠ i → (s.fld out.st.E).at3 2 i' j k = 0 := by
  obtain ⟨out', S, D, zmin, zmax, ixt, iyt, Ez, p1, -, -, -, p0, pS, pD, -⟩ := C65_records s g w hf hdt wakelength none mon md initState
  obtain rfl : out' = out := Except.ok.inj (p1.symm.trans hout)
  obtain ⟨hD, hS1⟩ := pD 0 (by omega)
  rw [p0] at hD
  obtain ⟨b', -, i0, l0, hi0, hl0, hsame, hval⟩ := hD.J
  obtain rfl := nearest_unique hx hi0
  obtain rfl := nearest_unique hy hl0
  have hnames : Names (.str "z") 2 := names_iff.2 (by decide)
  have nx : i < s.Nx := by have := hx.1; rwa [hf.Nx] at this
  have ny : j < s.Ny := by have := hy.1; rwa [hf.Ny] at this
  have hE : ∀ q, out'.st.E q = -(s.dt * (s.ieps q * (D 0).J q)) := by
    intro q
    have e : out'.st = oneStep s (D 0) := by rw [pS, h1]; exact hS1
    rw [e]
    exact first_E s (D 0) hD.E hD.H q
  have hA : ∀ c x y z, (s.fld out'.st.E).at3 c x y z = -(s.dt * (s.ieps (c * (s.fld out'.st.E).N + (x + s.Nx * (y + s.Ny * z))) * (s.fld (D 0).J).at3 c x y z)) := fun c x y z => hE _
  refine ⟨fun k hk => ?_, fun i' hi' k hk hne => ?_⟩
  · rw [hA]
    refine neg_ne_zero.2 (mul_ne_zero hdt.ne' (mul_ne_zero (hi _) ?_))
    have e := hval k (by rw [hf.Nz]; exact hk)
    rw [get_at3 (f := s.fld (D 0).J) (.str "z") hnames nx ny hk] at e
    rw [Except.ok.inj e]
    refine div_ne_zero (mul_ne_zero (mul_ne_zero hq hv) ?_) (mul_ne_zero hd.1 hd.2)
    unfold lineDensity
    refine div_ne_zero (Real.exp_pos _).ne' (Real.sqrt_pos.2 ?_).ne'
    have := Real.pi_pos
    have := sq_pos_of_ne_zero hs
    positivity
  · rw [hA]
    have e := hsame.2.2.2 (.str "z") 2 i' j k hnames hi' ny hk (fun h => hne (nearest_unique h.2.1 hx))
    rw [get_at3 (f := s.fld (D 0).J) (.str "z") hnames hi' ny hk, get_at3 (f := s.fld (initState : State ℝ).J) (.str "z") hnames hi' ny hk] at e
    rw [Except.ok.inj e]
    show -(s.dt * (_ * 0)) = 0
    ring

/-- **C107 (refuted with 'abc').** On every grid of at least two cells per axis, with an 'abc' boundary on the low x face, non-zero permittivity and a charged beam in the first layer of cells,
a wake run of one step from zero fields differs from `emsolve` with the same beam: at the beam the wake run has a field, while `emsolve` has replaced it by that of the next layer. -/
theorem C107_abc_differs (s : Solver ℝ) (g : Grd) (w : WakeArgs) (hf : Fitting s g) (hN : 2 ≤ s.Nx ∧ 2 ≤ s.Ny ∧ 2 ≤ s.Nz) (hdt : 0 < s.dt) (hi : ∀ q, s.ieps q ≠ 0)
    (hq : w.q ≠ 0) (hv : w.v ≠ 0) (hs : w.sigmaz ≠ 0) (hx : IsNearest g.Nx g.x w.xsource 0) (hy : IsNearest g.Ny g.y w.ysource 0) (hd : g.dx 0 ≠ 0 ∧ g.dy 0 ≠ 0)
    (wakelength : ℝ) (md : ℕ → Dset ℝ) {out : WakeOut} (hout : wakesolve s g w wakelength true none none md initState = .ok out) (h1 : out.Nt = 1) : ¬ SameFields s lowAbc := by
  intro H
  obtain ⟨b, hb⟩ : ∃ b, w.beam = .ok b := ⟨_, rfl⟩
  obtain ⟨L, hL, hst⟩ := H g w wakelength true false none none md initState out b hb hout
  obtain ⟨k1, k2⟩ := beam_kick hf hdt hi hq hv hs hx hy hd hout h1
  have n0x : 0 < s.Nx := by omega
  have n0y : 0 < s.Ny := by omega
  have n0z : 0 < s.Nz := by omega
  have hmid : midStep s ⟨some (beamSource b s g), none, false⟩ 0 initState = out.st := by
    have e := wake_fields hb hout false
    rw [h1] at e
    exact e.symm
  rw [h1] at hL
  have hc := (C38_cpu_actual (s := s) (bc := lowAbc) lowAbc_one (by decide) hN (a := ⟨some (beamSource b s g), none, false⟩) rfl rfl (N := 0) (st := initState) (L0 := emStart s lowAbc _ initState)
    rfl hL (d := 2) (i := 0) (j := 0) (k := 0) (by decide) n0x n0y n0z).1
  have hc' : (s.fld L.st.E).at3 2 0 0 0 = (s.fld (midStep s ⟨some (beamSource b s g), none, false⟩ 0 initState).E).at3 2 1 0 0 := hc
  rw [hmid, hst, k2 1 (by omega) 0 n0z one_ne_zero] at hc'
  exact k1 0 n0z hc'

/-- A vacuum box of 2 × 2 × 2 unit cells with the low x face 'abc', and its coordinates. -/
def absorbing : Solver ℝ := build (Grid.computeGrid 2 2 2 (fun i => i) (fun i => i) fun i => i) lowAbc (fun _ => 1) (fun _ => 1) (fun _ => 0) (1 / 2) false

def absorbingGrd : Grd := ⟨2, 2, 2, fun i => i, fun i => i, fun i => i, fun _ => 1, fun _ => 1, fun _ => 1, 1 / 2, none⟩

/-- The beam of the counterexamples: unit charge and length, on the axis through the first cell, injected at once. -/
def unitBeam : WakeArgs := ⟨1, 1, 1, 0, 0, 0, 0, some 0, 0⟩

/-- With this wake length a run on that grid has one step. -/
theorem one_step_run (s : Solver ℝ) (hf : Fitting s absorbingGrd) (hdt : s.dt = 1 / 2) (st : State ℝ) :
    ∃ out, wakesolve s absorbingGrd unitBeam (cLight / 2 - 1) true none none (fun _ => .d1 0 0) st = .ok out ∧ out.Nt = 1 := by
  have hc : cLight ≠ 0 := by unfold cLight; norm_num
  obtain ⟨out, S, D, zmin, zmax, ixt, iyt, Ez, p1, -, -, hNt, -, -, -, h8, -, h10, -⟩ := C65_records s absorbingGrd unitBeam hf (by rw [hdt]; norm_num) (cLight / 2 - 1) none none (fun _ => .d1 0 0) st
  have hz : Smallest 2 (fun i : ℕ => (i : ℝ)) zmin := by have := h8.least; rwa [h10] at this
  have hzx : Largest 2 (fun i : ℕ => (i : ℝ)) zmax := by have := h8.greatest; rwa [h10] at this
  have z0 : zmin = 0 := smallest_unique hz ⟨⟨0, two_pos, by simp⟩, fun i _ => by positivity⟩
  have z1 : zmax = 1 := by
    obtain ⟨i, hi, e⟩ := hzx.1
    have h1 := hzx.2 1 (by norm_num)
    have : (i : ℝ) ≤ 1 := by exact_mod_cast (by omega : i ≤ 1)
    simp only [Nat.cast_one] at h1 e
    linarith
  refine ⟨out, p1, ?_⟩
  rw [hNt, z0, z1]
  have e : (cLight / 2 - 1 + unitBeam.injection * unitBeam.v + (1 - 0)) / unitBeam.v / s.dt = 1 := by
    have e1 : unitBeam.injection = 0 := rfl
    have e2 : unitBeam.v = cLight := one_mul _
    rw [e1, e2, hdt]
    field_simp
    ring
  unfold stepsFor pyInt
  rw [e]
  norm_num

theorem unitBeam_near : IsNearest 2 (fun i : ℕ => (i : ℝ)) 0 0 := ⟨two_pos, fun i _ => by simp, fun i hi => by omega⟩

theorem unitBeam_v : unitBeam.v ≠ 0 := by
  show (1 : ℝ) * cLight ≠ 0
  unfold cLight
  norm_num

theorem absorbing_fits : Fitting absorbing absorbingGrd := ⟨rfl, rfl, rfl, two_pos, two_pos, two_pos, rfl⟩

/-- **C107 (refuted).** The full claim fails: a vacuum box whose low x face is 'abc', built by the solver's constructor. -/
theorem C107_refuted : ¬ ∀ (g0 : Grid.Geom ℝ) (bc : Faces String) (ieps imu sigma : Vec ℝ) (dt : ℝ) (uc : Bool), SameFields (build g0 bc ieps imu sigma dt uc) bc := by
  intro H
  obtain ⟨out, p1, hN1⟩ := one_step_run absorbing absorbing_fits rfl initState
  exact C107_abc_differs absorbing absorbingGrd unitBeam absorbing_fits ⟨le_refl 2, le_refl 2, le_refl 2⟩ (by show (0 : ℝ) < 1 / 2; norm_num) (fun q => one_ne_zero) one_ne_zero unitBeam_v one_ne_zero
    unitBeam_near unitBeam_near ⟨one_ne_zero, one_ne_zero⟩ (cLight / 2 - 1) (fun _ => .d1 0 0) p1 hN1 (H _ _ _ _ _ _ _)

/-- The hypotheses of `C107_same_fields_partial` are met by a run: every solver of at least one cell completes its wake runs (`C65_records`), with all faces electric for instance. -/
example : ∃ (s : Solver ℝ) (g : Grd) (w : WakeArgs) (out : WakeOut) (b : Beam), anyFace isAbc ⟨"pec", "pec", "pec", "pec", "pec", "pec"⟩ = false ∧ w.beam = .ok b ∧
    wakesolve s g w 1 true none none (fun _ => .d1 0 0) initState = .ok out := by
  obtain ⟨out, -, -, -, -, -, -, -, p1, -⟩ := C65_records absorbing absorbingGrd ⟨1, 1, 1, 0, 0, 0, 0, none, 0⟩ ⟨rfl, rfl, rfl, two_pos, two_pos, two_pos, rfl⟩ (by show (0 : ℝ) < 1 / 2; norm_num) 1 none none
    (fun _ => .d1 0 0) initState
  exact ⟨_, _, _, out, _, by decide, rfl, p1⟩

example : isAbc lowAbc.xhi = false ∧ isAbc lowAbc.yhi = false ∧ isAbc lowAbc.zhi = false ∧ openLow lowAbc ≠ lowAbc := by decide

end
end Wake
end Wakis
