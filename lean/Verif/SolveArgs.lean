import Verif.ResultFiles
import Verif.WakeRun
import Verif.ImpWake

/-!
# C103: parameters given to `solve` and to the constructor

`solve(**kwargs)` (wakeSolver.py:199-243) sets attributes; the constructor (132-197) derives further ones from its arguments. The theorems say when the two agree.
-/

namespace Wakis
namespace Wake

open Src

noncomputable section

/-! ### Model -/

/-- wakeSolver.py:20-40: constructor arguments of a `WakeSolver` that enter the calculation. Simplified: no charge distribution is given (see C72). -/
structure Args where
  q : ℝ
  sigmaz : ℝ
  beta : ℝ
  ti : Option ℝ
  fmax : Option ℝ
  wakelength : Option ℝ
  skip : ℕ
  counterMoving : Bool
  plane : String

/-- The attributes used by the calculation, with what earlier calculations left behind (`wakelength`, `lambdas`) and the results. -/
structure Attrs where
  q : ℝ
  sigmaz : ℝ
  beta : ℝ
  v : ℝ
  ti : ℝ
  fmax : ℝ
  wakelength : Option ℝ
  skip : ℕ
  counterMoving : Bool
  plane : String
  nTrans : ℕ
  lambdas : Option (List ℝ)
  out : Option Out

/-- wakeSolver.py:132-185. -/
def Attrs.init (a : Args) : Attrs :=
  let v := a.beta * cLight
  ⟨a.q, a.sigmaz, a.beta, v, a.ti.getD (8.548921333333334 * a.sigmaz / (Real.sqrt a.beta * v)), a.fmax.getD (v / (3 * a.sigmaz)), a.wakelength, a.skip, a.counterMoving, a.plane, 1, none, none⟩

/-- A keyword of `solve`; any name is accepted, also one no attribute has. -/
inductive Kw
  | q (x : ℝ)
  | sigmaz (x : ℝ)
  | beta (x : ℝ)
  | ti (x : ℝ)
  | fmax (x : ℝ)
  | wakelength (x : Option ℝ)
  | skip (n : ℕ)
  | counterMoving (b : Bool)
  | other (name : String)

/-- wakeSolver.py:217-218 `setattr(self, key, val)`. -/
def Attrs.set (a : Attrs) : Kw → Attrs
  | .q x => { a with q := x }
  | .sigmaz x => { a with sigmaz := x }
  | .beta x => { a with beta := x }
  | .ti x => { a with ti := x }
  | .fmax x => { a with fmax := x }
  | .wakelength x => { a with wakelength := x }
  | .skip n => { a with skip := n }
  | .counterMoving b => { a with counterMoving := b }
  | .other _ => a

/-- The parameters read by the wake calculation. -/
def Attrs.par (a : Attrs) : Par ℝ := ⟨a.q, a.v, a.ti, a.wakelength, a.skip, a.counterMoving, a.nTrans⟩

/-- wakeSolver.py:220-238: the calculation of `solve` once the attributes are set. The plane is compared in lower case; a plane that is none of the three computes nothing. The wake
length is kept if it was not given (337-344, 456-461), the charge distribution too (660-663). `nx dx ny dy` are the cell sizes of the recording. -/
def Attrs.run (a : Attrs) (plane : String) (nx : ℕ) (dx : ℕ → ℝ) (ny : ℕ) (dy : ℕ → ℝ) (r : Rec ℝ) : Py Attrs :=
  if pyLower plane = "both" ∨ pyLower plane = "transverse" then do
    let su ← setup a.par r
    let o ← solveBoth a.par a.fmax a.sigmaz a.lambdas nx dx ny dy r
    return { a with wakelength := some su.wakelength, lambdas := some o.lambdas, out := some o }
  else if pyLower plane = "longitudinal" then do
    let su ← setup a.par r
    let o ← solveOnlyLong a.par a.fmax a.sigmaz a.lambdas r
    return { a with wakelength := some su.wakelength, lambdas := some o.lambdas, out := some o }
  else return a

/-- wakeSolver.py:199-243 `solve`. -/
def Attrs.solve (a : Attrs) (plane : Option String) (kw : List Kw) (nx : ℕ) (dx : ℕ → ℝ) (ny : ℕ) (dy : ℕ → ℝ) (r : Rec ℝ) : Py Attrs :=
  (kw.foldl Attrs.set a).run (plane.getD a.plane) nx dx ny dy r

/-! ### Specification -/

/-- The constructor call with one argument changed. -/
def Args.set (a : Args) : Kw → Args
  | .q x => { a with q := x }
  | .sigmaz x => { a with sigmaz := x }
  | .beta x => { a with beta := x }
  | .ti x => { a with ti := some x }
  | .fmax x => { a with fmax := some x }
  | .wakelength x => { a with wakelength := x }
  | .skip n => { a with skip := n }
  | .counterMoving b => { a with counterMoving := b }
  | .other _ => a

/-- Arguments from which the constructor derives nothing in the call `a`. -/
def Plain (a : Args) : Kw → Prop
  | .beta _ => False
  | .other _ => False
  | .sigmaz _ => a.ti.isSome ∧ a.fmax.isSome
  | _ => True

/-! ### C103 -/

lemma set_init (a : Args) (k : Kw) (h : Plain a k) : (Attrs.init a).set k = Attrs.init (a.set k) := by
  cases k with
  | beta x => exact h.elim
  | other n => exact h.elim
  | sigmaz x =>
    obtain ⟨h1, h2⟩ := h
    obtain ⟨t, ht⟩ := Option.isSome_iff_exists.1 h1
    obtain ⟨f, hf⟩ := Option.isSome_iff_exists.1 h2
    simp only [Attrs.set, Attrs.init, Args.set, ht, hf, Option.getD_some]
  | _ => rfl

lemma plain_set (a : Args) (k k' : Kw) (h : Plain a k') : Plain (a.set k) k' := by
  cases k' with
  | beta x => exact h
  | other n => exact h
  | sigmaz x => cases k <;> first | exact h | exact ⟨rfl, h.2⟩ | exact ⟨h.1, rfl⟩
  | _ => trivial

/-- **C103 (partial).** On a new solver, any number of keywords that are not `beta`, and are `sigmaz` only if the solver was built with an injection time and a maximum frequency, give
the calculation of a solver built with these values: same results, or the same exception. Missing: `beta` (`C103_beta_refuted`), `sigmaz` otherwise (`C103_sigmaz_refuted`), solvers that
have calculated before (`C103_second_refuted`). -/
theorem C103_keywords_partial (a : Args) (kw : List Kw) (h : ∀ k ∈ kw, Plain a k) (plane : Option String) (nx : ℕ) (dx : ℕ → ℝ) (ny : ℕ) (dy : ℕ → ℝ) (r : Rec ℝ) :
    (Attrs.init a).solve plane kw nx dx ny dy r = (Attrs.init (kw.foldl Args.set a)).solve plane [] nx dx ny dy r := by
  have key : ∀ (kw : List Kw) (a : Args), (∀ k ∈ kw, Plain a k) → kw.foldl Attrs.set (Attrs.init a) = Attrs.init (kw.foldl Args.set a) ∧ (kw.foldl Args.set a).plane = a.plane := by
    intro kw
    induction kw with
    | nil => exact fun a _ => ⟨rfl, rfl⟩
    | cons k l ih =>
      intro a h
      rw [List.foldl_cons, List.foldl_cons, set_init a k (h k List.mem_cons_self)]
      have := ih (a.set k) fun k' hk' => plain_set a k k' (h k' (List.mem_cons_of_mem _ hk'))
      refine ⟨this.1, this.2.trans ?_⟩
      cases k <;> rfl
  unfold Attrs.solve
  rw [(key kw a h).1]
  show _ = (Attrs.init (kw.foldl Args.set a)).run (plane.getD (kw.foldl Args.set a).plane) nx dx ny dy r
  rw [(key kw a h).2]
  rfl

/-- The hypotheses of `C103_keywords_partial`. -/
example : ∀ k ∈ [Kw.q 2, Kw.sigmaz 3, Kw.skip 1], Plain ⟨1, 1, 1, some 0, some 1, none, 0, false, "both"⟩ k := by
  intro k hk
  fin_cases hk
  · trivial
  · exact ⟨rfl, rfl⟩
  · trivial

/-- **C103 (`beta`, refuted).** The keyword `beta` has no effect on any result: the calculation uses the velocity of the constructor. -/
theorem C103_beta_refuted (a : Attrs) (b : ℝ) (plane : Option String) (nx : ℕ) (dx : ℕ → ℝ) (ny : ℕ) (dy : ℕ → ℝ) (r : Rec ℝ) :
    a.solve plane [.beta b] nx dx ny dy r = (a.solve plane [] nx dx ny dy r).map fun w => { w with beta := b } := by
  unfold Attrs.solve
  simp only [List.foldl_cons, List.foldl_nil]
  generalize plane.getD a.plane = P
  unfold Attrs.run
  have hp : (a.set (.beta b)).par = a.par := rfl
  rw [hp]
  split_ifs
  · cases setup a.par r with
    | error e => rfl
    | ok su =>
      show (solveBoth a.par a.fmax a.sigmaz a.lambdas nx dx ny dy r).bind _ = Except.map _ ((solveBoth a.par a.fmax a.sigmaz a.lambdas nx dx ny dy r).bind _)
      cases solveBoth a.par a.fmax a.sigmaz a.lambdas nx dx ny dy r <;> rfl
  · cases setup a.par r with
    | error e => rfl
    | ok su =>
      show (solveOnlyLong a.par a.fmax a.sigmaz a.lambdas r).bind _ = Except.map _ ((solveOnlyLong a.par a.fmax a.sigmaz a.lambdas r).bind _)
      cases solveOnlyLong a.par a.fmax a.sigmaz a.lambdas r <;> rfl
  · rfl

/-- A longitudinal calculation succeeds for every recording of a complete run, on the s axis given by the parameters. -/
lemma run_long (a : Attrs) {r : Rec ℝ} {Nt Nz : ℕ} {dt zmin zmax : ℝ} {md : ℕ → Dset ℝ} {Ez : ℕ → ℕ → ℝ} (h : Recorded r Nt Nz dt zmin zmax md (fun n => .d1 Nz (Ez n))) (hv : 0 < a.v)
    (hdt : 0 < dt) (hN : 3 ≤ Nt) (hN' : Nt ≤ 100000) (hdz : Nz ≤ r.ndz) (hskip : a.skip = 0) (hf : 0 < a.fmax) (hres : a.fmax ≤ 1 / dt)
    (hns : 2 ≤ arangeLen (-a.ti * a.v) (lengthOf a.par Nt dt zmin zmax) (dt * a.v)) (nx : ℕ) (dx : ℕ → ℝ) (ny : ℕ) (dy : ℕ → ℝ) :
    ∃ o : Out, a.run "longitudinal" nx dx ny dy r = .ok { a with wakelength := some (lengthOf a.par Nt dt zmin zmax), lambdas := some o.lambdas, out := some o } ∧
      o.s = axis (-a.ti * a.v) (dt * a.v) (arangeLen (-a.ti * a.v) (lengthOf a.par Nt dt zmin zmax) (dt * a.v)) := by
  generalize hns' : arangeLen (-a.ti * a.v) (lengthOf a.par Nt dt zmin zmax) (dt * a.v) = ns at *
  obtain ⟨WP, hl⟩ : ∃ WP, calcLongWP a.par r = .ok (axis (-a.ti * a.v) (dt * a.v) ns, WP) := by
    subst hns'
    exact ⟨_, C47_line_integral h a.par hv hdt hN hN' hdz hskip⟩
  have hR : a.v / (dt * a.v) = 1 / dt := by field_simp
  obtain ⟨-, i, hi, -⟩ := C51_axis (s0 := -a.ti * a.v) (samples := 1001) hns hv (mul_pos hdt hv) hf (by norm_num) (hR ▸ hres) (-1)
    WP (a.lambdas.getD (gaussLambda a.sigmaz (axis (-a.ti * a.v) (dt * a.v) ns)))
  refine ⟨⟨axis (-a.ti * a.v) (dt * a.v) ns, WP, [], [], a.lambdas.getD (gaussLambda a.sigmaz (axis (-a.ti * a.v) (dt * a.v) ns)), i.f, i.Z, i.lambdaf, [], [], [], []⟩, ?_, rfl⟩
  unfold Attrs.run
  rw [if_neg (by decide), if_pos (by decide), h.setup_eq a.par hN]
  show (solveOnlyLong a.par a.fmax a.sigmaz a.lambdas r).bind _ = _
  unfold solveOnlyLong
  rw [hl]
  show Except.bind (Except.bind (impedance (-1) a.v a.fmax 1001 (axis (-a.ti * a.v) (dt * a.v) ns) WP (a.lambdas.getD (gaussLambda a.sigmaz (axis (-a.ti * a.v) (dt * a.v) ns)))) _) _ = _
  rw [hi]
  rfl

/-- A recording of `n` frames of one cell, one second apart. -/
def frames (n : ℕ) : Rec ℝ := ⟨n, fun i => i, 1, fun _ => 0, 1, fun _ => 1, H5.ofWrites (wakeWrites (fun _ => .d1 0 0) n fun _ => .d1 1 fun _ => 1)⟩

lemma frames_recorded (n : ℕ) : Recorded (frames n) n 1 1 0 0 (fun _ => .d1 0 0) (fun _ => .d1 1 fun _ => 1) :=
  ⟨rfl, fun i => (mul_one _).symm, rfl, ⟨⟨0, by norm_num, rfl⟩, fun i _ => le_refl _⟩, ⟨⟨0, by norm_num, rfl⟩, fun i _ => le_refl _⟩, rfl⟩

lemma cLight_pos : 0 < cLight := by norm_num [cLight]

/-- Arguments of the witnesses below. -/
def someArgs (β : ℝ) (ti wl : Option ℝ) (σ : ℝ) : Args := ⟨1, σ, β, ti, some (1 / 2), wl, 0, false, "longitudinal"⟩

lemma some_run (β σ : ℝ) (hβ : 0 < β) (ti wl : Option ℝ) {n : ℕ} (hn : 3 ≤ n) (hn' : n ≤ 100000)
    (hns : 2 ≤ arangeLen (-(Attrs.init (someArgs β ti wl σ)).ti * (β * cLight)) (lengthOf (Attrs.init (someArgs β ti wl σ)).par n 1 0 0) (1 * (β * cLight))) :
    ∃ o : Out, (Attrs.init (someArgs β ti wl σ)).solve none [] 0 0 0 0 (frames n) =
        .ok { Attrs.init (someArgs β ti wl σ) with wakelength := some (lengthOf (Attrs.init (someArgs β ti wl σ)).par n 1 0 0), lambdas := some o.lambdas, out := some o } ∧
      o.s = axis (-(Attrs.init (someArgs β ti wl σ)).ti * (β * cLight)) (1 * (β * cLight))
        (arangeLen (-(Attrs.init (someArgs β ti wl σ)).ti * (β * cLight)) (lengthOf (Attrs.init (someArgs β ti wl σ)).par n 1 0 0) (1 * (β * cLight))) :=
  run_long (Attrs.init (someArgs β ti wl σ)) (frames_recorded n) (mul_pos hβ cLight_pos) one_pos hn hn' (le_refl 1) rfl (by norm_num [Attrs.init, someArgs]) (by norm_num [Attrs.init, someArgs]) hns 0 0 0 0

/-- **C103 (`beta`, refuted, witness).** A calculation with the keyword `beta` whose s axis is not that of a solver built with this `beta`. -/
theorem C103_beta_differs_refuted : ∃ (a : Args) (b : ℝ) (r : Rec ℝ) (w w' : Attrs) (o o' : Out), 0 < b ∧ (Attrs.init a).solve none [.beta b] 0 0 0 0 r = .ok w ∧
    (Attrs.init (a.set (.beta b))).solve none [] 0 0 0 0 r = .ok w' ∧ w.out = some o ∧ w'.out = some o' ∧ o.s ≠ o'.s := by
  have hc := cLight_pos
  have n1 : arangeLen (-(Attrs.init (someArgs 1 (some 0) (some (2 * cLight)) 1)).ti * (1 * cLight)) (lengthOf (Attrs.init (someArgs 1 (some 0) (some (2 * cLight)) 1)).par 4 1 0 0) (1 * (1 * cLight)) = 2 := by
    simp only [Attrs.init, someArgs, lengthOf, Attrs.par, Option.getD_some, arangeLen]
    rw [show (2 * cLight - -0 * (1 * cLight)) / (1 * (1 * cLight)) = ((2 : ℤ) : ℝ) by field_simp; norm_num, Int.ceil_intCast]
    rfl
  have n2 : arangeLen (-(Attrs.init (someArgs (1 / 2) (some 0) (some (2 * cLight)) 1)).ti * (1 / 2 * cLight)) (lengthOf (Attrs.init (someArgs (1 / 2) (some 0) (some (2 * cLight)) 1)).par 4 1 0 0)
      (1 * (1 / 2 * cLight)) = 4 := by
    simp only [Attrs.init, someArgs, lengthOf, Attrs.par, Option.getD_some, arangeLen]
    rw [show (2 * cLight - -0 * (1 / 2 * cLight)) / (1 * (1 / 2 * cLight)) = ((4 : ℤ) : ℝ) by field_simp; norm_num, Int.ceil_intCast]
    rfl
  obtain ⟨o, h1, h2⟩ := some_run 1 1 one_pos (some 0) (some (2 * cLight)) (n := 4) (by norm_num) (by norm_num) (by rw [n1])
  obtain ⟨o', h1', h2'⟩ := some_run (1 / 2) 1 (by norm_num) (some 0) (some (2 * cLight)) (n := 4) (by norm_num) (by norm_num) (by rw [n2]; norm_num)
  obtain ⟨w, hw, hwo⟩ : ∃ w, (Attrs.init (someArgs 1 (some 0) (some (2 * cLight)) 1)).solve none [.beta (1 / 2)] 0 0 0 0 (frames 4) = .ok w ∧ w.out = some o := by
    rw [C103_beta_refuted, h1]
    exact ⟨_, rfl, rfl⟩
  refine ⟨someArgs 1 (some 0) (some (2 * cLight)) 1, 1 / 2, frames 4, w, _, o, o', by norm_num, hw, h1', hwo, rfl, fun h => ?_⟩
  have := congrArg List.length h
  rw [h2, h2', n1, n2, axis_length, axis_length] at this
  omega

/-- **C103 (`sigmaz`, refuted).** With a derived injection time, the keyword `sigmaz` keeps the injection time of the old bunch length: the s axis starts at another position than that
of a solver built with the new bunch length. -/
theorem C103_sigmaz_refuted : ∃ (a : Args) (x : ℝ) (r : Rec ℝ) (w w' : Attrs) (o o' : Out), 0 < x ∧ (Attrs.init a).solve none [.sigmaz x] 0 0 0 0 r = .ok w ∧
    (Attrs.init (a.set (.sigmaz x))).solve none [] 0 0 0 0 r = .ok w' ∧ w.out = some o ∧ w'.out = some o' ∧ o.s[0]? ≠ o'.s[0]? := by
  have hc := cLight_pos
  have ht : ∀ σ : ℝ, -(Attrs.init (someArgs 1 none (some (2 * cLight)) σ)).ti * (1 * cLight) = -(8.548921333333334 * σ) := by
    intro σ
    simp only [Attrs.init, someArgs, Option.getD_none, Real.sqrt_one]
    field_simp
  have hw : ∀ σ : ℝ, lengthOf (Attrs.init (someArgs 1 none (some (2 * cLight)) σ)).par 4 1 0 0 = 2 * cLight := fun σ => rfl
  have hn : ∀ σ : ℝ, 0 < σ → 2 ≤ arangeLen (-(8.548921333333334 * σ)) (2 * cLight) (1 * (1 * cLight)) := by
    intro σ hσ
    unfold arangeLen
    have : (1 : ℤ) < ⌈(2 * cLight - -(8.548921333333334 * σ)) / (1 * (1 * cLight))⌉ := by
      rw [Int.lt_ceil, lt_div_iff₀ (by positivity)]
      push_cast
      nlinarith
    omega
  obtain ⟨o, h1, h2⟩ := some_run 1 1 one_pos none (some (2 * cLight)) (n := 4) (by norm_num) (by norm_num) (by rw [ht, hw]; exact hn 1 one_pos)
  obtain ⟨o', h1', h2'⟩ := some_run 1 2 one_pos none (some (2 * cLight)) (n := 4) (by norm_num) (by norm_num) (by rw [ht, hw]; exact hn 2 two_pos)
  obtain ⟨o'', h1'', h2''⟩ := run_long ((Attrs.init (someArgs 1 none (some (2 * cLight)) 1)).set (.sigmaz 2)) (frames_recorded 4) (mul_pos one_pos cLight_pos) one_pos (by norm_num) (by norm_num) (le_refl 1) rfl
    (by norm_num [Attrs.init, someArgs, Attrs.set]) (by norm_num [Attrs.init, someArgs, Attrs.set]) ((hn 1 one_pos).trans_eq (congrArg (fun x => arangeLen x _ _) (ht 1).symm)) 0 0 0 0
  refine ⟨someArgs 1 none (some (2 * cLight)) 1, 2, frames 4, _, _, o'', o', by norm_num, h1'', h1', rfl, rfl, ?_⟩
  rw [h2', h2'']
  have e1 : -((Attrs.init (someArgs 1 none (some (2 * cLight)) 1)).set (.sigmaz 2)).ti * ((Attrs.init (someArgs 1 none (some (2 * cLight)) 1)).set (.sigmaz 2)).v = -(8.548921333333334 * 1) := ht 1
  have e2 : lengthOf ((Attrs.init (someArgs 1 none (some (2 * cLight)) 1)).set (.sigmaz 2)).par 4 1 0 0 = 2 * cLight := rfl
  have e3 : ((Attrs.init (someArgs 1 none (some (2 * cLight)) 1)).set (.sigmaz 2)).v = 1 * cLight := rfl
  rw [e1, e2, e3, ht, hw]
  have hz : ∀ (s0 ds : ℝ) {n : ℕ}, 2 ≤ n → (axis s0 ds n)[0]? = some s0 := by
    intro s0 ds n hn
    unfold axis
    rw [List.getElem?_map, List.getElem?_range (by omega)]
    simp
  rw [hz _ _ (hn 1 one_pos), hz _ _ (hn 2 two_pos)]
  norm_num

/-- **C103 (second calculation, refuted).** A solver built without wake length keeps the one of its first recording: a longer second recording is evaluated only up to that length. -/
theorem C103_second_refuted : ∃ (a : Args) (r r' : Rec ℝ) (w w₁ w₂ : Attrs) (o o' : Out), a.wakelength = none ∧ (Attrs.init a).solve none [] 0 0 0 0 r = .ok w ∧
    w.solve none [] 0 0 0 0 r' = .ok w₁ ∧ (Attrs.init a).solve none [] 0 0 0 0 r' = .ok w₂ ∧ w₁.out = some o ∧ w₂.out = some o' ∧ o.s.length < o'.s.length := by
  have hc := cLight_pos
  have hw : ∀ (n : ℕ) (wl : Option ℝ), lengthOf (Attrs.init (someArgs 1 (some 0) wl 1)).par n 1 0 0 = wl.getD (n * 1 * (1 * cLight) - (0 - 0) - 0 * (1 * cLight)) := fun n wl => rfl
  have hn : ∀ n : ℕ, arangeLen (-(Attrs.init (someArgs 1 (some 0) none 1)).ti * (1 * cLight)) (n * 1 * (1 * cLight) - (0 - 0) - 0 * (1 * cLight)) (1 * (1 * cLight)) = n := by
    intro n
    simp only [Attrs.init, someArgs, Option.getD_some, arangeLen]
    rw [show ((n : ℝ) * 1 * (1 * cLight) - (0 - 0) - 0 * (1 * cLight) - -0 * (1 * cLight)) / (1 * (1 * cLight)) = ((n : ℤ) : ℝ) by field_simp; push_cast; ring, Int.ceil_intCast]
    rfl
  obtain ⟨o, h1, h2⟩ := some_run 1 1 one_pos (some 0) none (n := 4) (by norm_num) (by norm_num) (by rw [hw, Option.getD_none, hn]; norm_num)
  obtain ⟨o', h1', h2'⟩ := some_run 1 1 one_pos (some 0) none (n := 6) (by norm_num) (by norm_num) (by rw [hw, Option.getD_none, hn]; norm_num)
  rw [hw, Option.getD_none] at h1 h2 h2'
  obtain ⟨o'', h1'', h2''⟩ := run_long { Attrs.init (someArgs 1 (some 0) none 1) with wakelength := some ((4 : ℕ) * 1 * (1 * cLight) - (0 - 0) - 0 * (1 * cLight)), lambdas := some o.lambdas, out := some o }
    (frames_recorded 6) (mul_pos one_pos cLight_pos) one_pos (by norm_num) (by norm_num) (le_refl 1) rfl
    (by norm_num [Attrs.init, someArgs]) (by norm_num [Attrs.init, someArgs]) ((by rw [hn 4]; norm_num : 2 ≤ arangeLen (-(Attrs.init (someArgs 1 (some 0) none 1)).ti * (1 * cLight)) ((4 : ℕ) * 1 * (1 * cLight) - (0 - 0) - 0 * (1 * cLight)) (1 * (1 * cLight)))) 0 0 0 0
  refine ⟨someArgs 1 (some 0) none 1, frames 4, frames 6, _, _, _, o'', o', rfl, h1, h1'', h1', rfl, rfl, ?_⟩
  have e : o''.s.length = 4 := by
    rw [h2'', axis_length]
    exact hn 4
  rw [e, h2', axis_length, hn]
  norm_num

/-- **C103 (unknown names, refuted).** A plane that is none of the three is accepted and nothing is computed; a keyword no attribute has is accepted and has no effect. -/
theorem C103_unknown_refuted (a : Attrs) (plane : String) (h : pyLower plane ∉ ["both", "transverse", "longitudinal"]) (name : String) (P : Option String) (nx : ℕ) (dx : ℕ → ℝ) (ny : ℕ)
    (dy : ℕ → ℝ) (r : Rec ℝ) : a.solve (some plane) [] nx dx ny dy r = .ok a ∧ a.solve P [.other name] nx dx ny dy r = a.solve P [] nx dx ny dy r := by
  refine ⟨?_, rfl⟩
  simp only [List.mem_cons, List.not_mem_nil, or_false, not_or] at h
  unfold Attrs.solve Attrs.run
  rw [Option.getD_some, if_neg (by tauto), if_neg h.2.2]
  rfl

example : pyLower "long" ∉ ["both", "transverse", "longitudinal"] := by decide

end
end Wake
end Wakis
