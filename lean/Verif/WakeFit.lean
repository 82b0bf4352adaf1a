import Verif.ImpWake

/-!
# C102: fitting resonators and extrapolating the wake

The fits themselves are done by the library iddefix, which is not part of the code base: its functions are parameters here (`FitLib`). Modelled is what wakis passes to it and what
it makes of the results (wakeSolver.py:861-1162).
-/

namespace Wakis
namespace Wake

open Src

noncomputable section

/-! ### Model -/

/-- wakeSolver.py:925-932, 976-983: settings passed on unchanged. -/
structure FitPar where
  minimumPeakHeight : ℝ
  distance : ℕ
  rsBounds : ℝ × ℝ
  qBounds : ℝ × ℝ
  fresBounds : ℝ × ℝ
  useMinimization : Bool
  maxiter : ℝ
  popsize : ℕ
  tol : ℝ
  cmaesSigma : ℝ

/-- The functions of iddefix used, with their bounds `B` and models `M`. Data may be `None`. The kernel is the optimiser run before the minimisation, if any. -/
structure FitLib (B M : Type) where
  smartBounds : Option (List ℝ) → Option (List ℝ) → FitPar → Py (ℕ × B)
  fit : Option (List ℝ) → Option (List ℝ) → ℕ → B → String → Option ℝ → Option String → FitPar → Py M
  wakePotential : M → List ℝ → ℝ → Bool → List ℝ
  wake : M → List ℝ → Bool → List ℝ
  impedance : M → List ℝ → Bool → List ℂ
  frequencyData : M → List ℝ

/-- The attributes of a `WakeSolver` used here. `fx`, `fy` do not exist before `calc_trans_Z` or `load_results`. -/
structure FitState (M : Type) where
  f : Option (List ℝ)
  Z : Option (List ℂ)
  x : Option (List ℝ × List ℂ)
  y : Option (List ℝ × List ℂ)
  s : List ℝ
  sigmaz : ℝ
  beta : ℝ
  wakelength : Option ℝ
  model : Option M

variable {B M : Type}

/-- wakeSolver.py:906-917 `get_SmartBounds`: `np.real` of the data; `inspect` and `to_table` only print. -/
def getSmartBounds (lib : FitLib B M) (fd : Option (List ℝ)) (zd : Option (List ℂ)) (p : FitPar) : Py (ℕ × B) := lib.smartBounds fd (zd.map (·.map Complex.re)) p

/-- wakeSolver.py:987-1006: the data to fit. -/
def fitData (w : FitState M) (fd : Option (List ℝ)) (zd : Option (List ℂ)) (plane dim : String) : Py (Option (List ℝ) × Option (List ℂ)) :=
  if fd.isNone ∨ zd.isNone then
    if plane = "longitudinal" ∧ dim = "z" then .ok (w.f, w.Z)
    else if plane = "transverse" then
      if dim = "x" then match w.x with
        | some d => .ok (some d.1, some d.2)
        | none => .error .attributeError
      else if dim = "y" then match w.y with
        | some d => .ok (some d.1, some d.2)
        | none => .error .attributeError
      else .error .valueError
    else .error .valueError
  else .ok (fd, zd)

/-- wakeSolver.py:1038-1053: the optimiser run for a value of `DE_kernel`; for other names none is run. -/
def kernelOf (k : String) : Option String := if k = "DE" then some "DE" else if k = "CMAES" then some "CMAES" else none

/-- wakeSolver.py:919-1063 `get_DEmodel_fitting`. -/
def getFitting (lib : FitLib B M) (w : FitState M) (fd : Option (List ℝ)) (zd : Option (List ℂ)) (plane dim : String) (bounds : Option B) (n : Option ℕ) (kernel : String) (p : FitPar) :
    Py (FitState M) := do
  let d ← fitData w fd zd plane dim
  let b ← match bounds, n with
    | some b, some n => .ok (n, b)
    | _, _ => getSmartBounds lib none none p
  let m ← lib.fit d.1 (d.2.map (·.map Complex.re)) b.1 b.2 plane w.wakelength (kernelOf kernel) p
  return { w with model := some m }

/-- wakeSolver.py:1091-1093, 1122-1124: the time axis of the extrapolation. -/
def extTimes (s : List ℝ) (L : ℝ) : Py (List ℝ) :=
  match s with
  | s0 :: s1 :: s2 :: _ => .ok (arange (s0 / cLight) (L / cLight) ((s2 - s1) / cLight))
  | _ => .error .indexError

/-- wakeSolver.py:1065-1101 `get_extrapolated_wake`. -/
def extWake (lib : FitLib B M) (w : FitState M) (L : ℝ) (sigma : Option ℝ) (useMin : Bool) : Py (List ℝ × List ℝ) :=
  match w.model with
  | none => .error .attributeError
  | some m => do
    let t ← extTimes w.s L
    return (t.map (· * cLight), (lib.wakePotential m t (sigma.getD (w.sigmaz / cLight)) useMin).map fun x => -x * 1e-12)

/-- wakeSolver.py:1103-1128 `get_extrapolated_wake_function`. -/
def extWakeFunction (lib : FitLib B M) (w : FitState M) (L : ℝ) (useMin : Bool) : Py (List ℝ × List ℝ) :=
  match w.model with
  | none => .error .attributeError
  | some m => do
    let t ← extTimes w.s L
    return (t, lib.wake m t useMin)

/-- wakeSolver.py:1130-1162 `get_extrapolated_impedance`; the wake length is passed on to the library (part of `lib.impedance`). -/
def extImpedance (lib : FitLib B M) (w : FitState M) (f : Option (List ℝ)) (useMin : Bool) : Py (List ℝ × List ℂ) :=
  match w.model with
  | none => .error .attributeError
  | some m =>
    let f := f.getD (lib.frequencyData m)
    .ok (f, lib.impedance m f useMin)

/-! ### C102 -/

/-- The impedance a user asks for with `plane` and `dim`, of those computed. -/
inductive Wanted (w : FitState M) : String → String → List ℝ → List ℂ → Prop
  | long {f Z} (hf : w.f = some f) (hZ : w.Z = some Z) : Wanted w "longitudinal" "z" f Z
  | hor {f Z} (h : w.x = some (f, Z)) : Wanted w "transverse" "x" f Z
  | ver {f Z} (h : w.y = some (f, Z)) : Wanted w "transverse" "y" f Z

/-- **C102 (bounds).** The bounds found for given data are those the library finds for the frequencies given and the real part of the impedance: two impedances with the same real part `R` have the same bounds. -/
theorem C102_smart_bounds (lib : FitLib B M) (f : List ℝ) {Z : List ℂ} {R : List ℝ} (h : List.Forall₂ (fun (z : ℂ) (x : ℝ) => z.re = x) Z R) (p : FitPar) :
    getSmartBounds lib (some f) (some Z) p = lib.smartBounds (some f) (some R) p := by
  have : Z.map Complex.re = R := by
    induction h with
    | nil => rfl
    | cons h _ ih => rw [List.map_cons, ih, h]
  unfold getSmartBounds
  rw [Option.map_some, this]

example : List.Forall₂ (fun (z : ℂ) (x : ℝ) => z.re = x) [⟨1, 5⟩, ⟨2, -3⟩] [1, 2] := .cons rfl (.cons rfl .nil)

/-- **C102 (data fitted, partial).** With bounds and number of resonators given, the model kept is the fit, by the library, of the real part of the impedance of the plane asked for, over its
own frequencies, by the optimiser named. Missing: bounds that are not given (`C102_bounds_refuted`). -/
theorem C102_data_partial (lib : FitLib B M) (w : FitState M) {plane dim : String} {f : List ℝ} {Z : List ℂ} (h : Wanted w plane dim f Z) (b : B) (n : ℕ) (p : FitPar) {m : M}
    {k : String} (hk : k = "DE" ∨ k = "CMAES") (hm : lib.fit (some f) (some (Z.map Complex.re)) n b plane w.wakelength (some k) p = .ok m) :
    getFitting lib w none none plane dim (some b) (some n) k p = .ok { w with model := some m } := by
  have hd : fitData w none none plane dim = .ok (some f, some Z) := by
    cases h with
    | long hf hZ => simp [fitData, hf, hZ]
    | hor h => simp [fitData, h]
    | ver h => simp [fitData, h]
  unfold getFitting
  rw [hd]
  show (lib.fit (some f) (some (Z.map Complex.re)) n b plane w.wakelength (kernelOf k) p).bind _ = _
  rw [show kernelOf k = some k by rcases hk with rfl | rfl <;> decide, hm]
  rfl

/-- **C102 (data given by the user).** Data given explicitly are fitted, whatever the solver holds. -/
theorem C102_given (lib : FitLib B M) (w : FitState M) (plane dim : String) (f : List ℝ) (Z : List ℂ) (b : B) (n : ℕ) (p : FitPar) {m : M}
    {k : String} (hk : k = "DE" ∨ k = "CMAES") (hm : lib.fit (some f) (some (Z.map Complex.re)) n b plane w.wakelength (some k) p = .ok m) :
    getFitting lib w (some f) (some Z) plane dim (some b) (some n) k p = .ok { w with model := some m } := by
  unfold getFitting
  rw [show fitData w (some f) (some Z) plane dim = .ok (some f, some Z) by simp [fitData]]
  show (lib.fit (some f) (some (Z.map Complex.re)) n b plane w.wakelength (kernelOf k) p).bind _ = _
  rw [show kernelOf k = some k by rcases hk with rfl | rfl <;> decide, hm]
  rfl

/-- **C102 (bounds, refuted).** If the bounds or the number of resonators are not given (the default), the library is asked for bounds without any data: with a library that cannot
determine bounds from nothing the fit fails, whatever impedance was computed or given. -/
theorem C102_bounds_refuted (lib : FitLib B M) (p : FitPar) (hlib : ∃ e, lib.smartBounds none none p = .error e) (w : FitState M) (fd : Option (List ℝ)) (zd : Option (List ℂ)) (plane dim : String)
    (bounds : Option B) (n : Option ℕ) (h : bounds = none ∨ n = none) (kernel : String) : ∃ e, getFitting lib w fd zd plane dim bounds n kernel p = .error e := by
  obtain ⟨e, he⟩ := hlib
  unfold getFitting
  cases fitData w fd zd plane dim with
  | error e' => exact ⟨e', rfl⟩
  | ok d =>
    refine ⟨e, ?_⟩
    show Except.bind _ _ = _
    simp only [Except.bind]
    cases bounds with
    | none => simp only [getSmartBounds, Option.map_none, he]; rfl
    | some b =>
      cases n with
      | none => simp only [getSmartBounds, Option.map_none, he]; rfl
      | some n => simp at h

lemma extTimes_axis {s0 ds : ℝ} {ns : ℕ} (hns : 3 ≤ ns) (hds : 0 < ds) (L : ℝ) :
    extTimes (axis s0 ds ns) L = .ok ((axis s0 ds ⌈(L - s0) / ds⌉.toNat).map (· / cLight)) := by
  obtain ⟨t, rfl⟩ : ∃ t, ns = t + 3 := ⟨ns - 3, by omega⟩
  have hc : cLight ≠ 0 := by norm_num [cLight]
  have e : axis s0 ds (t + 3) = (s0 + ((0 : ℕ) : ℝ) * ds) :: (s0 + ((1 : ℕ) : ℝ) * ds) :: (s0 + ((2 : ℕ) : ℝ) * ds) :: ((List.range t).map fun n : ℕ => s0 + ((n + 3 : ℕ) : ℝ) * ds) := by
    unfold axis
    rw [List.range_succ_eq_map, List.range_succ_eq_map, List.range_succ_eq_map]
    simp only [List.map_cons, List.map_map]
    rfl
  rw [e]
  unfold extTimes arange arangeLen axis
  simp only [List.map_map]
  rw [show (L / cLight - (s0 + ((0 : ℕ) : ℝ) * ds) / cLight) / ((s0 + ((2 : ℕ) : ℝ) * ds - (s0 + ((1 : ℕ) : ℝ) * ds)) / cLight) = (L - s0) / ds by
    push_cast
    have : s0 + 2 * ds - (s0 + 1 * ds) = ds := by ring
    rw [this, zero_mul, add_zero]
    field_simp]
  refine congrArg Except.ok (List.map_congr_left fun i _ => ?_)
  simp only [Function.comp]
  push_cast
  field_simp
  ring

lemma extWake_eq (lib : FitLib B M) (w : FitState M) {m : M} (hm : w.model = some m) {s0 ds : ℝ} {ns : ℕ} (hs : w.s = axis s0 ds ns) (hns : 3 ≤ ns) (hds : 0 < ds) (L : ℝ) (sigma : Option ℝ) (b : Bool) :
    extWake lib w L sigma b = .ok (axis s0 ds ⌈(L - s0) / ds⌉.toNat,
      (lib.wakePotential m ((axis s0 ds ⌈(L - s0) / ds⌉.toNat).map (· / cLight)) (sigma.getD (w.sigmaz / cLight)) b).map fun x => -x * 1e-12) := by
  have hc : cLight ≠ 0 := by norm_num [cLight]
  unfold extWake
  rw [hm, hs, extTimes_axis hns hds]
  have : ((axis s0 ds ⌈(L - s0) / ds⌉.toNat).map (· / cLight)).map (· * cLight) = axis s0 ds ⌈(L - s0) / ds⌉.toNat := by
    rw [List.map_map]
    refine (List.map_congr_left fun x _ => ?_).trans (List.map_id _)
    exact div_mul_cancel₀ x hc
  show Except.ok (_, _) = _
  rw [this]

/-- **C102 (axis).** For every s axis of constant step with at least three points and every length `L`, the extrapolated wake is given at the points of that axis continued up to `L`: the first
points are those of the wake computed, all are below `L` and the next one would not be. -/
theorem C102_axis (lib : FitLib B M) (w : FitState M) {m : M} (hm : w.model = some m) {s0 ds : ℝ} {ns : ℕ} (hs : w.s = axis s0 ds ns) (hns : 3 ≤ ns) (hds : 0 < ds) (L : ℝ) (sigma : Option ℝ) (b : Bool) :
    ∃ (k : ℕ) (W : List ℝ), extWake lib w L sigma b = .ok (axis s0 ds k, W) ∧ (∀ i : ℕ, i < k ↔ s0 + i * ds < L) ∧ (s0 + ((ns - 1 : ℕ) : ℝ) * ds < L → (axis s0 ds k).take ns = w.s) := by
  have hk : ∀ i : ℕ, i < ⌈(L - s0) / ds⌉.toNat ↔ s0 + i * ds < L := by
    intro i
    rw [Int.lt_toNat, Int.lt_ceil, lt_div_iff₀ hds]
    push_cast
    constructor <;> intro h <;> linarith
  refine ⟨_, _, extWake_eq lib w hm hs hns hds L sigma b, hk, fun h => ?_⟩
  have := (hk _).2 h
  rw [hs]
  unfold axis
  rw [← List.map_take, List.take_range, Nat.min_eq_left (by omega)]

/-- The hypotheses of `C102_axis`. -/
example : (3 : ℕ) ≤ 4 ∧ (0 : ℝ) < 1 / 2 ∧ (-1 : ℝ) + ((4 - 1 : ℕ) : ℝ) * (1 / 2) < 3 := by norm_num

/-- **C102 (values at light speed, partial).** If the model's wake, as a function of time and bunch duration, is `g`, then for a beam at the speed of light the value reported at `s` is the
wake at the time `s / v` behind a bunch of duration `sigmaz / v`, in V/pC and with the sign of the wake potentials computed by the solver. Missing: other speeds (`C102_beta_refuted`). -/
theorem C102_values_partial (lib : FitLib B M) (w : FitState M) {m : M} (hm : w.model = some m) (g : ℝ → ℝ → ℝ) (b : Bool) (hg : ∀ t σ, lib.wakePotential m t σ b = t.map (g σ)) {s0 ds : ℝ} {ns : ℕ}
    (hs : w.s = axis s0 ds ns) (hns : 3 ≤ ns) (hds : 0 < ds) (L : ℝ) (hβ : w.beta = 1) :
    ∃ k, extWake lib w L none b = .ok (axis s0 ds k, (axis s0 ds k).map fun s => -g (w.sigmaz / (w.beta * cLight)) (s / (w.beta * cLight)) * 10 ^ (-12 : ℤ)) := by
  refine ⟨⌈(L - s0) / ds⌉.toNat, (extWake_eq lib w hm hs hns hds L none b).trans ?_⟩
  rw [hg, List.map_map, List.map_map, hβ, one_mul]
  refine congrArg Except.ok (congrArg _ (List.map_congr_left fun x _ => ?_))
  simp only [Function.comp, Option.getD_none]
  norm_num

/-- **C102 (impedance).** If the model's impedance, as a function of the frequency, is `g`, the impedance reported at the frequencies asked for is `g` there, frequency by frequency; if none are asked
for the frequencies are those of the data fitted. -/
theorem C102_impedance (lib : FitLib B M) (w : FitState M) {m : M} (hm : w.model = some m) (g : ℝ → ℂ) (b : Bool) (hg : ∀ f, lib.impedance m f b = f.map g) (f : Option (List ℝ)) :
    ∃ F Z, extImpedance lib w f b = .ok (F, Z) ∧ (∀ l, f = some l → F = l) ∧ (f = none → F = lib.frequencyData m) ∧ Z.length = F.length ∧ ∀ (i : ℕ) (x : ℝ), F[i]? = some x → Z[i]? = some (g x) := by
  refine ⟨f.getD (lib.frequencyData m), (f.getD (lib.frequencyData m)).map g, ?_, ?_, ?_, by simp, fun i x h => by rw [List.getElem?_map, h]; rfl⟩
  · unfold extImpedance
    rw [hm]
    simp only [hg]
  · rintro l rfl; rfl
  · rintro rfl; rfl

/-- **C102 (nothing fitted).** Before a fit none of the extrapolations returns a value. -/
theorem C102_unfitted (lib : FitLib B M) (w : FitState M) (hm : w.model = none) (L : ℝ) (sigma : Option ℝ) (f : Option (List ℝ)) (b : Bool) :
    (∃ e, extWake lib w L sigma b = .error e) ∧ (∃ e, extWakeFunction lib w L b = .error e) ∧ ∃ e, extImpedance lib w f b = .error e := by
  unfold extWake extWakeFunction extImpedance
  rw [hm]
  exact ⟨⟨_, rfl⟩, ⟨_, rfl⟩, ⟨_, rfl⟩⟩

/-- **C102 (wake function).** If the model's wake function of the time is `g`, the values reported are `g` at the times `s0/c, (s0 + ds)/c, …` below `L/c`. -/
theorem C102_wake_function (lib : FitLib B M) (w : FitState M) {m : M} (hm : w.model = some m) (g : ℝ → ℝ) (b : Bool) (hg : ∀ t, lib.wake m t b = t.map g) {s0 ds : ℝ} {ns : ℕ} (hs : w.s = axis s0 ds ns)
    (hns : 3 ≤ ns) (hds : 0 < ds) (L : ℝ) :
    ∃ T W, extWakeFunction lib w L b = .ok (T, W) ∧ (∀ i : ℕ, i < T.length ↔ s0 + i * ds < L) ∧ ∀ i < T.length, T[i]? = some ((s0 + i * ds) / cLight) ∧ W[i]? = some (g ((s0 + i * ds) / cLight)) := by
  have hk : ∀ i : ℕ, i < ⌈(L - s0) / ds⌉.toNat ↔ s0 + i * ds < L := by
    intro i
    rw [Int.lt_toNat, Int.lt_ceil, lt_div_iff₀ hds]
    push_cast
    constructor <;> intro h <;> linarith
  have hl : ((axis s0 ds ⌈(L - s0) / ds⌉.toNat).map (· / cLight)).length = ⌈(L - s0) / ds⌉.toNat := by simp [axis]
  refine ⟨_, _, by unfold extWakeFunction; rw [hm, hs, extTimes_axis hns hds]; rfl, fun i => by rw [hl]; exact hk i, fun i hi => ?_⟩
  rw [hl] at hi
  have e : ((axis s0 ds ⌈(L - s0) / ds⌉.toNat).map (· / cLight))[i]? = some ((s0 + i * ds) / cLight) := by
    unfold axis
    rw [List.getElem?_map, List.getElem?_map, List.getElem?_range hi]
    rfl
  refine ⟨e, ?_⟩
  rw [hg, List.getElem?_map, e]
  rfl

/-- Non-vacuity of the three theorems above: a library with impedance `1 + i f` and wake function `2 t`, a fitted and an unfitted solver. -/
example : ∃ (lib : FitLib Unit Unit) (w w0 : FitState Unit), w.model = some () ∧ w0.model = none ∧ (∀ f, lib.impedance () f true = f.map fun x : ℝ => (⟨1, x⟩ : ℂ)) ∧
    (∀ t, lib.wake () t true = t.map fun x => 2 * x) ∧ w.s = axis 0 1 3 :=
  ⟨⟨fun _ _ _ => .ok (0, ()), fun _ _ _ _ _ _ _ _ => .ok (), fun _ t _ _ => t, fun _ t _ => t.map fun x => 2 * x, fun _ f _ => f.map fun x => ⟨1, x⟩, fun _ => [1, 2]⟩,
    ⟨none, none, none, none, axis 0 1 3, 1, 1 / 2, none, some ()⟩, ⟨none, none, none, none, axis 0 1 3, 1, 1 / 2, none, none⟩, rfl, rfl, fun _ => rfl, fun _ => rfl, rfl⟩

/-- **C102 (other speeds, refuted).** For a slower beam the wake is evaluated at `s / c` instead of `s / v`. -/
theorem C102_beta_refuted : ∃ (lib : FitLib Unit Unit) (w : FitState Unit) (g : ℝ → ℝ → ℝ) (S W : List ℝ), (∀ m t σ b, lib.wakePotential m t σ b = t.map (g σ)) ∧ w.model = some () ∧ 0 < w.beta ∧
    w.beta < 1 ∧ extWake lib w 3 none true = .ok (S, W) ∧ W ≠ S.map fun s => -g (w.sigmaz / (w.beta * cLight)) (s / (w.beta * cLight)) * 10 ^ (-12 : ℤ) := by
  let lib : FitLib Unit Unit := ⟨fun _ _ _ => .ok (0, ()), fun _ _ _ _ _ _ _ _ => .ok (), fun _ t _ _ => t.map fun x => x, fun _ t _ => t, fun _ _ _ => [], fun _ => []⟩
  let w : FitState Unit := ⟨none, none, none, none, axis 0 1 3, 1, 1 / 2, none, some ()⟩
  refine ⟨lib, w, fun _ t => t, _, _, fun m t σ b => rfl, rfl, by norm_num [w], by norm_num [w], extWake_eq lib w rfl rfl (le_refl 3) one_pos 3 none true, ?_⟩
  intro h
  beta_reduce at h
  have hk : ⌈((3 : ℝ) - 0) / 1⌉.toNat = 3 := by norm_num; rfl
  rw [hk] at h
  have h2 := congrArg (fun l : List ℝ => l[1]?) h
  simp only [lib, w, axis, List.map_map, List.getElem?_map, List.getElem?_range (show 1 < 3 by norm_num), Option.map_some, Function.comp, Option.some.injEq] at h2
  norm_num [cLight] at h2

end
end Wake
end Wakis
