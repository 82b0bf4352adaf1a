import Verif.Lifecycle

/-!
# The time loop `emsolve` and absorbing boundaries (C38, C39, C40)

`wakis/routines.py:14-218` and `wakis/solverFIT3D.py:1003-1100` (`get_abc`, `update_abc`).
-/

namespace Wakis
namespace Sol
open Sparse Finset
variable {K : Type _} [Field K]

/-! ### Model: boundary layers kept for the ABC -/

/-- A boundary layer stored in the dictionaries of `get_abc`.  On the CPU `Field.__getitem__` returns a numpy
view of the live array (field.py:238-286, see C07); on the GPU `.get()` returns a copy. -/
inductive Plane (K : Type _)
  | view (axis m d : ℕ)
  | vals (v : ℕ → ℕ → ℕ → K)

/-- Cell `(i,j,k)` moved to layer `m` of an axis. -/
def moved (axis m i j k : ℕ) : ℕ × ℕ × ℕ := (if axis = 0 then m else i, if axis = 1 then m else j, if axis = 2 then m else k)

/-- Component `d` of layer `m`, as a function of the transverse position. -/
def layer (f : Fld K) (axis m d i j k : ℕ) : K := f.at3 d (moved axis m i j k).1 (moved axis m i j k).2.1 (moved axis m i j k).2.2

/-- What a stored layer shows now. -/
def Plane.now (f : Fld K) : Plane K → ℕ → ℕ → ℕ → K
  | .view axis m d => layer f axis m d
  | .vals v => v

/-- `E[m, :, :, d]` and the like. -/
def takePlane (gpu : Bool) (f : Fld K) (axis m d : ℕ) : Plane K := if gpu then .vals (layer f axis m d) else .view axis m d

/-- One of the dictionaries: axis, then `d + "lo"` / `d + "hi"`. -/
abbrev Dict (K : Type _) := ℕ → Option (Side → ℕ → Option (Plane K))

/-- `X_abc[axis] = {}` and the loop over d, for one face (solverFIT3D.py:1015-1051). -/
def storeFace (gpu : Bool) (f : Fld K) (axis m : ℕ) (s : Side) (D : Dict K) : Dict K :=
  fun a => if a = axis then some fun s' d => if s' = s ∧ d < 3 then some (takePlane gpu f axis m d) else none else D a

/-- The order in which `get_abc` and `update_abc` treat the faces. -/
def faceOrder : List (ℕ × Side) := [(0, .lo), (1, .lo), (2, .lo), (0, .hi), (1, .hi), (2, .hi)]

/-- The layer stored for a face: `1` for a low face, `-1` for a high face. -/
def storedLayer (f : Fld K) (a : ℕ) : Side → ℕ
  | .lo => 1
  | .hi => coord a f.Nx f.Ny f.Nz - 1

/-- One `if self.bc_...[a].lower() == "abc"` block of `get_abc`. -/
def storeStage (gpu : Bool) (bc : Faces String) (f : Fld K) (D : Dict K) (p : ℕ × Side) : Dict K :=
  if isAbc (faceName bc p.1 p.2) then storeFace gpu f p.1 (storedLayer f p.1 p.2) p.2 D else D

/-- solverFIT3D.py:1013-1057 `get_abc` for one of the two fields: low faces x, y, z, then high faces x, y, z. -/
def getAbc (gpu : Bool) (bc : Faces String) (f : Fld K) : Dict K := faceOrder.foldl (storeStage gpu bc f) fun _ => none

/-- `X[m, :, :, d] = X_abc[axis][d + side]`. -/
def putOne (D : Dict K) (axis m : ℕ) (s : Side) (f : Fld K) (d : ℕ) : Py (Fld K) :=
  match D axis with
  | none => .error .keyError
  | some t => match t s d with
    | none => .error .keyError
    | some p => .ok (setPlane f axis m d (p.now f))

/-- The loop over d of one face for one field (the two fields are independent, so the interleaving of E and H
in the code does not matter). -/
def putFace (D : Dict K) (axis m : ℕ) (s : Side) (f : Fld K) : Py (Fld K) := do
  let f ← putOne D axis m s f 0
  let f ← putOne D axis m s f 1
  putOne D axis m s f 2

/-- Layer written for a face: `0` or `-1`. -/
def edgeOf (f : Fld K) (a : ℕ) : Side → ℕ
  | .lo => 0
  | .hi => coord a f.Nx f.Ny f.Nz - 1

/-- One block of `update_abc`. -/
def stage (bc : Faces String) (D : Dict K) (f : Fld K) (p : ℕ × Side) : Py (Fld K) :=
  if isAbc (faceName bc p.1 p.2) then putFace D p.1 (edgeOf f p.1 p.2) p.2 f else .ok f

/-- solverFIT3D.py:1072-1100 `update_abc` for one of the two fields. -/
def updateAbc (bc : Faces String) (D : Dict K) (f : Fld K) : Py (Fld K) := faceOrder.foldlM (stage bc D) f

/-! ### Model: the loop -/

/-- A call made by the loop, with its time argument. -/
inductive Call (K : Type _)
  | source (t : K)
  | step
  | callback (t : K)
  deriving DecidableEq, Repr

/-- The arguments of `emsolve` that matter here: what `source.update(solver, t)` and `callback(solver, t)` do to
the fields, and where the fields live. -/
structure EmArgs (K : Type _) where
  source : Option (K → State K → State K)
  callback : Option (K → State K → State K)
  gpu : Bool

/-- Loop variables: fields, the four dictionaries, calls made so far. -/
structure Loop (K : Type _) where
  st : State K
  E2 : Dict K
  H2 : Dict K
  E1 : Dict K
  H1 : Dict K
  log : List (Call K)

/-- routines.py:176-177. -/
def callSource (a : EmArgs K) (t : K) (L : Loop K) : Loop K :=
  match a.source with
  | some f => { L with st := f t L.st, log := L.log ++ [.source t] }
  | none => L

/-- routines.py:211-212. -/
def callBack (a : EmArgs K) (t : K) (L : Loop K) : Loop K :=
  match a.callback with
  | some f => { L with st := f t L.st, log := L.log ++ [.callback t] }
  | none => L

/-- routines.py:205-208: the ABC part, executed if `activate_abc`. -/
def abcPart (s : Solver K) (bc : Faces String) (gpu : Bool) (L : Loop K) : Py (Loop K) :=
  if anyFace isAbc bc then do
    let E ← updateAbc bc L.E2 (s.fld L.st.E)
    let H ← updateAbc bc L.H2 (s.fld L.st.H)
    return { L with st := { L.st with E := E.array, H := H.array }, E2 := L.E1, H2 := L.H1, E1 := getAbc gpu bc E, H1 := getAbc gpu bc H }
  else .ok L

/-- One pass of routines.py:175-212 (no saving, no plotting). -/
def emBody (s : Solver K) (bc : Faces String) (a : EmArgs K) (n : ℕ) (L : Loop K) : Py (Loop K) := do
  let L := callSource a (n * s.dt) L
  let L := { L with st := oneStep s L.st, log := L.log ++ [.step] }
  let L ← abcPart s bc a.gpu L
  return callBack a (n * s.dt) L

/-- `for n in range(Nt)`. -/
def emLoop (s : Solver K) (bc : Faces String) (a : EmArgs K) : ℕ → Loop K → Py (Loop K)
  | 0, L => .ok L
  | n + 1, L => do let L ← emLoop s bc a n L; emBody s bc a n L

/-- routines.py:170-212 `emsolve(Nt, source, callback)`. -/
def emStart (s : Solver K) (bc : Faces String) (a : EmArgs K) (st : State K) : Loop K :=
  ⟨st, getAbc a.gpu bc (s.fld st.E), getAbc a.gpu bc (s.fld st.H), getAbc a.gpu bc (s.fld st.E), getAbc a.gpu bc (s.fld st.H), []⟩

def emsolve (s : Solver K) (bc : Faces String) (a : EmArgs K) (Nt : ℕ) (st : State K) : Py (Loop K) :=
  emLoop s bc a Nt (emStart s bc a st)

/-! ### C39 -/

/-- What step `n` does to the fields, in order. -/
def specStep (s : Solver K) (a : EmArgs K) (t : K) (st : State K) : State K :=
  (a.callback.getD fun _ => id) t (oneStep s ((a.source.getD fun _ => id) t st))

/-- The calls of step `n`. -/
def specCalls (a : EmArgs K) (t : K) : List (Call K) :=
  (if a.source.isSome then [.source t] else []) ++ [.step] ++ if a.callback.isSome then [.callback t] else []

/-- **C39 (order).** Without ABC faces, `emsolve(Nt)` succeeds and makes, for n = 0, ..., Nt-1 in this order, the source
call at time n*dt, one time step, the callback at time n*dt, and nothing else; the final fields are the
result of these actions. -/
theorem C39_order (s : Solver K) {bc : Faces String} (hbc : anyFace isAbc bc = false) (a : EmArgs K) (Nt : ℕ) (st : State K) :
    ∃ L, emsolve s bc a Nt st = .ok L ∧ L.log = (List.range Nt).flatMap (fun n : ℕ => specCalls a ((n : K) * s.dt)) ∧
      L.st = (List.range Nt).foldl (fun st (n : ℕ) => specStep s a ((n : K) * s.dt) st) st := by
  unfold emsolve
  induction Nt with
  | zero => exact ⟨_, rfl, rfl, rfl⟩
  | succ n ih =>
    obtain ⟨L, h1, h2, h3⟩ := ih
    refine ⟨callBack a (n * s.dt) { callSource a (n * s.dt) L with st := oneStep s (callSource a (n * s.dt) L).st, log := (callSource a (n * s.dt) L).log ++ [.step] }, ?_, ?_, ?_⟩
    · simp only [emLoop, h1, bind, Except.bind, emBody, abcPart, hbc]
      rfl
    · rw [List.range_succ, List.flatMap_append, List.flatMap_singleton, ← h2]
      unfold callBack callSource specCalls
      cases a.source <;> cases a.callback <;> simp
    · rw [List.range_succ, List.foldl_append, List.foldl_cons, List.foldl_nil, ← h3]
      unfold callBack callSource specStep
      cases a.source <;> cases a.callback <;> rfl

/-- **C39 (composition).** Without a source, and with a callback that ignores its time argument (or none), a run of
N1 + N2 steps equals a run of N1 steps followed by a run of N2 steps. -/
theorem C39_split (s : Solver K) {bc : Faces String} (hbc : anyFace isAbc bc = false) (a : EmArgs K) (hs : a.source = none)
    (hcb : ∀ f, a.callback = some f → ∀ t t' st, f t st = f t' st) (N1 N2 : ℕ) (st : State K) :
    ∃ L1 L2 L, emsolve s bc a N1 st = .ok L1 ∧ emsolve s bc a N2 L1.st = .ok L2 ∧ emsolve s bc a (N1 + N2) st = .ok L ∧
      L.st = L2.st ∧ (L.log.length = L1.log.length + L2.log.length) := by
  obtain ⟨L1, a1, b1, c1⟩ := C39_order s hbc a N1 st
  obtain ⟨L2, a2, b2, c2⟩ := C39_order s hbc a N2 L1.st
  obtain ⟨L, a3, b3, c3⟩ := C39_order s hbc a (N1 + N2) st
  refine ⟨L1, L2, L, a1, a2, a3, ?_, ?_⟩
  · have hstep : ∀ t t' st, specStep s a t st = specStep s a t' st := by
      intro t t' st
      unfold specStep
      rw [hs]
      cases hc : a.callback with
      | none => rfl
      | some f => exact hcb f hc t t' _
    rw [c3, c2, c1, List.range_add, List.foldl_append, List.foldl_map]
    generalize List.foldl (fun st (n : ℕ) => specStep s a ((n : K) * s.dt) st) st (List.range N1) = x
    have : ∀ (l : List ℕ) (x : State K), l.foldl (fun st (n : ℕ) => specStep s a (((N1 + n : ℕ) : K) * s.dt) st) x =
        l.foldl (fun st (n : ℕ) => specStep s a ((n : K) * s.dt) st) x := by
      intro l
      induction l with
      | nil => intro x; rfl
      | cons n l ih => intro x; simp only [List.foldl_cons]; rw [ih, hstep _ (n * s.dt) x]
    exact this _ x
  · have hl : ∀ l : List ℕ, (l.flatMap fun n : ℕ => specCalls a ((n : K) * s.dt)).length = l.length * (specCalls a 0).length := by
      intro l
      induction l with
      | nil => simp
      | cons n l ih =>
        rw [List.flatMap_cons, List.length_append, ih, List.length_cons]
        have : (specCalls a (n * s.dt)).length = (specCalls a 0).length := by
          unfold specCalls; split_ifs <;> simp
        rw [this]; ring
    rw [b1, b2, b3, hl, hl, hl, List.length_range, List.length_range, List.length_range]; ring

/-- A run may be split anywhere. -/
def SplitsAnywhere (s : Solver K) (bc : Faces String) (a : EmArgs K) : Prop :=
  ∀ N1 N2 st L1 L2 L, emsolve s bc a N1 st = .ok L1 → emsolve s bc a N2 L1.st = .ok L2 → emsolve s bc a (N1 + N2) st = .ok L →
    ∀ n < s.n3, L.st.J n = L2.st.J n

/-- A source that prescribes the current `t` at one entry. -/
def rampSource : EmArgs ℚ := ⟨some fun t st => { st with J := Function.update st.J 9 t }, none, false⟩

/-- **C39 (time restarts).** With a time-dependent source a run cannot be split: the second call starts at time 0. -/
theorem C39_source_split_refuted : ¬ SplitsAnywhere (sol2 bcOpen) bcOpen rampSource := by
  intro h
  obtain ⟨L1, a1, b1, c1⟩ := C39_order (sol2 bcOpen) (bc := bcOpen) (by decide) rampSource 1 initState
  obtain ⟨L2, a2, b2, c2⟩ := C39_order (sol2 bcOpen) (bc := bcOpen) (by decide) rampSource 1 L1.st
  obtain ⟨L, a3, b3, c3⟩ := C39_order (sol2 bcOpen) (bc := bcOpen) (by decide) rampSource (1 + 1) initState
  have := h 1 1 initState L1 L2 L a1 a2 a3 9 (by decide)
  have key : ∀ (t : ℚ) (st : State ℚ), (specStep (sol2 bcOpen) rampSource t st).J 9 = t := by
    intro t st
    have e : (specStep (sol2 bcOpen) rampSource t st).J = Function.update st.J 9 t := by
      show (oneStep (sol2 bcOpen) _).J = _
      unfold oneStep
      split_ifs <;> rfl
    rw [e]; simp
  rw [c3, c2] at this
  simp only [List.range_succ, List.range_zero, List.nil_append, List.cons_append, List.foldl_cons, List.foldl_nil, key] at this
  have hdt : (sol2 bcOpen).dt = 1 := rfl
  rw [hdt] at this
  norm_num at this

/-! ### C38: what `update_abc` does -/

theorem storeStage_at (gpu : Bool) (bc : Faces String) (f : Fld K) (D : Dict K) (b : ℕ) (s : Side) (a : ℕ) :
    storeStage gpu bc f D (b, s) a = if b = a ∧ isAbc (faceName bc b s) = true then
      some (fun s' d => if s' = s ∧ d < 3 then some (takePlane gpu f b (storedLayer f b s) d) else none) else D a := by
  unfold storeStage storeFace
  by_cases h : isAbc (faceName bc b s) = true
  · by_cases e : b = a
    · subst e; rw [if_pos h]; simp [h]
    · rw [if_pos h]; simp [e, Ne.symm e]
  · rw [if_neg h]; simp [h]

/-- What `get_abc` leaves in the dictionary of an axis. -/
theorem getAbc_axis (gpu : Bool) (bc : Faces String) (f : Fld K) {a : ℕ} (ha : a < 3) :
    getAbc gpu bc f a = if isAbc (faceName bc a .hi) then some fun s' d => if s' = .hi ∧ d < 3 then some (takePlane gpu f a (storedLayer f a .hi) d) else none
      else if isAbc (faceName bc a .lo) then some fun s' d => if s' = .lo ∧ d < 3 then some (takePlane gpu f a 1 d) else none else none := by
  have : a = 0 ∨ a = 1 ∨ a = 2 := by omega
  unfold getAbc faceOrder
  simp only [List.foldl_cons, List.foldl_nil, storeStage_at]
  rcases this with h | h | h <;> subst h <;> simp [storedLayer]

/-- An axis with ABC on both faces. -/
def TwoSided (bc : Faces String) : Prop := ∃ a < 3, isAbc (faceName bc a .lo) = true ∧ isAbc (faceName bc a .hi) = true

theorem putFace_err (D : Dict K) (a m : ℕ) (s : Side) (f : Fld K) : ∀ e, putFace D a m s f = .error e → e = .keyError := by
  have one : ∀ f d e, putOne D a m s f d = .error e → e = .keyError := by
    intro f d e h
    unfold putOne at h
    split at h
    · cases h; rfl
    · split at h
      · cases h; rfl
      · cases h
  intro e h
  unfold putFace at h
  simp only [bind, Except.bind] at h
  cases h0 : putOne D a m s f 0 with
  | error e0 => rw [h0] at h; cases h; exact one _ _ _ h0
  | ok f1 =>
    rw [h0] at h; simp only at h
    cases h1 : putOne D a m s f1 1 with
    | error e0 => rw [h1] at h; cases h; exact one _ _ _ h1
    | ok f2 => rw [h1] at h; exact one _ _ _ h

/-- A fold whose stages raise at most `KeyError` and one of whose stages always does. -/
theorem foldlM_key {α β : Type _} (g : α → β → Py α) (herr : ∀ x p e, g x p = .error e → e = .keyError) (l : List β) {q : β} (hq : q ∈ l)
    (hbad : ∀ x, g x q = .error .keyError) (x : α) : l.foldlM g x = .error .keyError := by
  induction l generalizing x with
  | nil => cases hq
  | cons p l ih =>
    rw [List.foldlM_cons]
    cases h : g x p with
    | error e => rw [herr _ _ _ h]; rfl
    | ok y =>
      rcases List.mem_cons.1 hq with e | e
      · subst e; rw [hbad] at h; cases h
      · exact ih e y

theorem emLoop_err (s : Solver K) (bc : Faces String) (a : EmArgs K) {e : PyErr} {n : ℕ} {L : Loop K} (h : emLoop s bc a n L = .error e) (m : ℕ) :
    emLoop s bc a (n + m) L = .error e := by
  induction m with
  | zero => exact h
  | succ m ih => rw [← Nat.add_assoc]; simp only [emLoop, ih, bind, Except.bind]

/-- **C38 (two ABC faces on an axis).** If both faces of some axis are 'abc', the first time step of `emsolve` raises
`KeyError`, on CPU and GPU: storing the high face discards what was stored for the low face. -/
theorem C38_two_sided (s : Solver K) {bc : Faces String} (h2 : TwoSided bc) (a : EmArgs K) (Nt : ℕ) (st : State K) :
    emsolve s bc a (Nt + 1) st = .error .keyError := by
  obtain ⟨ax, hax, hlo, hhi⟩ := h2
  have key : ∀ f0 f : Fld K, updateAbc bc (getAbc a.gpu bc f0) f = .error .keyError := by
    intro f0 f
    unfold updateAbc
    refine foldlM_key _ ?_ _ (q := (ax, .lo)) ?_ ?_ f
    · intro x p e he
      unfold stage at he
      split at he
      · exact putFace_err _ _ _ _ _ _ he
      · cases he
    · have : ax = 0 ∨ ax = 1 ∨ ax = 2 := by omega
      rcases this with h | h | h <;> subst h <;> decide
    · intro x
      unfold stage
      rw [if_pos hlo]
      unfold putFace putOne
      rw [getAbc_axis _ _ _ hax, if_pos hhi]
      rfl
  have hany : anyFace isAbc bc = true := by
    have : ax = 0 ∨ ax = 1 ∨ ax = 2 := by omega
    unfold anyFace
    rcases this with h | h | h <;> subst h <;> simp only [faceName, Faces.lo, one_ne_zero, if_true, if_false, OfNat.ofNat_ne_zero, OfNat.ofNat_ne_one] at hlo <;> simp [hlo]
  unfold emsolve
  rw [Nat.add_comm]
  refine emLoop_err s bc a ?_ Nt
  simp only [emLoop, bind, Except.bind, emBody, abcPart]
  rw [if_pos hany]
  have hE2 : ∀ L : Loop K, (callSource a ((0 : ℕ) * s.dt) L).E2 = L.E2 := by
    intro L; unfold callSource; cases a.source <;> rfl
  rw [hE2]
  simp only [emStart, key]

/-- The value a stored layer gives when written back, per component. -/
theorem putFace_spec {D : Dict K} {a m : ℕ} {s : Side} {t : Side → ℕ → Option (Plane K)} (hD : D a = some t) {Q : ℕ → Plane K}
    (hQ : ∀ d < 3, t s d = some (Q d)) (hview : ∀ d < 3, (∃ v, Q d = .vals v) ∨ ∃ m', Q d = .view a m' d) (f : Fld K)
    (hm : ∀ d < 3, ∀ m', Q d = .view a m' d → m' < coord a f.Nx f.Ny f.Nz) :
    ∃ f', putFace D a m s f = .ok f' ∧ f'.Nx = f.Nx ∧ f'.Ny = f.Ny ∧ f'.Nz = f.Nz ∧ ∀ d i j k, d < 3 → i < f.Nx → j < f.Ny → k < f.Nz →
      f'.at3 d i j k = if coord a i j k = m then (Q d).now f i j k else f.at3 d i j k := by
  have one : ∀ (g : Fld K) (d : ℕ), d < 3 → putOne D a m s g d = .ok (setPlane g a m d ((Q d).now g)) := by
    intro g d hd
    unfold putOne
    rw [hD]; simp only [hQ d hd]
  have hmv : ∀ m' i j k, i < f.Nx → j < f.Ny → k < f.Nz → m' < coord a f.Nx f.Ny f.Nz →
      (moved a m' i j k).1 < f.Nx ∧ (moved a m' i j k).2.1 < f.Ny ∧ (moved a m' i j k).2.2 < f.Nz := by
    intro m' i j k hi hj hk h
    unfold moved coord at *
    refine ⟨?_, ?_, ?_⟩ <;> simp only <;> split_ifs <;> simp_all
  -- a stored layer of component d does not notice that another component was written
  have hnow : ∀ (g : Fld K) (d d' i j k : ℕ) (v : ℕ → ℕ → ℕ → K), g.Nx = f.Nx → g.Ny = f.Ny → g.Nz = f.Nz → d < 3 → d ≠ d' → i < f.Nx → j < f.Ny → k < f.Nz →
      (Q d).now (setPlane g a m d' v) i j k = (Q d).now g i j k := by
    intro g d d' i j k v e1 e2 e3 hd hne hi hj hk
    rcases hview d hd with ⟨w, hw⟩ | ⟨m', hw⟩
    · rw [hw]; rfl
    · obtain ⟨p1, p2, p3⟩ := hmv m' i j k hi hj hk (hm d hd m' hw)
      rw [hw]
      show (setPlane g a m d' v).at3 d _ _ _ = g.at3 d _ _ _
      rw [setPlane_at3 (e1 ▸ p1) (e2 ▸ p2) (e3 ▸ p3), if_neg (fun h => hne h.1)]
  refine ⟨setPlane (setPlane (setPlane f a m 0 ((Q 0).now f)) a m 1 ((Q 1).now (setPlane f a m 0 ((Q 0).now f)))) a m 2
    ((Q 2).now (setPlane (setPlane f a m 0 ((Q 0).now f)) a m 1 ((Q 1).now (setPlane f a m 0 ((Q 0).now f))))), ?_, rfl, rfl, rfl, ?_⟩
  · unfold putFace
    simp only [bind, Except.bind, one _ 0 (by decide), one _ 1 (by decide), one _ 2 (by decide)]
  · intro d i j k hd hi hj hk
    rw [setPlane_at3 (by exact hi) (by exact hj) (by exact hk), setPlane_at3 (by exact hi) (by exact hj) (by exact hk), setPlane_at3 hi hj hk]
    by_cases hc : coord a i j k = m
    · simp only [hc, and_true, if_true]
      rcases (by omega : d = 0 ∨ d = 1 ∨ d = 2) with h | h | h <;> subst h
      · simp
      · rw [if_neg (by decide), if_pos rfl, hnow f 1 0 i j k _ rfl rfl rfl (by decide) (by decide) hi hj hk]
      · rw [if_pos rfl, hnow (setPlane f a m 0 ((Q 0).now f)) 2 1 i j k _ rfl rfl rfl (by decide) (by decide) hi hj hk, hnow f 2 0 i j k _ rfl rfl rfl (by decide) (by decide) hi hj hk]
    · simp only [hc, and_false, if_false]

theorem oneSided {bc : Faces String} (h1 : ¬ TwoSided bc) {a : ℕ} (ha : a < 3) (h : isAbc (faceName bc a .lo) = true) :
    isAbc (faceName bc a .hi) = false := by
  by_contra hh
  exact h1 ⟨a, ha, h, by simpa using hh⟩

/-- One block of `update_abc`, for dictionaries made by `get_abc`. -/
theorem stage_ok {gpu : Bool} {bc : Faces String} (h1 : ¬ TwoSided bc) {f0 f : Fld K} (e1 : f0.Nx = f.Nx) (e2 : f0.Ny = f.Ny) (e3 : f0.Nz = f.Nz)
    (hN : 2 ≤ f.Nx ∧ 2 ≤ f.Ny ∧ 2 ≤ f.Nz) {a : ℕ} (ha : a < 3) (s : Side) :
    ∃ f', stage bc (getAbc gpu bc f0) f (a, s) = .ok f' ∧ f'.Nx = f.Nx ∧ f'.Ny = f.Ny ∧ f'.Nz = f.Nz ∧
      ∀ d i j k, d < 3 → i < f.Nx → j < f.Ny → k < f.Nz → f'.at3 d i j k =
        if isAbc (faceName bc a s) = true ∧ coord a i j k = edgeOf f a s then (takePlane gpu f0 a (storedLayer f0 a s) d).now f i j k else f.at3 d i j k := by
  unfold stage
  by_cases h : isAbc (faceName bc a s) = true
  · have hD : getAbc gpu bc f0 a = some fun s' d => if s' = s ∧ d < 3 then some (takePlane gpu f0 a (storedLayer f0 a s) d) else none := by
      rw [getAbc_axis _ _ _ ha]
      cases s with
      | hi => rw [if_pos h]
      | lo => rw [oneSided h1 ha h, if_neg (by decide), if_pos h]; rfl
    have hs : storedLayer f0 a s < coord a f.Nx f.Ny f.Nz := by
      unfold storedLayer coord
      cases s <;> simp only [e1, e2, e3] <;> split_ifs <;> omega
    obtain ⟨f', p1, p2, p3, p4, p5⟩ := putFace_spec (m := edgeOf f a s) hD (Q := fun d => takePlane gpu f0 a (storedLayer f0 a s) d) (s := s)
      (fun d hd => if_pos ⟨rfl, hd⟩) (fun d _ => by cases gpu; exact .inr ⟨_, rfl⟩; exact .inl ⟨_, rfl⟩) f (by
        intro d _ m' hm'
        cases gpu with
        | true => cases hm'
        | false =>
          simp only [takePlane, Bool.false_eq_true, if_false, Plane.view.injEq, true_and] at hm'
          rw [← hm'.1]; exact hs)
    refine ⟨f', ?_, p2, p3, p4, ?_⟩
    · rw [if_pos h]; exact p1
    · intro d i j k hd hi hj hk
      rw [p5 d i j k hd hi hj hk]
      simp only [h, true_and]
  · refine ⟨f, if_neg h, rfl, rfl, rfl, fun d i j k _ _ _ _ => ?_⟩
    rw [if_neg fun x => h x.1]

/-- On the GPU: each block overwrites its layer with what was copied. -/
theorem updateAbc_gpu {bc : Faces String} (h1 : ¬ TwoSided bc) {f0 : Fld K} (l : List (ℕ × Side)) (hl : ∀ p ∈ l, p.1 < 3) {f : Fld K} (e1 : f0.Nx = f.Nx)
    (e2 : f0.Ny = f.Ny) (e3 : f0.Nz = f.Nz) (hN : 2 ≤ f.Nx ∧ 2 ≤ f.Ny ∧ 2 ≤ f.Nz) :
    ∃ f', l.foldlM (stage bc (getAbc true bc f0)) f = .ok f' ∧ f'.Nx = f.Nx ∧ f'.Ny = f.Ny ∧ f'.Nz = f.Nz ∧
      ∀ d i j k, d < 3 → i < f.Nx → j < f.Ny → k < f.Nz → f'.at3 d i j k =
        l.foldl (fun x p => if isAbc (faceName bc p.1 p.2) = true ∧ coord p.1 i j k = edgeOf f0 p.1 p.2 then layer f0 p.1 (storedLayer f0 p.1 p.2) d i j k else x) (f.at3 d i j k) := by
  induction l generalizing f with
  | nil => exact ⟨f, rfl, rfl, rfl, rfl, fun _ _ _ _ _ _ _ _ => rfl⟩
  | cons p l ih =>
    obtain ⟨g, q1, q2, q3, q4, q5⟩ := stage_ok (gpu := true) h1 e1 e2 e3 hN (hl p (List.mem_cons_self ..)) p.2
    obtain ⟨f', r1, r2, r3, r4, r5⟩ := ih (fun q hq => hl q (List.mem_cons_of_mem _ hq)) (f := g) (e1.trans q2.symm) (e2.trans q3.symm)
      (e3.trans q4.symm) (by rw [q2, q3, q4]; exact hN)
    refine ⟨f', ?_, r2.trans q2, r3.trans q3, r4.trans q4, ?_⟩
    · rw [List.foldlM_cons, q1]; exact r1
    · intro d i j k hd hi hj hk
      rw [r5 d i j k hd (q2 ▸ hi) (q3 ▸ hj) (q4 ▸ hk), q5 d i j k hd hi hj hk, List.foldl_cons]
      have : edgeOf f p.1 p.2 = edgeOf f0 p.1 p.2 := by unfold edgeOf; rw [e1, e2, e3]
      rw [this]
      rfl

/-- The cell whose value an outer cell receives on the CPU: one layer inwards along every low ABC face it is on. -/
def inward (bc : Faces String) (a : ℕ) (m : ℕ) : ℕ := if isAbc (faceName bc a .lo) = true ∧ m = 0 then 1 else m

/-- On the CPU: the low faces copy the current neighbouring layer, the high faces nothing. -/
theorem updateAbc_cpu {bc : Faces String} (h1 : ¬ TwoSided bc) {f0 f : Fld K} (e1 : f0.Nx = f.Nx)
    (e2 : f0.Ny = f.Ny) (e3 : f0.Nz = f.Nz) (hN : 2 ≤ f.Nx ∧ 2 ≤ f.Ny ∧ 2 ≤ f.Nz) :
    ∃ f', updateAbc bc (getAbc false bc f0) f = .ok f' ∧ f'.Nx = f.Nx ∧ f'.Ny = f.Ny ∧ f'.Nz = f.Nz ∧
      ∀ d i j k, d < 3 → i < f.Nx → j < f.Ny → k < f.Nz → f'.at3 d i j k = f.at3 d (inward bc 0 i) (inward bc 1 j) (inward bc 2 k) := by
  have hin : ∀ a m n, 2 ≤ n → m < n → inward bc a m < n := by
    intro a m n hn hm; unfold inward; split_ifs <;> omega
  -- high faces
  have hi_ok : ∀ (a : ℕ), a < 3 → ∀ f : Fld K, f0.Nx = f.Nx → f0.Ny = f.Ny → f0.Nz = f.Nz → 2 ≤ f.Nx ∧ 2 ≤ f.Ny ∧ 2 ≤ f.Nz →
      ∃ f', stage bc (getAbc false bc f0) f (a, .hi) = .ok f' ∧ f'.Nx = f.Nx ∧ f'.Ny = f.Ny ∧ f'.Nz = f.Nz ∧
        ∀ d i j k, d < 3 → i < f.Nx → j < f.Ny → k < f.Nz → f'.at3 d i j k = f.at3 d i j k := by
    intro a ha f e1 e2 e3 hN
    obtain ⟨f', q1, q2, q3, q4, q5⟩ := stage_ok (gpu := false) h1 e1 e2 e3 hN ha .hi
    refine ⟨f', q1, q2, q3, q4, fun d i j k hd hi hj hk => ?_⟩
    rw [q5 d i j k hd hi hj hk]
    split_ifs with h
    · have hc := h.2
      show layer f a (storedLayer f0 a .hi) d i j k = _
      unfold edgeOf at hc
      unfold layer storedLayer moved
      rw [e1, e2, e3]
      simp only [← hc]
      unfold coord
      congr 1 <;> split_ifs <;> simp_all
    · rfl
  have lo_ok : ∀ (a : ℕ), a < 3 → ∀ f : Fld K, f0.Nx = f.Nx → f0.Ny = f.Ny → f0.Nz = f.Nz → 2 ≤ f.Nx ∧ 2 ≤ f.Ny ∧ 2 ≤ f.Nz →
      ∃ f', stage bc (getAbc false bc f0) f (a, .lo) = .ok f' ∧ f'.Nx = f.Nx ∧ f'.Ny = f.Ny ∧ f'.Nz = f.Nz ∧
        ∀ d i j k, d < 3 → i < f.Nx → j < f.Ny → k < f.Nz → f'.at3 d i j k =
          f.at3 d (if a = 0 then inward bc 0 i else i) (if a = 1 then inward bc 1 j else j) (if a = 2 then inward bc 2 k else k) := by
    intro a ha f e1 e2 e3 hN
    obtain ⟨f', q1, q2, q3, q4, q5⟩ := stage_ok (gpu := false) h1 e1 e2 e3 hN ha .lo
    refine ⟨f', q1, q2, q3, q4, fun d i j k hd hi hj hk => ?_⟩
    rw [q5 d i j k hd hi hj hk]
    have h3 : a = 0 ∨ a = 1 ∨ a = 2 := by omega
    show (if isAbc (faceName bc a .lo) = true ∧ coord a i j k = 0 then layer f a 1 d i j k else f.at3 d i j k) = _
    unfold layer moved inward coord
    rcases h3 with h | h | h <;> subst h <;> simp only [if_true, if_false, one_ne_zero, zero_ne_one, OfNat.ofNat_ne_zero, OfNat.ofNat_ne_one, OfNat.zero_ne_ofNat, OfNat.one_ne_ofNat] <;> split_ifs <;> rfl
  obtain ⟨fa, a1, a2, a3, a4, a5⟩ := lo_ok 0 (by decide) f e1 e2 e3 hN
  obtain ⟨fb, b1, b2, b3, b4, b5⟩ := lo_ok 1 (by decide) fa (e1.trans a2.symm) (e2.trans a3.symm) (e3.trans a4.symm) (by rw [a2, a3, a4]; exact hN)
  obtain ⟨fc, c1, c2, c3, c4, c5⟩ := lo_ok 2 (by decide) fb (by rw [b2, a2, e1]) (by rw [b3, a3, e2]) (by rw [b4, a4, e3]) (by rw [b2, b3, b4, a2, a3, a4]; exact hN)
  have d2 : fc.Nx = f.Nx := by rw [c2, b2, a2]
  have d3 : fc.Ny = f.Ny := by rw [c3, b3, a3]
  have d4 : fc.Nz = f.Nz := by rw [c4, b4, a4]
  obtain ⟨fd, p1, p2, p3, p4, p5⟩ := hi_ok 0 (by decide) fc (by rw [d2, e1]) (by rw [d3, e2]) (by rw [d4, e3]) (by rw [d2, d3, d4]; exact hN)
  obtain ⟨fe, q1, q2, q3, q4, q5⟩ := hi_ok 1 (by decide) fd (by rw [p2, d2, e1]) (by rw [p3, d3, e2]) (by rw [p4, d4, e3]) (by rw [p2, p3, p4, d2, d3, d4]; exact hN)
  obtain ⟨ff, r1, r2, r3, r4, r5⟩ := hi_ok 2 (by decide) fe (by rw [q2, p2, d2, e1]) (by rw [q3, p3, d3, e2]) (by rw [q4, p4, d4, e3])
    (by rw [q2, q3, q4, p2, p3, p4, d2, d3, d4]; exact hN)
  refine ⟨ff, ?_, by rw [r2, q2, p2, d2], by rw [r3, q3, p3, d3], by rw [r4, q4, p4, d4], ?_⟩
  · unfold updateAbc faceOrder
    simp only [List.foldlM_cons, List.foldlM_nil, bind, Except.bind, a1, b1, c1, p1, q1, r1]
    rfl
  · intro d i j k hd hi hj hk
    rw [r5 d i j k hd (by rw [q2, p2, d2]; exact hi) (by rw [q3, p3, d3]; exact hj) (by rw [q4, p4, d4]; exact hk),
      q5 d i j k hd (by rw [p2, d2]; exact hi) (by rw [p3, d3]; exact hj) (by rw [p4, d4]; exact hk),
      p5 d i j k hd (by rw [d2]; exact hi) (by rw [d3]; exact hj) (by rw [d4]; exact hk),
      c5 d i j k hd (by rw [b2, a2]; exact hi) (by rw [b3, a3]; exact hj) (by rw [b4, a4]; exact hk)]
    simp only [if_true, if_false, OfNat.ofNat_ne_zero, OfNat.ofNat_ne_one]
    rw [b5 d i j _ hd (by rw [a2]; exact hi) (by rw [a3]; exact hj) (by rw [a4]; exact hin 2 k _ hN.2.2 hk)]
    simp only [if_true, if_false, one_ne_zero, OfNat.one_ne_ofNat]
    rw [a5 d i _ _ hd hi (hin 1 j _ hN.2.1 hj) (hin 2 k _ hN.2.2 hk)]
    simp only [if_true, if_false, zero_ne_one, OfNat.zero_ne_ofNat]

/-! ### C38: runs with ABC -/

/-- The fields after the source and the time step of pass `n`, before the ABC. -/
def midStep (s : Solver K) (a : EmArgs K) (n : ℕ) (st : State K) : State K := oneStep s ((a.source.getD fun _ => id) (n * s.dt) st)

theorem emBody_abc {s : Solver K} {bc : Faces String} (hany : anyFace isAbc bc = true) {a : EmArgs K} (hcb : a.callback = none) {n : ℕ} {L L' : Loop K}
    (h : emBody s bc a n L = .ok L') :
    ∃ E H, updateAbc bc L.E2 (s.fld (midStep s a n L.st).E) = .ok E ∧ updateAbc bc L.H2 (s.fld (midStep s a n L.st).H) = .ok H ∧
      L'.st = { midStep s a n L.st with E := E.array, H := H.array } ∧ L'.E2 = L.E1 ∧ L'.H2 = L.H1 ∧ L'.E1 = getAbc a.gpu bc E ∧ L'.H1 = getAbc a.gpu bc H := by
  have hc : callSource a (n * s.dt) L = { L with st := (a.source.getD fun _ => id) (n * s.dt) L.st, log := (callSource a (n * s.dt) L).log } := by
    unfold callSource; cases a.source <;> rfl
  unfold emBody abcPart at h
  rw [hc] at h
  simp only [hany, if_true, bind, Except.bind] at h
  unfold midStep
  cases hE : updateAbc bc L.E2 (s.fld (oneStep s ((a.source.getD fun _ => id) (n * s.dt) L.st)).E) with
  | error e => rw [hE] at h; cases h
  | ok E =>
    rw [hE] at h
    simp only at h
    cases hH : updateAbc bc L.H2 (s.fld (oneStep s ((a.source.getD fun _ => id) (n * s.dt) L.st)).H) with
    | error e => rw [hH] at h; cases h
    | ok H =>
      rw [hH] at h
      simp only [pure, Except.pure, callBack, hcb] at h
      cases h
      exact ⟨E, H, rfl, rfl, rfl, rfl, rfl, rfl, rfl⟩

theorem emsolve_succ {s : Solver K} {bc : Faces String} {a : EmArgs K} {N : ℕ} {st : State K} {L : Loop K} (h : emsolve s bc a (N + 1) st = .ok L) :
    ∃ L0, emsolve s bc a N st = .ok L0 ∧ emBody s bc a N L0 = .ok L := by
  unfold emsolve at h ⊢
  simp only [emLoop, bind, Except.bind] at h
  cases h0 : emLoop s bc a N (emStart s bc a st) with
  | error e => rw [h0] at h; cases h
  | ok L0 => rw [h0] at h; exact ⟨L0, rfl, h⟩

/-- A field of the solver is the field of its array. -/
theorem fld_array {s : Solver K} {f : Fld K} (h1 : f.Nx = s.Nx) (h2 : f.Ny = s.Ny) (h3 : f.Nz = s.Nz) : f = s.fld f.array := by
  cases f; cases h1; cases h2; cases h3; rfl

theorem updateAbc_ok (gpu : Bool) {bc : Faces String} (h1 : ¬ TwoSided bc) {s : Solver K} (hN : 2 ≤ s.Nx ∧ 2 ≤ s.Ny ∧ 2 ≤ s.Nz) (v w : Vec K) :
    ∃ x, updateAbc bc (getAbc gpu bc (s.fld v)) (s.fld w) = .ok (s.fld x) := by
  cases gpu with
  | true =>
    obtain ⟨f', p1, p2, p3, p4, -⟩ := updateAbc_gpu h1 (f0 := s.fld v) faceOrder (by decide) (f := s.fld w) rfl rfl rfl hN
    exact ⟨f'.array, by rw [← fld_array p2 p3 p4]; exact p1⟩
  | false =>
    obtain ⟨f', p1, p2, p3, p4, -⟩ := updateAbc_cpu h1 (f0 := s.fld v) (f := s.fld w) rfl rfl rfl hN
    exact ⟨f'.array, by rw [← fld_array p2 p3 p4]; exact p1⟩

/-- The dictionaries always come from `get_abc`. -/
def FromFields (s : Solver K) (bc : Faces String) (gpu : Bool) (L : Loop K) : Prop :=
  (∃ v, L.E2 = getAbc gpu bc (s.fld v)) ∧ (∃ v, L.H2 = getAbc gpu bc (s.fld v)) ∧ (∃ v, L.E1 = getAbc gpu bc (s.fld v)) ∧ ∃ v, L.H1 = getAbc gpu bc (s.fld v)

theorem emBody_ok {s : Solver K} {bc : Faces String} (h1 : ¬ TwoSided bc) (hN : 2 ≤ s.Nx ∧ 2 ≤ s.Ny ∧ 2 ≤ s.Nz) {a : EmArgs K} (n : ℕ) {L : Loop K}
    (hL : FromFields s bc a.gpu L) : ∃ L', emBody s bc a n L = .ok L' ∧ FromFields s bc a.gpu L' := by
  obtain ⟨⟨v1, g1⟩, ⟨v2, g2⟩, ⟨v3, g3⟩, v4, g4⟩ := hL
  have hc : ∀ t, FromFields s bc a.gpu (callSource a t L) := by
    intro t; unfold callSource; cases a.source <;> exact ⟨⟨v1, g1⟩, ⟨v2, g2⟩, ⟨v3, g3⟩, v4, g4⟩
  have hb : ∀ t (L : Loop K), FromFields s bc a.gpu L → FromFields s bc a.gpu (callBack a t L) := by
    intro t L h; unfold callBack; cases a.callback <;> exact h
  obtain ⟨⟨v1, g1⟩, ⟨v2, g2⟩, ⟨v3, g3⟩, v4, g4⟩ := hc (n * s.dt)
  unfold emBody abcPart
  by_cases hany : anyFace isAbc bc = true
  · simp only [hany, if_true, bind, Except.bind, g1, g2]
    obtain ⟨x, hx⟩ := updateAbc_ok a.gpu h1 hN v1 (oneStep s (callSource a (n * s.dt) L).st).E
    obtain ⟨y, hy⟩ := updateAbc_ok a.gpu h1 hN v2 (oneStep s (callSource a (n * s.dt) L).st).H
    rw [hx]
    simp only [hy]
    exact ⟨_, rfl, hb _ _ ⟨⟨v3, g3⟩, ⟨v4, g4⟩, ⟨x, rfl⟩, y, rfl⟩⟩
  · simp only [hany, Bool.false_eq_true, if_false, bind, Except.bind]
    exact ⟨_, rfl, hb _ _ ⟨⟨v1, g1⟩, ⟨v2, g2⟩, ⟨v3, g3⟩, v4, g4⟩⟩

/-- **C38 (runs succeed).** With at most one ABC face per axis (and at least two cells per axis) `emsolve` completes, on CPU and GPU. -/
theorem C38_completes {s : Solver K} {bc : Faces String} (h1 : ¬ TwoSided bc) (hN : 2 ≤ s.Nx ∧ 2 ≤ s.Ny ∧ 2 ≤ s.Nz) (a : EmArgs K) (Nt : ℕ) (st : State K) :
    ∃ L, emsolve s bc a Nt st = .ok L ∧ FromFields s bc a.gpu L := by
  induction Nt with
  | zero => exact ⟨_, rfl, ⟨_, rfl⟩, ⟨_, rfl⟩, ⟨_, rfl⟩, _, rfl⟩
  | succ n ih =>
    obtain ⟨L, p, q⟩ := ih
    obtain ⟨L', p', q'⟩ := emBody_ok h1 hN n q
    refine ⟨L', ?_, q'⟩
    unfold emsolve at p ⊢
    simp only [emLoop, p, bind, Except.bind]
    exact p'

/-- Position of a face in the order of treatment. -/
def faceRank (a : ℕ) : Side → ℕ
  | .lo => a
  | .hi => a + 3

/-- Component `d` of cell `(i,j,k)` of a field of the solver. -/
abbrev Solver.cellOf (s : Solver K) (v : Vec K) (d i j k : ℕ) : K := (s.fld v).at3 d i j k

/-- **C38 (GPU; partial).** On the GPU, after every step the layer of an ABC face holds an older layer: that of two steps
before.  For a low face it is the neighbouring layer, as claimed; for a high face it is the outermost layer itself
(`storedLayer`), not its neighbour — see `C38_gpu_high_refuted`.  Cells on several ABC faces take the value of the
face treated last (low x, y, z, then high x, y, z). -/
theorem C38_gpu_partial {s : Solver K} {bc : Faces String} (h1 : ¬ TwoSided bc) (hN : 2 ≤ s.Nx ∧ 2 ≤ s.Ny ∧ 2 ≤ s.Nz) {a : EmArgs K} (hgpu : a.gpu = true)
    (hcb : a.callback = none) {N : ℕ} {st : State K} {L0 L2 : Loop K} (hL0 : emsolve s bc a N st = .ok L0) (hL2 : emsolve s bc a (N + 2) st = .ok L2)
    {ax : ℕ} (hax : ax < 3) {side : Side} (habc : isAbc (faceName bc ax side) = true) {d i j k : ℕ} (hd : d < 3) (hi : i < s.Nx) (hj : j < s.Ny)
    (hk : k < s.Nz) (hon : OnFace s.Nx s.Ny s.Nz ax side i j k)
    (hlast : ∀ b < 3, ∀ t, isAbc (faceName bc b t) = true → OnFace s.Nx s.Ny s.Nz b t i j k → faceRank b t ≤ faceRank ax side) :
    s.cellOf L2.st.E d i j k = layer (s.fld L0.st.E) ax (storedLayer (s.fld L0.st.E) ax side) d i j k ∧
      s.cellOf L2.st.H d i j k = layer (s.fld L0.st.H) ax (storedLayer (s.fld L0.st.H) ax side) d i j k := by
  have hany : anyFace isAbc bc = true := by
    have : ax = 0 ∨ ax = 1 ∨ ax = 2 := by omega
    unfold anyFace
    rcases this with h | h | h <;> subst h <;> cases side <;>
      simp only [faceName, Faces.lo, Faces.hi, one_ne_zero, if_true, if_false, OfNat.ofNat_ne_zero, OfNat.ofNat_ne_one] at habc <;> simp [habc]
  -- after N steps the newest dictionaries show the present fields
  have inv : ∀ N L, emsolve s bc a N st = .ok L → L.E1 = getAbc a.gpu bc (s.fld L.st.E) ∧ L.H1 = getAbc a.gpu bc (s.fld L.st.H) := by
    intro N
    cases N with
    | zero => intro L h; cases h; exact ⟨rfl, rfl⟩
    | succ N =>
      intro L h
      obtain ⟨L', p, q⟩ := emsolve_succ h
      obtain ⟨L'', p', q'⟩ := C38_completes h1 hN a N st
      rw [p] at p'; cases p'
      obtain ⟨⟨v1, g1⟩, ⟨v2, g2⟩, -⟩ := q'
      obtain ⟨E, H, u1, u2, u3, -, -, u6, u7⟩ := emBody_abc hany hcb q
      rw [g1] at u1; rw [g2] at u2
      obtain ⟨x, hx⟩ := updateAbc_ok a.gpu h1 hN v1 (midStep s a N L'.st).E
      obtain ⟨y, hy⟩ := updateAbc_ok a.gpu h1 hN v2 (midStep s a N L'.st).H
      rw [hx] at u1; rw [hy] at u2
      cases u1; cases u2
      rw [u6, u7, u3]
      exact ⟨rfl, rfl⟩
  obtain ⟨L1, p1, q1⟩ := emsolve_succ (show emsolve s bc a ((N + 1) + 1) st = .ok L2 from hL2)
  obtain ⟨L0', p0, q0⟩ := emsolve_succ p1
  rw [hL0] at p0; cases p0
  obtain ⟨-, -, -, -, -, w4, w5, -, -⟩ := emBody_abc hany hcb q0
  obtain ⟨E, H, u1, u2, u3, -, -, -, -⟩ := emBody_abc hany hcb q1
  rw [w4, (inv N L0 hL0).1, hgpu] at u1
  rw [w5, (inv N L0 hL0).2, hgpu] at u2
  have key : ∀ (v w : Vec K) (X : Fld K), updateAbc bc (getAbc true bc (s.fld v)) (s.fld w) = .ok X →
      s.cellOf X.array d i j k = layer (s.fld v) ax (storedLayer (s.fld v) ax side) d i j k := by
    intro v w X hX
    obtain ⟨f', r1, r2, r3, r4, r5⟩ := updateAbc_gpu h1 (f0 := s.fld v) faceOrder (by decide) (f := s.fld w) rfl rfl rfl hN
    unfold updateAbc at hX
    rw [r1] at hX; cases hX
    unfold Solver.cellOf
    rw [← fld_array r2 r3 r4, r5 d i j k hd hi hj hk]
    have hon' : coord ax i j k = edgeOf (s.fld v) ax side := by cases side <;> exact hon
    have hl : ∀ b < 3, ∀ t, faceRank ax side < faceRank b t → ¬ (isAbc (faceName bc b t) = true ∧ coord b i j k = edgeOf (s.fld v) b t) := by
      intro b hb t hr h
      have := hlast b hb t h.1 (by cases t <;> exact h.2)
      omega
    have h3 : ax = 0 ∨ ax = 1 ∨ ax = 2 := by omega
    unfold faceOrder
    simp only [List.foldl_cons, List.foldl_nil]
    rcases h3 with h | h | h <;> subst h <;> cases side
    · rw [if_neg (hl 2 (by decide) .hi (by decide)), if_neg (hl 1 (by decide) .hi (by decide)), if_neg (hl 0 (by decide) .hi (by decide)),
        if_neg (hl 2 (by decide) .lo (by decide)), if_neg (hl 1 (by decide) .lo (by decide)), if_pos ⟨habc, hon'⟩]
    · rw [if_neg (hl 2 (by decide) .hi (by decide)), if_neg (hl 1 (by decide) .hi (by decide)), if_pos ⟨habc, hon'⟩]
    · rw [if_neg (hl 2 (by decide) .hi (by decide)), if_neg (hl 1 (by decide) .hi (by decide)), if_neg (hl 0 (by decide) .hi (by decide)),
        if_neg (hl 2 (by decide) .lo (by decide)), if_pos ⟨habc, hon'⟩]
    · rw [if_neg (hl 2 (by decide) .hi (by decide)), if_pos ⟨habc, hon'⟩]
    · rw [if_neg (hl 2 (by decide) .hi (by decide)), if_neg (hl 1 (by decide) .hi (by decide)), if_neg (hl 0 (by decide) .hi (by decide)),
        if_pos ⟨habc, hon'⟩]
    · rw [if_pos ⟨habc, hon'⟩]
  rw [u3]
  exact ⟨key _ _ _ u1, key _ _ _ u2⟩

/-- **C38 (CPU: what happens).** On the CPU the stored layers are views of the live fields: after every step each low ABC
layer takes the *current* value one layer inwards (along every low ABC face the cell is on), and a high ABC face has
no effect at all. -/
theorem C38_cpu_actual {s : Solver K} {bc : Faces String} (h1 : ¬ TwoSided bc) (hany : anyFace isAbc bc = true) (hN : 2 ≤ s.Nx ∧ 2 ≤ s.Ny ∧ 2 ≤ s.Nz)
    {a : EmArgs K} (hgpu : a.gpu = false) (hcb : a.callback = none) {N : ℕ} {st : State K} {L0 L1 : Loop K} (hL0 : emsolve s bc a N st = .ok L0)
    (hL1 : emsolve s bc a (N + 1) st = .ok L1) {d i j k : ℕ} (hd : d < 3) (hi : i < s.Nx) (hj : j < s.Ny) (hk : k < s.Nz) :
    s.cellOf L1.st.E d i j k = s.cellOf (midStep s a N L0.st).E d (inward bc 0 i) (inward bc 1 j) (inward bc 2 k) ∧
      s.cellOf L1.st.H d i j k = s.cellOf (midStep s a N L0.st).H d (inward bc 0 i) (inward bc 1 j) (inward bc 2 k) ∧
      L1.st.J = (midStep s a N L0.st).J ∧ L1.st.step0 = (midStep s a N L0.st).step0 := by
  obtain ⟨L0', p0, q0⟩ := emsolve_succ hL1
  rw [hL0] at p0; cases p0
  obtain ⟨L'', p', q'⟩ := C38_completes h1 hN a N st
  rw [hL0] at p'; cases p'
  obtain ⟨⟨v1, g1⟩, ⟨v2, g2⟩, -⟩ := q'
  obtain ⟨E, H, u1, u2, u3, -, -, -, -⟩ := emBody_abc hany hcb q0
  rw [g1, hgpu] at u1; rw [g2, hgpu] at u2
  have key : ∀ (v w : Vec K) (X : Fld K), updateAbc bc (getAbc false bc (s.fld v)) (s.fld w) = .ok X →
      s.cellOf X.array d i j k = s.cellOf w d (inward bc 0 i) (inward bc 1 j) (inward bc 2 k) := by
    intro v w X hX
    obtain ⟨f', r1, r2, r3, r4, r5⟩ := updateAbc_cpu h1 (f0 := s.fld v) (f := s.fld w) rfl rfl rfl hN
    rw [r1] at hX; cases hX
    unfold Solver.cellOf
    rw [← fld_array r2 r3 r4, r5 d i j k hd hi hj hk]
  rw [u3]
  exact ⟨key _ _ _ u1, key _ _ _ u2, rfl, rfl⟩

/-! ### C38: the claim, and where it fails -/

/-- The neighbour of a face's layer. -/
def innerLayer (N : ℕ) : Side → ℕ
  | .lo => 1
  | .hi => N - 2

/-- The claim: after each step the layer of an ABC face (away from other ABC faces) holds the neighbouring layer of two steps earlier. -/
def AbcDelayed (s : Solver K) (bc : Faces String) (gpu : Bool) : Prop :=
  ∀ N st L0 L2, emsolve s bc ⟨none, none, gpu⟩ N st = .ok L0 → emsolve s bc ⟨none, none, gpu⟩ (N + 2) st = .ok L2 →
    ∀ ax < 3, ∀ side, isAbc (faceName bc ax side) = true → ∀ d i j k, d < 3 → i < s.Nx → j < s.Ny → k < s.Nz → OnFace s.Nx s.Ny s.Nz ax side i j k →
      (∀ b < 3, ∀ t, isAbc (faceName bc b t) = true → OnFace s.Nx s.Ny s.Nz b t i j k → b = ax ∧ t = side) →
      s.cellOf L2.st.E d i j k = layer (s.fld L0.st.E) ax (innerLayer (coord ax s.Nx s.Ny s.Nz) side) d i j k

/-- **C38 (GPU, low faces).** With ABC on low faces only, the claim holds on the GPU. -/
theorem C38_gpu_low {s : Solver K} {bc : Faces String} (hlow : ∀ a < 3, isAbc (faceName bc a .hi) = false) (hN : 2 ≤ s.Nx ∧ 2 ≤ s.Ny ∧ 2 ≤ s.Nz) :
    AbcDelayed s bc true := by
  intro N st L0 L2 h0 h2 ax hax side habc d i j k hd hi hj hk hon huniq
  have h1 : ¬ TwoSided bc := fun ⟨a, ha, _, h⟩ => by rw [hlow a ha] at h; cases h
  cases side with
  | hi => rw [hlow ax hax] at habc; cases habc
  | lo =>
    refine (C38_gpu_partial h1 hN rfl rfl h0 h2 hax habc hd hi hj hk hon fun b hb t hbt hob => ?_).1
    obtain ⟨e1, e2⟩ := huniq b hb t hbt hob
    rw [e1, e2]

/-- Names for the counterexamples. -/
def bcAbcHi : Faces String := ⟨"open", "abc", "open", "open", "open", "open"⟩
def bcAbcLo : Faces String := ⟨"abc", "open", "open", "open", "open", "open"⟩

theorem notTwo_hi : ¬ TwoSided bcAbcHi := by
  unfold TwoSided; decide
theorem notTwo_lo : ¬ TwoSided bcAbcLo := by
  unfold TwoSided; decide

/-- **C38 (GPU, high faces refuted).** On the GPU a high ABC face receives its own old layer instead of the neighbour's. -/
theorem C38_gpu_high_refuted : ¬ AbcDelayed (sol2 bcAbcHi) bcAbcHi true := by
  intro h
  have hN : 2 ≤ (sol2 bcAbcHi).Nx ∧ 2 ≤ (sol2 bcAbcHi).Ny ∧ 2 ≤ (sol2 bcAbcHi).Nz := by decide
  obtain ⟨L0, p0, -⟩ := C38_completes notTwo_hi hN ⟨none, none, true⟩ 0 (stEH (delta 8) fun _ => 0)
  obtain ⟨L2, p2, -⟩ := C38_completes notTwo_hi hN ⟨none, none, true⟩ (0 + 2) (stEH (delta 8) fun _ => 0)
  have hst : L0.st = stEH (delta 8) fun _ => 0 := by cases p0; rfl
  have hon : OnFace (sol2 bcAbcHi).Nx (sol2 bcAbcHi).Ny (sol2 bcAbcHi).Nz 0 .hi 1 0 0 := rfl
  have hu : ∀ b < 3, ∀ t, isAbc (faceName bcAbcHi b t) = true → OnFace (sol2 bcAbcHi).Nx (sol2 bcAbcHi).Ny (sol2 bcAbcHi).Nz b t 1 0 0 → b = 0 ∧ t = .hi := by
    intro b hb t ht _
    rcases (by omega : b = 0 ∨ b = 1 ∨ b = 2) with e | e | e <;> subst e <;> cases t <;> revert ht <;> decide
  have c1 := h 0 _ L0 L2 p0 p2 0 (by decide) .hi (by decide) 1 1 0 0 (by decide) (by decide) (by decide) (by decide) hon hu
  have c2 := (C38_gpu_partial notTwo_hi hN rfl rfl p0 p2 (ax := 0) (by decide) (side := .hi) (by decide) (d := 1) (i := 1) (j := 0) (k := 0) (by decide) (by decide)
    (by decide) (by decide) hon (fun b hb t hbt hob => by obtain ⟨e1, e2⟩ := hu b hb t hbt hob; rw [e1, e2])).1
  rw [c1, hst] at c2
  have l1 : layer ((sol2 bcAbcHi).fld (delta 8)) 0 (innerLayer (coord 0 (sol2 bcAbcHi).Nx (sol2 bcAbcHi).Ny (sol2 bcAbcHi).Nz) .hi) 1 1 0 0 = 1 := by decide +kernel
  have l2 : layer ((sol2 bcAbcHi).fld (delta 8)) 0 (storedLayer ((sol2 bcAbcHi).fld (delta 8)) 0 .hi) 1 1 0 0 = 0 := by decide +kernel
  have c3 : layer ((sol2 bcAbcHi).fld (delta 8)) 0 (innerLayer (coord 0 (sol2 bcAbcHi).Nx (sol2 bcAbcHi).Ny (sol2 bcAbcHi).Nz) .hi) 1 1 0 0 =
    layer ((sol2 bcAbcHi).fld (delta 8)) 0 (storedLayer ((sol2 bcAbcHi).fld (delta 8)) 0 .hi) 1 1 0 0 := c2
  rw [l1, l2] at c3
  exact absurd c3 (by norm_num)

/-! On the CPU: a unit current at E_y of cell (1,0,0), all fields zero. -/

theorem lo_H (E H J : Vec ℚ) (b : Bool) {r : ℕ} (hr : r < 24) :
    (advance (sol2 bcAbcLo) ⟨E, H, J, b⟩).H r = H r - mulVec 24 (C0 2 2 2) E r := by
  unfold sol2
  rw [advance_H _ _ _ _ _ _ _ _ hr, unit2_iA r hr, one_mul, one_mul, rowMask_one _ _ (by decide), one_mul, one_mul]
  congr 1
  refine mulVec_congr (fun _ _ => rfl) fun q hq => ?_
  simp only [unit2_L q hq, one_mul, colMask_one _ _ (show anyFace isPec bcAbcLo = false by decide)]

theorem lo_E (E H J : Vec ℚ) (b : Bool) {r : ℕ} (hr : r < 24) :
    (advance (sol2 bcAbcLo) ⟨E, H, J, b⟩).E r =
      E r + ((applyBC unit2 bcAbcLo (C0 2 2 2)).itA.array r * mulVec 24 (transpose (C0 2 2 2)) (fun q => (applyBC unit2 bcAbcLo (C0 2 2 2)).tL.array q * (H q - mulVec 24 (C0 2 2 2) E q)) r - J r) := by
  have h := advance_E unit2 bcAbcLo (fun _ => 1) (fun _ => 1) (fun _ => 0) 1 false ⟨E, H, J, b⟩ (r := r) hr
  have : (advance (sol2 bcAbcLo) ⟨E, H, J, b⟩).E r = _ := h
  rw [this, colMask_one _ _ (show anyFace isPec bcAbcLo = false by decide)]
  have e : mulVec (3 * (unit2.Nx * unit2.Ny * unit2.Nz)) (transpose (C0 unit2.Nx unit2.Ny unit2.Nz))
      (fun q => rowMask unit2 bcAbcLo q * ((applyBC unit2 bcAbcLo (C0 unit2.Nx unit2.Ny unit2.Nz)).tL.array q *
        (advance (build unit2 bcAbcLo (fun _ => 1) (fun _ => 1) (fun _ => 0) 1 false) ⟨E, H, J, b⟩).H q)) r =
      mulVec 24 (transpose (C0 2 2 2)) (fun q => (applyBC unit2 bcAbcLo (C0 2 2 2)).tL.array q * (H q - mulVec 24 (C0 2 2 2) E q)) r := by
    refine mulVec_congr (fun _ _ => rfl) fun q hq => ?_
    rw [rowMask_one _ _ (by decide), one_mul]
    have := lo_H E H J b hq
    unfold sol2 at this
    rw [this]
    rfl
  rw [e]
  show E r + 1 * (1 * (applyBC unit2 bcAbcLo (C0 2 2 2)).itA.array r * _ - 1 * J r) = _
  ring

/-- E after the first step, and the E_y of cell (1,0,0) after the second, before the ABC. -/
def e1Lo : Vec ℚ := fun r => if r = 8 ∨ r = 9 then -1 else 0
def e2Lo : ℚ := e1Lo 9 + ((applyBC unit2 bcAbcLo (C0 2 2 2)).itA.array 9 * mulVec 24 (transpose (C0 2 2 2)) (fun q => (applyBC unit2 bcAbcLo (C0 2 2 2)).tL.array q * (0 - mulVec 24 (C0 2 2 2) e1Lo q)) 9 - 1)

theorem e2Lo_ne : e2Lo ≠ 0 := by decide +kernel

theorem cells24 : ∀ r < 24, ∃ d < 3, ∃ i < 2, ∃ j < 2, ∃ k < 2, r = d * 8 + (i + 2 * (j + 2 * k)) := by decide

theorem e1Lo_cells : ∀ d < 3, ∀ i < 2, ∀ j < 2, ∀ k < 2,
    0 - delta 9 (d * 8 + (inward bcAbcLo 0 i + 2 * (inward bcAbcLo 1 j + 2 * inward bcAbcLo 2 k))) = e1Lo (d * 8 + (i + 2 * (j + 2 * k))) := by decide +kernel

theorem inward_lt {bc : Faces String} {a m n : ℕ} (hn : 2 ≤ n) (hm : m < n) : inward bc a m < n := by
  unfold inward; split_ifs <;> omega

/-- **C38 (CPU refuted).** On the CPU the low face takes the neighbouring layer of the present step, not of two steps earlier. -/
theorem C38_cpu_refuted : ¬ AbcDelayed (sol2 bcAbcLo) bcAbcLo false := by
  intro h
  have hN : 2 ≤ (sol2 bcAbcLo).Nx ∧ 2 ≤ (sol2 bcAbcLo).Ny ∧ 2 ≤ (sol2 bcAbcLo).Nz := by decide
  have hany : anyFace isAbc bcAbcLo = true := by decide
  obtain ⟨L0, p0, -⟩ := C38_completes notTwo_lo hN ⟨none, none, false⟩ 0 ⟨fun _ => 0, fun _ => 0, delta 9, false⟩
  obtain ⟨L1, p1, -⟩ := C38_completes notTwo_lo hN ⟨none, none, false⟩ (0 + 1) ⟨fun _ => 0, fun _ => 0, delta 9, false⟩
  obtain ⟨L2, p2, -⟩ := C38_completes notTwo_lo hN ⟨none, none, false⟩ ((0 + 1) + 1) ⟨fun _ => 0, fun _ => 0, delta 9, false⟩
  have hst : L0.st = ⟨fun _ => 0, fun _ => 0, delta 9, false⟩ := by cases p0; rfl
  have hu : ∀ b < 3, ∀ t, isAbc (faceName bcAbcLo b t) = true → OnFace (sol2 bcAbcLo).Nx (sol2 bcAbcLo).Ny (sol2 bcAbcLo).Nz b t 0 0 0 → b = 0 ∧ t = .lo := by
    intro b hb t ht _
    rcases (by omega : b = 0 ∨ b = 1 ∨ b = 2) with e | e | e <;> subst e <;> cases t <;> revert ht <;> decide
  have c := h 0 _ L0 L2 p0 p2 0 (by decide) .lo (by decide) 1 0 0 0 (by decide) (by decide) (by decide) (by decide) rfl hu
  rw [hst] at c
  have c' : (sol2 bcAbcLo).cellOf L2.st.E 1 0 0 0 = 0 := c
  -- the first step
  have step1 : midStep (sol2 bcAbcLo) ⟨none, none, false⟩ 0 L0.st = advance (sol2 bcAbcLo) ⟨fun _ => 0, fun _ => 0, delta 9, false⟩ := by
    rw [hst]; rfl
  have z0 : ∀ r, mulVec 24 (C0 2 2 2) (fun _ => (0 : ℚ)) r = 0 := by
    intro r; unfold mulVec; simp
  have zt : ∀ (w : Vec ℚ) (r : ℕ), mulVec 24 (transpose (C0 2 2 2)) (fun q => w q * (0 - mulVec 24 (C0 2 2 2) (fun _ => (0 : ℚ)) q)) r = 0 := by
    intro w r
    simp only [z0]
    unfold mulVec; simp
  have a1 := fun d i j k hd hi hj hk => C38_cpu_actual notTwo_lo hany hN (a := ⟨none, none, false⟩) rfl rfl p0 p1 (d := d) (i := i) (j := j) (k := k) hd hi hj hk
  have hE1 : ∀ r < 24, L1.st.E r = e1Lo r := by
    intro r hr
    obtain ⟨d, hd, i, hi, j, hj, k, hk, e⟩ := cells24 r hr
    have := (a1 d i j k hd hi hj hk).1
    rw [step1] at this
    have lhs : (sol2 bcAbcLo).cellOf L1.st.E d i j k = L1.st.E r := by rw [e]; rfl
    rw [← lhs, this, e, ← e1Lo_cells d hd i hi j hj k hk]
    have q1 : inward bcAbcLo 0 i < 2 := inward_lt (by decide) hi
    have q2 : inward bcAbcLo 1 j < 2 := inward_lt (by decide) hj
    have q3 : inward bcAbcLo 2 k < 2 := inward_lt (by decide) hk
    show (advance (sol2 bcAbcLo) _).E (d * 8 + (inward bcAbcLo 0 i + 2 * (inward bcAbcLo 1 j + 2 * inward bcAbcLo 2 k))) = _
    rw [lo_E _ _ _ _ (by omega), zt]
    ring
  have hH1 : ∀ r < 24, L1.st.H r = 0 := by
    intro r hr
    obtain ⟨d, hd, i, hi, j, hj, k, hk, e⟩ := cells24 r hr
    have := (a1 d i j k hd hi hj hk).2.1
    rw [step1] at this
    have lhs : (sol2 bcAbcLo).cellOf L1.st.H d i j k = L1.st.H r := by rw [e]; rfl
    rw [← lhs, this]
    have q1 : inward bcAbcLo 0 i < 2 := inward_lt (by decide) hi
    have q2 : inward bcAbcLo 1 j < 2 := inward_lt (by decide) hj
    have q3 : inward bcAbcLo 2 k < 2 := inward_lt (by decide) hk
    show (advance (sol2 bcAbcLo) _).H (d * 8 + (inward bcAbcLo 0 i + 2 * (inward bcAbcLo 1 j + 2 * inward bcAbcLo 2 k))) = _
    rw [lo_H _ _ _ _ (by omega), z0]
    ring
  have hJ1 := a1 0 0 0 0 (by decide) (by decide) (by decide) (by decide)
  have hJ : L1.st.J = delta 9 := by rw [hJ1.2.2.1, step1]; rfl
  have h0 : L1.st.step0 = false := by rw [hJ1.2.2.2, step1]; rfl
  -- the second step
  have a2 := (C38_cpu_actual notTwo_lo hany hN (a := ⟨none, none, false⟩) rfl rfl p1 p2 (d := 1) (i := 0) (j := 0) (k := 0) (by decide) (by decide) (by decide) (by decide)).1
  have step2 : midStep (sol2 bcAbcLo) ⟨none, none, false⟩ (0 + 1) L1.st = advance (sol2 bcAbcLo) ⟨L1.st.E, L1.st.H, delta 9, false⟩ := by
    show oneStep (sol2 bcAbcLo) L1.st = _
    rw [oneStep_started _ _ h0, ← hJ, ← h0]
  rw [c', step2] at a2
  have e9 : (sol2 bcAbcLo).cellOf (advance (sol2 bcAbcLo) ⟨L1.st.E, L1.st.H, delta 9, false⟩).E 1 (inward bcAbcLo 0 0) (inward bcAbcLo 1 0) (inward bcAbcLo 2 0) =
      (advance (sol2 bcAbcLo) ⟨L1.st.E, L1.st.H, delta 9, false⟩).E 9 := rfl
  rw [e9, lo_E _ _ _ _ (by decide), hE1 9 (by decide)] at a2
  refine e2Lo_ne ?_
  rw [a2]
  unfold e2Lo
  have : mulVec 24 (transpose (C0 2 2 2)) (fun q => (applyBC unit2 bcAbcLo (C0 2 2 2)).tL.array q * (0 - mulVec 24 (C0 2 2 2) e1Lo q)) 9 =
      mulVec 24 (transpose (C0 2 2 2)) (fun q => (applyBC unit2 bcAbcLo (C0 2 2 2)).tL.array q * (L1.st.H q - mulVec 24 (C0 2 2 2) L1.st.E q)) 9 := by
    refine mulVec_congr (fun _ _ => rfl) fun q hq => ?_
    rw [hH1 q hq, mulVec_congr (fun _ _ => rfl) hE1]
  rw [this]
  rfl

/-! ### C39 with ABC faces -/

/-- **C39 (calls, any boundary).** In every run that completes, the calls are the source at n*dt, one step, the callback at n*dt, for n = 0, ..., Nt-1. -/
theorem C39_calls {s : Solver K} {bc : Faces String} {a : EmArgs K} {Nt : ℕ} {st : State K} {L : Loop K} (h : emsolve s bc a Nt st = .ok L) :
    L.log = (List.range Nt).flatMap (fun n : ℕ => specCalls a ((n : K) * s.dt)) := by
  induction Nt generalizing L with
  | zero => cases h; rfl
  | succ n ih =>
    obtain ⟨L0, p, q⟩ := emsolve_succ h
    have ih := ih p
    rw [List.range_succ, List.flatMap_append, List.flatMap_singleton, ← ih]
    have habc : ∀ X Y : Loop K, abcPart s bc a.gpu X = .ok Y → Y.log = X.log := by
      intro X Y hXY
      unfold abcPart at hXY
      split at hXY
      · simp only [bind, Except.bind] at hXY
        cases hE : updateAbc bc X.E2 (s.fld X.st.E) with
        | error e => rw [hE] at hXY; cases hXY
        | ok E =>
          rw [hE] at hXY
          cases hH : updateAbc bc X.H2 (s.fld X.st.H) with
          | error e => rw [hH] at hXY; cases hXY
          | ok H => rw [hH] at hXY; cases hXY; rfl
      · cases hXY; rfl
    unfold emBody at q
    simp only [bind, Except.bind] at q
    cases hA : abcPart s bc a.gpu { callSource a (n * s.dt) L0 with st := oneStep s (callSource a (n * s.dt) L0).st, log := (callSource a (n * s.dt) L0).log ++ [.step] } with
    | error e => rw [hA] at q; cases q
    | ok Y =>
      rw [hA] at q
      have hY := habc _ _ hA
      cases q
      unfold callBack specCalls
      unfold callSource at hY
      cases hs : a.source <;> cases hc : a.callback <;> rw [hs] at hY <;> simp [hY]

/-- One pass of a source-free run on the CPU, as a function of the fields alone. -/
def passCpu (s : Solver K) (bc : Faces String) (cb : State K → State K) (st : State K) : Py (State K) :=
  if anyFace isAbc bc then do
    let E ← updateAbc bc (getAbc false bc (s.fld fun _ => 0)) (s.fld (oneStep s st).E)
    let H ← updateAbc bc (getAbc false bc (s.fld fun _ => 0)) (s.fld (oneStep s st).H)
    return cb { oneStep s st with E := E.array, H := H.array }
  else .ok (cb (oneStep s st))

theorem emBody_cpu {s : Solver K} {bc : Faces String} {a : EmArgs K} (hgpu : a.gpu = false) (hs : a.source = none)
    (hcb : ∀ f, a.callback = some f → ∀ t t' st, f t st = f t' st) {n : ℕ} {L L' : Loop K} (hL : FromFields s bc a.gpu L) (h : emBody s bc a n L = .ok L') :
    passCpu s bc ((a.callback.getD fun _ => id) 0) L.st = .ok L'.st := by
  obtain ⟨⟨v1, g1⟩, ⟨v2, g2⟩, -⟩ := hL
  have hb : ∀ t (X : Loop K), (callBack a t X).st = (a.callback.getD fun _ => id) 0 X.st := by
    intro t X
    unfold callBack
    cases hc : a.callback with
    | none => rfl
    | some f => exact hcb f hc t 0 X.st
  have d1 : L.E2 = getAbc false bc (s.fld fun _ => 0) := by rw [g1, hgpu]; rfl
  have d2 : L.H2 = getAbc false bc (s.fld fun _ => 0) := by rw [g2, hgpu]; rfl
  unfold emBody abcPart callSource at h
  unfold passCpu
  by_cases hany : anyFace isAbc bc = true
  · simp only [hany, if_true, bind, Except.bind, hs, d1, d2] at h ⊢
    cases hE : updateAbc bc (getAbc false bc (s.fld fun _ => 0)) (s.fld (oneStep s L.st).E) with
    | error e => rw [hE] at h; cases h
    | ok E =>
      rw [hE] at h
      cases hH : updateAbc bc (getAbc false bc (s.fld fun _ => 0)) (s.fld (oneStep s L.st).H) with
      | error e => rw [hH] at h; cases h
      | ok H => rw [hH] at h; cases h; simp only [hb]; rfl
  · simp only [hany, Bool.false_eq_true, if_false, bind, Except.bind, hs] at h ⊢
    cases h
    rw [hb]

/-- **C39 (composition with ABC on the CPU).** The same with any one-sided set of ABC faces: on the CPU the ABC keeps nothing from one
call of `emsolve` to the next. -/
theorem C39_split_abc {s : Solver K} {bc : Faces String} (h1 : ¬ TwoSided bc) (hN : 2 ≤ s.Nx ∧ 2 ≤ s.Ny ∧ 2 ≤ s.Nz) {a : EmArgs K} (hgpu : a.gpu = false)
    (hs : a.source = none) (hcb : ∀ f, a.callback = some f → ∀ t t' st, f t st = f t' st) (N1 N2 : ℕ) (st : State K) :
    ∃ L1 L2 L, emsolve s bc a N1 st = .ok L1 ∧ emsolve s bc a N2 L1.st = .ok L2 ∧ emsolve s bc a (N1 + N2) st = .ok L ∧ L.st = L2.st := by
  obtain ⟨L1, p1, f1⟩ := C38_completes h1 hN a N1 st
  induction N2 with
  | zero => exact ⟨L1, _, L1, p1, rfl, p1, rfl⟩
  | succ n ih =>
    obtain ⟨L1', L2, L, q1, q2, q3, q4⟩ := ih
    rw [p1] at q1; cases q1
    obtain ⟨L2', r1, r2⟩ := C38_completes h1 hN a (n + 1) L1.st
    obtain ⟨L', s1, s2⟩ := C38_completes h1 hN a (N1 + (n + 1)) st
    refine ⟨L1, L2', L', p1, r1, s1, ?_⟩
    obtain ⟨X, x1, x2⟩ := emsolve_succ r1
    obtain ⟨Y, y1, y2⟩ := emsolve_succ (show emsolve s bc a ((N1 + n) + 1) st = .ok L' from s1)
    rw [q2] at x1; cases x1
    rw [q3] at y1; cases y1
    obtain ⟨X, x1, x3⟩ := C38_completes h1 hN a n L1.st
    rw [q2] at x1; cases x1
    obtain ⟨Y, y1, y3⟩ := C38_completes h1 hN a (N1 + n) st
    rw [q3] at y1; cases y1
    have e1 := emBody_cpu hgpu hs hcb x3 x2
    have e2 := emBody_cpu hgpu hs hcb y3 y2
    rw [q4, e1] at e2
    exact (Except.ok.inj e2).symm

/-! ### C40 -/

/-- routines.py:116-126: the files opened, one per field and component, in order of first appearance. -/
def saveNames (fields components : List String) : List String :=
  fields.flatMap fun f => if f.length = 1 then components.map (f ++ ·) else [f]

/-- routines.py:112-212 `emsolve(Nt, …, save, fields, components)`.  The loop `for hf in hfs` (128-131) runs over the names of
the dictionary: the first assignment `hf["x"] = …` to a `str` raises `TypeError`. -/
def emsolveSave (s : Solver K) (bc : Faces String) (a : EmArgs K) (save : Bool) (fields components : List String) (Nt : ℕ) (st : State K) : Py (Loop K) :=
  if save && (saveNames fields components).length ≠ 0 then .error .typeError else emsolve s bc a Nt st

/-- **C40 refuted.** `emsolve(save=True)` with at least one file to write always raises `TypeError` before the first step. -/
theorem C40_refuted (s : Solver K) (bc : Faces String) (a : EmArgs K) {fields components : List String} (h : saveNames fields components ≠ []) (Nt : ℕ)
    (st : State K) : emsolveSave s bc a true fields components Nt st = .error .typeError := by
  unfold emsolveSave
  rw [if_pos]
  simp [h]

/-- There is always something to write: a field given with its component, or a one-letter field and a component. -/
theorem C40_hyp {fields components : List String} (hf : fields ≠ []) (hc : components ≠ []) : saveNames fields components ≠ [] := by
  obtain ⟨f, hf⟩ := List.exists_mem_of_ne_nil _ hf
  obtain ⟨c, hc⟩ := List.exists_mem_of_ne_nil _ hc
  intro h
  unfold saveNames at h
  rw [List.flatMap_eq_nil_iff] at h
  have := h f hf
  split_ifs at this
  simp only [List.map_eq_nil_iff] at this
  rw [this] at hc
  cases hc

/-- **C40 (partial).** With `save=False` the saving arguments have no effect. -/
theorem C40_partial (s : Solver K) (bc : Faces String) (a : EmArgs K) (fields components : List String) (Nt : ℕ) (st : State K) :
    emsolveSave s bc a false fields components Nt st = emsolve s bc a Nt st := rfl

/-! ### non-vacuity -/

/-- The default arguments of `emsolve(save=True)`. -/
example : saveNames ["E"] ["Abs"] = ["EAbs"] ∧ saveNames ["E", "Hy"] ["x", "z"] = ["Ex", "Ez", "Hy"] := by decide
example : TwoSided ⟨"abc", "ABC", "pec", "pec", "pec", "pec"⟩ := ⟨0, by decide, by decide, by decide⟩
example : ¬ TwoSided bcAbcLo ∧ anyFace isAbc bcAbcLo = true ∧ (2 ≤ (sol2 bcAbcLo).Nx) := ⟨notTwo_lo, by decide, by decide⟩
example : ∀ a < 3, isAbc (faceName bcAbcLo a .hi) = false := by decide
example : rampSource.source.isSome ∧ anyFace isAbc bcOpen = false := by decide

end Sol
end Wakis
