import Verif.SolverModel

/-!
# C124: fields on the GPU

field.py with its CuPy branches: where the array of a field is (`numpy` array on the host or `cupy` array on the device), the flag `on_gpu`, and what the operations of the class do with it; the time step of solverFIT3D.py on
such fields.  Of CuPy the model uses: `asarray` and `.get()` copy values; `.get()` does not exist on numpy arrays; numpy functions on device arrays give device arrays; arithmetic and assignment between a device array and a
numpy array (not a number) raises `TypeError`.
-/

namespace Wakis

/-- A `Field` (field.py:56-76) with `on_gpu` and the place of its array. -/
structure GFld (K : Type _) where
  fld : Fld K
  onGpu : Bool
  /-- the array is a CuPy array -/
  dev : Bool

namespace GFld
variable {K : Type _}

/-- field.py:56-76 `__init__`; without CuPy `self.xp` is never set, an `AttributeError` in line 73 or 75.  `cupy` says whether the import (field.py:10-15) succeeded. -/
def new [Zero K] [One K] (cupy : Bool) (Nx Ny Nz : ℕ) (useOnes useGpu : Bool) : Py (GFld K) :=
  if useGpu then
    if cupy then .ok ⟨Fld.new Nx Ny Nz useOnes, true, true⟩ else .error .attributeError
  else .ok ⟨Fld.new Nx Ny Nz useOnes, false, false⟩

/-- field.py:189-203 `to_gpu`; without CuPy it prints. -/
def toGpu (cupy : Bool) (g : GFld K) : GFld K := if cupy then { g with onGpu := true, dev := true } else g

/-- field.py:205-218 `from_gpu`; a field not marked `on_gpu` stays as it is, with a printout. -/
def fromGpu (g : GFld K) : Py (GFld K) :=
  if g.onGpu then (if g.dev then .ok { g with onGpu := false, dev := false } else .error .attributeError) else .ok g

/-- The end of every branch of field.py:220-304: `.get()` if `on_gpu`.  The result carries the place of the values. -/
def fetch {α : Type _} (g : GFld K) (v : α) : Py (α × Bool) :=
  if g.onGpu then (if g.dev then .ok (v, false) else .error .attributeError) else .ok (v, g.dev)

/-- field.py:220-288 `__getitem__` with a tuple (`get_abs`, 529-563, ends in `.get()` as well). -/
def getitem (norm3 : K → K → K → K) (g : GFld K) (kx ky kz : Sel) (c : Fld.CKey) : Py (Fld.Block K × Bool) := do
  let b ← g.fld.getitem norm3 kx ky kz c
  g.fetch b

/-- field.py:289-297 `__getitem__` with an integer. -/
def getInt (g : GFld K) (n : ℤ) : Py (K × Bool) := do
  let v ← g.fld.getInt n
  g.fetch v

/-- field.py:306-341 `__setitem__` with a number or numpy array: `on_gpu` moves the value to the device first (319-320); an array assigned to an array elsewhere raises. -/
def setitem (g : GFld K) (key : Fld.Key) (value : Fld.Rhs K) : Py (GFld K) := do
  let f ← g.fld.setitem key value
  match value with
  | .scalar _ => .ok { g with fld := f }
  | .arr _ _ => if g.onGpu = g.dev then .ok { g with fld := f } else .error .typeError

/-- field.py:479-502 `copy`: dimensions, flag and array. -/
def copy (g : GFld K) : GFld K := g

/-- Right operands of `*` and `+`; arrays with their place. -/
inductive GOperand (K : Type _)
  | number (s : K)
  | npScalar (s : K)
  | matrix (m : ℕ → ℕ → ℕ → K) (dev : Bool)
  | arr (a : ℕ → K) (dev : Bool)
  | field (h : GFld K)

/-- field.py:343-378 `__mul__`: the result is a new field without `use_gpu`; a number or 1-D array replaces its array by the product, a matrix is written into its (host) array. -/
def mul [Mul K] [Zero K] [One K] (g : GFld K) : GOperand K → Py (GFld K)
  | .number s => .ok ⟨g.fld.mulScalar s, false, g.dev⟩
  | .npScalar s => .ok ⟨g.fld.mulArray fun _ => s, false, g.dev⟩
  | .matrix m d => if g.dev = d then (if d then .error .typeError else .ok ⟨g.fld.mulMatrix m, false, false⟩) else .error .typeError
  | .arr a d => if g.dev = d then .ok ⟨g.fld.mulArray a, false, g.dev⟩ else .error .typeError
  | .field _ => .error .attributeError

/-- field.py:417-453 `__add__`, likewise; the components of a sum of fields are written into the (host) array of the result. -/
def add [Add K] [Zero K] [One K] (g : GFld K) : GOperand K → Py (GFld K)
  | .field h => if g.dev = h.dev then (if g.dev then .error .typeError else .ok ⟨g.fld.add h.fld, false, false⟩) else .error .typeError
  | .number _ => .error .attributeError
  | .npScalar s => .ok ⟨g.fld.addArray fun _ => s, false, g.dev⟩
  | .matrix m d => if g.dev = d then (if d then .error .typeError else .ok ⟨g.fld.addMatrix m, false, false⟩) else .error .typeError
  | .arr a d => if g.dev = d then .ok ⟨g.fld.addArray a, false, g.dev⟩ else .error .typeError

/-! ### Histories -/

/-- What a user does with a field. -/
inductive Op (K : Type _)
  | get (kx ky kz : Sel) (c : Fld.CKey)
  | getInt (n : ℤ)
  | set (key : Fld.Key) (value : Fld.Rhs K)
  | toGpu
  | fromGpu
  /-- go on with a copy -/
  | copy

/-- What the user gets back: nothing, or values and whether these are on the device. -/
inductive Out (K : Type _)
  | done
  | block (b : Fld.Block K) (dev : Bool)
  | number (v : K) (dev : Bool)

/-- One operation; an exception leaves the field as it is. -/
def step (norm3 : K → K → K → K) (cupy : Bool) (g : GFld K) : Op K → GFld K × Py (Out K)
  | .get kx ky kz c => (g, (g.getitem norm3 kx ky kz c).map fun p => .block p.1 p.2)
  | .getInt n => (g, (g.getInt n).map fun p => .number p.1 p.2)
  | .set key value =>
    match g.setitem key value with
    | .ok g' => (g', .ok .done)
    | .error e => (g, .error e)
  | .toGpu => (g.toGpu cupy, .ok .done)
  | .fromGpu =>
    match g.fromGpu with
    | .ok g' => (g', .ok .done)
    | .error e => (g, .error e)
  | .copy => (g.copy, .ok .done)

/-- A history: the field at the end and everything returned or raised. -/
def run (norm3 : K → K → K → K) (cupy : Bool) (g : GFld K) : List (Op K) → GFld K × List (Py (Out K))
  | [] => (g, [])
  | op :: ops =>
    let (g', o) := step norm3 cupy g op
    let (g'', os) := run norm3 cupy g' ops
    (g'', o :: os)

/-! ### Specification -/

/-- The same operation on a field of the host, for which the moves do nothing. -/
def hostStep (norm3 : K → K → K → K) (f : Fld K) : Op K → Fld K × Py (Out K)
  | .get kx ky kz c => (f, (f.getitem norm3 kx ky kz c).map fun b => .block b false)
  | .getInt n => (f, (f.getInt n).map fun v => .number v false)
  | .set key value =>
    match f.setitem key value with
    | .ok f' => (f', .ok .done)
    | .error e => (f, .error e)
  | .toGpu => (f, .ok .done)
  | .fromGpu => (f, .ok .done)
  | .copy => (f, .ok .done)

/-- A history on the host. -/
def hostRun (norm3 : K → K → K → K) (f : Fld K) : List (Op K) → Fld K × List (Py (Out K))
  | [] => (f, [])
  | op :: ops => ((hostRun norm3 (hostStep norm3 f op).1 ops).1, (hostStep norm3 f op).2 :: (hostRun norm3 (hostStep norm3 f op).1 ops).2)

theorem step_host (norm3 : K → K → K → K) (cupy : Bool) {g : GFld K} (h : g.onGpu = g.dev) (op : Op K) :
    (step norm3 cupy g op).1.onGpu = (step norm3 cupy g op).1.dev ∧ (step norm3 cupy g op).1.fld = (hostStep norm3 g.fld op).1 ∧ (step norm3 cupy g op).2 = (hostStep norm3 g.fld op).2 := by
  obtain ⟨f, o, d⟩ := g
  have h' : o = d := h
  subst h'
  cases op with
  | get kx ky kz c =>
    refine ⟨rfl, rfl, ?_⟩
    simp only [step, hostStep, getitem]
    cases hb : f.getitem norm3 kx ky kz c <;> cases o <;> rfl
  | getInt n =>
    refine ⟨rfl, rfl, ?_⟩
    simp only [step, hostStep, getInt]
    cases hb : f.getInt n <;> cases o <;> rfl
  | set key value =>
    simp only [step, hostStep, setitem]
    cases hb : f.setitem key value with
    | error e => exact ⟨rfl, rfl, rfl⟩
    | ok f' =>
      cases value with
      | scalar v => exact ⟨rfl, rfl, rfl⟩
      | arr s v => simp [bind, Except.bind]
  | toGpu => cases cupy <;> exact ⟨rfl, rfl, rfl⟩
  | fromGpu => cases o <;> exact ⟨rfl, rfl, rfl⟩
  | copy => exact ⟨rfl, rfl, rfl⟩

/-- **C124.** A field that could be created, on the host or the device, with or without CuPy: whatever is read, assigned and copied, and however often it is moved between host and device in between, every value returned is on the
host, and values, exceptions and the final contents are those of a field on the host that is never moved. -/
theorem C124_transparent [Zero K] [One K] (norm3 : K → K → K → K) (cupy useOnes useGpu : Bool) (Nx Ny Nz : ℕ) {g : GFld K} (hg : new cupy Nx Ny Nz useOnes useGpu = .ok g) (ops : List (Op K)) :
    (run norm3 cupy g ops).1.fld = (hostRun norm3 (Fld.new Nx Ny Nz useOnes) ops).1 ∧ (run norm3 cupy g ops).2 = (hostRun norm3 (Fld.new Nx Ny Nz useOnes) ops).2 := by
  have h0 : g.onGpu = g.dev ∧ g.fld = Fld.new Nx Ny Nz useOnes := by
    unfold new at hg
    split_ifs at hg <;> cases hg <;> exact ⟨rfl, rfl⟩
  have main : ∀ (ops : List (Op K)) (g : GFld K), g.onGpu = g.dev → (run norm3 cupy g ops).1.fld = (hostRun norm3 g.fld ops).1 ∧ (run norm3 cupy g ops).2 = (hostRun norm3 g.fld ops).2 := by
    intro ops
    induction ops with
    | nil => exact fun g _ => ⟨rfl, rfl⟩
    | cons op ops ih =>
      intro g hg
      obtain ⟨h1, h2, h3⟩ := step_host norm3 cupy hg op
      obtain ⟨i1, i2⟩ := ih _ h1
      rw [h2] at i1 i2
      exact ⟨i1, congrArg₂ List.cons h3 i2⟩
  rw [← h0.2]
  exact main ops g h0.1

/-- **C124 (without CuPy).** Asking for a field on the GPU raises, exactly if CuPy is missing. -/
theorem C124_no_cupy [Zero K] [One K] (cupy useOnes useGpu : Bool) (Nx Ny Nz : ℕ) : new (K := K) cupy Nx Ny Nz useOnes useGpu = .error .attributeError ↔ useGpu = true ∧ cupy = false := by
  unfold new
  cases useGpu <;> cases cupy <;> simp

/-- **C124 (products; refuted).** The product of a field on the GPU with a number has the right values, but reading it returns device values, and `from_gpu` does not bring it back: it is not marked as being on the GPU. -/
theorem C124_product_refuted [Mul K] [Zero K] [One K] (norm3 : K → K → K → K) {g : GFld K} (h : g.dev = true) (s : K) : ∃ r, g.mul (.number s) = .ok r ∧ r.fld = g.fld.mulScalar s ∧ r.fromGpu = .ok r ∧ r.dev = true ∧
    (∀ kx ky kz c b, r.fld.getitem norm3 kx ky kz c = .ok b → r.getitem norm3 kx ky kz c = .ok (b, true)) :=
  ⟨_, rfl, rfl, rfl, h, fun kx ky kz c b hb => by
    unfold getitem
    rw [hb]
    show Except.ok (b, g.dev) = _
    rw [h]⟩

/-- **C124 (sums; refuted).** The sum of two fields and products and sums with matrices raise `TypeError` as soon as a field on the GPU takes part, also if all of them are there. -/
theorem C124_sum_refuted [Mul K] [Add K] [Zero K] [One K] {g : GFld K} (h : g.dev = true) (k : GFld K) (m : ℕ → ℕ → ℕ → K) (d : Bool) :
    g.add (.field k) = .error .typeError ∧ k.add (.field g) = .error .typeError ∧ g.add (.matrix m d) = .error .typeError ∧ g.mul (.matrix m d) = .error .typeError := by
  obtain ⟨f, o, d'⟩ := g
  obtain ⟨f2, o2, d2⟩ := k
  simp only at h
  subst h
  cases d <;> cases d2 <;> exact ⟨rfl, rfl, rfl, rfl⟩

/-- The host operand. -/
def GOperand.onHost : Fld.Operand K → GOperand K
  | .number s => .number s
  | .npScalar s => .npScalar s
  | .matrix m => .matrix m false
  | .arr a => .arr a false
  | .field g => .field ⟨g, false, false⟩

/-- **C124 (arithmetic on the host).** Products and sums of a field on the host with operands on the host are those of C06. -/
theorem C124_host_arithmetic [Mul K] [Add K] [Zero K] [One K] (f : Fld K) (x : Fld.Operand K) :
    (⟨f, false, false⟩ : GFld K).mul (.onHost x) = (f.mul x).map (fun r => ⟨r, false, false⟩) ∧ (⟨f, false, false⟩ : GFld K).add (.onHost x) = (f.addOp x).map (fun r => ⟨r, false, false⟩) := by
  cases x <;> exact ⟨rfl, rfl⟩

end GFld

/-! ### The time step -/

namespace Sol
open Sparse
variable {K : Type _} [Field K]

/-- An array with its place. -/
structure Arr (K : Type _) where
  dev : Bool
  v : Vec K

/-- Elementwise operation of two arrays. -/
def Arr.op (f : K → K → K) (a b : Arr K) : Py (Arr K) := if a.dev = b.dev then .ok ⟨a.dev, fun n => f (a.v n) (b.v n)⟩ else .error .typeError

/-- Product of a sparse matrix (scipy or cupyx) with an array. -/
def Arr.matMul (dev : Bool) (n : ℕ) (M : Mat K) (a : Arr K) : Py (Arr K) := if dev = a.dev then .ok ⟨a.dev, mulVec n M a.v⟩ else .error .typeError

/-- Product with a number. -/
def Arr.scale (s : K) (a : Arr K) : Arr K := ⟨a.dev, fun n => s * a.v n⟩

/-- field.py:127-136 `fromarray`: `self.array[:] = array`. -/
def Arr.fromarray (old a : Arr K) : Py (Arr K) := if old.dev = a.dev then .ok a else .error .typeError

/-- A solver with the places of its matrices, `ieps` and `sigma`. -/
structure GSolver (K : Type _) where
  s : Solver K
  matDev : Bool
  iepsDev : Bool
  sigmaDev : Bool

/-- The fields with their places (`on_gpu` is the place: they are never results of products). -/
structure GState (K : Type _) where
  E : Arr K
  H : Arr K
  J : Arr K
  step0 : Bool

/-- The values. -/
def GState.st (g : GState K) : State K := ⟨g.E.v, g.H.v, g.J.v, g.step0⟩

/-- solverFIT3D.py:159-169 and 307-323: the fields are made with `use_gpu`; the matrices and tensors are moved if `cupyx` is there, else `ImportError`.  The host set-up in between (170-305) is `s`. -/
def gConstruct (cupy cupyx useGpu : Bool) (s : Solver K) : Py (GSolver K × GState K) :=
  if useGpu then
    if cupy then
      if cupyx then .ok (⟨s, true, true, true⟩, ⟨⟨true, fun _ => 0⟩, ⟨true, fun _ => 0⟩, ⟨true, fun _ => 0⟩, true⟩) else .error .importError
    else .error .attributeError
  else .ok (⟨s, false, false, false⟩, ⟨⟨false, fun _ => 0⟩, ⟨false, fun _ => 0⟩, ⟨false, fun _ => 0⟩, true⟩)

/-- solverFIT3D.py:385-400. -/
def gAdvance (gs : GSolver K) (g : GState K) : Py (GState K) := do
  let x ← Arr.matMul gs.matDev gs.s.n3 gs.s.M1 g.E
  let h ← Arr.op (fun a b => a - b) g.H (x.scale gs.s.dt)
  let H ← Arr.fromarray g.H h
  let y ← Arr.matMul gs.matDev gs.s.n3 gs.s.M2 H
  let w ← Arr.op (fun a b => a * b) ⟨gs.iepsDev, gs.s.ieps⟩ g.J
  let d ← Arr.op (fun a b => a - b) y w
  let e ← Arr.op (fun a b => a + b) g.E (d.scale gs.s.dt)
  let E ← Arr.fromarray g.E e
  if gs.s.useConductivity then
    let j ← Arr.op (fun a b => a * b) ⟨gs.sigmaDev, gs.s.sigma⟩ E
    let J ← Arr.fromarray g.J j
    return ⟨E, H, J, g.step0⟩
  else return ⟨E, H, g.J, g.step0⟩

/-- solverFIT3D.py:379-383 and `_set_ghosts_to_0` (1102-1122), whose assignments of numbers work in both places. -/
def gOneStep (gs : GSolver K) (g : GState K) : Py (GState K) :=
  if g.step0 then
    gAdvance gs ⟨⟨g.E.dev, (setGhostsTo0 gs.s g.st).E⟩, ⟨g.H.dev, (setGhostsTo0 gs.s g.st).H⟩, g.J, false⟩
  else gAdvance gs g

/-- What happens to a solver: time steps, assignments, and moves of one of its fields by the user. -/
inductive GEv (K : Type _)
  | ev (e : Ev K)
  | move (f : Which) (toGpu : Bool)

/-- One event. -/
def gEvent (gs : GSolver K) (g : GState K) : GEv K → Py (GState K)
  | .ev .step => gOneStep gs g
  | .ev (.write .E n v) => .ok { g with E := ⟨g.E.dev, Function.update g.E.v n v⟩ }
  | .ev (.write .H n v) => .ok { g with H := ⟨g.H.dev, Function.update g.H.v n v⟩ }
  | .ev (.write .J n v) => .ok { g with J := ⟨g.J.dev, Function.update g.J.v n v⟩ }
  | .move .E d => .ok { g with E := ⟨d, g.E.v⟩ }
  | .move .H d => .ok { g with H := ⟨d, g.H.v⟩ }
  | .move .J d => .ok { g with J := ⟨d, g.J.v⟩ }

/-- A run; an exception ends it. -/
def gRun (gs : GSolver K) (g : GState K) : List (GEv K) → Py (GState K)
  | [] => .ok g
  | e :: es => do
    let g' ← gEvent gs g e
    gRun gs g' es

/-- Everything the step works with is in the same place. -/
def SamePlace (gs : GSolver K) (g : GState K) : Prop :=
  g.E.dev = gs.matDev ∧ g.H.dev = gs.matDev ∧ g.J.dev = gs.matDev ∧ gs.iepsDev = gs.matDev ∧ (gs.s.useConductivity = true → gs.sigmaDev = gs.matDev)

/-- **C124 (time step).** With everything in one place the step is the step on the host; otherwise it raises `TypeError`. -/
theorem C124_step (gs : GSolver K) (g : GState K) :
    (SamePlace gs g → gOneStep gs g = .ok ⟨⟨gs.matDev, (oneStep gs.s g.st).E⟩, ⟨gs.matDev, (oneStep gs.s g.st).H⟩, ⟨gs.matDev, (oneStep gs.s g.st).J⟩, false⟩) ∧ (¬ SamePlace gs g → gOneStep gs g = .error .typeError) := by
  have adv : ∀ g : GState K, (SamePlace gs g → gAdvance gs g = .ok ⟨⟨gs.matDev, (advance gs.s g.st).E⟩, ⟨gs.matDev, (advance gs.s g.st).H⟩, ⟨gs.matDev, (advance gs.s g.st).J⟩, g.step0⟩) ∧
      (¬ SamePlace gs g → gAdvance gs g = .error .typeError) := by
    intro g
    obtain ⟨⟨eD, E⟩, ⟨hD, H⟩, ⟨jD, J⟩, b⟩ := g
    obtain ⟨s, m, i, sg⟩ := gs
    obtain ⟨Nx, Ny, Nz, M1, M2, ieps, sigma, dt, uc⟩ := s
    constructor
    · rintro ⟨h1, h2, h3, h4, h5⟩
      simp only at h1 h2 h3 h4 h5
      subst h1 h2 h3 h4
      cases uc with
      | false => simp [gAdvance, Arr.matMul, Arr.op, Arr.fromarray, Arr.scale, advance, GState.st, bind, Except.bind, pure, Except.pure]
      | true =>
        have := h5 rfl
        subst this
        simp [gAdvance, Arr.matMul, Arr.op, Arr.fromarray, Arr.scale, advance, GState.st, bind, Except.bind, pure, Except.pure]
    · intro hn
      unfold SamePlace at hn
      simp only [gAdvance, Arr.matMul, Arr.op, Arr.fromarray, Arr.scale, bind, Except.bind, pure, Except.pure]
      revert hn
      cases eD <;> cases hD <;> cases jD <;> cases m <;> cases i <;> cases uc <;> cases sg <;> simp
  unfold gOneStep oneStep
  by_cases h0 : g.step0 = true
  · have hs : g.st.step0 = true := h0
    rw [if_pos h0, if_pos hs]
    have := adv ⟨⟨g.E.dev, (setGhostsTo0 gs.s g.st).E⟩, ⟨g.H.dev, (setGhostsTo0 gs.s g.st).H⟩, g.J, false⟩
    exact ⟨fun h => this.1 h, fun h => this.2 h⟩
  · have h0' : g.step0 = false := by simpa using h0
    have hs : ¬ g.st.step0 = true := h0
    rw [if_neg h0, if_neg hs]
    have := adv g
    rw [h0'] at this
    exact this

/-- **C124 (runs).** A solver that could be constructed, on the host or the GPU: time steps and assignments never raise for the place of an array and give the fields of the run on the host. -/
theorem C124_run (cupy cupyx useGpu : Bool) (s : Solver K) {gs : GSolver K} {g : GState K} (hc : gConstruct cupy cupyx useGpu s = .ok (gs, g)) (evs : List (Ev K)) :
    ∃ g', gRun gs g (evs.map .ev) = .ok g' ∧ g'.st = runEv s initState evs ∧ g'.E.dev = useGpu ∧ g'.H.dev = useGpu ∧ g'.J.dev = useGpu := by
  have h0 : gs.s = s ∧ gs.matDev = useGpu ∧ SamePlace gs g ∧ g.st = initState := by
    unfold gConstruct at hc
    split_ifs at hc with h1 h2 h3
    · cases hc; exact ⟨rfl, h1.symm, ⟨rfl, rfl, rfl, rfl, fun _ => rfl⟩, rfl⟩
    · cases hc; exact ⟨rfl, by simpa using h1, ⟨rfl, rfl, rfl, rfl, fun _ => rfl⟩, rfl⟩
  obtain ⟨rfl, rfl, hp, hst⟩ := h0
  rw [← hst]
  clear hst hc
  induction evs generalizing g with
  | nil => exact ⟨g, rfl, rfl, hp.1, hp.2.1, hp.2.2.1⟩
  | cons e es ih =>
    have one : ∃ g1, gEvent gs g (.ev e) = .ok g1 ∧ g1.st = event gs.s g.st e ∧ SamePlace gs g1 := by
      cases e with
      | step =>
        refine ⟨_, (C124_step gs g).1 hp, ?_, ⟨rfl, rfl, rfl, hp.2.2.2.1, hp.2.2.2.2⟩⟩
        show (⟨_, _, _, _⟩ : State K) = oneStep gs.s g.st
        have : (oneStep gs.s g.st).step0 = false := by
          unfold oneStep
          split_ifs with h
          · rfl
          · show g.st.step0 = false
            simpa using h
        rw [← this]
      | write f n v =>
        cases f <;> exact ⟨_, rfl, rfl, hp⟩
    obtain ⟨g1, e1, e2, e3⟩ := one
    obtain ⟨g', i1, i2, i3⟩ := ih e3
    refine ⟨g', ?_, ?_, i3⟩
    · show (do let g' ← gEvent gs g (.ev e); gRun gs g' (es.map .ev)) = _
      rw [e1]
      exact i1
    · rw [i2, e2]
      rfl

/-- **C124 (moved fields; refuted).** On the GPU, moving E, H or J to the host with `from_gpu` (say, to look at it) makes the next time step raise, unless it is moved back. -/
theorem C124_moved_refuted (s : Solver K) {gs : GSolver K} {g : GState K} (hc : gConstruct true true true s = .ok (gs, g)) (f : Which) (evs : List (Ev K)) :
    gRun gs g (evs.map .ev ++ [.move f false, .ev .step]) = .error .typeError := by
  obtain ⟨g', h1, _, hE, hH, hJ⟩ := C124_run true true true s hc evs
  have hm : gs.matDev = true := by cases hc; rfl
  have app : ∀ (es fs : List (GEv K)) (a b : GState K), gRun gs a es = .ok b → gRun gs a (es ++ fs) = gRun gs b fs := by
    intro es
    induction es with
    | nil => intro fs a b h; cases h; rfl
    | cons e es ih =>
      intro fs a b h
      simp only [List.cons_append, gRun, bind, Except.bind] at h ⊢
      cases he : gEvent gs a e with
      | error _ => rw [he] at h; cases h
      | ok a' => rw [he] at h; exact ih fs a' b h
  rw [app _ _ _ _ h1]
  have bad : ∀ g2 : GState K, ¬ SamePlace gs g2 → gRun gs g2 [.ev .step] = .error .typeError := by
    intro g2 h2
    simp only [gRun, gEvent, bind, Except.bind, (C124_step gs g2).2 h2]
  cases f
  · exact bad { g' with E := ⟨false, g'.E.v⟩ } (fun h => by have := h.1; rw [hm] at this; cases this)
  · exact bad { g' with H := ⟨false, g'.H.v⟩ } (fun h => by have := h.2.1; rw [hm] at this; cases this)
  · exact bad { g' with J := ⟨false, g'.J.v⟩ } (fun h => by have := h.2.2.1; rw [hm] at this; cases this)

/-! ### Cases -/

/-- A field of 2 × 2 × 2 cells on the GPU: an assignment, a move to the host, a read. -/
example : (GFld.run (fun a b c => a + b + c) true (⟨Fld.new 2 2 2 false, true, true⟩ : GFld ℚ) [.set (.tup (.int 1) (.int 0) (.int 1) (.str "y")) (.scalar 7), .fromGpu, .getInt 3, .toGpu]).2.length = 4 ∧
    GFld.new (K := ℚ) true 2 2 2 false true = .ok ⟨Fld.new 2 2 2 false, true, true⟩ := ⟨rfl, rfl⟩

/-- The hypotheses of the refutations. -/
example : ((⟨Fld.new 1 1 1 true, true, true⟩ : GFld ℚ).mul (.number 2)).toBool = true ∧ ((⟨Fld.new 1 1 1 true, true, true⟩ : GFld ℚ).add (.field ⟨Fld.new 1 1 1 true, true, true⟩)).toBool = false := ⟨rfl, rfl⟩

example (s : Solver ℚ) : ∃ gs g, gConstruct true true true s = .ok (gs, g) ∧ gRun gs g [.ev .step, .move .E false, .ev .step] = .error .typeError :=
  ⟨_, _, rfl, C124_moved_refuted s rfl .E [.step]⟩

end Sol
end Wakis
