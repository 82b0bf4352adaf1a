import Verif.Py

/-!
# Model of `wakis/field.py`, class `Field`

A `Field` stores three components on an `Nx × Ny × Nz` grid in one flat numpy array of length
`3*N`, `N = Nx*Ny*Nz`.  The numpy array is a function `ℕ → K`; only the entries below `3*N` exist,
and every accessor below checks the index before it reads (out-of-range access is an exception
value, never a read of a junk entry).
-/

namespace Wakis

/-- field.py:52-75 `Field.__init__`: sizes and flat array.  `dtype`, `on_gpu` and `xp` are dropped:
the model is the CPU path over exact scalars `K`. -/
structure Fld (K : Type _) where
  Nx : ℕ
  Ny : ℕ
  Nz : ℕ
  array : ℕ → K

namespace Fld
variable {K : Type _}

/-- field.py:60 `self.N = Nx * Ny * Nz`. -/
def N (f : Fld K) : ℕ := f.Nx * f.Ny * f.Nz

/-- field.py:72-75: `np.ones(3N)` or `np.zeros(3N)`. -/
def new [Zero K] [One K] (Nx Ny Nz : ℕ) (useOnes : Bool := false) : Fld K :=
  ⟨Nx, Ny, Nz, fun _ => if useOnes then 1 else 0⟩

/-- The component argument of the API: a number or a string. -/
inductive CKey
  | num (i : ℤ)
  | str (s : String)
  deriving DecidableEq, Repr

/-- The tests `key == 0 or key == "x"`, `key == 1 or key == "y"`, `key == 2 or key == "z"` shared by
field.py:152-165 (`to_matrix`), 178-187 (`from_matrix`) and 238-287 (`__getitem__`). Python's
`True == 1` and `1.0 == 1` coincidences are not modelled. -/
def compOf (key : CKey) : Option ℕ :=
  if key = .num 0 ∨ key = .str "x" then some 0
  else if key = .num 1 ∨ key = .str "y" then some 1
  else if key = .num 2 ∨ key = .str "z" then some 2
  else none

/-- `np.reshape(a, (n0, n1, n2), order="F")` of a 1-D array: first index fastest. -/
def reshapeF (n0 n1 : ℕ) (a : ℕ → K) : ℕ → ℕ → ℕ → K :=
  fun i j k => a (i + n0 * (j + n1 * k))

/-- `np.reshape(m, n, order="F")` of a 3-D array of shape `(n0, n1, _)` to 1-D. -/
def ravelF (n0 n1 : ℕ) (m : ℕ → ℕ → ℕ → K) : ℕ → K :=
  fun p => m (p % n0) (p / n0 % n1) (p / n0 / n1)

/-- field.py:78-90 `field_x`, `field_y`, `field_z` getters: `array[c*N : (c+1)*N]`. -/
def part (f : Fld K) (c : ℕ) : ℕ → K := fun p => f.array (c * f.N + p)

/-- Assignment `array[c*N : (c+1)*N] = v` (field.py:98, 106, 114 and 179-185). -/
def setPart (f : Fld K) (c : ℕ) (v : ℕ → K) : Fld K :=
  { f with array := fun n => if c * f.N ≤ n ∧ n < (c + 1) * f.N then v (n - c * f.N) else f.array n }

/-- field.py:138-165 `to_matrix`; `none` is Python's `None` for an unknown key. -/
def toMatrix (f : Fld K) (key : CKey) : Option (ℕ → ℕ → ℕ → K) :=
  (compOf key).map fun c => reshapeF f.Nx f.Ny (f.part c)

/-- field.py:167-187 `from_matrix`. -/
def fromMatrix (f : Fld K) (mat : ℕ → ℕ → ℕ → K) (key : CKey) : Py (Fld K) :=
  match compOf key with
  | some c => .ok (f.setPart c (ravelF f.Nx f.Ny mat))
  | none => .error .indexError

/-- field.py:116-125 `toarray`. -/
def toarray (f : Fld K) : ℕ → K := f.array

/-- field.py:127-136 `fromarray`: `self.array[:] = array` with an array of length `3N`. -/
def fromarray (f : Fld K) (a : ℕ → K) : Fld K := { f with array := a }

/-- The result of numpy basic indexing with three selectors: the selected positions per axis and the
values.  Axes indexed by an integer have one position; numpy's dropping of those axes is not
modelled. -/
structure Block (K : Type _) where
  xs : List ℕ
  ys : List ℕ
  zs : List ℕ
  val : ℕ → ℕ → ℕ → K

/-- Resolves the three selectors of `m[kx, ky, kz]`. -/
def resolve3 (f : Fld K) (kx ky kz : Sel) : Py (List ℕ × List ℕ × List ℕ) := do
  let xs ← kx.resolve f.Nx
  let ys ← ky.resolve f.Ny
  let zs ← kz.resolve f.Nz
  return (xs, ys, zs)

/-- numpy `m[kx, ky, kz]`. -/
def index3 (f : Fld K) (m : ℕ → ℕ → ℕ → K) (kx ky kz : Sel) : Py (Block K) := do
  let (xs, ys, zs) ← f.resolve3 kx ky kz
  return ⟨xs, ys, zs, fun a b c => m (xs.getD a 0) (ys.getD b 0) (zs.getD c 0)⟩

/-- Right-hand side of an assignment `m[kx, ky, kz] = value`: a scalar, or an array whose shape must
match the selection (numpy broadcasting of size-one axes is not modelled). -/
inductive Rhs (K : Type _)
  | scalar (v : K)
  | arr (shape : ℕ × ℕ × ℕ) (v : ℕ → ℕ → ℕ → K)

/-- numpy `m[kx, ky, kz] = value`. -/
def assign3 (f : Fld K) (m : ℕ → ℕ → ℕ → K) (kx ky kz : Sel) (value : Rhs K) :
    Py (ℕ → ℕ → ℕ → K) := do
  let (xs, ys, zs) ← f.resolve3 kx ky kz
  match value with
  | .scalar v => return fun i j k => if i ∈ xs ∧ j ∈ ys ∧ k ∈ zs then v else m i j k
  | .arr shape v =>
    if shape = (xs.length, ys.length, zs.length) then
      return fun i j k =>
        if i ∈ xs ∧ j ∈ ys ∧ k ∈ zs then v (xs.idxOf i) (ys.idxOf j) (zs.idxOf k) else m i j k
    else throw .valueError

/-- The key of `field[...]`. -/
inductive Key
  /-- a tuple of length four -/
  | tup (kx ky kz : Sel) (c : CKey)
  /-- a tuple of any other length -/
  | badTup
  | int (n : ℤ)
  /-- anything that is not a tuple, int or slice -/
  | other
  deriving DecidableEq, Repr

/-- field.py:306-341 `__setitem__` (CPU).  A `None` from `to_matrix` is subscripted in line 330, a
`TypeError`. -/
def setitem (f : Fld K) (key : Key) (value : Rhs K) : Py (Fld K) :=
  match key with
  | .badTup => .error .indexError
  | .tup kx ky kz c =>
    match f.toMatrix c with
    | none => .error .typeError
    | some m => do
      let m' ← f.assign3 m kx ky kz value
      f.fromMatrix m' c
  | .int n =>
    if n ≤ f.N then do
      let a ← pyIndex (3 * f.N) n
      match value with
      | .scalar v => .ok { f with array := fun q => if q = a then v else f.array q }
      | .arr _ _ => .error .valueError
    else .error .indexError
  | .other => .error .indexError

/-- field.py:287 `type(key[3]) is str and key[3].lower() == "abs"`. -/
def isAbs : CKey → Bool
  | .str s => pyLower s == "abs"
  | .num _ => false

/-- field.py:529-563 `get_abs` (as matrix); `sqrt` and squaring are parameters so that the same
definition is used over any scalar type. -/
def absWith (norm3 : K → K → K → K) (f : Fld K) : ℕ → ℕ → ℕ → K := fun i j k =>
  norm3 (reshapeF f.Nx f.Ny (f.part 0) i j k) (reshapeF f.Nx f.Ny (f.part 1) i j k)
    (reshapeF f.Nx f.Ny (f.part 2) i j k)

/-- field.py:220-304 `__getitem__` (CPU) for tuple keys. -/
def getitem (norm3 : K → K → K → K) (f : Fld K) (kx ky kz : Sel) (c : CKey) : Py (Block K) :=
  match f.toMatrix c with
  | some m => f.index3 m kx ky kz
  | none => if isAbs c then f.index3 (f.absWith norm3) kx ky kz else .error .indexError

/-- field.py:289-296 `__getitem__` with an `int`. -/
def getInt (f : Fld K) (n : ℤ) : Py K :=
  if n ≤ f.N then (pyIndex (3 * f.N) n).map f.array else .error .indexError

/-- `field[i, j, k, c]` with three integers: the single selected value. -/
def get (f : Fld K) (i j k : ℤ) (c : CKey) : Py K :=
  match f.toMatrix c with
  | none => .error .indexError
  | some m => do
    let b ← f.index3 m (.int i) (.int j) (.int k)
    return b.val 0 0 0

/-- `field[i, j, k, c] = v` with three integers. -/
def set (f : Fld K) (i j k : ℤ) (c : CKey) (v : K) : Py (Fld K) :=
  f.setitem (.tup (.int i) (.int j) (.int k) c) (.scalar v)

/-- field.py:504-527 `compute_ijk` on Python integers (`//` and `%` are floor division). -/
def computeIjk (f : Fld K) (n : ℤ) : Py (ℤ × ℤ × ℤ) :=
  if n > f.N then .error .indexError
  else
    let k := n.fdiv (f.Nx * f.Ny)
    let i := (n - k * f.Nx * f.Ny).fmod f.Nx
    let j := (n - k * f.Nx * f.Ny).fdiv f.Nx
    .ok (i, j, k)

/-- field.py:362-364 and 371-374 `field * scalar`. -/
def mulScalar [Mul K] (f : Fld K) (s : K) : Fld K := { f with array := fun n => f.array n * s }

/-- field.py:371-374 `field * array` with a 1-D array of length `3N`. -/
def mulArray [Mul K] (f : Fld K) (a : ℕ → K) : Fld K := { f with array := fun n => f.array n * a n }

/-- field.py:366-369 `field * matrix`: for each component, `from_matrix(to_matrix(d) * other, d)` into
a zero field. -/
def mulMatrix [Mul K] [Zero K] [One K] (f : Fld K) (m : ℕ → ℕ → ℕ → K) : Fld K :=
  let comp := fun c => ravelF f.Nx f.Ny fun i j k => reshapeF f.Nx f.Ny (f.part c) i j k * m i j k
  (((new f.Nx f.Ny f.Nz).setPart 0 (comp 0)).setPart 1 (comp 1)).setPart 2 (comp 2)

/-- field.py:436-440 `field + field`. -/
def add [Add K] [Zero K] [One K] (f g : Fld K) : Fld K :=
  let comp := fun c p => f.part c p + g.part c p
  (((new f.Nx f.Ny f.Nz).setPart 0 (comp 0)).setPart 1 (comp 1)).setPart 2 (comp 2)

/-- field.py:443-446 `field + matrix`. -/
def addMatrix [Add K] [Zero K] [One K] (f : Fld K) (m : ℕ → ℕ → ℕ → K) : Fld K :=
  let comp := fun c => ravelF f.Nx f.Ny fun i j k => reshapeF f.Nx f.Ny (f.part c) i j k + m i j k
  (((new f.Nx f.Ny f.Nz).setPart 0 (comp 0)).setPart 1 (comp 1)).setPart 2 (comp 2)

/-- field.py:448-451 `field + array` (1-D array of length `3N`, or a numpy scalar). -/
def addArray [Add K] (f : Fld K) (a : ℕ → K) : Fld K := { f with array := fun n => f.array n + a n }

/-- Right operands of `*`, `+` and `__div__`. -/
inductive Operand (K : Type _)
  /-- Python `float` or `int` -/
  | number (s : K)
  /-- numpy scalar: has `shape == ()` -/
  | npScalar (s : K)
  /-- numpy array of shape `(Nx, Ny, Nz)` -/
  | matrix (m : ℕ → ℕ → ℕ → K)
  /-- numpy array of shape `(3N,)` -/
  | arr (a : ℕ → K)
  | field (g : Fld K)

/-- field.py:343-378 `__mul__`; a `Field` has no attribute `shape`. -/
def mul [Mul K] [Zero K] [One K] (f : Fld K) : Operand K → Py (Fld K)
  | .number s => .ok (f.mulScalar s)
  | .npScalar s => .ok (f.mulArray fun _ => s)
  | .matrix m => .ok (f.mulMatrix m)
  | .arr a => .ok (f.mulArray a)
  | .field _ => .error .attributeError

/-- field.py:417-453 `__add__`; a Python number has no attribute `shape`. -/
def addOp [Add K] [Zero K] [One K] (f : Fld K) : Operand K → Py (Fld K)
  | .field g => .ok (f.add g)
  | .number _ => .error .attributeError
  | .npScalar s => .ok (f.addArray fun _ => s)
  | .matrix m => .ok (f.addMatrix m)
  | .arr a => .ok (f.addArray a)

/-- The operator `field / other` in Python 3: the class defines `__div__` (field.py:380) but no
`__truediv__`, so the interpreter raises `TypeError`. -/
def truediv (_ : Fld K) (_ : Operand K) : Py (Fld K) := .error .typeError

end Fld
end Wakis
