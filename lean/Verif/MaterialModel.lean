import Verif.SolverModel
import Mathlib.Analysis.SpecialFunctions.Pow.Real

/-!
# Model of the solver set-up: materials, PML conductivity, time step

`wakis/solverFIT3D.py` `__init__` (lines 217-285), `_apply_stl_materials`, `_fill_pml_sigmas`, and
`wakis/materials.py`.
-/

namespace Wakis
namespace Sol
variable {K : Type _}

/-! ### Materials -/

/-- A relative permittivity or permeability: a number or `np.inf`. -/
inductive RelC (K : Type _)
  | fin (v : K)
  | inf

/-- `m / (r * c0)` for a number `m` and a constant `r * c0` that may be infinite.  numpy returns `inf`
or `nan` when `r * c0 = 0`; here the quotient is `0` then. -/
def RelC.over [Field K] (m : K) (r : RelC K) (c0 : K) : K :=
  match r with
  | .fin v => m / (v * c0)
  | .inf => 0

/-- `[eps_r, mu_r]` (`sigma = none`) or `[eps_r, mu_r, sigma]`.  Lists of other lengths are not
modelled. -/
structure Material (K : Type _) where
  eps : RelC K
  mu : RelC K
  sigma : Option K

/-- materials.py:26-33 `material_lib`. -/
def materialLib [Field K] (name : String) : Option (Material K) :=
  if name = "pec" then some ⟨.inf, .fin 1, none⟩
  else if name = "vacuum" then some ⟨.fin 1, .fin 1, none⟩
  else if name = "dielectric" then some ⟨.fin 10, .fin 1, none⟩
  else if name = "lossy metal" then some ⟨.fin 10, .fin 1, some 10⟩
  else if name = "copper" then some ⟨.fin 58000000, .fin 1, some 58000000⟩
  else if name = "berillium" then some ⟨.fin 25000000, .fin 1, some 25000000⟩
  else none

/-- A material given by the user: a library name or a list. -/
inductive MatSpec (K : Type _)
  | name (s : String)
  | vals (m : Material K)

/-- solverFIT3D.py:217-218 and 1180-1185: names are looked up in lower case, `KeyError` if unknown. -/
def MatSpec.look [Field K] : MatSpec K → Py (Material K)
  | .vals m => .ok m
  | .name s =>
    match materialLib (pyLower s) with
    | some m => .ok m
    | none => .error .keyError

/-- The material tensors of the solver and the flag `use_conductivity`. -/
structure Mats (K : Type _) where
  ieps : Fld K
  imu : Fld K
  sigma : Fld K
  useCond : Bool

/-- solverFIT3D.py:217-241: background material.  `use0` is the flag left by `_apply_bc_to_C` (true with
PML).  Returns the tensors and `sigma_bg`. -/
def background [Field K] (Nx Ny Nz : ℕ) (eps0 mu0 : K) (use0 : Bool) (bg : MatSpec K) :
    Py (Mats K × K) := do
  let m ← bg.look
  let sbg := m.sigma.getD 0
  let ones : Fld K := Fld.new Nx Ny Nz true
  return (⟨ones.mulScalar (m.eps.over 1 eps0), ones.mulScalar (m.mu.over 1 mu0), ones.mulScalar sbg,
    use0 || m.sigma.isSome⟩, sbg)

/-- `np.reshape(grid[key], (Nx, Ny, Nz)).astype(int)` as a matrix of numbers. -/
def ind [Field K] (mask : ℕ → ℕ → ℕ → Bool) : ℕ → ℕ → ℕ → K := fun i j k => if mask i j k then 1 else 0

/-- `f += f * (-1.0 * mask)`, solverFIT3D.py:1188-1189 and others: zero inside the mask. -/
def clearIn [Field K] (f : Fld K) (mask : ℕ → ℕ → ℕ → Bool) : Py (Fld K) := do
  let g ← f.mul (.matrix fun i j k => -1 * ind mask i j k)
  f.addOp (.field g)

/-- solverFIT3D.py:1179-1224: one pass of the loop, for a material already looked up (the two branches
of the code for library and explicit materials are the same apart from the lookup). -/
def applySolid [Field K] [LinearOrder K] (eps0 mu0 sbg : K) (t : Mats K) (mask : ℕ → ℕ → ℕ → Bool)
    (m : Material K) : Py (Mats K) := do
  let ieps ← clearIn t.ieps mask
  let imu ← clearIn t.imu mask
  let ieps ← ieps.addOp (.matrix fun i j k => m.eps.over (ind mask i j k) eps0)
  let imu ← imu.addOp (.matrix fun i j k => m.mu.over (ind mask i j k) mu0)
  match m.sigma with
  | some s => do
    let sigma ← clearIn t.sigma mask
    let sigma ← sigma.addOp (.matrix fun i j k => ind mask i j k * s)
    return ⟨ieps, imu, sigma, true⟩
  | none =>
    if 0 < sbg then do
      let sigma ← clearIn t.sigma mask
      return ⟨ieps, imu, sigma, t.useCond⟩
    else return ⟨ieps, imu, t.sigma, t.useCond⟩

/-- A solid of the grid: its dictionary key and its cell mask (`grid.grid[key]`, the result of the STL
import, which is an input here). -/
abbrev Solid := String × (ℕ → ℕ → ℕ → Bool)

/-- solverFIT3D.py:1172-1224 `_apply_stl_materials`: solids in dictionary order; `stl_materials[key]`
raises `KeyError` if the solid has no material. -/
def applyStl [Field K] [LinearOrder K] (eps0 mu0 sbg : K) (dict : String → Option (MatSpec K)) :
    Mats K → List Solid → Py (Mats K)
  | t, [] => .ok t
  | t, s :: rest =>
    match dict s.1 with
    | none => .error .keyError
    | some spec => do
      let m ← spec.look
      let t' ← applySolid eps0 mu0 sbg t s.2 m
      applyStl eps0 mu0 sbg dict t' rest

/-- solverFIT3D.py:217-244: background, then solids. -/
def materials [Field K] [LinearOrder K] (Nx Ny Nz : ℕ) (eps0 mu0 : K) (use0 : Bool) (bg : MatSpec K)
    (dict : String → Option (MatSpec K)) (solids : List Solid) : Py (Mats K) := do
  let (t, sbg) ← background Nx Ny Nz eps0 mu0 use0 bg
  applyStl eps0 mu0 sbg dict t solids

/-! ### PML -/

/-- Key `f[m, :, :, d]`, `f[:, m, :, d]` or `f[:, :, m, d]`. -/
def planeKey (axis : ℕ) (m : ℤ) (d : Fld.CKey) : Fld.Key :=
  if axis = 0 then .tup (.int m) .all .all d
  else if axis = 1 then .tup .all (.int m) .all d
  else .tup .all .all (.int m) d

/-- `f[m, Ny//2, Nz//2, d]`, `f[Nx//2, m, Nz//2, d]` or `f[Nx//2, Ny//2, m, d]`: the reference value on
plane `m`. -/
def centreOf (f : Fld K) (axis : ℕ) (m : ℤ) (d : Fld.CKey) : Py K :=
  if axis = 0 then f.get m (f.Ny / 2 : ℕ) (f.Nz / 2 : ℕ) d
  else if axis = 1 then f.get (f.Nx / 2 : ℕ) m (f.Nz / 2 : ℕ) d
  else f.get (f.Nx / 2 : ℕ) (f.Ny / 2 : ℕ) m d

/-- The loop bodies `self.ieps[m, :, :, d] = ieps_0_pml; self.sigma[m, :, :, d] = sigma_0_pml +
sigma_mult_pml * prof` over a list of planes. -/
def pmlPlanes [Field K] (axis : ℕ) (d : Fld.CKey) (ieps0 s0 mult : K) :
    Mats K → List (ℤ × K) → Py (Mats K)
  | t, [] => .ok t
  | t, (m, p) :: rest => do
    let ieps ← t.ieps.setitem (planeKey axis m d) (.scalar ieps0)
    let sigma ← t.sigma.setitem (planeKey axis m d) (.scalar (s0 + mult * p))
    pmlPlanes axis d ieps0 s0 mult { t with ieps, sigma } rest

/-- The body `for d in ["x", "y", "z"]` of one PML face (solverFIT3D.py:899-911 and the five copies
below it): reference values on plane `ref` at the centre of the face, then the planes. -/
def pmlFace [Field K] [LinearOrder K] (axis : ℕ) (ref : ℤ) (planes : List (ℤ × K)) :
    Mats K → List Fld.CKey → Py (Mats K)
  | t, [] => .ok t
  | t, d :: ds => do
    let ieps0 ← centreOf t.ieps axis ref d
    let s0 ← centreOf t.sigma axis ref d
    let mult := if s0 < 1 then 1 else s0
    let t' ← pmlPlanes axis d ieps0 s0 mult t planes
    pmlFace axis ref planes t' ds

/-- The three component keys of the loops. -/
def xyz : List Fld.CKey := [.str "x", .str "y", .str "z"]

/-- solverFIT3D.py:897-911 (x), 913-927 (y), 929-943 (z): low face.  `sx[0:n] = pml_func(hi, lo, n)`
raises `ValueError` when the axis has fewer than `n` cells; `geom a b n i` is
`pml_func(a, b, n)[i]`. -/
def pmlLow [Field K] [LinearOrder K] (geom : K → K → ℕ → ℕ → K) (lo hi : K) (n : ℕ) (axis : ℕ)
    (t : Mats K) : Py (Mats K) :=
  if coord axis t.ieps.Nx t.ieps.Ny t.ieps.Nz < n then .error .valueError
  else
    pmlFace axis (n + 1 : ℕ) ((List.range n).map fun m : ℕ => ((m : ℤ), geom hi lo n m)) t xyz

/-- solverFIT3D.py:945-961 (x), 963-979 (y), 981-1000 (z): high face.  `sx[-n:]` with `n = 0` is the
whole axis, so the assignment of an empty array raises `ValueError`.  In the loop `i` runs over
`1..n` and plane `-i` gets `sx[-i] = pml_func(lo, hi, n)[n - i]`. -/
def pmlHigh [Field K] [LinearOrder K] (geom : K → K → ℕ → ℕ → K) (lo hi : K) (n : ℕ) (axis : ℕ)
    (t : Mats K) : Py (Mats K) :=
  if coord axis t.ieps.Nx t.ieps.Ny t.ieps.Nz < n ∨ n = 0 then .error .valueError
  else
    pmlFace axis (-((n : ℤ) + 1))
      ((List.range n).map fun m : ℕ => (-((m : ℤ) + 1), geom lo hi n (n - (m + 1)))) t xyz

/-- solverFIT3D.py:884-1000 `_fill_pml_sigmas`. -/
def fillPml [Field K] [LinearOrder K] (geom : K → K → ℕ → ℕ → K) (lo hi : K) (n : ℕ) (bc : Faces String)
    (t : Mats K) : Py (Mats K) := do
  let t ← if isPml bc.xlo then pmlLow geom lo hi n 0 t else .ok t
  let t ← if isPml bc.ylo then pmlLow geom lo hi n 1 t else .ok t
  let t ← if isPml bc.zlo then pmlLow geom lo hi n 2 t else .ok t
  let t ← if isPml bc.xhi then pmlHigh geom lo hi n 0 t else .ok t
  let t ← if isPml bc.yhi then pmlHigh geom lo hi n 1 t else .ok t
  if isPml bc.zhi then pmlHigh geom lo hi n 2 t else .ok t

/-- `np.geomspace(a, b, n)[i]` for positive `a`, `b`: logarithmically spaced, first entry `a`, last entry
`b`, `[a]` for `n = 1`. -/
noncomputable def geomspace (a b : ℝ) (n i : ℕ) : ℝ := a * (b / a) ^ ((i : ℝ) / ((n : ℝ) - 1))

/-! ### Time step -/

/-- `np.min` of an array; `ValueError` if it is empty. -/
def pyMin [LinearOrder K] : List K → Py K
  | [] => .error .valueError
  | a :: l => .ok (l.foldl min a)

/-- `np.diff(x)` of an axis with `n` cells. -/
def diffs [Field K] (x : ℕ → K) (n : ℕ) : List K := (List.range n).map fun i => x (i + 1) - x i

/-- solverFIT3D.py:261-269: the CFL time step. -/
noncomputable def cflDt (c cfln : ℝ) (dx dy dz : List ℝ) : Py ℝ := do
  let mx ← pyMin dx
  let my ← pyMin dy
  let mz ← pyMin dz
  return cfln / (c * Real.sqrt (1 / mx ^ 2 + 1 / my ^ 2 + 1 / mz ^ 2))

/-- solverFIT3D.py:276-281: the relaxation times of the cells with `sigma != 0` and `ieps != 0`. -/
def taus [Field K] [DecidableEq K] (t : Mats K) : List K :=
  ((List.range (3 * t.ieps.N)).filter fun n => t.sigma.array n ≠ 0 ∧ t.ieps.array n ≠ 0).map
    fun n => 1 / t.ieps.array n / t.sigma.array n

/-- solverFIT3D.py:275-284: relaxation-time limit. -/
def limitDt [Field K] [LinearOrder K] (t : Mats K) (dt : K) : Py K :=
  if t.useCond then do
    let tm ← pyMin (taus t)
    return if tm < dt then tm else dt
  else .ok dt

/-- solverFIT3D.py:258-284: the time step of the solver (`dt = none` is the automatic one). -/
noncomputable def chooseDt (c cfln : ℝ) (dt : Option ℝ) (dx dy dz : List ℝ) (t : Mats ℝ) : Py ℝ := do
  let dt0 ← match dt with
    | some d => .ok d
    | none => cflDt c cfln dx dy dz
  limitDt t dt0

/-! ### One rank of a distributed run -/

/-- solverFIT3D.py:728-733: boundary conditions of a rank. -/
def mpiBC (rank size : ℕ) (bc : Faces String) : Faces String :=
  let bc := if 0 < rank then { bc with xlo := "pec", ylo := "pec", zlo := "mpi" } else bc
  if rank + 1 < size then { bc with xhi := "pec", yhi := "pec", zhi := "mpi" } else bc

/-- solverFIT3D.py:246-256: PML filling if any face is PML, with `pml_lo = 5e-3`, `pml_hi = 10`. -/
noncomputable def pmlStage (nPml : ℕ) (bc : Faces String) (t : Mats ℝ) : Py (Mats ℝ) :=
  if anyFace isPml bc then fillPml geomspace (5 / 1000) 10 nPml bc t else .ok t

/-- solverFIT3D.py:111-284 for one rank of a distributed run (or `rank = 0, size = 1` without
`mpiInitialize` for a serial run): boundary conditions, materials, PML and time step. `Nz` is the
local number of layers and `solids` carry the local masks. -/
noncomputable def setUp (c eps0 mu0 cfln : ℝ) (dt : Option ℝ) (nPml : ℕ) (Nx Ny Nz : ℕ) (x y z : ℕ → ℝ)
    (bc : Faces String) (bg : MatSpec ℝ) (dict : String → Option (MatSpec ℝ)) (solids : List Solid) :
    Py (Mats ℝ × ℝ) := do
  let t ← materials Nx Ny Nz eps0 mu0 (anyFace isPml bc) bg dict solids
  let t ← pmlStage nPml bc t
  let d ← chooseDt c cfln dt (diffs x Nx) (diffs y Ny) (diffs z Nz) t
  return (t, d)

/-- The mask of a solid on a rank: local layer `k` is global layer `rank*(NZ/size) + k` minus the low
ghost.  In the code each rank marks its own cells against the STL; the model takes the result to be
the restriction of one global mask. -/
def localSolids (rank size NZ : ℕ) (solids : List Solid) : List Solid :=
  solids.map fun s => (s.1, fun i j k => s.2 i j (rank * (NZ / size) + k - if 0 < rank then 1 else 0))

/-- Grid decomposition and solver set-up of one rank: gridFIT3D.py:301-353 and solverFIT3D.py:111-284. -/
noncomputable def rankSetUp (rank size : ℕ) (c eps0 mu0 cfln : ℝ) (dt : Option ℝ) (nPml : ℕ) (Nx Ny Nz : ℕ)
    (x y : ℕ → ℝ) (zmin zmax : ℝ) (bc : Faces String) (bg : MatSpec ℝ) (dict : String → Option (MatSpec ℝ))
    (solids : List Solid) : Py (Mats ℝ × ℝ) := do
  let m ← Grid.mpiInitialize rank size Nz zmin zmax
  setUp c eps0 mu0 cfln dt nPml Nx Ny m.Nz x y m.z (mpiBC rank size bc) bg dict (localSolids rank size m.NZ solids)

end Sol
end Wakis
