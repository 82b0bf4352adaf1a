import Verif.GridModel
import Verif.SparseModel

/-!
# Model of `wakis/solverFIT3D.py`: operators, boundary conditions, time step

Scalars are an arbitrary field `K`.  Names of boundary conditions are strings.
-/

namespace Wakis
namespace Sol
open Sparse
variable {K : Type _} [Field K]

/-! ### topological matrices -/

/-- solverFIT3D.py:182-184 `Px`, `Py`, `Pz` for axis 0, 1, 2. -/
def P (Nx Ny : ℕ) (axis : ℕ) : Mat K :=
  diags2 (if axis = 0 then 1 else if axis = 1 then Nx else Nx * Ny)

/-- The nine blocks of the curl matrix, solverFIT3D.py:195-202. -/
def curlBlocks (Nx Ny : ℕ) (a c : ℕ) : Mat K :=
  match a, c with
  | 0, 1 => fun i j => - P Nx Ny 2 i j
  | 0, 2 => P Nx Ny 1
  | 1, 0 => P Nx Ny 2
  | 1, 2 => fun i j => - P Nx Ny 0 i j
  | 2, 0 => fun i j => - P Nx Ny 1 i j
  | 2, 1 => P Nx Ny 0
  | _, _ => fun _ _ => 0

/-- solverFIT3D.py:195-202: the curl matrix before boundary conditions. -/
def C0 (Nx Ny Nz : ℕ) : Mat K := block3 (Nx * Ny * Nz) (curlBlocks Nx Ny)

/-! ### assignments to a plane of a field -/

/-- Position of a cell along an axis. -/
def coord (axis i j k : ℕ) : ℕ := if axis = 0 then i else if axis = 1 then j else k

/-- `f[m, :, :, c] = v`, `f[:, m, :, c] = v` or `f[:, :, m, c] = v` for `axis = 0, 1, 2` (field.py
`__setitem__` with one integer and two full slices; see `setPlane_eq_setitem`). -/
def setPlane (f : Fld K) (axis m c : ℕ) (v : ℕ → ℕ → ℕ → K) : Fld K :=
  f.setPart c (Fld.ravelF f.Nx f.Ny fun i j k =>
    if coord axis i j k = m then v i j k else Fld.reshapeF f.Nx f.Ny (f.part c) i j k)

/-- Last index along an axis (`-1` in Python). -/
def lastIdx (f : Fld K) (axis : ℕ) : ℕ := coord axis f.Nx f.Ny f.Nz - 1

/-- Six numbers attached to the faces, in the code `xlo, xhi, ylo, yhi, zlo, zhi`. -/
structure Faces (α : Type _) where
  xlo : α
  xhi : α
  ylo : α
  yhi : α
  zlo : α
  zhi : α
  deriving DecidableEq, Repr

/-- The low value of an axis. -/
def Faces.lo {α : Type _} (w : Faces α) (axis : ℕ) : α := if axis = 0 then w.xlo else if axis = 1 then w.ylo else w.zlo
/-- The high value of an axis. -/
def Faces.hi {α : Type _} (w : Faces α) (axis : ℕ) : α := if axis = 0 then w.xhi else if axis = 1 then w.yhi else w.zhi

/-- One iteration of the loop solverFIT3D.py:788-797 (and 826-835): the tangential entries of component
`d` are overwritten face by face in the order x low, x high, y low, y high, z low, z high. -/
def maskComp (w : Faces K) (f : Fld K) (d : ℕ) : Fld K :=
  let f := if d ≠ 0 then setPlane (setPlane f 0 0 d fun _ _ _ => w.xlo) 0 (f.Nx - 1) d fun _ _ _ => w.xhi else f
  let f := if d ≠ 1 then setPlane (setPlane f 1 0 d fun _ _ _ => w.ylo) 1 (f.Ny - 1) d fun _ _ _ => w.yhi else f
  if d ≠ 2 then setPlane (setPlane f 2 0 d fun _ _ _ => w.zlo) 2 (f.Nz - 1) d fun _ _ _ => w.zhi else f

/-- solverFIT3D.py:786-797: the field `BC`, ones overwritten on the faces. -/
def bcMask (Nx Ny Nz : ℕ) (w : Faces K) : Fld K :=
  maskComp w (maskComp w (maskComp w (Fld.new Nx Ny Nz true) 0) 1) 2

/-! ### boundary conditions -/

/-- `x.lower() in ("electric", "pec", "pml")`. -/
def isPec (s : String) : Bool := pyLower s = "electric" || pyLower s = "pec" || pyLower s = "pml"
/-- The test in the two `any(...)`, solverFIT3D.py:807-809. -/
def isPmcAny (s : String) : Bool := pyLower s = "magnetic" || pyLower s = "pmc"
/-- The test per face, solverFIT3D.py:810-821: `x.lower() == "magnetic" or x == "pmc"`. -/
def isPmcFace (s : String) : Bool := pyLower s = "magnetic" || s = "pmc"
def isPeriodic (s : String) : Bool := pyLower s = "periodic"
def isAbc (s : String) : Bool := pyLower s = "abc"
def isPml (s : String) : Bool := pyLower s = "pml"

/-- `any(...)` over the six names. -/
def anyFace (t : String → Bool) (bc : Faces String) : Bool :=
  t bc.xlo || t bc.ylo || t bc.zlo || t bc.xhi || t bc.yhi || t bc.zhi

/-- Set a face value to zero where the test holds, keep it otherwise (solverFIT3D.py:772-783, 810-821). -/
def zeroWhere (t : String → Bool) (bc : Faces String) (w : Faces K) : Faces K :=
  { xlo := if t bc.xlo then 0 else w.xlo
    xhi := if t bc.xhi then 0 else w.xhi
    ylo := if t bc.ylo then 0 else w.ylo
    yhi := if t bc.yhi then 0 else w.yhi
    zlo := if t bc.zlo then 0 else w.zlo
    zhi := if t bc.zhi then 0 else w.zhi }

/-- solverFIT3D.py:725-726: `xlo, ... = 1.0`. -/
def ones6 : Faces K := ⟨1, 1, 1, 1, 1, 1⟩

/-- The dual metric after an assignment of the last layer of `axis` from the first primary layer,
solverFIT3D.py:743-745 (x), 751-753 (y), 759-761 (z) and again 849-861. -/
def wrapMetric (L iA : Fld K) (m : Fld K × Fld K) (axis : ℕ) : Fld K × Fld K :=
  let first := fun (f : Fld K) (c : ℕ) (i j k : ℕ) =>
    f.at3 c (if axis = 0 then 0 else i) (if axis = 1 then 0 else j) (if axis = 2 then 0 else k)
  let tL := setPlane m.1 axis (lastIdx m.1 axis) axis (first L axis)
  let (c1, c2) := if axis = 0 then (1, 2) else if axis = 1 then (0, 2) else (0, 1)
  let itA := setPlane m.2 axis (lastIdx m.2 axis) c1 (first iA c1)
  let itA := setPlane itA axis (lastIdx m.2 axis) c2 (first iA c2)
  (tL, itA)

/-- Result of `_apply_bc_to_C`. -/
structure BCResult (K : Type _) where
  C : Mat K
  tL : Fld K
  itA : Fld K
  activateAbc : Bool
  activatePml : Bool
  useConductivity : Bool

/-- Metric changes of the periodic branch, solverFIT3D.py:737-771. -/
def periodicMetric (g : Grid.Geom K) (bc : Faces String) : Fld K × Fld K :=
  let m := (g.tL, g.itA)
  if isPeriodic bc.xlo || isPeriodic bc.ylo || isPeriodic bc.zlo then
    let m := if isPeriodic bc.xlo && isPeriodic bc.xhi then wrapMetric g.L g.iA m 0 else m
    let m := if isPeriodic bc.ylo && isPeriodic bc.yhi then wrapMetric g.L g.iA m 1 else m
    if isPeriodic bc.zlo && isPeriodic bc.zhi then wrapMetric g.L g.iA m 2 else m
  else m

/-- Metric changes of the ABC branch, solverFIT3D.py:844-875. -/
def abcMetric (g : Grid.Geom K) (bc : Faces String) (m : Fld K × Fld K) : Fld K × Fld K :=
  if anyFace isAbc bc then
    let m := if isAbc bc.xhi then wrapMetric g.L g.iA m 0 else m
    let m := if isAbc bc.yhi then wrapMetric g.L g.iA m 1 else m
    if isAbc bc.zhi then wrapMetric g.L g.iA m 2 else m
  else m

/-- The face values used for the PEC column mask, solverFIT3D.py:725-726 and 772-783. -/
def pecFaces (bc : Faces String) : Faces K := if anyFace isPec bc then zeroWhere isPec bc ones6 else ones6

/-- solverFIT3D.py:714-882 `_apply_bc_to_C` (serial run: no MPI override of the names).  The PMC branch
starts from the face values left by the PEC branch. -/
def applyBC (g : Grid.Geom K) (bc : Faces String) (C : Mat K) : BCResult K :=
  let n3 := 3 * (g.Nx * g.Ny * g.Nz)
  let m := periodicMetric g bc
  let w : Faces K := pecFaces bc
  let C := if anyFace isPec bc then mmul n3 C (diagM (bcMask g.Nx g.Ny g.Nz w).toarray) else C
  let C := if anyFace isPmcAny bc then
    mmul n3 (diagM (bcMask g.Nx g.Ny g.Nz (zeroWhere isPmcFace bc w)).toarray) C else C
  let m := abcMetric g bc m
  { C, tL := m.1, itA := m.2
    activateAbc := anyFace isAbc bc
    activatePml := anyFace isPml bc
    useConductivity := anyFace isPml bc }

/-! ### the time-stepping solver -/

/-- What `one_step` needs. -/
structure Solver (K : Type _) where
  Nx : ℕ
  Ny : ℕ
  Nz : ℕ
  /-- `tDsiDmuiDaC`: curl for the H update -/
  M1 : Mat K
  /-- `itDaiDepsDstC`: curl for the E update -/
  M2 : Mat K
  ieps : Vec K
  sigma : Vec K
  dt : K
  useConductivity : Bool

/-- Length of the flat arrays. -/
def Solver.n3 (s : Solver K) : ℕ := 3 * (s.Nx * s.Ny * s.Nz)

/-- solverFIT3D.py:296 `iDa * iDmu * C * Ds`. -/
def opH (n3 : ℕ) (iA imu : Vec K) (C : Mat K) (L : Vec K) : Mat K :=
  mmul n3 (mmul n3 (mmul n3 (diagM iA) (diagM imu)) C) (diagM L)

/-- solverFIT3D.py:297 `iDeps * itDa * C.transpose() * tDs`. -/
def opE (n3 : ℕ) (ieps itA : Vec K) (C : Mat K) (tL : Vec K) : Mat K :=
  mmul n3 (mmul n3 (mmul n3 (diagM ieps) (diagM itA)) (transpose C)) (diagM tL)

/-- solverFIT3D.py:182-297: assembly for a grid, boundary names and material fields.  The material
fields and `dt` are arguments here; `MaterialModel` and `MaterialModel` model how they are computed. -/
def build (g : Grid.Geom K) (bc : Faces String) (ieps imu sigma : Vec K) (dt : K) (useCond : Bool) : Solver K :=
  let n3 := 3 * (g.Nx * g.Ny * g.Nz)
  let b := applyBC g bc (C0 g.Nx g.Ny g.Nz)
  { Nx := g.Nx, Ny := g.Ny, Nz := g.Nz
    M1 := opH n3 g.iA.toarray imu b.C g.L.toarray
    M2 := opE n3 ieps b.itA.toarray b.C b.tL.toarray
    ieps, sigma, dt
    useConductivity := b.useConductivity || useCond }

/-- The dynamic state: the three flat arrays and the `step_0` flag. -/
structure State (K : Type _) where
  E : Vec K
  H : Vec K
  J : Vec K
  step0 : Bool

/-- solverFIT3D.py:111-168: zero fields, `step_0 = True`. -/
def initState : State K := ⟨fun _ => 0, fun _ => 0, fun _ => 0, true⟩

/-- A flat array seen as a `Field` of the solver's size. -/
def Solver.fld (s : Solver K) (a : Vec K) : Fld K := ⟨s.Nx, s.Ny, s.Nz, a⟩

/-- solverFIT3D.py:1110-1117: tangential H of the last layer of each axis set to zero. -/
def ghostH (f : Fld K) : Fld K :=
  let comp := fun (f : Fld K) (d : ℕ) =>
    let f := if d ≠ 0 then setPlane f 0 (f.Nx - 1) d fun _ _ _ => 0 else f
    let f := if d ≠ 1 then setPlane f 1 (f.Ny - 1) d fun _ _ _ => 0 else f
    if d ≠ 2 then setPlane f 2 (f.Nz - 1) d fun _ _ _ => 0 else f
  comp (comp (comp f 0) 1) 2

/-- solverFIT3D.py:1119-1122: normal E of the last layer of each axis set to zero. -/
def ghostE (f : Fld K) : Fld K :=
  setPlane (setPlane (setPlane f 0 (f.Nx - 1) 0 fun _ _ _ => 0) 1 (f.Ny - 1) 1 fun _ _ _ => 0) 2 (f.Nz - 1) 2
    fun _ _ _ => 0

/-- solverFIT3D.py:1102-1122 `_set_ghosts_to_0`. -/
def setGhostsTo0 (s : Solver K) (st : State K) : State K :=
  { st with H := (ghostH (s.fld st.H)).array, E := (ghostE (s.fld st.E)).array }

/-- The body of solverFIT3D.py:385-400 after the first-step branch.  `_one_step_mkl` (402-424) is the
same with the MKL product. -/
def advance (s : Solver K) (st : State K) : State K :=
  let H := fun i => st.H i - s.dt * mulVec s.n3 s.M1 st.E i
  let E := fun i => st.E i + s.dt * (mulVec s.n3 s.M2 H i - s.ieps i * st.J i)
  let J := if s.useConductivity then fun i => s.sigma i * E i else st.J
  { st with H, E, J }

/-- solverFIT3D.py:379-400 `_one_step`.  `_attrcleanup` only deletes attributes (see the lifecycle
model). -/
def oneStep (s : Solver K) (st : State K) : State K :=
  if st.step0 then advance s { setGhostsTo0 s st with step0 := false } else advance s st

/-- Which of the three fields is written. -/
inductive Which | E | H | J
  deriving DecidableEq, Repr

/-- What happens to a solver during a run: time steps, and assignments of single entries by sources,
callbacks or the user.  Every `Field.__setitem__` is a finite sequence of such writes. -/
inductive Ev (K : Type _)
  | step
  | write (f : Which) (n : ℕ) (v : K)

/-- One event. -/
def event (s : Solver K) (st : State K) : Ev K → State K
  | .step => oneStep s st
  | .write .E n v => { st with E := Function.update st.E n v }
  | .write .H n v => { st with H := Function.update st.H n v }
  | .write .J n v => { st with J := Function.update st.J n v }

/-- A run. -/
def runEv (s : Solver K) (st : State K) (evs : List (Ev K)) : State K := evs.foldl (event s) st

/-- solverFIT3D.py:1333-1343 `reset_fields`: each component of E, H, J set to zero. -/
def resetFields (s : Solver K) (st : State K) : State K :=
  let zero := fun (a : Vec K) =>
    let f := s.fld a
    (((f.setPart 0 (Fld.ravelF s.Nx s.Ny fun _ _ _ => 0)).setPart 1 (Fld.ravelF s.Nx s.Ny fun _ _ _ => 0)).setPart 2
      (Fld.ravelF s.Nx s.Ny fun _ _ _ => 0)).array
  { st with E := zero st.E, H := zero st.H, J := zero st.J }

end Sol
end Wakis
