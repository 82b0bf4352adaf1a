import Verif.FieldProps
import Mathlib.Analysis.SpecialFunctions.Gaussian.GaussianIntegral
import Mathlib.Analysis.SpecialFunctions.Trigonometric.Deriv

/-!
# Model of `wakis/sources.py`

All scalars are real numbers; `np.cos`, `np.sin`, `np.exp`, `np.sqrt` and `np.pi` are the real functions.
The classes keep the values computed at their first `update`; the model keeps them as `Option`s.
-/

namespace Wakis
namespace Src
open Fld
noncomputable section

/-- scipy.constants: `c` and `mu_0` (CODATA 2018 value; only its sign is used). -/
def cLight : ℝ := 299792458
def mu0 : ℝ := 1.25663706212e-6

/-- What a source reads from the solver (solverFIT3D.py:136-146, 432): cell counts, cell centres, cell sizes, time step,
and `ZMIN`, which exists only under MPI. -/
structure Grd where
  Nx : ℕ
  Ny : ℕ
  Nz : ℕ
  x : ℕ → ℝ
  y : ℕ → ℝ
  z : ℕ → ℝ
  dx : ℕ → ℝ
  dy : ℕ → ℝ
  dz : ℕ → ℝ
  dt : ℝ
  ZMIN : Option ℝ

/-- The fields a source may write. -/
structure Flds where
  E : Fld ℝ
  H : Fld ℝ
  J : Fld ℝ

open Classical in
/-- `argmin` of `f 0, …, f n`: first position of the smallest value. -/
def argminUpTo (f : ℕ → ℝ) : ℕ → ℕ
  | 0 => 0
  | n + 1 => if f (n + 1) < f (argminUpTo f n) then n + 1 else argminUpTo f n

/-- `np.abs(x - a).argmin()` of an array of length `n` (`ValueError` if empty); sources.py:88-89, 93, routines.py:329-330. -/
def nearest (n : ℕ) (x : ℕ → ℝ) (a : ℝ) : Py ℕ :=
  if n = 0 then .error .valueError else .ok (argminUpTo (fun i => |x i - a|) (n - 1))

/-- `x.min()`. -/
def minOf (n : ℕ) (x : ℕ → ℝ) : Py ℝ := if n = 0 then .error .valueError else .ok (x (argminUpTo x (n - 1)))

/-! ### Beam -/

/-- sources.py:21-71: attributes; `cache` is `ixs, iys, zmin`, set at the first update. -/
structure Beam where
  xsource : ℝ
  ysource : ℝ
  beta : ℝ
  q : ℝ
  sigmaz : Option ℝ
  ti : ℝ
  cache : Option (ℕ × ℕ × ℝ)

/-- sources.py:65 `self.v = c_light * beta`. -/
def Beam.v (b : Beam) : ℝ := cLight * b.beta

/-- sources.py:22-71 `Beam.__init__`: without `ti` and `sigmaz` the default `ti` multiplies `None`. -/
def Beam.init (xsource ysource beta q : ℝ) (sigmaz ti : Option ℝ) : Py Beam :=
  match ti, sigmaz with
  | some t, _ => .ok ⟨xsource, ysource, beta, q, sigmaz, t, none⟩
  | none, some sg => .ok ⟨xsource, ysource, beta, q, sigmaz, 8.548921333333334 * sg / (cLight * beta), none⟩
  | none, none => .error .typeError

/-- sources.py:86-97: indices and reference position at the first update. -/
def Beam.locate (b : Beam) (g : Grd) : Py (ℕ × ℕ × ℝ) :=
  match b.cache with
  | some c => .ok c
  | none => do
    let ixs ← nearest g.Nx g.x b.xsource
    let iys ← nearest g.Ny g.y b.ysource
    match g.ZMIN with
    | some Z => do
      let m ← nearest g.Nz g.z Z
      return (ixs, iys, Z + g.dz m / 2)
    | none => do
      let zm ← minOf g.Nz g.z
      return (ixs, iys, zm)

/-- sources.py:98-106: the line density at a layer. -/
def Beam.profile (b : Beam) (zmin sg z t : ℝ) : ℝ :=
  let s0 := zmin - b.v * b.ti
  let s := z - b.v * t
  1 / Real.sqrt (2 * Real.pi * sg ^ 2) * Real.exp (-((s - s0) ^ 2) / (2 * sg ^ 2))

/-- sources.py:73-110 `Beam.update`. -/
def Beam.update (b : Beam) (g : Grd) (F : Flds) (t : ℝ) : Py (Beam × Flds) := do
  let c ← b.locate g
  match b.sigmaz with
  | none => throw .typeError
  | some sg =>
    let J ← F.J.setitem (.tup (.int c.1) (.int c.2.1) .all (.str "z"))
      (.arr (1, 1, g.Nz) fun _ _ k => b.q * b.v * b.profile c.2.2 sg (g.z k) t / g.dx c.1 / g.dy c.2.1)
    return ({ b with cache := some c }, { F with J := J })

/-! ### PlaneWave -/

/-- sources.py:141-211; `f` is required (`2 * np.pi * None` raises `TypeError`), `tmax = none` is `np.inf`. -/
structure PlaneWave where
  xs : Option Sel
  ys : Option Sel
  zs : Sel
  f : ℝ
  amplitude : ℝ
  beta : ℝ
  phase : ℝ
  tmax : Option ℝ

def PlaneWave.init (xs ys : Option Sel) (zs : Sel) (nodes f : Option ℝ) (amplitude beta phase : ℝ) : Py PlaneWave :=
  match f with
  | none => .error .typeError
  | some f => .ok ⟨xs, ys, zs, f, amplitude, beta, phase, nodes.map (· / f)⟩

/-- sources.py:213-246 `PlaneWave.update`. -/
def PlaneWave.update (p : PlaneWave) (g : Grd) (F : Flds) (t : ℝ) : Py (PlaneWave × Flds) :=
  let xs := p.xs.getD (.slice (some 0) (some g.Nx))
  let ys := p.ys.getD (.slice (some 0) (some g.Ny))
  let w := 2 * Real.pi * p.f
  let kz := w / cLight
  open Classical in
  let on : Prop := ∀ T, p.tmax = some T → t ≤ T
  let h : ℝ := if on then -p.amplitude * Real.cos (w * t + p.phase) else 0
  let e : ℝ := if on then p.amplitude * Real.cos (w * t + p.phase) / (kz / (mu0 * (p.beta * cLight))) else 0
  do
    let H ← F.H.setitem (.tup xs ys p.zs (.str "y")) (.scalar h)
    let E ← F.E.setitem (.tup xs ys p.zs (.str "x")) (.scalar e)
    return ({ p with xs := some xs, ys := some ys }, { F with E := E, H := H })

/-! ### WavePacket -/

/-- sources.py:284-376; `xs`, `ys` are slices (given by their bounds) or `None`, `zs` an integer.  Other index types are not modelled. -/
structure WavePacket where
  xs : Option (Option ℤ × Option ℤ)
  ys : Option (Option ℤ × Option ℤ)
  zs : ℤ
  sigmaz : Option ℝ
  sigmaxy : Option ℝ
  tinj : ℝ
  f : ℝ
  amplitude : ℝ
  beta : ℝ
  phase : ℝ

/-- sources.py:284-376 `__init__`: `c_light / None` and `6 * None` raise `TypeError`. -/
def WavePacket.init (xs ys : Option (Option ℤ × Option ℤ)) (zs : ℤ) (sigmaz sigmaxy tinj wavelength f : Option ℝ) (amplitude beta phase : ℝ) : Py WavePacket := do
  let f ← match f, wavelength with
    | some f, _ => pure f
    | none, some l => pure (cLight / l)
    | none, none => throw PyErr.typeError
  let tinj ← match tinj, sigmaz with
    | some t, _ => pure t
    | none, some sg => pure (6 * sg)
    | none, none => throw PyErr.typeError
  return ⟨xs, ys, zs, sigmaz, sigmaxy, tinj, f, amplitude, beta, phase⟩

/-- Mean of an array. -/
def meanOf (n : ℕ) (x : ℕ → ℝ) : ℝ := (∑ i ∈ Finset.range n, x i) / n

/-- sources.py:378-420 `WavePacket.update`.  `np.meshgrid(x, y)` has shape `(len(y), len(x))`: entry `[b, a]` belongs to
`x[a], y[b]`; it is assigned to a block of shape `(len(x), len(y))`. -/
def WavePacket.update (p : WavePacket) (g : Grd) (F : Flds) (t : ℝ) : Py (WavePacket × Flds) := do
  let xs := p.xs.getD (some 0, some (g.Nx : ℤ))
  let ys := p.ys.getD (some 0, some (g.Ny : ℤ))
  let sz := p.sigmaz.getD (10 * meanOf g.Nz g.dz)
  let sxy := p.sigmaxy.getD (5 * ((meanOf g.Nx g.dx + meanOf g.Ny g.dy) / 2))
  let zm ← minOf g.Nz g.z
  let X ← (Sel.slice xs.1 xs.2).resolve g.Nx
  let Y ← (Sel.slice ys.1 ys.2).resolve g.Ny
  let w := 2 * Real.pi * p.f
  let s0 := zm - p.tinj
  let s := zm - p.beta * cLight * t
  let gaussxy : ℕ → ℕ → ℝ := fun b a => Real.exp (-((g.x (X.getD a 0)) ^ 2 + (g.y (Y.getD b 0)) ^ 2) / (2 * sxy ^ 2))
  let gausst := Real.exp (-((s - s0) ^ 2) / (2 * sz ^ 2))
  let H ← F.H.setitem (.tup (.slice xs.1 xs.2) (.slice ys.1 ys.2) (.int p.zs) (.str "y"))
    (.arr (Y.length, X.length, 1) fun a b _ => -p.amplitude * Real.cos (w * t + p.phase) * gaussxy a b * gausst)
  let E ← F.E.setitem (.tup (.slice xs.1 xs.2) (.slice ys.1 ys.2) (.int p.zs) (.str "x"))
    (.arr (Y.length, X.length, 1) fun a b _ => p.amplitude * mu0 * cLight * Real.cos (w * t + p.phase) * gaussxy a b * gausst)
  return ({ p with xs := some xs, ys := some ys, sigmaz := some sz, sigmaxy := some sxy }, { F with E := E, H := H })

/-! ### Dipole and Pulse -/

/-- sources.py:514-516, 630-632: `field='Ex'` overrides the component. -/
def splitField (field : String) (component : CKey) : String × CKey :=
  match field.toList with
  | [a, b] => (String.singleton a, .str (String.singleton b))
  | _ => (field, component)

/-- sources.py:551-564 and 748-761: write a scalar to the chosen field; an unknown field name only prints a message. -/
def writeTo (field : String) (kx ky kz : Sel) (component : CKey) (v : ℝ) (F : Flds) : Py Flds :=
  if field = "E" then do let E ← F.E.setitem (.tup kx ky kz component) (.scalar v); return { F with E := E }
  else if field = "H" then do let H ← F.H.setitem (.tup kx ky kz component) (.scalar v); return { F with H := H }
  else if field = "J" then do let J ← F.J.setitem (.tup kx ky kz component) (.scalar v); return { F with J := J }
  else return F

/-- sources.py:457-518. -/
structure Dipole where
  field : String
  component : CKey
  xs : Option Sel
  ys : Option Sel
  zs : Option Sel
  nodes : ℝ
  f : Option ℝ
  amplitude : ℝ
  phase : ℝ

def Dipole.init (field : String) (component : CKey) (xs ys zs : Option Sel) (nodes : ℝ) (f : Option ℝ) (amplitude phase : ℝ) : Dipole :=
  ⟨(splitField field component).1, (splitField field component).2, xs, ys, zs, nodes, f, amplitude, phase⟩

/-- `x.max()`, as minus the minimum of the negated values. -/
def maxOf (n : ℕ) (x : ℕ → ℝ) : Py ℝ := (minOf n fun i => -x i).map (- ·)

/-- sources.py:540-542: the frequency, from the number of nodes if not given. -/
def Dipole.freq (p : Dipole) (g : Grd) : Py ℝ :=
  match p.f with
  | some f => .ok f
  | none => do
    let hi ← maxOf g.Nz g.z
    let lo ← minOf g.Nz g.z
    return p.nodes / ((hi - lo) / cLight)

/-- sources.py:520-565 `Dipole.update`. -/
def Dipole.update (p : Dipole) (g : Grd) (F : Flds) (t : ℝ) : Py (Dipole × Flds) := do
  let xs := p.xs.getD (.int (g.Nx / 2 : ℕ))
  let ys := p.ys.getD (.int (g.Ny / 2 : ℕ))
  let zs := p.zs.getD (.int (g.Nz / 2 : ℕ))
  let f ← p.freq g
  let F ← writeTo p.field xs ys zs p.component (p.amplitude * Real.sin (2 * Real.pi * f * t + p.phase)) F
  return ({ p with xs := some xs, ys := some ys, zs := some zs, f := some f }, F)

/-- The pulse shapes of sources.py:634-643; `none` is an unknown name (only a message is printed). -/
inductive Shape | harris | gaussian | rectangular
  deriving DecidableEq, Repr

def shapeOf (s : String) : Option Shape :=
  if pyLower s = "harris" then some .harris
  else if pyLower s = "gaussian" then some .gaussian
  else if pyLower s = "rectangular" then some .rectangular
  else none

open Classical in
/-- sources.py:647-675 `harris_pulse` for a number `t`. -/
def harrisPulse (L delay t : ℝ) : ℝ :=
  let u := t * cLight - delay
  if u < L then (10 - 15 * Real.cos (2 * Real.pi / L * u) + 6 * Real.cos (4 * Real.pi / L * u) - Real.cos (6 * Real.pi / L * u)) / 32 else 0

/-- sources.py:677-692 `gaussian_pulse`. -/
def gaussianPulse (L delay t : ℝ) : ℝ :=
  let u := t * cLight - delay
  Real.exp (-((u - 5 * (L / 10)) ^ 2) / (2 * (L / 10) ^ 2))

open Classical in
/-- sources.py:694-712 `rectangular_pulse`. -/
def rectangularPulse (L delay t : ℝ) : ℝ :=
  let u := t * cLight - delay
  if u < L ∧ u > 0 then 1 else 0

def Shape.profile : Shape → ℝ → ℝ → ℝ → ℝ
  | .harris => harrisPulse
  | .gaussian => gaussianPulse
  | .rectangular => rectangularPulse

/-- sources.py:568-645. -/
structure Pulse where
  field : String
  component : CKey
  xs : Option Sel
  ys : Option Sel
  zs : Option Sel
  shape : Option Shape
  L : Option ℝ
  amplitude : ℝ
  delay : ℝ

def Pulse.init (field : String) (component : CKey) (xs ys zs : Option Sel) (shape : String) (L : Option ℝ) (amplitude delay : ℝ) : Pulse :=
  ⟨(splitField field component).1, (splitField field component).2, xs, ys, zs, shapeOf shape, L, amplitude, delay⟩

/-- sources.py:714-761 `Pulse.update`; an unknown shape left `tprofile` undefined (`AttributeError`), an unknown field name never looks at it. -/
def Pulse.update (p : Pulse) (g : Grd) (F : Flds) (t : ℝ) : Py (Pulse × Flds) := do
  let xs := p.xs.getD (.int (g.Nx / 2 : ℕ))
  let ys := p.ys.getD (.int (g.Ny / 2 : ℕ))
  let zs := p.zs.getD (.int (g.Nz / 2 : ℕ))
  let L := p.L.getD (50 * g.dt)
  let p' := { p with xs := some xs, ys := some ys, zs := some zs, L := some L }
  match p.shape with
  | none => if p.field = "E" ∨ p.field = "H" ∨ p.field = "J" then throw .attributeError else return (p', F)
  | some sh => do
    let F ← writeTo p.field xs ys zs p.component (p.amplitude * sh.profile L p.delay t) F
    return (p', F)

end
end Src
end Wakis
