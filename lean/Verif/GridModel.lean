import Verif.FieldArith
import Mathlib.Algebra.Order.Field.Basic
import Mathlib.Algebra.BigOperators.Group.Finset.Basic

/-!
# Model of `wakis/gridFIT3D.py`: axes, lengths, areas, MPI decomposition

An axis with `n` cells is a node function `ℕ → K`; the entries `0..n` exist.
-/

namespace Wakis
namespace Grid
variable {K : Type _} [Field K]

/-- `np.linspace(a, b, n+1)`: `start + i*step` with `step = (stop-start)/n`, the last entry set to
`stop` (numpy does so for more than one point). -/
def linspace (a b : K) (n : ℕ) : ℕ → K :=
  fun i => if i = n ∧ 0 < n then b else a + i * ((b - a) / n)

/-- The grid attributes the solver uses. -/
structure Geom (K : Type _) where
  Nx : ℕ
  Ny : ℕ
  Nz : ℕ
  x : ℕ → K
  y : ℕ → K
  z : ℕ → K
  L : Fld K
  iA : Fld K
  tL : Fld K
  itA : Fld K

/-- gridFIT3D.py:278-284: midpoints `(x[1:]+x[:-1])/2` with the last one appended once more. -/
def tilde (x : ℕ → K) (n : ℕ) : ℕ → K :=
  fun i => if i < n then (x (i + 1) + x i) / 2 else (x n + x (n - 1)) / 2

/-- The three 3-D arrays `X[1:,1:,1:] - X[:-1,:-1,:-1]` (and `Y`, `Z`) of `np.meshgrid(..., indexing="ij")`
stored in a field, gridFIT3D.py:267-270 and 288-291. -/
def diffField (Nx Ny Nz : ℕ) (x y z : ℕ → K) : Fld K :=
  (((Fld.new Nx Ny Nz : Fld K).setPart 0 (Fld.ravelF Nx Ny fun i _ _ => x (i + 1) - x i)).setPart 1
    (Fld.ravelF Nx Ny fun _ j _ => y (j + 1) - y j)).setPart 2
    (Fld.ravelF Nx Ny fun _ _ k => z (k + 1) - z k)

/-- gridFIT3D.py:272-275: `1 / (L_b * L_c)` for the two other components.  Division by zero gives
`inf` in numpy and `0` here; the properties assume increasing axes, where it does not occur. -/
def invArea (Nx Ny Nz : ℕ) (L : Fld K) : Fld K :=
  (((Fld.new Nx Ny Nz : Fld K).setPart 0 fun p => 1 / (L.part 1 p * L.part 2 p)).setPart 1
    fun p => 1 / (L.part 0 p * L.part 2 p)).setPart 2 fun p => 1 / (L.part 0 p * L.part 1 p)

/-- gridFIT3D.py:293-299: `np.divide(1.0, aux, out=zeros, where=aux != 0)`. -/
def guardedInv [DecidableEq K] (aux : K) : K := if aux ≠ 0 then 1 / aux else 0

/-- gridFIT3D.py:293-299. -/
def invDualArea [DecidableEq K] (Nx Ny Nz : ℕ) (tL : Fld K) : Fld K :=
  (((Fld.new Nx Ny Nz : Fld K).setPart 0 fun p => guardedInv (tL.part 1 p * tL.part 2 p)).setPart 1
    fun p => guardedInv (tL.part 0 p * tL.part 2 p)).setPart 2
    fun p => guardedInv (tL.part 0 p * tL.part 1 p)

/-- gridFIT3D.py:257-299 `_compute_grid` (the pyvista object is not modelled). -/
def computeGrid [DecidableEq K] (Nx Ny Nz : ℕ) (x y z : ℕ → K) : Geom K :=
  let L := diffField Nx Ny Nz x y z
  let tL := diffField Nx Ny Nz (tilde x Nx) (tilde y Ny) (tilde z Nz)
  { Nx, Ny, Nz, x, y, z, L
    iA := invArea Nx Ny Nz L
    tL
    itA := invDualArea Nx Ny Nz tL }

/-- gridFIT3D.py:157-166: grid from domain extents and number of cells. -/
def uniform [DecidableEq K] (xmin xmax ymin ymax zmin zmax : K) (Nx Ny Nz : ℕ) : Geom K :=
  computeGrid Nx Ny Nz (linspace xmin xmax Nx) (linspace ymin ymax Ny) (linspace zmin zmax Nz)

/-! ### MPI decomposition -/

/-- The z attributes of a rank's grid after `_mpi_initialize`. -/
structure MpiZ (K : Type _) where
  /-- global number of layers -/
  NZ : ℕ
  /-- local number of layers, ghosts included -/
  Nz : ℕ
  zmin : K
  zmax : K
  /-- local nodes -/
  z : ℕ → K

/-- gridFIT3D.py:301-353 `_mpi_initialize`. -/
def mpiInitialize (rank size Nz : ℕ) (ZMIN ZMAX : K) : Py (MpiZ K) :=
  if Nz < size then .error .valueError
  else
    let NZ := Nz - Nz % size
    let n := NZ / size
    let dz := (ZMAX - ZMIN) / NZ
    let zmin := rank * n * dz + ZMIN
    let zmax := (rank + 1) * n * dz + ZMIN
    let (zmin, n) := if 0 < rank then (zmin - dz, n + 1) else (zmin, n)
    let (zmax, n) := if rank + 1 < size then (zmax + dz, n + 1) else (zmax, n)
    let (zmax, n) := if rank = 0 ∧ size = 1 then (zmax + dz, n + 1) else (zmax, n)
    .ok { NZ, Nz := n, zmin, zmax, z := linspace zmin zmax n }

end Grid
end Wakis
