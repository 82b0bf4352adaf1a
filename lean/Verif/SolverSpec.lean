import Verif.SolverModel

/-!
# Small specification for the field-solver properties

Three-dimensional vocabulary, independent of the sparse matrices: the value of a component in a cell, the
circulation around a primary face, the backward circulation, divergence, weighted sums.
-/

namespace Wakis
namespace Sol
open Finset
variable {K : Type _} [Field K]

/-- Flat cell number of `(i,j,k)`: x fastest. -/
def fl (Nx Ny i j k : ℕ) : ℕ := i + Nx * (j + Ny * k)

/-- Entry of a flat three-component array that belongs to component `c` of cell `(i,j,k)`. -/
def pos (Nx Ny Nz c i j k : ℕ) : ℕ := c * (Nx * Ny * Nz) + fl Nx Ny i j k

/-- Circulation of an edge quantity `e c i j k` around the primary face with normal `c` of cell `(i,j,k)`
(forward differences). -/
def circ (e : ℕ → ℕ → ℕ → ℕ → K) (c i j k : ℕ) : K :=
  if c = 0 then (e 2 i (j + 1) k - e 2 i j k) - (e 1 i j (k + 1) - e 1 i j k)
  else if c = 1 then (e 0 i j (k + 1) - e 0 i j k) - (e 2 (i + 1) j k - e 2 i j k)
  else (e 1 (i + 1) j k - e 1 i j k) - (e 0 i (j + 1) k - e 0 i j k)

/-- Circulation around the dual face (backward differences). -/
def cocirc (h : ℕ → ℕ → ℕ → ℕ → K) (c i j k : ℕ) : K :=
  if c = 0 then (h 2 i j k - h 2 i (j - 1) k) - (h 1 i j k - h 1 i j (k - 1))
  else if c = 1 then (h 0 i j k - h 0 i j (k - 1)) - (h 2 i j k - h 2 (i - 1) j k)
  else (h 1 i j k - h 1 (i - 1) j k) - (h 0 i j k - h 0 i (j - 1) k)

/-- Net outflow of a face quantity from the primary cell `(i,j,k)`. -/
def divAt (b : ℕ → ℕ → ℕ → ℕ → K) (i j k : ℕ) : K :=
  (b 0 (i + 1) j k - b 0 i j k) + (b 1 i (j + 1) k - b 1 i j k) + (b 2 i j (k + 1) - b 2 i j k)

/-- Net outflow of a dual-face quantity from the dual cell of node `(i,j,k)`. -/
def codivAt (d : ℕ → ℕ → ℕ → ℕ → K) (i j k : ℕ) : K :=
  (d 0 i j k - d 0 (i - 1) j k) + (d 1 i j k - d 1 i (j - 1) k) + (d 2 i j k - d 2 i j (k - 1))

/-- A flat array as a function of component and cell. -/
def view3 (Nx Ny Nz : ℕ) (v : ℕ → K) : ℕ → ℕ → ℕ → ℕ → K := fun c i j k => v (pos Nx Ny Nz c i j k)

/-- The event does not assign to field `f`. -/
def Ev.NotWriting (f : Which) : Ev K → Prop
  | .step => True
  | .write g _ _ => g ≠ f

end Sol
end Wakis
