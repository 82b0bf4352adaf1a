import Verif.MpiHalo
import Verif.MaterialModel
import Verif.GridProps
import Verif.SolverLemmas
import Verif.SolverSpec

/-!
# Model of the distributed solver (solverFIT3D.py, MPI path)

Every rank owns a solver of its own z-slab and runs the program below; the programs communicate through the
message-passing semantics of `MpiSched`.
-/

namespace Wakis
namespace Mpi
open Sol Sparse
variable {K : Type _} [Field K]

/-- The flat array of `E`, `H` or `J`. -/
def getW : Which → State K → Vec K
  | .E, st => st.E
  | .H, st => st.H
  | .J, st => st.J

/-- Replace the flat array of `E`, `H` or `J`. -/
def setW : Which → State K → Vec K → State K
  | .E, st, a => { st with E := a }
  | .H, st, a => { st with H := a }
  | .J, st, a => { st with J := a }

/-- `field[:, :, m, d]` as a send buffer: the plane, cell by cell (nothing outside the array is sent). -/
def plane (f : Fld K) (m d : ℕ) : ℕ → ℕ → K :=
  fun i j => if i < f.Nx ∧ j < f.Ny ∧ m < f.Nz then f.at3 d i j m else 0

/-- The buffers of `_mpi_communicate(field)`, solverFIT3D.py:494-515: plane `1` is sent down and plane `0`
received from below; plane `-2` is sent up and plane `-1` received from above.  On the CPU
`field[:, :, m, d]` is a view, so receiving writes into the field.  The copies to and from the GPU
(490-492, 517-518) are not modelled. -/
def bufs (s : ℕ → Solver K) (w : Which) : Bufs (State K) (ℕ → ℕ → K) where
  loGet r d st := plane ((s r).fld (getW w st)) 1 d
  loPut r d m st := setW w st (setPlane ((s r).fld (getW w st)) 2 0 d fun i j _ => m i j).array
  hiGet r d st := plane ((s r).fld (getW w st)) ((s r).Nz - 2) d
  hiPut r d m st := setW w st (setPlane ((s r).fld (getW w st)) 2 ((s r).Nz - 1) d fun i j _ => m i j).array

/-- solverFIT3D.py:490-518 `_mpi_communicate(field)` on rank `r`. -/
def communicate (s : ℕ → Solver K) (size : ℕ) (w : Which) (r : ℕ) : List (Instr (State K) (ℕ → ℕ → K)) :=
  loOps (bufs s w) size r ++ hiOps (bufs s w) size r

/-- solverFIT3D.py:437-444: first-step branch and H update. -/
def hHalf (s : Solver K) (st : State K) : State K :=
  let st := if st.step0 then { setGhostsTo0 s st with step0 := false } else st
  { st with H := fun i => st.H i - s.dt * mulVec s.n3 s.M1 st.E i }

/-- solverFIT3D.py:448-455: E update. -/
def eHalf (s : Solver K) (st : State K) : State K :=
  { st with E := fun i => st.E i + s.dt * (mulVec s.n3 s.M2 st.H i - s.ieps i * st.J i) }

/-- solverFIT3D.py:459-460: conduction current. -/
def jHalf (s : Solver K) (st : State K) : State K :=
  { st with J := if s.useConductivity then fun i => s.sigma i * st.E i else st.J }

/-- The serial step is the three halves without communication. -/
theorem oneStep_halves (s : Solver K) (st : State K) : oneStep s st = jHalf s (eHalf s (hHalf s st)) := by
  unfold oneStep hHalf eHalf jHalf advance
  by_cases h : st.step0 <;> simp [h]

/-- A local computation as a program; ranks beyond `size` do not exist and have nothing to do. -/
def local1 (size : ℕ) (f : ℕ → State K → State K) (r : ℕ) : List (Instr (State K) (ℕ → ℕ → K)) :=
  if r < size then [.comp (f r)] else []

/-- solverFIT3D.py:436-460 `_mpi_one_step` on rank `r`. -/
def stepProg (s : ℕ → Solver K) (size r : ℕ) : List (Instr (State K) (ℕ → ℕ → K)) :=
  local1 size (fun r => hHalf (s r)) r ++ (communicate s size .H r ++ (communicate s size .J r ++
    (local1 size (fun r => eHalf (s r)) r ++ (communicate s size .E r ++ local1 size (fun r => jHalf (s r)) r))))

/-- Events of a distributed run in global terms: a step of all ranks, or an assignment of component `c` of
global cell `(i,j,k)` of a field. -/
inductive DEv (K : Type _)
  | step
  | write (f : Which) (c i j k : ℕ) (v : K)

/-- Global number of local layer 0 of rank `r` when each rank owns `n` layers (gridFIT3D.py:325-343). -/
def off (n r : ℕ) : ℕ := r * n - Grid.ghostLo r

/-- An assignment executed by a rank: if the global layer is one of the rank's local layers (ghosts included)
it assigns the cell with the local layer number. -/
def localWrite (s : Solver K) (o : ℕ) (f : Which) (c i j k : ℕ) (v : K) (st : State K) : State K :=
  if o ≤ k ∧ k < o + s.Nz then event s st (.write f (pos s.Nx s.Ny s.Nz c i j (k - o)) v) else st

/-- What rank `r` executes for an event. -/
def evProg (s : ℕ → Solver K) (size n : ℕ) (r : ℕ) : DEv K → List (Instr (State K) (ℕ → ℕ → K))
  | .step => stepProg s size r
  | .write f c i j k v => local1 size (fun r => localWrite (s r) (off n r) f c i j k v) r

/-- The program of rank `r` for a history of events. -/
def runProg (s : ℕ → Solver K) (size n : ℕ) (evs : List (DEv K)) (r : ℕ) : List (Instr (State K) (ℕ → ℕ → K)) :=
  evs.flatMap (evProg s size n r)

/-- The network at the start: programs, memories, no message under way. -/
def start (prog : ℕ → List (Instr (State K) (ℕ → ℕ → K))) (locs : ℕ → State K) : Net (State K) (ℕ → ℕ → K) :=
  ⟨fun r => ⟨prog r, locs r, false, false⟩, fun _ _ _ => []⟩

/-- The same event on a serial solver. -/
def DEv.serial (s : Solver K) : DEv K → Ev K
  | .step => .step
  | .write f c i j k v => .write f (pos s.Nx s.Ny s.Nz c i j k) v

/-- Grid of rank `r`: gridFIT3D.py:301-353 then 257-299 with the local nodes. -/
def rankGrid [DecidableEq K] (Nx Ny : ℕ) (x y : ℕ → K) (m : Grid.MpiZ K) : Grid.Geom K :=
  Grid.computeGrid Nx Ny m.Nz x y m.z

end Mpi
end Wakis
