import Verif.Translate
import Verif.StlMask
import Verif.Scale4

/-!
# C116: grids from extents, MPI ranks and solids; concrete cases
-/

namespace Wakis
namespace Grid
open Sol

section
variable {K : Type} [Field K]

/-- **C116 (grid from extents).** A grid given by its extents and numbers of cells: moving the extents moves the nodes. -/
theorem C116_extents [DecidableEq K] (X Y Z xmin xmax ymin ymax zmin zmax : K) (Nx Ny Nz : ℕ) :
    uniform (xmin + X) (xmax + X) (ymin + Y) (ymax + Y) (zmin + Z) (zmax + Z) Nx Ny Nz =
      computeGrid Nx Ny Nz (fun i => (uniform xmin xmax ymin ymax zmin zmax Nx Ny Nz).x i + X) (fun i => (uniform xmin xmax ymin ymax zmin zmax Nx Ny Nz).y i + Y)
        (fun i => (uniform xmin xmax ymin ymax zmin zmax Nx Ny Nz).z i + Z) := by
  unfold uniform
  rw [linspace_move, linspace_move, linspace_move]
  rfl

/-- **C116 (MPI).** The slab of every rank of a distributed run moves along: same layers, nodes moved. -/
theorem C116_rank (rank size Nz : ℕ) (zmin zmax Z : K) :
    mpiInitialize rank size Nz (zmin + Z) (zmax + Z) = (mpiInitialize rank size Nz zmin zmax).map fun m => ⟨m.NZ, m.Nz, m.zmin + Z, m.zmax + Z, fun i => m.z i + Z⟩ := by
  unfold mpiInitialize
  split
  · rfl
  · simp only [add_sub_add_right_eq_sub, ← add_assoc]
    have e : ∀ (a b : K) (n : ℕ), linspace (a + Z) (b + Z) n = fun i => linspace a b n i + Z := fun a b n => linspace_move a b Z n
    have c1 : ∀ a b : K, a + Z - b = a - b + Z := fun a b => by ring
    have c2 : ∀ a b : K, a + Z + b = a + b + Z := fun a b => by ring
    by_cases h3 : rank = 0 ∧ size = 1
    · obtain ⟨rfl, rfl⟩ := h3
      simp only [lt_irrefl, zero_add, and_self, if_true, if_false, Except.map, c2, e]
    · by_cases h1 : 0 < rank <;> by_cases h2 : rank + 1 < size <;> simp only [if_neg h3, h1, h2, if_true, if_false, Except.map, c1, c2, e]

end

/-- **C116 (solids).** A solid moved along with the grid fills the same cells: the mask is the same (`enclosed tol p` is the geometry test for the point `p`; the moved solid contains `p` iff the
solid contains `p` moved back). -/
theorem C116_solid {K : Type} [Field K] [LinearOrder K] (X Y Z : K) (avg : ℕ → K) (enclosed : K → K × K × K → Bool) (Nx Ny Nz : ℕ) (x y z : ℕ → K) (stlTol : K) :
    markCells avg (fun tol p => enclosed tol (p.1 - X, p.2.1 - Y, p.2.2 - Z)) Nx Ny Nz (fun i => x i + X) (fun i => y i + Y) (fun i => z i + Z) stlTol = markCells avg enclosed Nx Ny Nz x y z stlTol := by
  unfold markCells stlTolerance cellCorners
  simp only [add_sub_add_right_eq_sub]
  split
  · rfl
  · simp only [bind, Except.bind, List.countP_cons, List.countP_nil, add_sub_cancel_right]

end Grid

namespace Src
open Fld

/-- A packet of width 1 on a grid of 2×2×4 unit cells starting at the origin: moved by one cell it writes other values. -/
example : ∃ p p1 p2 F1 F2, WavePacket.init none none 1 (some 1) (some 1) none none (some 3) 1 1 0 = .ok p ∧ p.update { demoGrd with Ny := 2 } ⟨Fld.new 2 2 4, Fld.new 2 2 4, Fld.new 2 2 4⟩ 0 = .ok (p1, F1) ∧
    p.update (Grd.move 1 0 0 { demoGrd with Ny := 2 }) ⟨Fld.new 2 2 4, Fld.new 2 2 4, Fld.new 2 2 4⟩ 0 = .ok (p2, F2) ∧
    F2.H.get ((0 : ℕ) : ℤ) ((0 : ℕ) : ℤ) ((1 : ℕ) : ℤ) (.str "y") ≠ F1.H.get ((0 : ℕ) : ℤ) ((0 : ℕ) : ℤ) ((1 : ℕ) : ℤ) (.str "y") := by
  refine ⟨_, _, _, _, _, rfl, rfl, rfl, ?_⟩
  refine C116_wave_packet_refuted (X := 1) (p := ⟨none, none, 1, some 1, some 1, 6 * 1, 3, 1, 1, 0⟩) (g := { demoGrd with Ny := 2 }) (F := ⟨Fld.new 2 2 4, Fld.new 2 2 4, Fld.new 2 2 4⟩) (t := 0) rfl rfl rfl
    ⟨rfl, rfl⟩ ⟨rfl, rfl⟩ (kz := 1) rfl (show 1 < 4 by decide) (show 1 < 4 by decide) rfl rfl one_ne_zero ?_ one_ne_zero (j := 0) (show 0 < 2 by decide) ?_ 0 (show 0 < 2 by decide)
  · simp
  · show ((((0 : ℕ) : ℝ) + 0.5 + 1) ^ 2 ≠ (((0 : ℕ) : ℝ) + 0.5) ^ 2)
    norm_num

end Src

namespace Wake
open Src Sol Sparse

/-- A wake run of the conducting box of `box_case`, moved by any vector. -/
example (X Y Z : ℝ) : ∃ t, ∃ o o', setUp 1 1 1 (1 / 2) (some (1 / 10 ^ 9)) 0 4 4 5 (fun i => (i : ℝ) ^ 2) (fun i => (i : ℝ) ^ 2) (fun i => (i : ℝ) ^ 2) ⟨"pec", "pec", "pmc", "pec", "periodic", "periodic"⟩
      (.vals ⟨.fin 2, .fin 1, some 3⟩) (fun _ => none) [] = .ok (t, 1 / 10 ^ 9) ∧
    wakesolve (build (Grid.computeGrid 4 4 5 (fun i => (i : ℝ) ^ 2) (fun i => (i : ℝ) ^ 2) (fun i => (i : ℝ) ^ 2)) ⟨"pec", "pec", "pmc", "pec", "periodic", "periodic"⟩ t.ieps.array t.imu.array t.sigma.array (1 / 10 ^ 9) t.useCond)
      (grdOf 4 4 5 (fun i => (i : ℝ) ^ 2) (fun i => (i : ℝ) ^ 2) (fun i => (i : ℝ) ^ 2) (1 / 10 ^ 9) none) ⟨1, 1, 1, 1, 1, 1, 1, some 0, 0⟩ 26 true none none (fun _ => .d1 0 0) initState = .ok o ∧
    wakesolve (build (Grid.computeGrid 4 4 5 (fun i => (i : ℝ) ^ 2 + X) (fun i => (i : ℝ) ^ 2 + Y) (fun i => (i : ℝ) ^ 2 + Z)) ⟨"pec", "pec", "pmc", "pec", "periodic", "periodic"⟩ t.ieps.array t.imu.array t.sigma.array (1 / 10 ^ 9) t.useCond)
      (grdOf 4 4 5 (fun i => (i : ℝ) ^ 2 + X) (fun i => (i : ℝ) ^ 2 + Y) (fun i => (i : ℝ) ^ 2 + Z) (1 / 10 ^ 9) none) ⟨1, 1, 1, 1 + X, 1 + Y, 1 + X, 1 + Y, some 0, 0⟩ 26 true none none (fun _ => .d1 0 0) initState = .ok o' ∧
    o'.st = o.st := by
  obtain ⟨t, h⟩ := box_case
  obtain ⟨o, S, D, zmin, zmax, ixt, iyt, Ez, p1, -⟩ := C65_records
    (build (Grid.computeGrid 4 4 5 (fun i => (i : ℝ) ^ 2) (fun i => (i : ℝ) ^ 2) (fun i => (i : ℝ) ^ 2)) ⟨"pec", "pec", "pmc", "pec", "periodic", "periodic"⟩ t.ieps.array t.imu.array t.sigma.array (1 / 10 ^ 9) t.useCond)
    (grdOf 4 4 5 (fun i => (i : ℝ) ^ 2) (fun i => (i : ℝ) ^ 2) (fun i => (i : ℝ) ^ 2) (1 / 10 ^ 9) none) ⟨1, 1, 1, 1, 1, 1, 1, some 0, 0⟩
    ⟨rfl, rfl, rfl, show 0 < 4 by decide, show 0 < 4 by decide, show 0 < 5 by decide, rfl⟩ (show (0 : ℝ) < 1 / 10 ^ 9 by norm_num) 26 none none (fun _ => .d1 0 0) initState
  obtain ⟨-, o', q1, -, q2, -⟩ := C116_wake X Y Z 1 1 1 (1 / 2) (some (1 / 10 ^ 9)) 0 4 4 5 _ _ _ _ _ _ _ h _ 26 true none (fun _ => .d1 0 0) p1
  exact ⟨t, o, o', h, p1, q1, q2⟩

end Wake
end Wakis
