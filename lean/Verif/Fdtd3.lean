import Verif.CurlBound
import Verif.Fdtd2

/-!
# C94, C95: the three-dimensional solver without absorbing layers

Model of the field updates of `wakis/solver3D.py` for `sol_type` 'FDTD', 'DM' and 'ECT' when no boundary is 'pml' (then `blocks` is empty and
`update_e_boundary` does nothing).
-/

namespace Wakis
namespace L3
noncomputable section
open Classical Finset
open S2 (Phys)
open Sol.CurlBound (S3)

/-! ### Model -/

/-- A three-dimensional array; entries outside the array are zero in every state below. -/
abbrev A3 := ℕ → ℕ → ℕ → ℝ

/-- What the solver reads from the grid (grid3D.py:41-84): cell counts, cell sizes, edge lengths, areas and the interior flags of the faces. -/
structure Grid where
  nx : ℕ
  ny : ℕ
  nz : ℕ
  dx : ℝ
  dy : ℝ
  dz : ℝ
  lx : A3
  ly : A3
  lz : A3
  Sxy : A3
  Syz : A3
  Szx : A3
  intXy : ℕ → ℕ → ℕ → Prop
  intYz : ℕ → ℕ → ℕ → Prop
  intZx : ℕ → ℕ → ℕ → Prop

/-- The fields of the solver (solver3D.py:87-92). -/
structure Fields where
  Ex : A3
  Ey : A3
  Ez : A3
  Hx : A3
  Hy : A3
  Hz : A3

/-- The currents (solver3D.py:93-95). -/
structure Curr where
  Jx : A3
  Jy : A3
  Jz : A3

/-- `dt` (solver3D.py:35-38). -/
def timeStep (p : Phys) (g : Grid) (cfln : ℝ) : ℝ := cfln / (p.c * Real.sqrt (1 / g.dx ^ 2 + 1 / g.dy ^ 2 + 1 / g.dz ^ 2))

/-- `advance_h_fdtd` (solver3D.py:1659-1692) with `C1`, `C2` and `C7` (solver3D.py:118-120). An iteration reads only the electric fields and its own
entry, so that the loops are written as one assignment; so in the definitions below. -/
def advHFdtd (p : Phys) (g : Grid) (dt : ℝ) (f : Fields) : Fields :=
  { f with
    Hx := fun i j k =>
      if (i < g.nx + 1 ∧ j < g.ny ∧ k < g.nz) ∧ g.Syz i j k > 0 then
        f.Hx i j k - dt / (g.dy * p.mu) * (f.Ez i (j + 1) k - f.Ez i j k) + dt / (g.dz * p.mu) * (f.Ey i j (k + 1) - f.Ey i j k)
      else f.Hx i j k
    Hy := fun i j k =>
      if (i < g.nx ∧ j < g.ny + 1 ∧ k < g.nz) ∧ g.Szx i j k > 0 then
        f.Hy i j k - dt / (g.dz * p.mu) * (f.Ex i j (k + 1) - f.Ex i j k) + dt / (g.dx * p.mu) * (f.Ez (i + 1) j k - f.Ez i j k)
      else f.Hy i j k
    Hz := fun i j k =>
      if (i < g.nx ∧ j < g.ny ∧ k < g.nz + 1) ∧ g.Sxy i j k > 0 then
        f.Hz i j k - dt / (g.dx * p.mu) * (f.Ey (i + 1) j k - f.Ey i j k) + dt / (g.dy * p.mu) * (f.Ex i (j + 1) k - f.Ex i j k)
      else f.Hz i j k }

/-- Edges along x with an electric field: not on the border of the box, not in the conductor. -/
def freeX (g : Grid) (i j k : ℕ) : Prop := (i < g.nx ∧ (1 ≤ j ∧ j < g.ny) ∧ (1 ≤ k ∧ k < g.nz)) ∧ g.lx i j k > 0
/-- Edges along y with an electric field. -/
def freeY (g : Grid) (i j k : ℕ) : Prop := ((1 ≤ i ∧ i < g.nx) ∧ j < g.ny ∧ (1 ≤ k ∧ k < g.nz)) ∧ g.ly i j k > 0
/-- Edges along z with an electric field. -/
def freeZ (g : Grid) (i j k : ℕ) : Prop := ((1 ≤ i ∧ i < g.nx) ∧ (1 ≤ j ∧ j < g.ny) ∧ k < g.nz) ∧ g.lz i j k > 0

/-- `advance_e_fdtd` (solver3D.py:1694-1729); `advance_e_dm` (solver3D.py:1883-1925) has the same loops. With `C3`, `C4`, `C5` and `C8`
(solver3D.py:121-124); the conditions are the loop bounds and `l > 0`. -/
def advE (p : Phys) (g : Grid) (dt : ℝ) (J : Curr) (f : Fields) : Fields :=
  { f with
    Ex := fun i j k =>
      if freeX g i j k then
        f.Ex i j k - dt / p.eps * J.Jx i j k + dt / (g.dy * p.eps) * (f.Hz i j k - f.Hz i (j - 1) k) - dt / (g.dz * p.eps) * (f.Hy i j k - f.Hy i j (k - 1))
      else f.Ex i j k
    Ey := fun i j k =>
      if freeY g i j k then
        f.Ey i j k - dt / p.eps * J.Jy i j k + dt / (g.dz * p.eps) * (f.Hx i j k - f.Hx i j (k - 1)) - dt / (g.dx * p.eps) * (f.Hz i j k - f.Hz (i - 1) j k)
      else f.Ey i j k
    Ez := fun i j k =>
      if freeZ g i j k then
        f.Ez i j k - dt / p.eps * J.Jz i j k + dt / (g.dx * p.eps) * (f.Hy i j k - f.Hy (i - 1) j k) - dt / (g.dy * p.eps) * (f.Hx i j k - f.Hx i (j - 1) k)
      else f.Ez i j k }

/-- `one_step_fdtd` (solver3D.py:1609-1656) without blocks. -/
def stepFdtd (p : Phys) (g : Grid) (dt : ℝ) (J : Curr) (f : Fields) : Fields := advE p g dt J (advHFdtd p g dt f)

/-- `Vyz` (solver3D.py:1852-1862). -/
def vYz (g : Grid) (f : Fields) (i j k : ℕ) : ℝ :=
  f.Ey i j k * g.ly i j k - f.Ey i j (k + 1) * g.ly i j (k + 1) + f.Ez i (j + 1) k * g.lz i (j + 1) k - f.Ez i j k * g.lz i j k
/-- `Vzx` (solver3D.py:1868-1878). -/
def vZx (g : Grid) (f : Fields) (i j k : ℕ) : ℝ :=
  f.Ez i j k * g.lz i j k - f.Ez (i + 1) j k * g.lz (i + 1) j k + f.Ex i j (k + 1) * g.lx i j (k + 1) - f.Ex i j k * g.lx i j k
/-- `Vxy` (solver3D.py:1835-1846). -/
def vXy (g : Grid) (f : Fields) (i j k : ℕ) : ℝ :=
  f.Ex i j k * g.lx i j k - f.Ex i (j + 1) k * g.lx i (j + 1) k + f.Ey (i + 1) j k * g.ly (i + 1) j k - f.Ey i j k * g.ly i j k

/-- The magnetic updates of `one_step_dm` (solver3D.py:1731-1765). -/
def advHDm (p : Phys) (g : Grid) (dt : ℝ) (f : Fields) : Fields :=
  { f with
    Hx := fun i j k =>
      if (i < g.nx + 1 ∧ j < g.ny ∧ k < g.nz) ∧ g.intYz i j k then f.Hx i j k - dt / (p.mu * g.Syz i j k) * vYz g f i j k else f.Hx i j k
    Hy := fun i j k =>
      if (i < g.nx ∧ j < g.ny + 1 ∧ k < g.nz) ∧ g.intZx i j k then f.Hy i j k - dt / (p.mu * g.Szx i j k) * vZx g f i j k else f.Hy i j k
    Hz := fun i j k =>
      if (i < g.nx ∧ j < g.ny ∧ k < g.nz + 1) ∧ g.intXy i j k then f.Hz i j k - dt / (p.mu * g.Sxy i j k) * vXy g f i j k else f.Hz i j k }

/-- `one_step_dm` (solver3D.py:1731-1767). -/
def stepDm (p : Phys) (g : Grid) (dt : ℝ) (J : Curr) (f : Fields) : Fields := advE p g dt J (advHDm p g dt f)

/-- The fields of a new solver (solver3D.py:87-92). -/
def zero : Fields := ⟨fun _ _ _ => 0, fun _ _ _ => 0, fun _ _ _ => 0, fun _ _ _ => 0, fun _ _ _ => 0, fun _ _ _ => 0⟩

/-- The state after `n` steps with currents `J 0, J 1, …` set by the user before each step. -/
def run (step : Curr → Fields → Fields) (J : ℕ → Curr) (f : Fields) : ℕ → Fields
  | 0 => f
  | n + 1 => step (J n) (run step J f n)

/-! ### Specification -/

/-- Sum over all nodes of the box. -/
def sum (g : Grid) (F : A3) : ℝ := ∑ i ∈ range (g.nx + 1), ∑ j ∈ range (g.ny + 1), ∑ k ∈ range (g.nz + 1), F i j k

/-- Field energy of the staircased scheme: electric energy plus magnetic energy, where the square of the magnetic field, which is half a step
late, is the product of the values before and after the electric field (`f` and `h`). -/
def energy (p : Phys) (g : Grid) (f h : Fields) : ℝ :=
  (p.eps / 2 * sum g (fun i j k => f.Ex i j k ^ 2 + f.Ey i j k ^ 2 + f.Ez i j k ^ 2) +
    p.mu / 2 * sum g (fun i j k => f.Hx i j k * h.Hx i j k + f.Hy i j k * h.Hy i j k + f.Hz i j k * h.Hz i j k)) * (g.dx * g.dy * g.dz)

/-- Field energy of the conformal scheme: an edge stands for its free length times the dual face across it, a face for its area times the dual
edge. -/
def energyDm (p : Phys) (g : Grid) (f h : Fields) : ℝ :=
  p.eps / 2 * sum g (fun i j k => g.lx i j k * (g.dy * g.dz) * f.Ex i j k ^ 2 + g.ly i j k * (g.dx * g.dz) * f.Ey i j k ^ 2 +
      g.lz i j k * (g.dx * g.dy) * f.Ez i j k ^ 2) +
    p.mu / 2 * sum g (fun i j k => g.Syz i j k * g.dx * (f.Hx i j k * h.Hx i j k) + g.Szx i j k * g.dy * (f.Hy i j k * h.Hy i j k) +
      g.Sxy i j k * g.dz * (f.Hz i j k * h.Hz i j k))

/-- Fields that vanish in the conductors, on the border of the box and outside. -/
structure Quiet (g : Grid) (f : Fields) : Prop where
  ex : ∀ i j k, ¬ freeX g i j k → f.Ex i j k = 0
  ey : ∀ i j k, ¬ freeY g i j k → f.Ey i j k = 0
  ez : ∀ i j k, ¬ freeZ g i j k → f.Ez i j k = 0
  hx : ∀ i j k, ¬ ((i < g.nx + 1 ∧ j < g.ny ∧ k < g.nz) ∧ g.Syz i j k > 0) → f.Hx i j k = 0
  hy : ∀ i j k, ¬ ((i < g.nx ∧ j < g.ny + 1 ∧ k < g.nz) ∧ g.Szx i j k > 0) → f.Hy i j k = 0
  hz : ∀ i j k, ¬ ((i < g.nx ∧ j < g.ny ∧ k < g.nz + 1) ∧ g.Sxy i j k > 0) → f.Hz i j k = 0

/-- The same for the conformal scheme, where the flags tell which faces have a field. -/
structure QuietDm (g : Grid) (f : Fields) : Prop where
  ex : ∀ i j k, ¬ freeX g i j k → f.Ex i j k = 0
  ey : ∀ i j k, ¬ freeY g i j k → f.Ey i j k = 0
  ez : ∀ i j k, ¬ freeZ g i j k → f.Ez i j k = 0
  hx : ∀ i j k, ¬ ((i < g.nx + 1 ∧ j < g.ny ∧ k < g.nz) ∧ g.intYz i j k) → f.Hx i j k = 0
  hy : ∀ i j k, ¬ ((i < g.nx ∧ j < g.ny + 1 ∧ k < g.nz) ∧ g.intZx i j k) → f.Hy i j k = 0
  hz : ∀ i j k, ¬ ((i < g.nx ∧ j < g.ny ∧ k < g.nz + 1) ∧ g.intXy i j k) → f.Hz i j k = 0

/-- No currents. -/
def noCurr : Curr := ⟨fun _ _ _ => 0, fun _ _ _ => 0, fun _ _ _ => 0⟩

/-- The current where the edge carries a field, else zero. -/
def onFree (P : ℕ → ℕ → ℕ → Prop) (F : A3) : A3 := fun i j k => if P i j k then F i j k else 0

/-! ### Proof: a general scheme -/

lemma sum_congr' {g : Grid} {F G : A3} (h : ∀ i j k, F i j k = G i j k) : sum g F = sum g G := by
  have : F = G := by funext i j k; exact h i j k
  rw [this]

lemma sum_add (g : Grid) (F G : A3) : sum g (fun i j k => F i j k + G i j k) = sum g F + sum g G := Sol.CurlBound.S3_add F G
lemma sum_mul (g : Grid) (a : ℝ) (F : A3) : sum g (fun i j k => a * F i j k) = a * sum g F := Sol.CurlBound.S3_mul a F
lemma sum_le {g : Grid} {F G : A3} (h : ∀ i j k, F i j k ≤ G i j k) : sum g F ≤ sum g G :=
  Sol.CurlBound.S3_le fun i _ j _ k _ => h i j k
lemma sum_zero (g : Grid) {F : A3} (h : ∀ i j k, F i j k = 0) : sum g F = 0 := by
  rw [sum_congr' (G := fun _ _ _ => 0) h]; simp [sum]
lemma sum_nonneg' (g : Grid) {F : A3} (h : ∀ i j k, 0 ≤ F i j k) : 0 ≤ sum g F := by
  rw [← sum_zero g (F := fun _ _ _ => 0) fun _ _ _ => rfl]; exact sum_le h

lemma parts_x (g : Grid) (P Q : A3) (h0 : ∀ j k, P 0 j k = 0) (hN : ∀ j k, P (g.nx + 1) j k = 0) :
    sum g (fun i j k => (P (i + 1) j k - P i j k) * Q i j k) = sum g (fun i j k => P i j k * (Q (i - 1) j k - Q i j k)) := by
  show S3 _ _ _ _ = S3 _ _ _ _
  rw [Sol.CurlBound.S3_x, Sol.CurlBound.S3_x]
  exact sum_congr rfl fun j _ => sum_congr rfl fun k _ => Sol.CurlBound.by_parts (fun i => P i j k) (fun i => Q i j k) _ (h0 j k) (hN j k)

lemma parts_y (g : Grid) (P Q : A3) (h0 : ∀ i k, P i 0 k = 0) (hN : ∀ i k, P i (g.ny + 1) k = 0) :
    sum g (fun i j k => (P i (j + 1) k - P i j k) * Q i j k) = sum g (fun i j k => P i j k * (Q i (j - 1) k - Q i j k)) := by
  show S3 _ _ _ _ = S3 _ _ _ _
  rw [Sol.CurlBound.S3_y, Sol.CurlBound.S3_y]
  exact sum_congr rfl fun i _ => sum_congr rfl fun k _ => Sol.CurlBound.by_parts (fun j => P i j k) (fun j => Q i j k) _ (h0 i k) (hN i k)

lemma parts_z (g : Grid) (P Q : A3) (h0 : ∀ i j, P i j 0 = 0) (hN : ∀ i j, P i j (g.nz + 1) = 0) :
    sum g (fun i j k => (P i j (k + 1) - P i j k) * Q i j k) = sum g (fun i j k => P i j k * (Q i j (k - 1) - Q i j k)) :=
  sum_congr rfl fun i _ => sum_congr rfl fun j _ => Sol.CurlBound.by_parts (fun k => P i j k) (fun k => Q i j k) _ (h0 i j) (hN i j)

/-- Edge values that vanish on the border. -/
structure Tang (g : Grid) (u v w : A3) : Prop where
  u : ∀ i j k, ¬ ((1 ≤ j ∧ j < g.ny) ∧ (1 ≤ k ∧ k < g.nz)) → u i j k = 0
  v : ∀ i j k, ¬ ((1 ≤ i ∧ i < g.nx) ∧ (1 ≤ k ∧ k < g.nz)) → v i j k = 0
  w : ∀ i j k, ¬ ((1 ≤ i ∧ i < g.nx) ∧ (1 ≤ j ∧ j < g.ny)) → w i j k = 0

/-- Circulation of edge values. -/
def cx (v w : A3) (i j k : ℕ) : ℝ := (w i (j + 1) k - w i j k) - (v i j (k + 1) - v i j k)
def cy (u w : A3) (i j k : ℕ) : ℝ := (u i j (k + 1) - u i j k) - (w (i + 1) j k - w i j k)
def cz (u v : A3) (i j k : ℕ) : ℝ := (v (i + 1) j k - v i j k) - (u i (j + 1) k - u i j k)

lemma circ_dual (g : Grid) (u v w A B C : A3) (h : Tang g u v w) :
    sum g (fun i j k => A i j k * cx v w i j k + B i j k * cy u w i j k + C i j k * cz u v i j k) =
      sum g (fun i j k => u i j k * ((C i j k - C i (j - 1) k) - (B i j k - B i j (k - 1))) +
        v i j k * ((A i j k - A i j (k - 1)) - (C i j k - C (i - 1) j k)) + w i j k * ((B i j k - B (i - 1) j k) - (A i j k - A i (j - 1) k))) := by
  have e1 := parts_y g w A (fun i k => h.w _ _ _ (by omega)) (fun i k => h.w _ _ _ (by omega))
  have e2 := parts_z g v A (fun i k => h.v _ _ _ (by omega)) (fun i k => h.v _ _ _ (by omega))
  have e3 := parts_z g u B (fun i k => h.u _ _ _ (by omega)) (fun i k => h.u _ _ _ (by omega))
  have e4 := parts_x g w B (fun i k => h.w _ _ _ (by omega)) (fun i k => h.w _ _ _ (by omega))
  have e5 := parts_x g v C (fun i k => h.v _ _ _ (by omega)) (fun i k => h.v _ _ _ (by omega))
  have e6 := parts_y g u C (fun i k => h.u _ _ _ (by omega)) (fun i k => h.u _ _ _ (by omega))
  have l : sum g (fun i j k => A i j k * cx v w i j k + B i j k * cy u w i j k + C i j k * cz u v i j k) =
      sum g (fun i j k => (w i (j + 1) k - w i j k) * A i j k) + -1 * sum g (fun i j k => (v i j (k + 1) - v i j k) * A i j k) +
      (sum g (fun i j k => (u i j (k + 1) - u i j k) * B i j k) + -1 * sum g (fun i j k => (w (i + 1) j k - w i j k) * B i j k)) +
      (sum g (fun i j k => (v (i + 1) j k - v i j k) * C i j k) + -1 * sum g (fun i j k => (u i (j + 1) k - u i j k) * C i j k)) := by
    simp only [← sum_mul, ← sum_add]
    exact sum_congr' fun i j k => by simp only [cx, cy, cz]; ring
  rw [l, e1, e2, e3, e4, e5, e6]
  simp only [← sum_mul, ← sum_add]
  exact sum_congr' fun i j k => by ring

/-- The magnetic part of a general scheme: faces with a field, coefficients, edge lengths. -/
structure Scheme where
  ax : ℕ → ℕ → ℕ → Prop
  ay : ℕ → ℕ → ℕ → Prop
  az : ℕ → ℕ → ℕ → Prop
  kx : A3
  ky : A3
  kz : A3
  lx : A3
  ly : A3
  lz : A3

def Scheme.cX (s : Scheme) (f : Fields) : A3 := cx (fun i j k => s.ly i j k * f.Ey i j k) (fun i j k => s.lz i j k * f.Ez i j k)
def Scheme.cY (s : Scheme) (f : Fields) : A3 := cy (fun i j k => s.lx i j k * f.Ex i j k) (fun i j k => s.lz i j k * f.Ez i j k)
def Scheme.cZ (s : Scheme) (f : Fields) : A3 := cz (fun i j k => s.lx i j k * f.Ex i j k) (fun i j k => s.ly i j k * f.Ey i j k)

def Scheme.h (s : Scheme) (f : Fields) : Fields :=
  { f with
    Hx := fun i j k => if s.ax i j k then f.Hx i j k - s.kx i j k * s.cX f i j k else f.Hx i j k
    Hy := fun i j k => if s.ay i j k then f.Hy i j k - s.ky i j k * s.cY f i j k else f.Hy i j k
    Hz := fun i j k => if s.az i j k then f.Hz i j k - s.kz i j k * s.cZ f i j k else f.Hz i j k }

def Scheme.step (s : Scheme) (p : Phys) (g : Grid) (dt : ℝ) (J : Curr) (f : Fields) : Fields := advE p g dt J (s.h f)

/-- Fields that vanish where the scheme does not update them. -/
structure Scheme.Quiet (s : Scheme) (g : Grid) (f : Fields) : Prop where
  ex : ∀ i j k, ¬ freeX g i j k → f.Ex i j k = 0
  ey : ∀ i j k, ¬ freeY g i j k → f.Ey i j k = 0
  ez : ∀ i j k, ¬ freeZ g i j k → f.Ez i j k = 0
  hx : ∀ i j k, ¬ s.ax i j k → f.Hx i j k = 0
  hy : ∀ i j k, ¬ s.ay i j k → f.Hy i j k = 0
  hz : ∀ i j k, ¬ s.az i j k → f.Hz i j k = 0

lemma Scheme.quiet_step {s : Scheme} {g : Grid} (p : Phys) (dt : ℝ) (J : Curr) {f : Fields} (h : s.Quiet g f) : s.Quiet g (s.step p g dt J f) := by
  refine ⟨fun i j k hn => ?_, fun i j k hn => ?_, fun i j k hn => ?_, fun i j k hn => ?_, fun i j k hn => ?_, fun i j k hn => ?_⟩
  · exact (if_neg hn).trans (h.ex i j k hn)
  · exact (if_neg hn).trans (h.ey i j k hn)
  · exact (if_neg hn).trans (h.ez i j k hn)
  · exact (if_neg hn).trans (h.hx i j k hn)
  · exact (if_neg hn).trans (h.hy i j k hn)
  · exact (if_neg hn).trans (h.hz i j k hn)

/-- Energy of the general scheme with weights of the faces `wx`, `wy`, `wz`. -/
def Scheme.energy (s : Scheme) (p : Phys) (g : Grid) (wx wy wz : A3) (f h : Fields) : ℝ :=
  sum g (fun i j k => p.eps / 2 * (s.lx i j k * (g.dy * g.dz) * f.Ex i j k ^ 2 + s.ly i j k * (g.dx * g.dz) * f.Ey i j k ^ 2 +
      s.lz i j k * (g.dx * g.dy) * f.Ez i j k ^ 2)) +
    sum g (fun i j k => wx i j k * (f.Hx i j k * h.Hx i j k) + wy i j k * (f.Hy i j k * h.Hy i j k) + wz i j k * (f.Hz i j k * h.Hz i j k))

/-- Energy balance of the general scheme. -/
lemma Scheme.balance (s : Scheme) (p : Phys) (g : Grid) (wx wy wz : A3) (dt : ℝ) (heps : p.eps ≠ 0) (hdx : g.dx ≠ 0) (hdy : g.dy ≠ 0)
    (hdz : g.dz ≠ 0) (J : Curr) (f : Fields) (hq : s.Quiet g f)
    (hx : ∀ i j k, s.ax i j k → wx i j k * s.kx i j k = dt / 2 * g.dx)
    (hy : ∀ i j k, s.ay i j k → wy i j k * s.ky i j k = dt / 2 * g.dy)
    (hz : ∀ i j k, s.az i j k → wz i j k * s.kz i j k = dt / 2 * g.dz) :
    s.energy p g wx wy wz (s.step p g dt J f) (s.h (s.step p g dt J f)) - s.energy p g wx wy wz f (s.h f) =
      -dt * sum g (fun i j k =>
        s.lx i j k * (g.dy * g.dz) * (onFree (freeX g) J.Jx i j k * ((f.Ex i j k + (s.step p g dt J f).Ex i j k) / 2)) +
        s.ly i j k * (g.dx * g.dz) * (onFree (freeY g) J.Jy i j k * ((f.Ey i j k + (s.step p g dt J f).Ey i j k) / 2)) +
        s.lz i j k * (g.dx * g.dy) * (onFree (freeZ g) J.Jz i j k * ((f.Ez i j k + (s.step p g dt J f).Ez i j k) / 2))) := by
  set f' := s.step p g dt J f with hf'
  have hq' : s.Quiet g f' := Scheme.quiet_step p dt J hq
  set u : A3 := fun i j k => s.lx i j k * (f.Ex i j k + f'.Ex i j k) with hu
  set v : A3 := fun i j k => s.ly i j k * (f.Ey i j k + f'.Ey i j k) with hv
  set w : A3 := fun i j k => s.lz i j k * (f.Ez i j k + f'.Ez i j k) with hw
  have ht : Tang g u v w := by
    refine ⟨fun i j k h => ?_, fun i j k h => ?_, fun i j k h => ?_⟩
    · have : ¬ freeX g i j k := fun hf => h hf.1.2
      simp only [hu, hq.ex i j k this, hq'.ex i j k this, add_zero, mul_zero]
    · have : ¬ freeY g i j k := fun hf => h ⟨hf.1.1, hf.1.2.2⟩
      simp only [hv, hq.ey i j k this, hq'.ey i j k this, add_zero, mul_zero]
    · have : ¬ freeZ g i j k := fun hf => h ⟨hf.1.1, hf.1.2.1⟩
      simp only [hw, hq.ez i j k this, hq'.ez i j k this, add_zero, mul_zero]
  have hd := circ_dual g u v w (fun i j k => g.dx * f'.Hx i j k) (fun i j k => g.dy * f'.Hy i j k) (fun i j k => g.dz * f'.Hz i j k) ht
  have eH : sum g (fun i j k => wx i j k * (f'.Hx i j k * (s.h f').Hx i j k) + wy i j k * (f'.Hy i j k * (s.h f').Hy i j k) + wz i j k * (f'.Hz i j k * (s.h f').Hz i j k)) =
      sum g (fun i j k => wx i j k * (f.Hx i j k * (s.h f).Hx i j k) + wy i j k * (f.Hy i j k * (s.h f).Hy i j k) + wz i j k * (f.Hz i j k * (s.h f).Hz i j k)) +
      -(dt / 2) * sum g (fun i j k => g.dx * f'.Hx i j k * cx v w i j k + g.dy * f'.Hy i j k * cy u w i j k + g.dz * f'.Hz i j k * cz u v i j k) := by
    rw [← sum_mul, ← sum_add]
    refine sum_congr' fun i j k => ?_
    have q1 : cx v w i j k = s.cX f i j k + s.cX f' i j k := by simp only [cx, Scheme.cX, hv, hw]; ring
    have q2 : cy u w i j k = s.cY f i j k + s.cY f' i j k := by simp only [cy, Scheme.cY, hu, hw]; ring
    have q3 : cz u v i j k = s.cZ f i j k + s.cZ f' i j k := by simp only [cz, Scheme.cZ, hu, hv]; ring
    have m : ∀ (P : Prop) (W K H H' Hn Hd c c' d : ℝ), (P → H' = H - K * c) → (P → Hn = H' - K * c') → (¬P → H' = 0) → Hd = H' →
        (P → W * K = dt / 2 * d) → W * (H' * Hn) = W * (H * Hd) + -(dt / 2) * (d * H' * (c + c')) := by
      intro P W K H H' Hn Hd c c' d a1 a2 a3 a4 a5
      by_cases hP : P
      · rw [a4, a2 hP]
        linear_combination (W * H') * (a1 hP) - (H' * (c + c')) * (a5 hP)
      · rw [a4, a3 hP]; ring
    have m1 := m (s.ax i j k) (wx i j k) (s.kx i j k) (f.Hx i j k) (f'.Hx i j k) ((s.h f').Hx i j k) ((s.h f).Hx i j k) (s.cX f i j k) (s.cX f' i j k) g.dx
      (fun h => if_pos h) (fun h => if_pos h) (fun h => hq'.hx i j k h) rfl (hx i j k)
    have m2 := m (s.ay i j k) (wy i j k) (s.ky i j k) (f.Hy i j k) (f'.Hy i j k) ((s.h f').Hy i j k) ((s.h f).Hy i j k) (s.cY f i j k) (s.cY f' i j k) g.dy
      (fun h => if_pos h) (fun h => if_pos h) (fun h => hq'.hy i j k h) rfl (hy i j k)
    have m3 := m (s.az i j k) (wz i j k) (s.kz i j k) (f.Hz i j k) (f'.Hz i j k) ((s.h f').Hz i j k) ((s.h f).Hz i j k) (s.cZ f i j k) (s.cZ f' i j k) g.dz
      (fun h => if_pos h) (fun h => if_pos h) (fun h => hq'.hz i j k h) rfl (hz i j k)
    rw [q1, q2, q3, m1, m2, m3]; ring
  have eE : sum g (fun i j k => p.eps / 2 * (s.lx i j k * (g.dy * g.dz) * f'.Ex i j k ^ 2 + s.ly i j k * (g.dx * g.dz) * f'.Ey i j k ^ 2 +
        s.lz i j k * (g.dx * g.dy) * f'.Ez i j k ^ 2)) =
      sum g (fun i j k => p.eps / 2 * (s.lx i j k * (g.dy * g.dz) * f.Ex i j k ^ 2 + s.ly i j k * (g.dx * g.dz) * f.Ey i j k ^ 2 +
        s.lz i j k * (g.dx * g.dy) * f.Ez i j k ^ 2)) +
      (dt / 2 * sum g (fun i j k => u i j k * ((g.dz * f'.Hz i j k - g.dz * f'.Hz i (j - 1) k) - (g.dy * f'.Hy i j k - g.dy * f'.Hy i j (k - 1))) +
        v i j k * ((g.dx * f'.Hx i j k - g.dx * f'.Hx i j (k - 1)) - (g.dz * f'.Hz i j k - g.dz * f'.Hz (i - 1) j k)) +
        w i j k * ((g.dy * f'.Hy i j k - g.dy * f'.Hy (i - 1) j k) - (g.dx * f'.Hx i j k - g.dx * f'.Hx i (j - 1) k))) +
      -dt * sum g (fun i j k =>
        s.lx i j k * (g.dy * g.dz) * (onFree (freeX g) J.Jx i j k * ((f.Ex i j k + f'.Ex i j k) / 2)) +
        s.ly i j k * (g.dx * g.dz) * (onFree (freeY g) J.Jy i j k * ((f.Ey i j k + f'.Ey i j k) / 2)) +
        s.lz i j k * (g.dx * g.dy) * (onFree (freeZ g) J.Jz i j k * ((f.Ez i j k + f'.Ez i j k) / 2)))) := by
    rw [← sum_mul, ← sum_mul, ← sum_add, ← sum_add]
    refine sum_congr' fun i j k => ?_
    have m : ∀ (P : Prop) (L b c E E' Jc j' x y : ℝ), b ≠ 0 → c ≠ 0 → (P → E' = E - dt / p.eps * Jc + dt / (b * p.eps) * x - dt / (c * p.eps) * y) →
        (¬P → E = 0 ∧ E' = 0) → (P → j' = Jc) → p.eps / 2 * (L * (b * c) * E' ^ 2) =
        p.eps / 2 * (L * (b * c) * E ^ 2) + (dt / 2 * (L * (E + E') * (c * x - b * y)) + -dt * (L * (b * c) * (j' * ((E + E') / 2)))) := by
      intro P L b c E E' Jc j' x y hb hc a1 a2 a3
      by_cases hP : P
      · rw [a3 hP]
        have e : E' - E = -(dt / p.eps * Jc) + dt / (b * p.eps) * x - dt / (c * p.eps) * y := by rw [a1 hP]; ring
        have e2 : p.eps * (b * c) * (E' - E) = -(dt * (b * c) * Jc) + dt * c * x - dt * b * y := by
          rw [e]; field_simp
        linear_combination (L * (E + E') / 2) * e2
      · rw [(a2 hP).1, (a2 hP).2]; ring
    have m1 := m (freeX g i j k) (s.lx i j k) g.dy g.dz (f.Ex i j k) (f'.Ex i j k) (J.Jx i j k) (onFree (freeX g) J.Jx i j k) (f'.Hz i j k - f'.Hz i (j - 1) k) (f'.Hy i j k - f'.Hy i j (k - 1))
      hdy hdz (fun h => if_pos h) (fun h => ⟨hq.ex i j k h, hq'.ex i j k h⟩) (fun h => if_pos h)
    have m2 := m (freeY g i j k) (s.ly i j k) g.dz g.dx (f.Ey i j k) (f'.Ey i j k) (J.Jy i j k) (onFree (freeY g) J.Jy i j k) (f'.Hx i j k - f'.Hx i j (k - 1)) (f'.Hz i j k - f'.Hz (i - 1) j k)
      hdz hdx (fun h => if_pos h) (fun h => ⟨hq.ey i j k h, hq'.ey i j k h⟩) (fun h => if_pos h)
    have m3 := m (freeZ g i j k) (s.lz i j k) g.dx g.dy (f.Ez i j k) (f'.Ez i j k) (J.Jz i j k) (onFree (freeZ g) J.Jz i j k) (f'.Hy i j k - f'.Hy (i - 1) j k) (f'.Hx i j k - f'.Hx i (j - 1) k)
      hdx hdy (fun h => if_pos h) (fun h => ⟨hq.ez i j k h, hq'.ez i j k h⟩) (fun h => if_pos h)
    simp only [hu, hv, hw]
    linear_combination m1 + m2 + m3
  unfold Scheme.energy
  rw [eE, eH, hd]
  ring

/-! #### The two schemes -/

/-- The staircased scheme as a general scheme. -/
def fdtd (p : Phys) (g : Grid) (dt : ℝ) : Scheme where
  ax i j k := (i < g.nx + 1 ∧ j < g.ny ∧ k < g.nz) ∧ g.Syz i j k > 0
  ay i j k := (i < g.nx ∧ j < g.ny + 1 ∧ k < g.nz) ∧ g.Szx i j k > 0
  az i j k := (i < g.nx ∧ j < g.ny ∧ k < g.nz + 1) ∧ g.Sxy i j k > 0
  kx _ _ _ := dt / (p.mu * (g.dy * g.dz))
  ky _ _ _ := dt / (p.mu * (g.dx * g.dz))
  kz _ _ _ := dt / (p.mu * (g.dx * g.dy))
  lx _ _ _ := g.dx
  ly _ _ _ := g.dy
  lz _ _ _ := g.dz

/-- The conformal scheme as a general scheme. -/
def dm (p : Phys) (g : Grid) (dt : ℝ) : Scheme where
  ax i j k := (i < g.nx + 1 ∧ j < g.ny ∧ k < g.nz) ∧ g.intYz i j k
  ay i j k := (i < g.nx ∧ j < g.ny + 1 ∧ k < g.nz) ∧ g.intZx i j k
  az i j k := (i < g.nx ∧ j < g.ny ∧ k < g.nz + 1) ∧ g.intXy i j k
  kx i j k := dt / (p.mu * g.Syz i j k)
  ky i j k := dt / (p.mu * g.Szx i j k)
  kz i j k := dt / (p.mu * g.Sxy i j k)
  lx := g.lx
  ly := g.ly
  lz := g.lz

lemma frac (x a b m : ℝ) (hb : b ≠ 0) : x / (m * (a * b)) * b = x / (a * m) := by
  have : x / (m * (a * b)) * b = x * (m⁻¹ * a⁻¹) * (b⁻¹ * b) := by simp only [div_eq_mul_inv, mul_inv]; ring
  rw [this, inv_mul_cancel₀ hb]; simp only [div_eq_mul_inv, mul_inv]; ring

lemma frac' (x a b m : ℝ) (hb : a ≠ 0) : x / (m * (a * b)) * a = x / (b * m) := by rw [mul_comm a b]; exact frac x b a m hb

lemma fdtd_h (p : Phys) (g : Grid) (dt : ℝ) (hx : g.dx ≠ 0) (hy : g.dy ≠ 0) (hz : g.dz ≠ 0) (f : Fields) : (fdtd p g dt).h f = advHFdtd p g dt f := by
  unfold Scheme.h advHFdtd
  congr 1
  · funext i j k
    refine if_congr Iff.rfl ?_ rfl
    simp only [Scheme.cX, cx, fdtd]
    have e1 := frac dt g.dy g.dz p.mu hz
    have e2 := frac' dt g.dy g.dz p.mu hy
    rw [← e1, ← e2]; ring
  · funext i j k
    refine if_congr Iff.rfl ?_ rfl
    simp only [Scheme.cY, cy, fdtd]
    have e1 := frac dt g.dx g.dz p.mu hz
    have e2 := frac' dt g.dx g.dz p.mu hx
    rw [← e1, ← e2]; ring
  · funext i j k
    refine if_congr Iff.rfl ?_ rfl
    simp only [Scheme.cZ, cz, fdtd]
    have e1 := frac dt g.dx g.dy p.mu hy
    have e2 := frac' dt g.dx g.dy p.mu hx
    rw [← e1, ← e2]; ring

lemma dm_h (p : Phys) (g : Grid) (dt : ℝ) (f : Fields) : (dm p g dt).h f = advHDm p g dt f := by
  unfold Scheme.h advHDm
  congr 1
  · funext i j k
    refine if_congr Iff.rfl ?_ rfl
    simp only [Scheme.cX, cx, dm, vYz]; ring
  · funext i j k
    refine if_congr Iff.rfl ?_ rfl
    simp only [Scheme.cY, cy, dm, vZx]; ring
  · funext i j k
    refine if_congr Iff.rfl ?_ rfl
    simp only [Scheme.cZ, cz, dm, vXy]; ring

lemma quiet_fdtd {p : Phys} {g : Grid} {dt : ℝ} {f : Fields} : (fdtd p g dt).Quiet g f ↔ Quiet g f :=
  ⟨fun h => ⟨h.ex, h.ey, h.ez, h.hx, h.hy, h.hz⟩, fun h => ⟨h.ex, h.ey, h.ez, h.hx, h.hy, h.hz⟩⟩

lemma quiet_dm {p : Phys} {g : Grid} {dt : ℝ} {f : Fields} : (dm p g dt).Quiet g f ↔ QuietDm g f :=
  ⟨fun h => ⟨h.ex, h.ey, h.ez, h.hx, h.hy, h.hz⟩, fun h => ⟨h.ex, h.ey, h.ez, h.hx, h.hy, h.hz⟩⟩

/-! ### C94: the staircased scheme -/

lemma quiet_step (p : Phys) (g : Grid) (dt : ℝ) (J : Curr) (f : Fields) (h : Quiet g f) : Quiet g (stepFdtd p g dt J f) := by
  refine ⟨fun i j k hn => ?_, fun i j k hn => ?_, fun i j k hn => ?_, fun i j k hn => ?_, fun i j k hn => ?_, fun i j k hn => ?_⟩
  · exact (if_neg hn).trans (h.ex i j k hn)
  · exact (if_neg hn).trans (h.ey i j k hn)
  · exact (if_neg hn).trans (h.ez i j k hn)
  · exact (if_neg hn).trans (h.hx i j k hn)
  · exact (if_neg hn).trans (h.hy i j k hn)
  · exact (if_neg hn).trans (h.hz i j k hn)

/-- **C94, conductors.** Whatever the currents, fields that vanish in the conductors and on the border of the box stay so. -/
theorem C94_quiet (p : Phys) (g : Grid) (dt : ℝ) (J : ℕ → Curr) (f : Fields) (hf : Quiet g f) (n : ℕ) :
    Quiet g (run (stepFdtd p g dt) J f n) := by
  induction n with
  | zero => exact hf
  | succ n ih => exact quiet_step p g dt (J n) _ ih

/-- The fields of a new solver are such. -/
theorem C94_quiet_start (g : Grid) : Quiet g zero :=
  ⟨fun _ _ _ _ => rfl, fun _ _ _ _ => rfl, fun _ _ _ _ => rfl, fun _ _ _ _ => rfl, fun _ _ _ _ => rfl, fun _ _ _ _ => rfl⟩

lemma energy_eq (p : Phys) (g : Grid) (dt : ℝ) (f h : Fields) :
    (fdtd p g dt).energy p g (fun _ _ _ => p.mu / 2 * (g.dx * g.dy * g.dz)) (fun _ _ _ => p.mu / 2 * (g.dx * g.dy * g.dz))
      (fun _ _ _ => p.mu / 2 * (g.dx * g.dy * g.dz)) f h = energy p g f h := by
  unfold Scheme.energy energy
  have r : ∀ a b S T V : ℝ, (a * S + b * T) * V = (a * V) * S + (b * V) * T := by intros; ring
  rw [r, ← sum_mul, ← sum_mul]
  congr 1
  · exact sum_congr' fun i j k => by simp only [fdtd]; ring
  · exact sum_congr' fun i j k => by ring

/-- **C94, energy balance.** In one step the energy changes by minus the work of the currents on the edges that carry a field. -/
theorem C94_energy (p : Phys) (g : Grid) (dt : ℝ) (heps : p.eps ≠ 0) (hmu : p.mu ≠ 0) (hx : g.dx ≠ 0) (hy : g.dy ≠ 0) (hz : g.dz ≠ 0) (J : Curr)
    (f : Fields) (hf : Quiet g f) :
    energy p g (stepFdtd p g dt J f) (advHFdtd p g dt (stepFdtd p g dt J f)) - energy p g f (advHFdtd p g dt f) =
      -dt * (g.dx * g.dy * g.dz) * sum g (fun i j k =>
        onFree (freeX g) J.Jx i j k * ((f.Ex i j k + (stepFdtd p g dt J f).Ex i j k) / 2) +
        onFree (freeY g) J.Jy i j k * ((f.Ey i j k + (stepFdtd p g dt J f).Ey i j k) / 2) +
        onFree (freeZ g) J.Jz i j k * ((f.Ez i j k + (stepFdtd p g dt J f).Ez i j k) / 2)) := by
  have h := (fdtd p g dt).balance p g (fun _ _ _ => p.mu / 2 * (g.dx * g.dy * g.dz)) (fun _ _ _ => p.mu / 2 * (g.dx * g.dy * g.dz))
      (fun _ _ _ => p.mu / 2 * (g.dx * g.dy * g.dz)) dt heps hx hy hz J f (quiet_fdtd.2 hf)
      (fun _ _ _ _ => by simp only [fdtd]; field_simp) (fun _ _ _ _ => by simp only [fdtd]; field_simp) (fun _ _ _ _ => by simp only [fdtd]; field_simp)
  rw [energy_eq, energy_eq, fdtd_h p g dt hx hy hz, fdtd_h p g dt hx hy hz] at h
  have es : (fdtd p g dt).step p g dt J f = stepFdtd p g dt J f := by unfold Scheme.step stepFdtd; rw [fdtd_h p g dt hx hy hz]
  rw [es] at h
  rw [h, mul_assoc, ← sum_mul g (g.dx * g.dy * g.dz)]
  congr 1
  exact sum_congr' fun i j k => by simp only [fdtd]; ring

/-- **C94, conservation.** Without currents the energy is the same after every number of steps. -/
theorem C94_conserved (p : Phys) (g : Grid) (dt : ℝ) (heps : p.eps ≠ 0) (hmu : p.mu ≠ 0) (hx : g.dx ≠ 0) (hy : g.dy ≠ 0) (hz : g.dz ≠ 0)
    (f : Fields) (hf : Quiet g f) (n : ℕ) :
    energy p g (run (stepFdtd p g dt) (fun _ => noCurr) f n) (advHFdtd p g dt (run (stepFdtd p g dt) (fun _ => noCurr) f n)) =
      energy p g f (advHFdtd p g dt f) := by
  induction n with
  | zero => rfl
  | succ n ih =>
    have h := C94_energy p g dt heps hmu hx hy hz noCurr _ (C94_quiet p g dt (fun _ => noCurr) f hf n)
    rw [sum_zero g (fun i j k => by simp [onFree, noCurr]), mul_zero, sub_eq_zero] at h
    rw [← ih, ← h]; rfl

/-- Sum of the squares of the fields, weighted with the material constants. -/
def size (p : Phys) (g : Grid) (f : Fields) : ℝ :=
  p.eps * sum g (fun i j k => f.Ex i j k ^ 2 + f.Ey i j k ^ 2 + f.Ez i j k ^ 2) +
    p.mu * sum g (fun i j k => f.Hx i j k ^ 2 + f.Hy i j k ^ 2 + f.Hz i j k ^ 2)

lemma timeStep_sq (p : Phys) (g : Grid) (cfln : ℝ) (hc : p.c ^ 2 * p.eps * p.mu = 1) (hx : 0 < g.dx) :
    timeStep p g cfln ^ 2 * (1 / g.dx ^ 2 + 1 / g.dy ^ 2 + 1 / g.dz ^ 2) = cfln ^ 2 * (p.eps * p.mu) := by
  have hK : 0 < 1 / g.dx ^ 2 + 1 / g.dy ^ 2 + 1 / g.dz ^ 2 := by positivity
  have hc0 : p.c ≠ 0 := by rintro h; rw [h] at hc; norm_num at hc
  have hs : Real.sqrt (1 / g.dx ^ 2 + 1 / g.dy ^ 2 + 1 / g.dz ^ 2) ^ 2 = 1 / g.dx ^ 2 + 1 / g.dy ^ 2 + 1 / g.dz ^ 2 := Real.sq_sqrt hK.le
  unfold timeStep
  rw [div_pow, mul_pow, hs, div_mul_eq_mul_div, div_eq_iff (by positivity)]
  linear_combination (-(cfln ^ 2) * (1 / g.dx ^ 2 + 1 / g.dy ^ 2 + 1 / g.dz ^ 2)) * hc

/-- A uniform axis for the bound of the curl. -/
def axis (n : ℕ) (d : ℝ) (hd : 0 < d) : Sol.CurlBound.Axis ℝ where
  N := n + 1
  d _ := d
  t _ := d
  m := d
  hm := hd
  hd _ _ := .inr le_rfl
  ht _ _ := le_rfl
  h0 _ _ := hd.le

lemma curl_le (g : Grid) (hx : 0 < g.dx) (hy : 0 < g.dy) (hz : 0 < g.dz) (p : Phys) (dt : ℝ) (f : Fields) (hf : Quiet g f) :
    sum g (fun i j k => ((fdtd p g dt).cX f i j k / (g.dy * g.dz)) ^ 2 + ((fdtd p g dt).cY f i j k / (g.dx * g.dz)) ^ 2 +
        ((fdtd p g dt).cZ f i j k / (g.dx * g.dy)) ^ 2) ≤
      4 * (1 / g.dx ^ 2 + 1 / g.dy ^ 2 + 1 / g.dz ^ 2) * sum g (fun i j k => f.Ex i j k ^ 2 + f.Ey i j k ^ 2 + f.Ez i j k ^ 2) := by
  set v : ℕ → A3 := fun a i j k => if a = 0 then g.dx * f.Ex i j k else if a = 1 then g.dy * f.Ey i j k else g.dz * f.Ez i j k with hv
  have v0 : v 0 = fun i j k => g.dx * f.Ex i j k := by funext i j k; simp [hv]
  have v1 : v 1 = fun i j k => g.dy * f.Ey i j k := by funext i j k; simp [hv]
  have v2 : v 2 = fun i j k => g.dz * f.Ez i j k := by funext i j k; simp [hv]
  have hcl : Sol.CurlBound.Closed (axis g.nx g.dx hx) (axis g.ny g.dy hy) (axis g.nz g.dz hz) v := by
    have nin : ∀ n i, ¬ Sol.CurlBound.Inner (n + 1) i → ¬ (1 ≤ i ∧ i < n) := by
      intro n i h h'
      exact h ⟨h'.1, by omega⟩
    refine ⟨fun i j k h => ?_, fun i j k h => ?_, fun i j k h => ?_, fun i j k h => ?_, fun i j k h => ?_, fun i j k h => ?_⟩
    · rw [v0]; dsimp only; rw [hf.ex _ _ _ fun h' => nin _ _ h h'.1.2.1, mul_zero]
    · rw [v0]; dsimp only; rw [hf.ex _ _ _ fun h' => nin _ _ h h'.1.2.2, mul_zero]
    · rw [v1]; dsimp only; rw [hf.ey _ _ _ fun h' => nin _ _ h h'.1.1, mul_zero]
    · rw [v1]; dsimp only; rw [hf.ey _ _ _ fun h' => nin _ _ h h'.1.2.2, mul_zero]
    · rw [v2]; dsimp only; rw [hf.ez _ _ _ fun h' => nin _ _ h h'.1.1, mul_zero]
    · rw [v2]; dsimp only; rw [hf.ez _ _ _ fun h' => nin _ _ h h'.1.2.1, mul_zero]
  have h := Sol.CurlBound.curl_bound _ _ _ v hcl
  have e1 : S3 (axis g.nx g.dx hx).N (axis g.ny g.dy hy).N (axis g.nz g.dz hz).N (Sol.CurlBound.faceSq (axis g.nx g.dx hx) (axis g.ny g.dy hy) (axis g.nz g.dz hz) v) =
      (g.dx * g.dy * g.dz) * sum g (fun i j k => ((fdtd p g dt).cX f i j k / (g.dy * g.dz)) ^ 2 + ((fdtd p g dt).cY f i j k / (g.dx * g.dz)) ^ 2 +
        ((fdtd p g dt).cZ f i j k / (g.dx * g.dy)) ^ 2) := by
    rw [← sum_mul]
    refine sum_congr' fun i j k => ?_
    have c0 : Sol.circ v 0 i j k = (fdtd p g dt).cX f i j k := by
      unfold Sol.circ; rw [if_pos rfl, v1, v2]; rfl
    have c1 : Sol.circ v 1 i j k = (fdtd p g dt).cY f i j k := by
      unfold Sol.circ; rw [if_neg (by norm_num), if_pos rfl, v0, v2]; rfl
    have c2 : Sol.circ v 2 i j k = (fdtd p g dt).cZ f i j k := by
      unfold Sol.circ; rw [if_neg (by norm_num), if_neg (by norm_num), v0, v1]; rfl
    unfold Sol.CurlBound.faceSq
    rw [c0, c1, c2]
    simp only [axis]
    field_simp
  have e2 : S3 (axis g.nx g.dx hx).N (axis g.ny g.dy hy).N (axis g.nz g.dz hz).N (Sol.CurlBound.edgeSq (axis g.nx g.dx hx) (axis g.ny g.dy hy) (axis g.nz g.dz hz) v) =
      (g.dx * g.dy * g.dz) * sum g (fun i j k => f.Ex i j k ^ 2 + f.Ey i j k ^ 2 + f.Ez i j k ^ 2) := by
    rw [← sum_mul]
    refine sum_congr' fun i j k => ?_
    unfold Sol.CurlBound.edgeSq
    rw [v0, v1, v2]
    simp only [axis]
    field_simp
  rw [e1, e2] at h
  have h : (g.dx * g.dy * g.dz) * _ ≤ 4 * (1 / g.dx ^ 2 + 1 / g.dy ^ 2 + 1 / g.dz ^ 2) * ((g.dx * g.dy * g.dz) * _) := h
  rw [mul_left_comm] at h
  exact le_of_mul_le_mul_left h (by positivity)

/-- Between the energy and the size of the fields. -/
lemma coercive (p : Phys) (g : Grid) (θ dt : ℝ) (heps : 0 < p.eps) (hmu : 0 < p.mu) (hx : 0 < g.dx) (hy : 0 < g.dy) (hz : 0 < g.dz) (h0 : 0 < θ)
    (ht : dt ^ 2 * (1 / g.dx ^ 2 + 1 / g.dy ^ 2 + 1 / g.dz ^ 2) ≤ θ ^ 2 * (p.eps * p.mu)) (f : Fields) (hf : Quiet g f) :
    (1 - θ) * (size p g f / 2 * (g.dx * g.dy * g.dz)) ≤ energy p g f (advHFdtd p g dt f) ∧
      energy p g f (advHFdtd p g dt f) ≤ (1 + θ) * (size p g f / 2 * (g.dx * g.dy * g.dz)) := by
  set s := fdtd p g dt with hs
  set NE := sum g (fun i j k => f.Ex i j k ^ 2 + f.Ey i j k ^ 2 + f.Ez i j k ^ 2) with hNE
  set NH := sum g (fun i j k => f.Hx i j k ^ 2 + f.Hy i j k ^ 2 + f.Hz i j k ^ 2) with hNH
  set M := sum g (fun i j k => f.Hx i j k * (s.h f).Hx i j k + f.Hy i j k * (s.h f).Hy i j k + f.Hz i j k * (s.h f).Hz i j k) with hM
  set X := sum g (fun i j k => f.Hx i j k * (s.cX f i j k / (g.dy * g.dz)) + f.Hy i j k * (s.cY f i j k / (g.dx * g.dz)) +
    f.Hz i j k * (s.cZ f i j k / (g.dx * g.dy))) with hX
  have hK := curl_le g hx hy hz p dt f hf
  rw [← hNE] at hK
  set Q := sum g (fun i j k => ((fdtd p g dt).cX f i j k / (g.dy * g.dz)) ^ 2 + ((fdtd p g dt).cY f i j k / (g.dx * g.dz)) ^ 2 +
        ((fdtd p g dt).cZ f i j k / (g.dx * g.dy)) ^ 2) with hQ
  have hq := (quiet_fdtd (p := p) (dt := dt)).2 hf
  have eM : M = NH + -(dt / p.mu) * X := by
    rw [hM, hNH, hX, ← sum_mul, ← sum_add]
    refine sum_congr' fun i j k => ?_
    have m : ∀ (P : Prop) (H Hn K c D : ℝ), (P → Hn = H - K * c) → (¬P → H = 0) → K * c = dt / p.mu * D → H * Hn = H ^ 2 + -(dt / p.mu) * (H * D) := by
      intro P H Hn K c D a1 a2 a3
      by_cases hP : P
      · rw [a1 hP, a3]; ring
      · rw [a2 hP]; ring
    have m1 := m (s.ax i j k) (f.Hx i j k) ((s.h f).Hx i j k) (s.kx i j k) (s.cX f i j k) (s.cX f i j k / (g.dy * g.dz)) (fun h => if_pos h) (hq.hx i j k)
      (by simp only [hs, fdtd]; field_simp)
    have m2 := m (s.ay i j k) (f.Hy i j k) ((s.h f).Hy i j k) (s.ky i j k) (s.cY f i j k) (s.cY f i j k / (g.dx * g.dz)) (fun h => if_pos h) (hq.hy i j k)
      (by simp only [hs, fdtd]; field_simp)
    have m3 := m (s.az i j k) (f.Hz i j k) ((s.h f).Hz i j k) (s.kz i j k) (s.cZ f i j k) (s.cZ f i j k / (g.dx * g.dy)) (fun h => if_pos h) (hq.hz i j k)
      (by simp only [hs, fdtd]; field_simp)
    rw [m1, m2, m3]; ring
  have am : ∀ a b : ℝ, dt / p.mu * (a * b) ≤ θ * a ^ 2 + (dt / p.mu) ^ 2 / (4 * θ) * b ^ 2 ∧ -(dt / p.mu * (a * b)) ≤ θ * a ^ 2 + (dt / p.mu) ^ 2 / (4 * θ) * b ^ 2 := by
    intro a b
    have h1 : 0 ≤ (2 * θ * a - dt / p.mu * b) ^ 2 / (4 * θ) := by positivity
    have h2 : 0 ≤ (2 * θ * a + dt / p.mu * b) ^ 2 / (4 * θ) := by positivity
    have e1 : (2 * θ * a - dt / p.mu * b) ^ 2 / (4 * θ) = θ * a ^ 2 + (dt / p.mu) ^ 2 / (4 * θ) * b ^ 2 - dt / p.mu * (a * b) := by
      field_simp; ring
    have e2 : (2 * θ * a + dt / p.mu * b) ^ 2 / (4 * θ) = θ * a ^ 2 + (dt / p.mu) ^ 2 / (4 * θ) * b ^ 2 + dt / p.mu * (a * b) := by
      field_simp; ring
    constructor <;> linarith
  have up : dt / p.mu * X ≤ θ * NH + (dt / p.mu) ^ 2 / (4 * θ) * Q := by
    rw [hX, hNH, hQ, ← sum_mul, ← sum_mul, ← sum_mul, ← sum_add]
    refine sum_le fun i j k => ?_
    have a1 := (am (f.Hx i j k) (s.cX f i j k / (g.dy * g.dz))).1
    have a2 := (am (f.Hy i j k) (s.cY f i j k / (g.dx * g.dz))).1
    have a3 := (am (f.Hz i j k) (s.cZ f i j k / (g.dx * g.dy))).1
    rw [← hs]; linarith
  have lo : -(dt / p.mu * X) ≤ θ * NH + (dt / p.mu) ^ 2 / (4 * θ) * Q := by
    rw [← neg_mul, hX, hNH, hQ, ← sum_mul, ← sum_mul, ← sum_mul, ← sum_add]
    refine sum_le fun i j k => ?_
    have a1 := (am (f.Hx i j k) (s.cX f i j k / (g.dy * g.dz))).2
    have a2 := (am (f.Hy i j k) (s.cY f i j k / (g.dx * g.dz))).2
    have a3 := (am (f.Hz i j k) (s.cZ f i j k / (g.dx * g.dy))).2
    rw [← hs]; linarith
  have hE0 : 0 ≤ NE := sum_nonneg' g fun i j k => by positivity
  have bq : p.mu * ((dt / p.mu) ^ 2 / (4 * θ) * Q) ≤ θ * (p.eps * NE) := by
    have h1 : p.mu * ((dt / p.mu) ^ 2 / (4 * θ) * Q) ≤ p.mu * ((dt / p.mu) ^ 2 / (4 * θ) * (4 * (1 / g.dx ^ 2 + 1 / g.dy ^ 2 + 1 / g.dz ^ 2) * NE)) := by gcongr
    have h2 : p.mu * ((dt / p.mu) ^ 2 / (4 * θ) * (4 * (1 / g.dx ^ 2 + 1 / g.dy ^ 2 + 1 / g.dz ^ 2) * NE)) =
        (dt ^ 2 * (1 / g.dx ^ 2 + 1 / g.dy ^ 2 + 1 / g.dz ^ 2)) * (NE / (p.mu * θ)) := by
      generalize (1 / g.dx ^ 2 + 1 / g.dy ^ 2 + 1 / g.dz ^ 2) = K
      field_simp
    have h3 : (dt ^ 2 * (1 / g.dx ^ 2 + 1 / g.dy ^ 2 + 1 / g.dz ^ 2)) * (NE / (p.mu * θ)) ≤ θ ^ 2 * (p.eps * p.mu) * (NE / (p.mu * θ)) :=
      mul_le_mul_of_nonneg_right ht (by positivity)
    have h4 : θ ^ 2 * (p.eps * p.mu) * (NE / (p.mu * θ)) = θ * (p.eps * NE) := by field_simp
    linarith
  have eE : energy p g f (advHFdtd p g dt f) = (p.eps / 2 * NE + p.mu / 2 * M) * (g.dx * g.dy * g.dz) := by
    rw [← fdtd_h p g dt hx.ne' hy.ne' hz.ne']; rfl
  have eS : size p g f = p.eps * NE + p.mu * NH := rfl
  have hV : 0 < g.dx * g.dy * g.dz := by positivity
  rw [eE, eS, ← mul_assoc (1 - θ), ← mul_assoc (1 + θ), eM]
  constructor
  · refine mul_le_mul_of_nonneg_right ?_ hV.le
    nlinarith
  · refine mul_le_mul_of_nonneg_right ?_ hV.le
    nlinarith

/-- **C94, stability.** With a Courant number below one the fields of a run without currents stay bounded for ever: their size never exceeds
the initial size by more than the factor (1 + cfln) / (1 - cfln), whatever the shape of the conductors. -/
theorem C94_stable (p : Phys) (g : Grid) (cfln : ℝ) (heps : 0 < p.eps) (hmu : 0 < p.mu) (hc : p.c ^ 2 * p.eps * p.mu = 1) (hx : 0 < g.dx)
    (hy : 0 < g.dy) (hz : 0 < g.dz) (h0 : 0 < cfln) (h1 : cfln < 1) (f : Fields) (hf : Quiet g f) (n : ℕ) :
    size p g (run (stepFdtd p g (timeStep p g cfln)) (fun _ => noCurr) f n) ≤ (1 + cfln) / (1 - cfln) * size p g f := by
  have ht := (timeStep_sq p g cfln hc hx).le
  set dt := timeStep p g cfln with hdt
  have hn := (coercive p g cfln dt heps hmu hx hy hz h0 ht _ (C94_quiet p g dt (fun _ => noCurr) f hf n)).1
  have hi := (coercive p g cfln dt heps hmu hx hy hz h0 ht f hf).2
  have hcons := C94_conserved p g dt heps.ne' hmu.ne' hx.ne' hy.ne' hz.ne' f hf n
  rw [hcons] at hn
  have hV : 0 < g.dx * g.dy * g.dz := by positivity
  have h := hn.trans hi
  rw [← mul_assoc (1 - cfln), ← mul_assoc (1 + cfln)] at h
  have h := le_of_mul_le_mul_right h hV
  rw [div_mul_eq_mul_div, le_div_iff₀ (by linarith)]
  linarith

/-! ### C95: the conformal scheme -/

lemma quietDm_step (p : Phys) (g : Grid) (dt : ℝ) (J : Curr) (f : Fields) (h : QuietDm g f) : QuietDm g (stepDm p g dt J f) := by
  refine ⟨fun i j k hn => ?_, fun i j k hn => ?_, fun i j k hn => ?_, fun i j k hn => ?_, fun i j k hn => ?_, fun i j k hn => ?_⟩
  · exact (if_neg hn).trans (h.ex i j k hn)
  · exact (if_neg hn).trans (h.ey i j k hn)
  · exact (if_neg hn).trans (h.ez i j k hn)
  · exact (if_neg hn).trans (h.hx i j k hn)
  · exact (if_neg hn).trans (h.hy i j k hn)
  · exact (if_neg hn).trans (h.hz i j k hn)

/-- **C95, conductors.** Whatever the currents, fields that vanish in the conductors and on the border of the box stay so. -/
theorem C95_quiet (p : Phys) (g : Grid) (dt : ℝ) (J : ℕ → Curr) (f : Fields) (hf : QuietDm g f) (n : ℕ) :
    QuietDm g (run (stepDm p g dt) J f n) := by
  induction n with
  | zero => exact hf
  | succ n ih => exact quietDm_step p g dt (J n) _ ih

/-- The fields of a new solver are such. -/
theorem C95_quiet_start (g : Grid) : QuietDm g zero :=
  ⟨fun _ _ _ _ => rfl, fun _ _ _ _ => rfl, fun _ _ _ _ => rfl, fun _ _ _ _ => rfl, fun _ _ _ _ => rfl, fun _ _ _ _ => rfl⟩

lemma energyDm_eq (p : Phys) (g : Grid) (dt : ℝ) (f h : Fields) :
    (dm p g dt).energy p g (fun i j k => p.mu / 2 * (g.Syz i j k * g.dx)) (fun i j k => p.mu / 2 * (g.Szx i j k * g.dy))
      (fun i j k => p.mu / 2 * (g.Sxy i j k * g.dz)) f h = energyDm p g f h := by
  unfold Scheme.energy energyDm
  rw [← sum_mul, ← sum_mul]
  congr 1
  exact sum_congr' fun i j k => by ring

/-- **C95, energy balance.** In one step the energy changes by minus the work of the currents on the free parts of the edges. -/
theorem C95_energy (p : Phys) (g : Grid) (dt : ℝ) (heps : p.eps ≠ 0) (hmu : p.mu ≠ 0) (hx : g.dx ≠ 0) (hy : g.dy ≠ 0) (hz : g.dz ≠ 0)
    (hyz : ∀ i j k, g.intYz i j k → g.Syz i j k ≠ 0) (hzx : ∀ i j k, g.intZx i j k → g.Szx i j k ≠ 0)
    (hxy : ∀ i j k, g.intXy i j k → g.Sxy i j k ≠ 0) (J : Curr) (f : Fields) (hf : QuietDm g f) :
    energyDm p g (stepDm p g dt J f) (advHDm p g dt (stepDm p g dt J f)) - energyDm p g f (advHDm p g dt f) =
      -dt * sum g (fun i j k =>
        g.lx i j k * (g.dy * g.dz) * (onFree (freeX g) J.Jx i j k * ((f.Ex i j k + (stepDm p g dt J f).Ex i j k) / 2)) +
        g.ly i j k * (g.dx * g.dz) * (onFree (freeY g) J.Jy i j k * ((f.Ey i j k + (stepDm p g dt J f).Ey i j k) / 2)) +
        g.lz i j k * (g.dx * g.dy) * (onFree (freeZ g) J.Jz i j k * ((f.Ez i j k + (stepDm p g dt J f).Ez i j k) / 2))) := by
  have h := (dm p g dt).balance p g (fun i j k => p.mu / 2 * (g.Syz i j k * g.dx)) (fun i j k => p.mu / 2 * (g.Szx i j k * g.dy))
      (fun i j k => p.mu / 2 * (g.Sxy i j k * g.dz)) dt heps hx hy hz J f (quiet_dm.2 hf)
      (fun i j k h => by have := hyz i j k h.2; simp only [dm]; field_simp)
      (fun i j k h => by have := hzx i j k h.2; simp only [dm]; field_simp)
      (fun i j k h => by have := hxy i j k h.2; simp only [dm]; field_simp)
  rw [energyDm_eq, energyDm_eq, dm_h, dm_h] at h
  have es : (dm p g dt).step p g dt J f = stepDm p g dt J f := by unfold Scheme.step stepDm; rw [dm_h]
  rw [es] at h
  exact h

/-- **C95, conservation.** Without currents the energy is the same after every number of steps. -/
theorem C95_conserved (p : Phys) (g : Grid) (dt : ℝ) (heps : p.eps ≠ 0) (hmu : p.mu ≠ 0) (hx : g.dx ≠ 0) (hy : g.dy ≠ 0) (hz : g.dz ≠ 0)
    (hyz : ∀ i j k, g.intYz i j k → g.Syz i j k ≠ 0) (hzx : ∀ i j k, g.intZx i j k → g.Szx i j k ≠ 0)
    (hxy : ∀ i j k, g.intXy i j k → g.Sxy i j k ≠ 0) (f : Fields) (hf : QuietDm g f) (n : ℕ) :
    energyDm p g (run (stepDm p g dt) (fun _ => noCurr) f n) (advHDm p g dt (run (stepDm p g dt) (fun _ => noCurr) f n)) =
      energyDm p g f (advHDm p g dt f) := by
  induction n with
  | zero => rfl
  | succ n ih =>
    have h := C95_energy p g dt heps hmu hx hy hz hyz hzx hxy noCurr _ (C95_quiet p g dt (fun _ => noCurr) f hf n)
    rw [sum_zero g (fun i j k => by simp [onFree, noCurr]), mul_zero, sub_eq_zero] at h
    rw [← ih, ← h]; rfl

/-- Sum of the squares of the fields, weighted with the material constants and the free parts of edges and faces. -/
def sizeDm (p : Phys) (g : Grid) (f : Fields) : ℝ :=
  p.eps * sum g (fun i j k => g.lx i j k * (g.dy * g.dz) * f.Ex i j k ^ 2 + g.ly i j k * (g.dx * g.dz) * f.Ey i j k ^ 2 +
      g.lz i j k * (g.dx * g.dy) * f.Ez i j k ^ 2) +
    p.mu * sum g (fun i j k => g.Syz i j k * g.dx * f.Hx i j k ^ 2 + g.Szx i j k * g.dy * f.Hy i j k ^ 2 + g.Sxy i j k * g.dz * f.Hz i j k ^ 2)

/-- The grid as its constructor leaves it (grid3D.py:558-634, `mark_cells`, plane by plane): faces with free area are interior, and no face is
marked as unstable. -/
structure Unmarked (g : Grid) : Prop where
  lx : ∀ i j k, 0 ≤ g.lx i j k
  ly : ∀ i j k, 0 ≤ g.ly i j k
  lz : ∀ i j k, 0 ≤ g.lz i j k
  ixy : ∀ i j k, g.intXy i j k ↔ 0 < g.Sxy i j k
  iyz : ∀ i j k, g.intYz i j k ↔ 0 < g.Syz i j k
  izx : ∀ i j k, g.intZx i j k ↔ 0 < g.Szx i j k
  xy : ∀ k < g.nz + 1, ∀ i < g.nx, ∀ j < g.ny,
    ¬ (Cond.markCell (fun i j => g.lx i j k) (fun i j => g.ly i j k) (fun i j => g.Sxy i j k) g.dx g.dy i j).unst
  yz : ∀ i < g.nx + 1, ∀ j < g.ny, ∀ k < g.nz,
    ¬ (Cond.markCell (fun j k => g.ly i j k) (fun j k => g.lz i j k) (fun j k => g.Syz i j k) g.dy g.dz j k).unst
  zx : ∀ j < g.ny + 1, ∀ i < g.nx, ∀ k < g.nz,
    ¬ (Cond.markCell (fun i k => g.lx i j k) (fun i k => g.lz i j k) (fun i k => g.Szx i j k) g.dx g.dz i k).unst

lemma unmarked {l m S : ℕ → ℕ → ℝ} {dx dy : ℝ} {i j : ℕ} (hS : 0 < S i j) (h : ¬ (Cond.markCell l m S dx dy i j).unst) :
    l i j * dy ≤ 2 * S i j ∧ l i (j + 1) * dy ≤ 2 * S i j ∧ m i j * dx ≤ 2 * S i j ∧ m (i + 1) j * dx ≤ 2 * S i j := by
  have hm : ¬ S i j < if S i j > 0 then 0.5 * max (max (l i j * dy) (l i (j + 1) * dy)) (max (m i j * dx) (m (i + 1) j * dx)) else 0 := h
  rw [if_pos hS, not_lt] at hm
  have m1 := le_max_left (l i j * dy) (l i (j + 1) * dy)
  have m2 := le_max_right (l i j * dy) (l i (j + 1) * dy)
  have m3 := le_max_left (m i j * dx) (m (i + 1) j * dx)
  have m4 := le_max_right (m i j * dx) (m (i + 1) j * dx)
  have m5 := le_max_left (max (l i j * dy) (l i (j + 1) * dy)) (max (m i j * dx) (m (i + 1) j * dx))
  have m6 := le_max_right (max (l i j * dy) (l i (j + 1) * dy)) (max (m i j * dx) (m (i + 1) j * dx))
  refine ⟨?_, ?_, ?_, ?_⟩ <;> linarith

lemma am_le {x a b : ℝ} (h : x ≤ 4 * a * b) : x ≤ (a + b) ^ 2 := by nlinarith [sq_nonneg (a - b)]

/-- One face with normal size `n`, sides `p` and `q`. -/
lemma face_le {eps mu dt θ η n p q S H la la' lb lb' Ea Ea' Eb Eb' : ℝ} (heps : 0 < eps) (hmu : 0 < mu) (hn : 0 < n) (hp : 0 < p) (hq : 0 < q)
    (hθ : 0 ≤ θ) (hη : 0 ≤ η) (hS : 0 < S) (ha : 0 ≤ la) (ha' : 0 ≤ la') (hb : 0 ≤ lb) (hb' : 0 ≤ lb') (b1 : la * q ≤ 2 * S) (b2 : la' * q ≤ 2 * S)
    (b3 : lb * p ≤ 2 * S) (b4 : lb' * p ≤ 2 * S) (ht : dt ^ 2 * (1 / p ^ 2 + 1 / q ^ 2) = θ * η * (eps * mu)) :
    |dt / 2 * n * (H * ((la' * Ea' - la * Ea) - (lb' * Eb' - lb * Eb)))| ≤ θ * (mu / 2 * (S * n) * H ^ 2) +
      η * (eps / 2 * (la' * (n * q) * Ea' ^ 2) + eps / 2 * (la * (n * q) * Ea ^ 2) + eps / 2 * (lb' * (n * p) * Eb' ^ 2) + eps / 2 * (lb * (n * p) * Eb ^ 2)) := by
  set V := (la' * Ea' - la * Ea) - (lb' * Eb' - lb * Eb) with hV
  set N := eps / 2 * (la' * (n * q) * Ea' ^ 2) + eps / 2 * (la * (n * q) * Ea ^ 2) + eps / 2 * (lb' * (n * p) * Eb' ^ 2) + eps / 2 * (lb * (n * p) * Eb ^ 2) with hN
  have hN0 : 0 ≤ N := by rw [hN]; positivity
  have hcs : V ^ 2 ≤ (2 * la' / (eps * (n * q)) + 2 * la / (eps * (n * q)) + 2 * lb' / (eps * (n * p)) + 2 * lb / (eps * (n * p))) * N := by
    have := S2.cs_four (a := la' * Ea') (b := -(la * Ea)) (c := -(lb' * Eb')) (d := lb * Eb) (r := 2 * la' / (eps * (n * q))) (s := 2 * la / (eps * (n * q)))
      (t := 2 * lb' / (eps * (n * p))) (u := 2 * lb / (eps * (n * p))) (w := eps / 2 * (la' * (n * q) * Ea' ^ 2)) (x := eps / 2 * (la * (n * q) * Ea ^ 2))
      (y := eps / 2 * (lb' * (n * p) * Eb' ^ 2)) (z := eps / 2 * (lb * (n * p) * Eb ^ 2)) (by positivity) (by positivity) (by positivity) (by positivity)
      (by positivity) (by positivity) (by positivity) (by positivity) (by field_simp) (by field_simp) (by field_simp) (by field_simp)
    refine le_trans (le_of_eq ?_) this
    rw [hV]; ring
  have c : ∀ l d : ℝ, 0 < d → l * d ≤ 2 * S → 2 * l / (eps * (n * d)) ≤ 4 * S / (eps * n) * (1 / d ^ 2) := by
    intro l d hd h
    rw [mul_one_div, div_div, div_le_div_iff₀ (by positivity) (by positivity)]
    have : 0 < eps * n * d := by positivity
    nlinarith
  have hr : 2 * la' / (eps * (n * q)) + 2 * la / (eps * (n * q)) + 2 * lb' / (eps * (n * p)) + 2 * lb / (eps * (n * p)) ≤
      8 * S / (eps * n) * (1 / p ^ 2 + 1 / q ^ 2) := by
    have := c la' q hq b2
    have := c la q hq b1
    have := c lb' p hp b4
    have := c lb p hp b3
    have e : 8 * S / (eps * n) * (1 / p ^ 2 + 1 / q ^ 2) = 2 * (4 * S / (eps * n) * (1 / p ^ 2)) + 2 * (4 * S / (eps * n) * (1 / q ^ 2)) := by ring
    rw [e]; linarith
  have hV2 : V ^ 2 ≤ 8 * S / (eps * n) * (1 / p ^ 2 + 1 / q ^ 2) * N := hcs.trans (mul_le_mul_of_nonneg_right hr hN0)
  have hsq : (dt / 2 * n * (H * V)) ^ 2 ≤ (θ * (mu / 2 * (S * n) * H ^ 2) + η * N) ^ 2 := by
    have h1 : (dt / 2 * n * (H * V)) ^ 2 ≤ (dt / 2 * n * H) ^ 2 * (8 * S / (eps * n) * (1 / p ^ 2 + 1 / q ^ 2) * N) := by
      have : (dt / 2 * n * (H * V)) ^ 2 = (dt / 2 * n * H) ^ 2 * V ^ 2 := by ring
      rw [this]; exact mul_le_mul_of_nonneg_left hV2 (sq_nonneg _)
    have h2 : (dt / 2 * n * H) ^ 2 * (8 * S / (eps * n) * (1 / p ^ 2 + 1 / q ^ 2) * N) =
        (dt ^ 2 * (1 / p ^ 2 + 1 / q ^ 2)) * (2 * n * S * H ^ 2 * N / eps) := by
      generalize (1 / p ^ 2 + 1 / q ^ 2) = K
      field_simp; ring
    have h3 : (θ * η * (eps * mu)) * (2 * n * S * H ^ 2 * N / eps) = 4 * (θ * (mu / 2 * (S * n) * H ^ 2)) * (η * N) := by
      field_simp; ring
    rw [h2, ht, h3] at h1
    exact am_le h1
  exact abs_le_of_sq_le_sq hsq (by positivity)

lemma shift_x (g : Grid) {F : A3} (h : ∀ i j k, 0 ≤ F i j k) (hN : ∀ j k, F (g.nx + 1) j k = 0) : sum g (fun i j k => F (i + 1) j k) ≤ sum g F := by
  show S3 _ _ _ _ ≤ S3 _ _ _ _
  refine Sol.CurlBound.S3_le_x fun j _ k _ => ?_
  have h1 := sum_range_succ' (fun i => F i j k) (g.nx + 1)
  have h2 := sum_range_succ (fun i => F i j k) (g.nx + 1)
  rw [hN j k] at h2
  linarith [h 0 j k]

lemma shift_y (g : Grid) {F : A3} (h : ∀ i j k, 0 ≤ F i j k) (hN : ∀ i k, F i (g.ny + 1) k = 0) : sum g (fun i j k => F i (j + 1) k) ≤ sum g F := by
  show S3 _ _ _ _ ≤ S3 _ _ _ _
  refine Sol.CurlBound.S3_le_y fun i _ k _ => ?_
  have h1 := sum_range_succ' (fun j => F i j k) (g.ny + 1)
  have h2 := sum_range_succ (fun j => F i j k) (g.ny + 1)
  rw [hN i k] at h2
  linarith [h i 0 k]

lemma shift_z (g : Grid) {F : A3} (h : ∀ i j k, 0 ≤ F i j k) (hN : ∀ i j, F i j (g.nz + 1) = 0) : sum g (fun i j k => F i j (k + 1)) ≤ sum g F := by
  show S3 _ _ _ _ ≤ S3 _ _ _ _
  refine Sol.CurlBound.S3_le_z fun i _ j _ => ?_
  have h1 := sum_range_succ' (fun k => F i j k) (g.nz + 1)
  have h2 := sum_range_succ (fun k => F i j k) (g.nz + 1)
  rw [hN i j] at h2
  linarith [h i j 0]

/-- The square of a number that bounds the relative change of the energy in one step, for an edge along an axis with cell size `d`. -/
def rate (g : Grid) (cfln d : ℝ) : ℝ := 2 * cfln ^ 2 * (1 + 1 / d ^ 2 / (1 / g.dx ^ 2 + 1 / g.dy ^ 2 + 1 / g.dz ^ 2))

lemma coerciveDm (p : Phys) (g : Grid) (cfln θ : ℝ) (heps : 0 < p.eps) (hmu : 0 < p.mu) (hc : p.c ^ 2 * p.eps * p.mu = 1) (hx : 0 < g.dx)
    (hy : 0 < g.dy) (hz : 0 < g.dz) (h0 : 0 < θ) (hrx : rate g cfln g.dx ≤ θ ^ 2) (hry : rate g cfln g.dy ≤ θ ^ 2) (hrz : rate g cfln g.dz ≤ θ ^ 2)
    (hu : Unmarked g) (f : Fields) (hf : QuietDm g f) :
    (1 - θ) * (sizeDm p g f / 2) ≤ energyDm p g f (advHDm p g (timeStep p g cfln) f) ∧
      energyDm p g f (advHDm p g (timeStep p g cfln) f) ≤ (1 + θ) * (sizeDm p g f / 2) := by
  have ht := timeStep_sq p g cfln hc hx
  set dt := timeStep p g cfln with hdt
  set K := 1 / g.dx ^ 2 + 1 / g.dy ^ 2 + 1 / g.dz ^ 2 with hK
  have hK0 : 0 < K := by rw [hK]; positivity
  set s := dm p g dt with hs
  have hq := (quiet_dm (p := p) (dt := dt)).2 hf
  set X : A3 := fun i j k => p.eps / 2 * (g.lx i j k * (g.dy * g.dz) * f.Ex i j k ^ 2) with hX
  set Y : A3 := fun i j k => p.eps / 2 * (g.ly i j k * (g.dx * g.dz) * f.Ey i j k ^ 2) with hY
  set Z : A3 := fun i j k => p.eps / 2 * (g.lz i j k * (g.dx * g.dy) * f.Ez i j k ^ 2) with hZ
  have X0 : ∀ i j k, 0 ≤ X i j k := fun i j k => by have := hu.lx i j k; simp only [hX]; positivity
  have Y0 : ∀ i j k, 0 ≤ Y i j k := fun i j k => by have := hu.ly i j k; simp only [hY]; positivity
  have Z0 : ∀ i j k, 0 ≤ Z i j k := fun i j k => by have := hu.lz i j k; simp only [hZ]; positivity
  set wx : A3 := fun i j k => p.mu / 2 * (g.Syz i j k * g.dx) with hwx
  set wy : A3 := fun i j k => p.mu / 2 * (g.Szx i j k * g.dy) with hwy
  set wz : A3 := fun i j k => p.mu / 2 * (g.Sxy i j k * g.dz) with hwz
  set ηx := cfln ^ 2 * (1 / g.dy ^ 2 + 1 / g.dz ^ 2) / (K * θ) with hηx
  set ηy := cfln ^ 2 * (1 / g.dx ^ 2 + 1 / g.dz ^ 2) / (K * θ) with hηy
  set ηz := cfln ^ 2 * (1 / g.dx ^ 2 + 1 / g.dy ^ 2) / (K * θ) with hηz
  have ηx0 : 0 ≤ ηx := by rw [hηx]; positivity
  have ηy0 : 0 ≤ ηy := by rw [hηy]; positivity
  have ηz0 : 0 ≤ ηz := by rw [hηz]; positivity
  have hη : ∀ a : ℝ, dt ^ 2 * a = θ * (cfln ^ 2 * a / (K * θ)) * (p.eps * p.mu) := by
    intro a
    have : dt ^ 2 = cfln ^ 2 * (p.eps * p.mu) / K := by rw [eq_div_iff hK0.ne', ht]
    rw [this]; field_simp
  -- one face of each kind
  have key : ∀ (P : Prop) (W κ H Hn c d B : ℝ), (P → Hn = H - κ * c) → (¬P → H = 0) → (P → W * κ = dt / 2 * d) → 0 ≤ B →
      (P → |dt / 2 * d * (H * c)| ≤ θ * (W * H ^ 2) + B) → |W * (H * Hn) - W * H ^ 2| ≤ θ * (W * H ^ 2) + B := by
    intro P W κ H Hn c d B a1 a2 a3 a4 a5
    by_cases hP : P
    · have e : W * (H * Hn) - W * H ^ 2 = -(dt / 2 * d * (H * c)) := by
        rw [a1 hP]; linear_combination (-(H * c)) * a3 hP
      rw [e, abs_neg]; exact a5 hP
    · rw [a2 hP]; simp only [zero_mul, mul_zero, ne_eq, OfNat.ofNat_ne_zero, not_false_eq_true, zero_pow, sub_zero, abs_zero, zero_add]; exact a4
  have kx : ∀ i j k, |wx i j k * (f.Hx i j k * (s.h f).Hx i j k) - wx i j k * f.Hx i j k ^ 2| ≤ θ * (wx i j k * f.Hx i j k ^ 2) +
      ηx * (Z i (j + 1) k + Z i j k + Y i j (k + 1) + Y i j k) := by
    intro i j k
    refine key (s.ax i j k) (wx i j k) (s.kx i j k) (f.Hx i j k) _ (s.cX f i j k) g.dx _ (fun h => if_pos h) (hq.hx i j k) (fun h => ?_)
      (mul_nonneg ηx0 (by linarith [Z0 i (j + 1) k, Z0 i j k, Y0 i j (k + 1), Y0 i j k])) (fun h => ?_)
    · have := (hu.iyz i j k).1 h.2
      simp only [hwx, hs, dm]; field_simp
    · have hS := (hu.iyz i j k).1 h.2
      obtain ⟨b1, b2, b3, b4⟩ := unmarked (S := fun j k => g.Syz i j k) hS (hu.yz i h.1.1 j h.1.2.1 k h.1.2.2)
      have := face_le (dt := dt) (H := f.Hx i j k) (Ea := f.Ez i j k) (Ea' := f.Ez i (j + 1) k) (Eb := f.Ey i j k) (Eb' := f.Ey i j (k + 1))
        heps hmu hx hz hy h0.le ηx0 hS (hu.lz i j k) (hu.lz i (j + 1) k) (hu.ly i j k) (hu.ly i j (k + 1)) b3 b4 b1 b2
        (by rw [hηx, ← hη, add_comm])
      refine this.trans (le_of_eq ?_)
      simp only [hwx, hZ, hY]
  have ky : ∀ i j k, |wy i j k * (f.Hy i j k * (s.h f).Hy i j k) - wy i j k * f.Hy i j k ^ 2| ≤ θ * (wy i j k * f.Hy i j k ^ 2) +
      ηy * (X i j (k + 1) + X i j k + Z (i + 1) j k + Z i j k) := by
    intro i j k
    refine key (s.ay i j k) (wy i j k) (s.ky i j k) (f.Hy i j k) _ (s.cY f i j k) g.dy _ (fun h => if_pos h) (hq.hy i j k) (fun h => ?_)
      (mul_nonneg ηy0 (by linarith [X0 i j (k + 1), X0 i j k, Z0 (i + 1) j k, Z0 i j k])) (fun h => ?_)
    · have := (hu.izx i j k).1 h.2
      simp only [hwy, hs, dm]; field_simp
    · have hS := (hu.izx i j k).1 h.2
      obtain ⟨b1, b2, b3, b4⟩ := unmarked (S := fun i k => g.Szx i j k) hS (hu.zx j h.1.2.1 i h.1.1 k h.1.2.2)
      have := face_le (dt := dt) (H := f.Hy i j k) (Ea := f.Ex i j k) (Ea' := f.Ex i j (k + 1)) (Eb := f.Ez i j k) (Eb' := f.Ez (i + 1) j k)
        heps hmu hy hx hz h0.le ηy0 hS (hu.lx i j k) (hu.lx i j (k + 1)) (hu.lz i j k) (hu.lz (i + 1) j k) b1 b2 b3 b4
        (by rw [hηy, ← hη])
      refine this.trans (le_of_eq ?_)
      simp only [hwy, hZ, hX, mul_comm g.dx g.dy]
  have kz : ∀ i j k, |wz i j k * (f.Hz i j k * (s.h f).Hz i j k) - wz i j k * f.Hz i j k ^ 2| ≤ θ * (wz i j k * f.Hz i j k ^ 2) +
      ηz * (Y (i + 1) j k + Y i j k + X i (j + 1) k + X i j k) := by
    intro i j k
    refine key (s.az i j k) (wz i j k) (s.kz i j k) (f.Hz i j k) _ (s.cZ f i j k) g.dz _ (fun h => if_pos h) (hq.hz i j k) (fun h => ?_)
      (mul_nonneg ηz0 (by linarith [Y0 (i + 1) j k, Y0 i j k, X0 i (j + 1) k, X0 i j k])) (fun h => ?_)
    · have := (hu.ixy i j k).1 h.2
      simp only [hwz, hs, dm]; field_simp
    · have hS := (hu.ixy i j k).1 h.2
      obtain ⟨b1, b2, b3, b4⟩ := unmarked (S := fun i j => g.Sxy i j k) hS (hu.xy k h.1.2.2 i h.1.1 j h.1.2.1)
      have := face_le (dt := dt) (H := f.Hz i j k) (Ea := f.Ey i j k) (Ea' := f.Ey (i + 1) j k) (Eb := f.Ex i j k) (Eb' := f.Ex i (j + 1) k)
        heps hmu hz hy hx h0.le ηz0 hS (hu.ly i j k) (hu.ly (i + 1) j k) (hu.lx i j k) (hu.lx i (j + 1) k) b3 b4 b1 b2
        (by rw [hηz, ← hη, add_comm])
      refine this.trans (le_of_eq ?_)
      simp only [hwz, hY, hX, mul_comm g.dz g.dx, mul_comm g.dz g.dy]
  -- sums
  set NX := sum g X
  set NY := sum g Y
  set NZ := sum g Z
  set NH := sum g (fun i j k => wx i j k * f.Hx i j k ^ 2 + wy i j k * f.Hy i j k ^ 2 + wz i j k * f.Hz i j k ^ 2) with hNH
  set M := sum g (fun i j k => wx i j k * (f.Hx i j k * (s.h f).Hx i j k) + wy i j k * (f.Hy i j k * (s.h f).Hy i j k) + wz i j k * (f.Hz i j k * (s.h f).Hz i j k)) with hM
  have zx1 : ∀ i k, X i (g.ny + 1) k = 0 := fun i k => by simp only [hX]; rw [hf.ex _ _ _ fun h => by have := h.1.2.1.2; omega]; ring
  have zx2 : ∀ i j, X i j (g.nz + 1) = 0 := fun i j => by simp only [hX]; rw [hf.ex _ _ _ fun h => by have := h.1.2.2.2; omega]; ring
  have zy0 : ∀ j k, Y (g.nx + 1) j k = 0 := fun j k => by simp only [hY]; rw [hf.ey _ _ _ fun h => by have := h.1.1.2; omega]; ring
  have zy2 : ∀ i j, Y i j (g.nz + 1) = 0 := fun i j => by simp only [hY]; rw [hf.ey _ _ _ fun h => by have := h.1.2.2.2; omega]; ring
  have zz0 : ∀ j k, Z (g.nx + 1) j k = 0 := fun j k => by simp only [hZ]; rw [hf.ez _ _ _ fun h => by have := h.1.1.2; omega]; ring
  have zz1 : ∀ i k, Z i (g.ny + 1) k = 0 := fun i k => by simp only [hZ]; rw [hf.ez _ _ _ fun h => by have := h.1.2.1.2; omega]; ring
  set B : A3 := fun i j k => θ * (wx i j k * f.Hx i j k ^ 2 + wy i j k * f.Hy i j k ^ 2 + wz i j k * f.Hz i j k ^ 2) +
    (ηx * (Z i (j + 1) k + Z i j k + Y i j (k + 1) + Y i j k) + ηy * (X i j (k + 1) + X i j k + Z (i + 1) j k + Z i j k) +
      ηz * (Y (i + 1) j k + Y i j k + X i (j + 1) k + X i j k)) with hB
  have eB : sum g B = θ * NH + (ηx * (sum g (fun i j k => Z i (j + 1) k) + NZ + sum g (fun i j k => Y i j (k + 1)) + NY) +
      ηy * (sum g (fun i j k => X i j (k + 1)) + NX + sum g (fun i j k => Z (i + 1) j k) + NZ) +
      ηz * (sum g (fun i j k => Y (i + 1) j k) + NY + sum g (fun i j k => X i (j + 1) k) + NX)) := by
    simp only [hB, hNH, sum_add, sum_mul]; rfl
  have r : ∀ d a b : ℝ, 2 * (cfln ^ 2 * a / (K * θ) + cfln ^ 2 * b / (K * θ)) = rate g cfln d / θ → rate g cfln d ≤ θ ^ 2 →
      2 * (cfln ^ 2 * a / (K * θ) + cfln ^ 2 * b / (K * θ)) ≤ θ := by
    intro d a b h1 h2
    rw [h1, div_le_iff₀ h0]; nlinarith
  have rt : ∀ d a b : ℝ, a + b = K + 1 / d ^ 2 → 2 * (cfln ^ 2 * a / (K * θ) + cfln ^ 2 * b / (K * θ)) = rate g cfln d / θ := by
    intro d a b h
    have : 2 * (cfln ^ 2 * a / (K * θ) + cfln ^ 2 * b / (K * θ)) = 2 * cfln ^ 2 * (a + b) / (K * θ) := by ring
    rw [this, h]
    unfold rate
    rw [← hK]
    generalize 1 / d ^ 2 = q
    field_simp
  have rX : 2 * (ηy + ηz) ≤ θ := r g.dx _ _ (rt _ _ _ (by rw [hK]; ring)) hrx
  have rY : 2 * (ηx + ηz) ≤ θ := r g.dy _ _ (rt _ _ _ (by rw [hK]; ring)) hry
  have rZ : 2 * (ηx + ηy) ≤ θ := r g.dz _ _ (rt _ _ _ (by rw [hK]; ring)) hrz
  have bB : sum g B ≤ θ * (NX + NY + NZ + NH) := by
    rw [eB]
    have s1 := shift_y g Z0 zz1
    have s2 := shift_z g Y0 zy2
    have s3 := shift_z g X0 zx2
    have s4 := shift_x g Z0 zz0
    have s5 := shift_x g Y0 zy0
    have s6 := shift_y g X0 zx1
    have t1 := mul_le_mul_of_nonneg_left (add_le_add s1 s2) ηx0
    have t2 := mul_le_mul_of_nonneg_left (add_le_add s3 s4) ηy0
    have t3 := mul_le_mul_of_nonneg_left (add_le_add s5 s6) ηz0
    have u1 := mul_le_mul_of_nonneg_right rX (sum_nonneg' g X0)
    have u2 := mul_le_mul_of_nonneg_right rY (sum_nonneg' g Y0)
    have u3 := mul_le_mul_of_nonneg_right rZ (sum_nonneg' g Z0)
    linarith
  have eM : sum g (fun i j k => (wx i j k * (f.Hx i j k * (s.h f).Hx i j k) - wx i j k * f.Hx i j k ^ 2) + (wy i j k * (f.Hy i j k * (s.h f).Hy i j k) - wy i j k * f.Hy i j k ^ 2) +
      (wz i j k * (f.Hz i j k * (s.h f).Hz i j k) - wz i j k * f.Hz i j k ^ 2)) = M + -1 * NH := by
    rw [hM, hNH, ← sum_mul, ← sum_add]
    exact sum_congr' fun i j k => by ring
  have up : M + -1 * NH ≤ sum g B := by
    rw [← eM]
    refine sum_le fun i j k => ?_
    have a1 := (abs_le.1 (kx i j k)).2
    have a2 := (abs_le.1 (ky i j k)).2
    have a3 := (abs_le.1 (kz i j k)).2
    simp only [hB]; linarith
  have lo : -1 * sum g B ≤ M + -1 * NH := by
    rw [← eM, ← sum_mul]
    refine sum_le fun i j k => ?_
    have a1 := (abs_le.1 (kx i j k)).1
    have a2 := (abs_le.1 (ky i j k)).1
    have a3 := (abs_le.1 (kz i j k)).1
    simp only [hB]; linarith
  have eE : energyDm p g f (advHDm p g dt f) = NX + NY + NZ + M := by
    rw [← dm_h, ← energyDm_eq p g dt]
    unfold Scheme.energy
    have : (sum g fun i j k => p.eps / 2 * ((dm p g dt).lx i j k * (g.dy * g.dz) * f.Ex i j k ^ 2 + (dm p g dt).ly i j k * (g.dx * g.dz) * f.Ey i j k ^ 2 +
        (dm p g dt).lz i j k * (g.dx * g.dy) * f.Ez i j k ^ 2)) = NX + NY + NZ := by
      rw [← sum_add, ← sum_add]
      exact sum_congr' fun i j k => by simp only [hX, hY, hZ, dm]; ring
    rw [this]
  have eS : sizeDm p g f / 2 = NX + NY + NZ + NH := by
    unfold sizeDm
    have e1 : NX + NY + NZ = p.eps / 2 * sum g (fun i j k => g.lx i j k * (g.dy * g.dz) * f.Ex i j k ^ 2 + g.ly i j k * (g.dx * g.dz) * f.Ey i j k ^ 2 +
        g.lz i j k * (g.dx * g.dy) * f.Ez i j k ^ 2) := by
      rw [← sum_mul, ← sum_add, ← sum_add]
      exact sum_congr' fun i j k => by simp only [hX, hY, hZ]; ring
    have e2 : NH = p.mu / 2 * sum g (fun i j k => g.Syz i j k * g.dx * f.Hx i j k ^ 2 + g.Szx i j k * g.dy * f.Hy i j k ^ 2 + g.Sxy i j k * g.dz * f.Hz i j k ^ 2) := by
      rw [← sum_mul, hNH]
      exact sum_congr' fun i j k => by simp only [hwx, hwy, hwz]; ring
    rw [e1, e2]; ring
  rw [eE, eS]
  constructor <;> linarith

/-- **C95, stability.** If the grid marks no face as unstable and the time step is small enough, the fields of a run without currents stay
bounded for ever. -/
theorem C95_stable (p : Phys) (g : Grid) (cfln θ : ℝ) (heps : 0 < p.eps) (hmu : 0 < p.mu) (hc : p.c ^ 2 * p.eps * p.mu = 1) (hx : 0 < g.dx)
    (hy : 0 < g.dy) (hz : 0 < g.dz) (h0 : 0 < θ) (h1 : θ < 1) (hrx : rate g cfln g.dx ≤ θ ^ 2) (hry : rate g cfln g.dy ≤ θ ^ 2)
    (hrz : rate g cfln g.dz ≤ θ ^ 2) (hu : Unmarked g) (f : Fields) (hf : QuietDm g f) (n : ℕ) :
    sizeDm p g (run (stepDm p g (timeStep p g cfln)) (fun _ => noCurr) f n) ≤ (1 + θ) / (1 - θ) * sizeDm p g f := by
  have hn := (coerciveDm p g cfln θ heps hmu hc hx hy hz h0 hrx hry hrz hu _ (C95_quiet p g (timeStep p g cfln) (fun _ => noCurr) f hf n)).1
  have hi := (coerciveDm p g cfln θ heps hmu hc hx hy hz h0 hrx hry hrz hu f hf).2
  have hcons := C95_conserved p g (timeStep p g cfln) heps.ne' hmu.ne' hx.ne' hy.ne' hz.ne' (fun i j k h => ((hu.iyz i j k).1 h).ne')
    (fun i j k h => ((hu.izx i j k).1 h).ne') (fun i j k h => ((hu.ixy i j k).1 h).ne') f hf n
  rw [hcons] at hn
  rw [div_mul_eq_mul_div, le_div_iff₀ (by linarith)]
  linarith

/-- **C95, stability with the default.** With a Courant number up to one half, the default, there is a factor that depends only on the ratio of the cell
sizes by which the fields can grow at most. -/
theorem C95_stable_default (p : Phys) (g : Grid) (cfln : ℝ) (heps : 0 < p.eps) (hmu : 0 < p.mu) (hc : p.c ^ 2 * p.eps * p.mu = 1) (hx : 0 < g.dx)
    (hy : 0 < g.dy) (hz : 0 < g.dz) (h0 : 0 < cfln) (h1 : cfln ≤ 1 / 2) (hu : Unmarked g) :
    ∃ B, ∀ f, QuietDm g f → ∀ n, sizeDm p g (run (stepDm p g (timeStep p g cfln)) (fun _ => noCurr) f n) ≤ B * sizeDm p g f := by
  set r := max (max (rate g cfln g.dx) (rate g cfln g.dy)) (rate g cfln g.dz) with hr
  have pos : ∀ d, 0 < d → 0 < rate g cfln d := fun d hd => by unfold rate; positivity
  have lt : ∀ d, 0 < d → 1 / d ^ 2 < 1 / g.dx ^ 2 + 1 / g.dy ^ 2 + 1 / g.dz ^ 2 → rate g cfln d < 1 := by
    intro d hd h
    unfold rate
    have hK : 0 < 1 / g.dx ^ 2 + 1 / g.dy ^ 2 + 1 / g.dz ^ 2 := by positivity
    have h2 : 1 / d ^ 2 / (1 / g.dx ^ 2 + 1 / g.dy ^ 2 + 1 / g.dz ^ 2) < 1 := (div_lt_one hK).2 h
    have h3 : 0 < 1 / d ^ 2 / (1 / g.dx ^ 2 + 1 / g.dy ^ 2 + 1 / g.dz ^ 2) := by positivity
    have h4 : cfln ^ 2 ≤ 1 / 4 := by nlinarith
    nlinarith
  have ax : 0 < 1 / g.dx ^ 2 := by positivity
  have ay : 0 < 1 / g.dy ^ 2 := by positivity
  have az : 0 < 1 / g.dz ^ 2 := by positivity
  have r0 : 0 < r := lt_of_lt_of_le (pos g.dz hz) (le_max_right _ _)
  have r1 : r < 1 := max_lt (max_lt (lt _ hx (by linarith)) (lt _ hy (by linarith))) (lt _ hz (by linarith))
  have hs : Real.sqrt r ^ 2 = r := Real.sq_sqrt r0.le
  refine ⟨_, fun f hf n => C95_stable p g cfln (Real.sqrt r) heps hmu hc hx hy hz (Real.sqrt_pos.2 r0) ?_ ?_ ?_ ?_ hu f hf n⟩
  · rw [Real.sqrt_lt' one_pos]; simpa using r1
  · rw [hs]; exact le_trans (le_max_left _ _) (le_max_left _ _)
  · rw [hs]; exact le_trans (le_max_right _ _) (le_max_left _ _)
  · rw [hs]; exact le_max_right _ _

/-- A grid without conductors: every edge has its full length and every face the free fraction one. -/
structure Empty (g : Grid) : Prop where
  lx : ∀ i j k, g.lx i j k = g.dx
  ly : ∀ i j k, g.ly i j k = g.dy
  lz : ∀ i j k, g.lz i j k = g.dz
  Sxy : ∀ i j k, g.Sxy i j k = 1
  Syz : ∀ i j k, g.Syz i j k = 1
  Szx : ∀ i j k, g.Szx i j k = 1
  intXy : ∀ i j k, g.intXy i j k
  intYz : ∀ i j k, g.intYz i j k
  intZx : ∀ i j k, g.intZx i j k

/-- **C95, empty box.** With cells of unit size and no conductors a step of the conformal scheme is a step of the standard scheme. Missing: other
cell sizes (refuted below). -/
theorem C95_fdtd_partial (p : Phys) (g : Grid) (dt : ℝ) (hx : g.dx = 1) (hy : g.dy = 1) (hz : g.dz = 1) (he : Empty g) (J : Curr) (f : Fields) :
    stepDm p g dt J f = stepFdtd p g dt J f := by
  have eH : advHDm p g dt f = advHFdtd p g dt f := by
    unfold advHDm advHFdtd
    congr 1 <;> funext i j k
    · simp only [he.Syz, he.intYz, and_true, gt_iff_lt, zero_lt_one]
      refine if_congr Iff.rfl ?_ rfl
      simp only [vYz, he.ly, he.lz, hy, hz]; ring
    · simp only [he.Szx, he.intZx, and_true, gt_iff_lt, zero_lt_one]
      refine if_congr Iff.rfl ?_ rfl
      simp only [vZx, he.lx, he.lz, hx, hz]; ring
    · simp only [he.Sxy, he.intXy, and_true, gt_iff_lt, zero_lt_one]
      refine if_congr Iff.rfl ?_ rfl
      simp only [vXy, he.lx, he.ly, hx, hy]; ring
  unfold stepDm stepFdtd
  rw [eH]

/-- **C95, refuted.** Without conductors the conformal scheme behaves as a medium whose permeability along each axis is divided by the area of the cell
across that axis: the fields of a step are those of the standard scheme with the magnetic field changes multiplied by `dy·dz`, `dx·dz` and `dx·dy`. -/
theorem C95_speed_refuted (p : Phys) (g : Grid) (dt : ℝ) (hx : 0 < g.dx) (hy : 0 < g.dy) (hz : 0 < g.dz) (he : Empty g) (f : Fields) (i j k : ℕ) :
    (advHDm p g dt f).Hx i j k - f.Hx i j k = g.dy * g.dz * ((advHFdtd p g dt f).Hx i j k - f.Hx i j k) ∧
    (advHDm p g dt f).Hy i j k - f.Hy i j k = g.dx * g.dz * ((advHFdtd p g dt f).Hy i j k - f.Hy i j k) ∧
    (advHDm p g dt f).Hz i j k - f.Hz i j k = g.dx * g.dy * ((advHFdtd p g dt f).Hz i j k - f.Hz i j k) := by
  have w : ∀ (P Q : Prop) [Decidable P] [Decidable Q] (H a b c : ℝ), (P ↔ Q) → a - H = c * (b - H) →
      (if P then a else H) - H = c * ((if Q then b else H) - H) := by
    intro P Q _ _ H a b c hPQ h
    by_cases hP : P
    · rw [if_pos hP, if_pos (hPQ.1 hP), h]
    · rw [if_neg hP, if_neg fun hQ => hP (hPQ.2 hQ)]; ring
  refine ⟨w _ _ _ _ _ _ ?_ ?_, w _ _ _ _ _ _ ?_ ?_, w _ _ _ _ _ _ ?_ ?_⟩
  · simp [he.Syz, he.intYz]
  · simp only [vYz, he.Syz, he.ly, he.lz]
    by_cases hm : p.mu = 0
    · simp [hm]
    · field_simp; ring
  · simp [he.Szx, he.intZx]
  · simp only [vZx, he.Szx, he.lx, he.lz]
    by_cases hm : p.mu = 0
    · simp [hm]
    · field_simp; ring
  · simp [he.Sxy, he.intXy]
  · simp only [vXy, he.Sxy, he.lx, he.ly]
    by_cases hm : p.mu = 0
    · simp [hm]
    · field_simp; ring

/-! ### Which scheme a step runs -/

/-- The methods of the class `EMSolver2D` (solver2D.py:15-589). -/
def methods2D : List String :=
  ["__init__", "organize_pmls", "assemble_conductivities_pmls", "assemble_coeffs_pmls", "update_e_boundary", "gauss", "one_step", "one_step_fdtd", "one_step_dm",
   "advance_h_fdtd", "advance_e_fdtd", "one_step_ect", "compute_v_and_rho", "advance_e_dm", "update_e_boundary_dm"]

/-- `one_step_ect` (solver3D.py:1596-1607, 1769-1791): `advance_h_ect` looks up `EMSolver2D.advance_h_ect` for the first plane, before any field changes.
What would follow the lookup is not reached and not modelled. -/
def stepEct (f : Fields) : Py Fields := if "advance_h_ect" ∈ methods2D then .ok f else .error .attributeError

/-- `one_step` without absorbing layers (solver3D.py:1585-1594): the fields and the time. -/
def oneStep (solType : String) (p : Phys) (g : Grid) (dt : ℝ) (J : Curr) (f : Fields) (t : ℝ) : Py (Fields × ℝ) := do
  let f ← if solType = "ECT" then stepEct f else .ok f
  let f := if solType = "FDTD" then stepFdtd p g dt J f else f
  let f := if solType = "DM" then stepDm p g dt J f else f
  .ok (f, t + dt)

/-- **C95, choice of the scheme.** 'FDTD' runs the standard and 'DM' the conformal scheme, and the time advances by one step. -/
theorem C95_one_step (p : Phys) (g : Grid) (dt : ℝ) (J : Curr) (f : Fields) (t : ℝ) :
    oneStep "FDTD" p g dt J f t = .ok (stepFdtd p g dt J f, t + dt) ∧ oneStep "DM" p g dt J f t = .ok (stepDm p g dt J f, t + dt) := by
  constructor <;> simp [oneStep] <;> rfl

/-- **C95, refuted.** 'ECT' never completes a step, whatever the grid and the fields. -/
theorem C95_ect_refuted (p : Phys) (g : Grid) (dt : ℝ) (J : Curr) (f : Fields) (t : ℝ) : oneStep "ECT" p g dt J f t = .error .attributeError := by
  simp [oneStep, stepEct, methods2D]; rfl

/-- The check of the name in the constructor (solver3D.py:101-107). -/
def checkType (solType : String) : Py Unit :=
  if solType ≠ "FDTD" ∧ solType ≠ "DM" ∧ solType ≠ "ECT" then .error .valueError else .ok ()

/-- **C95, names.** A solver can be constructed for exactly three names; any other, also in lower case, raises ValueError. -/
theorem C95_names (s : String) : (s ∈ ["FDTD", "DM", "ECT"] ∧ checkType s = .ok ()) ∨ (s ∉ ["FDTD", "DM", "ECT"] ∧ checkType s = .error .valueError) := by
  unfold checkType
  simp only [List.mem_cons, List.not_mem_nil, or_false]
  by_cases h : s = "FDTD" ∨ s = "DM" ∨ s = "ECT"
  · left
    exact ⟨h, if_neg fun hh => by rcases h with h | h | h <;> simp_all⟩
  · right
    exact ⟨h, if_pos (by simpa only [not_or] using h)⟩

/-- A grid of two by two by two unit cells without conductors. -/
def box : Grid := ⟨2, 2, 2, 1, 1, 1, fun _ _ _ => 1, fun _ _ _ => 1, fun _ _ _ => 1, fun _ _ _ => 1, fun _ _ _ => 1, fun _ _ _ => 1,
  fun _ _ _ => True, fun _ _ _ => True, fun _ _ _ => True⟩

/-- It meets the hypotheses of the theorems on the standard and on the conformal scheme, with a field that is not zero. -/
example : Empty box ∧ Unmarked box ∧ ∃ f, Quiet box f ∧ QuietDm box f ∧ f.Hz 0 0 1 = 1 ∧ f.Ex 0 1 1 = 1 := by
  refine ⟨⟨fun _ _ _ => rfl, fun _ _ _ => rfl, fun _ _ _ => rfl, fun _ _ _ => rfl, fun _ _ _ => rfl, fun _ _ _ => rfl, fun _ _ _ => trivial, fun _ _ _ => trivial,
    fun _ _ _ => trivial⟩, ?_, ?_⟩
  · refine ⟨fun _ _ _ => zero_le_one, fun _ _ _ => zero_le_one, fun _ _ _ => zero_le_one, ?_, ?_, ?_, ?_, ?_, ?_⟩ <;> intros <;>
      simp [Cond.markCell, box] <;> norm_num
  · refine ⟨⟨fun i j k => if i = 0 ∧ j = 1 ∧ k = 1 then 1 else 0, fun _ _ _ => 0, fun _ _ _ => 0, fun _ _ _ => 0, fun _ _ _ => 0,
        fun i j k => if i = 0 ∧ j = 0 ∧ k = 1 then 1 else 0⟩,
      ⟨fun i j k h => ?_, fun _ _ _ _ => rfl, fun _ _ _ _ => rfl, fun _ _ _ _ => rfl, fun _ _ _ _ => rfl, fun i j k h => ?_⟩,
      ⟨fun i j k h => ?_, fun _ _ _ _ => rfl, fun _ _ _ _ => rfl, fun _ _ _ _ => rfl, fun _ _ _ _ => rfl, fun i j k h => ?_⟩, by simp, by simp⟩
    all_goals
      refine if_neg fun hij => h ?_
      obtain ⟨rfl, rfl, rfl⟩ := hij
      simp [freeX, box]

end
end L3
end Wakis
