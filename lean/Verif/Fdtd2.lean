import Verif.Extend
import Mathlib.Tactic.Linarith
import Mathlib.Tactic.FieldSimp

/-!
# C89, C90: the two-dimensional solver without absorbing layers

Model of the field updates of `wakis/solver2D.py` for `sol_type` 'FDTD' and 'DM' when no boundary is 'pml' (then `blocks` is empty and
`update_e_boundary` does nothing).
-/

namespace Wakis
namespace S2
noncomputable section
open Classical Finset

/-! ### Model -/

/-- The physical constants of the module (solver2D.py:2). -/
structure Phys where
  eps : ℝ
  mu : ℝ
  c : ℝ

/-- What the solver reads from the grid (grid2D.py:29-53): cell counts, cell sizes, edge lengths, areas and the interior flags. -/
structure Grid where
  nx : ℕ
  ny : ℕ
  dx : ℝ
  dy : ℝ
  lx : ℕ → ℕ → ℝ
  ly : ℕ → ℕ → ℝ
  S : ℕ → ℕ → ℝ
  int : ℕ → ℕ → Prop

/-- The fields of the solver (solver2D.py:122-127). -/
structure Fields where
  Ex : ℕ → ℕ → ℝ
  Ey : ℕ → ℕ → ℝ
  Hz : ℕ → ℕ → ℝ

/-- The currents. -/
structure Curr where
  Jx : ℕ → ℕ → ℝ
  Jy : ℕ → ℕ → ℝ

/-- `dt` (solver2D.py:31). -/
def timeStep (p : Phys) (g : Grid) (cfln : ℝ) : ℝ := cfln / (p.c * Real.sqrt (1 / g.dx ^ 2 + 1 / g.dy ^ 2))

/-- `advance_h_fdtd` (solver2D.py:466-477) with `C1` and `C2` of the FDTD branch (solver2D.py:153-154). An iteration reads only Ex and Ey and
its own entry of Hz, so that the loops are written as one assignment; so in the definitions below. -/
def advHFdtd (p : Phys) (g : Grid) (dt : ℝ) (f : Fields) : Fields :=
  { f with Hz := fun i j =>
      if i < g.nx ∧ j < g.ny ∧ g.int i j then
        f.Hz i j - dt / (g.dx * p.mu) * (f.Ey (i + 1) j - f.Ey i j) + dt / (g.dy * p.mu) * (f.Ex i (j + 1) - f.Ex i j)
      else f.Hz i j }

/-- `advance_e_fdtd` (solver2D.py:479-502). -/
def advEFdtd (p : Phys) (g : Grid) (dt : ℝ) (J : Curr) (f : Fields) : Fields :=
  { f with
    Ex := fun i j =>
      if i < g.nx ∧ (1 ≤ j ∧ j < g.ny) ∧ g.int i j ∧ g.lx i j > 0 then
        f.Ex i j - dt / p.eps * J.Jx i j + dt / (g.dy * p.eps) * (f.Hz i j - f.Hz i (j - 1))
      else f.Ex i j
    Ey := fun i j =>
      if (1 ≤ i ∧ i < g.nx) ∧ j < g.ny ∧ g.int i j ∧ g.ly i j > 0 then
        f.Ey i j - dt / p.eps * J.Jy i j - dt / (g.dx * p.eps) * (f.Hz i j - f.Hz (i - 1) j)
      else f.Ey i j }

/-- `one_step_fdtd` (solver2D.py:428-437). -/
def stepFdtd (p : Phys) (g : Grid) (dt : ℝ) (J : Curr) (f : Fields) : Fields := advEFdtd p g dt J (advHFdtd p g dt f)

/-- `Vxy` (solver2D.py:564-571). -/
def voltage (g : Grid) (f : Fields) (i j : ℕ) : ℝ :=
  f.Ey (i + 1) j * g.ly (i + 1) j - f.Ey i j * g.ly i j - f.Ex i (j + 1) * g.lx i (j + 1) + f.Ex i j * g.lx i j

/-- The magnetic update of `one_step_dm` (solver2D.py:440-448). -/
def advHDm (p : Phys) (g : Grid) (dt : ℝ) (f : Fields) : Fields :=
  { f with Hz := fun i j =>
      if i < g.nx ∧ j < g.ny ∧ g.int i j then f.Hz i j - dt / (p.mu * g.S i j) * voltage g f i j else f.Hz i j }

/-- `advance_e_dm` (solver2D.py:575-597). -/
def advEDm (p : Phys) (g : Grid) (dt : ℝ) (J : Curr) (f : Fields) : Fields :=
  { f with
    Ex := fun i j =>
      if i < g.nx ∧ (1 ≤ j ∧ j < g.ny) ∧ g.lx i j > 0 then
        f.Ex i j + dt / (p.eps * g.dy) * (f.Hz i j - f.Hz i (j - 1)) - dt / p.eps * J.Jx i j
      else f.Ex i j
    Ey := fun i j =>
      if (1 ≤ i ∧ i < g.nx) ∧ j < g.ny ∧ g.ly i j > 0 then
        f.Ey i j - dt / (p.eps * g.dx) * (f.Hz i j - f.Hz (i - 1) j) - dt / p.eps * J.Jy i j
      else f.Ey i j }

/-- `one_step_dm` (solver2D.py:439-463). -/
def stepDm (p : Phys) (g : Grid) (dt : ℝ) (J : Curr) (f : Fields) : Fields := advEDm p g dt J (advHDm p g dt f)

/-- The fields of a new solver (solver2D.py:122-124). -/
def zero : Fields := ⟨fun _ _ => 0, fun _ _ => 0, fun _ _ => 0⟩

/-- The state after `n` steps with currents `J 0, J 1, …` set by the user before each step. -/
def run (step : Curr → Fields → Fields) (J : ℕ → Curr) (f : Fields) : ℕ → Fields
  | 0 => f
  | n + 1 => step (J n) (run step J f n)

/-! ### Specification -/

/-- Sum over the edges along x. -/
def sumX (g : Grid) (F : ℕ → ℕ → ℝ) : ℝ := ∑ i ∈ range g.nx, ∑ j ∈ range (g.ny + 1), F i j

/-- Sum over the edges along y. -/
def sumY (g : Grid) (F : ℕ → ℕ → ℝ) : ℝ := ∑ j ∈ range g.ny, ∑ i ∈ range (g.nx + 1), F i j

/-- Sum over the cells. -/
def sumC (g : Grid) (F : ℕ → ℕ → ℝ) : ℝ := ∑ i ∈ range g.nx, ∑ j ∈ range g.ny, F i j

/-- Field energy of the staircased scheme per unit length: electric energy plus magnetic energy, where the square of the magnetic field,
which is half a step late, is the product of the values before and after the electric field (`f.Hz` and `h`). -/
def energy (p : Phys) (g : Grid) (f : Fields) (h : ℕ → ℕ → ℝ) : ℝ :=
  (p.eps / 2 * (sumX g (fun i j => f.Ex i j ^ 2) + sumY g (fun i j => f.Ey i j ^ 2)) + p.mu / 2 * sumC g (fun i j => f.Hz i j * h i j)) * (g.dx * g.dy)

/-- Field energy of the conformal scheme: an edge stands for its free length times the cell size across it, a cell for its area. -/
def energyDm (p : Phys) (g : Grid) (f : Fields) (h : ℕ → ℕ → ℝ) : ℝ :=
  p.eps / 2 * (sumX g (fun i j => g.lx i j * g.dy * f.Ex i j ^ 2) + sumY g (fun i j => g.ly i j * g.dx * f.Ey i j ^ 2)) +
    p.mu / 2 * sumC g (fun i j => g.S i j * (f.Hz i j * h i j))

/-- Edges along x with an electric field in the staircased scheme: not on the border of the box, not in the conductor. -/
def freeX (g : Grid) (i j : ℕ) : Prop := i < g.nx ∧ (1 ≤ j ∧ j < g.ny) ∧ g.int i j ∧ g.lx i j > 0
/-- Edges along y with an electric field in the staircased scheme. -/
def freeY (g : Grid) (i j : ℕ) : Prop := (1 ≤ i ∧ i < g.nx) ∧ j < g.ny ∧ g.int i j ∧ g.ly i j > 0

/-- Fields that vanish in the conductors and on the border of the box. -/
structure Quiet (g : Grid) (f : Fields) : Prop where
  ex : ∀ i j, ¬ freeX g i j → f.Ex i j = 0
  ey : ∀ i j, ¬ freeY g i j → f.Ey i j = 0
  hz : ∀ i j, ¬ (i < g.nx ∧ j < g.ny ∧ g.int i j) → f.Hz i j = 0

/-- The same for the conformal scheme, where the cell of an edge need not be interior. -/
structure QuietDm (g : Grid) (f : Fields) : Prop where
  ex : ∀ i j, ¬ (i < g.nx ∧ (1 ≤ j ∧ j < g.ny) ∧ g.lx i j > 0) → f.Ex i j = 0
  ey : ∀ i j, ¬ ((1 ≤ i ∧ i < g.nx) ∧ j < g.ny ∧ g.ly i j > 0) → f.Ey i j = 0
  hz : ∀ i j, ¬ (i < g.nx ∧ j < g.ny ∧ g.int i j) → f.Hz i j = 0

/-! ### Proof -/

lemma sbp (n : ℕ) (h e : ℕ → ℝ) (h0 : e 0 = 0) (hn : e n = 0) :
    ∑ i ∈ range n, h i * (e (i + 1) - e i) = -∑ i ∈ range (n + 1), e i * (if 1 ≤ i ∧ i < n then h i - h (i - 1) else 0) := by
  cases n with
  | zero => simp
  | succ m =>
    rw [sum_range_succ (fun i => e i * _) (m + 1), sum_range_succ' (fun i => e i * _) m]
    simp only [mul_sub, sum_sub_distrib]
    rw [sum_range_succ (fun i => h i * e (i + 1)), sum_range_succ' (fun i => h i * e i), h0, hn]
    have : ∀ i ∈ range m, e (i + 1) * (if 1 ≤ i + 1 ∧ i + 1 < m + 1 then h (i + 1) - h (i + 1 - 1) else 0) = h (i + 1) * e (i + 1) - h i * e (i + 1) := by
      intro i hi
      have := mem_range.1 hi
      rw [if_pos (by omega), Nat.add_sub_cancel]; ring
    rw [sum_congr rfl this, sum_sub_distrib]
    simp

/-- The circulation around a cell for edge coefficients `px`, `py`. -/
def circ (px py : ℕ → ℕ → ℝ) (f : Fields) (i j : ℕ) : ℝ :=
  (f.Ey (i + 1) j * py (i + 1) j - f.Ey i j * py i j) - (f.Ex i (j + 1) * px i (j + 1) - f.Ex i j * px i j)

lemma circ_dual (g : Grid) (px py : ℕ → ℕ → ℝ) (f : Fields) (H : ℕ → ℕ → ℝ) (hx0 : ∀ i, f.Ex i 0 = 0) (hxn : ∀ i, f.Ex i g.ny = 0)
    (hy0 : ∀ j, f.Ey 0 j = 0) (hyn : ∀ j, f.Ey g.nx j = 0) :
    sumC g (fun i j => H i j * circ px py f i j) =
      sumX g (fun i j => f.Ex i j * px i j * (if 1 ≤ j ∧ j < g.ny then H i j - H i (j - 1) else 0)) -
        sumY g (fun i j => f.Ey i j * py i j * (if 1 ≤ i ∧ i < g.nx then H i j - H (i - 1) j else 0)) := by
  unfold sumC sumX sumY circ
  simp only [mul_sub (H _ _) (_ - _)]
  have e1 : ∑ i ∈ range g.nx, ∑ j ∈ range g.ny, H i j * (f.Ey (i + 1) j * py (i + 1) j - f.Ey i j * py i j) =
      -∑ j ∈ range g.ny, ∑ i ∈ range (g.nx + 1), f.Ey i j * py i j * (if 1 ≤ i ∧ i < g.nx then H i j - H (i - 1) j else 0) := by
    rw [sum_comm, ← sum_neg_distrib]
    refine sum_congr rfl fun j _ => ?_
    exact sbp g.nx (fun i => H i j) (fun i => f.Ey i j * py i j) (by simp [hy0]) (by simp [hyn])
  have e2 : ∑ i ∈ range g.nx, ∑ j ∈ range g.ny, H i j * (f.Ex i (j + 1) * px i (j + 1) - f.Ex i j * px i j) =
      -∑ i ∈ range g.nx, ∑ j ∈ range (g.ny + 1), f.Ex i j * px i j * (if 1 ≤ j ∧ j < g.ny then H i j - H i (j - 1) else 0) := by
    rw [← sum_neg_distrib]
    refine sum_congr rfl fun i _ => ?_
    exact sbp g.ny (fun j => H i j) (fun j => f.Ex i j * px i j) (by simp [hx0]) (by simp [hxn])
  simp only [sum_sub_distrib]
  rw [e1, e2]; ring

/-- A step of a general scheme: active cells, coefficients of the magnetic update, edges with a field, coefficients of the electric update. -/
structure Scheme (g : Grid) where
  act : ℕ → ℕ → Prop
  kap : ℕ → ℕ → ℝ
  px : ℕ → ℕ → ℝ
  py : ℕ → ℕ → ℝ
  ux : ℕ → ℕ → Prop
  uy : ℕ → ℕ → Prop
  ax : ℝ
  ay : ℝ
  c3 : ℝ

def Scheme.h {g : Grid} (s : Scheme g) (f : Fields) (i j : ℕ) : ℝ := if s.act i j then f.Hz i j - s.kap i j * circ s.px s.py f i j else f.Hz i j

def Scheme.step {g : Grid} (s : Scheme g) (J : Curr) (f : Fields) : Fields where
  Hz := s.h f
  Ex i j := if s.ux i j then f.Ex i j + s.ax * (s.h f i j - s.h f i (j - 1)) - s.c3 * J.Jx i j else f.Ex i j
  Ey i j := if s.uy i j then f.Ey i j - s.ay * (s.h f i j - s.h f (i - 1) j) - s.c3 * J.Jy i j else f.Ey i j

/-- Fields that vanish where the scheme does not update them. -/
structure Scheme.Quiet {g : Grid} (s : Scheme g) (f : Fields) : Prop where
  ex : ∀ i j, ¬ s.ux i j → f.Ex i j = 0
  ey : ∀ i j, ¬ s.uy i j → f.Ey i j = 0
  hz : ∀ i j, ¬ s.act i j → f.Hz i j = 0

lemma Scheme.quiet_step {g : Grid} (s : Scheme g) (J : Curr) (f : Fields) (h : s.Quiet f) : s.Quiet (s.step J f) := by
  refine ⟨fun i j hn => ?_, fun i j hn => ?_, fun i j hn => ?_⟩
  · exact (if_neg hn).trans (h.ex i j hn)
  · exact (if_neg hn).trans (h.ey i j hn)
  · exact (if_neg hn).trans (h.hz i j hn)

/-- Energy of the general scheme, with weights. -/
def Scheme.energy {g : Grid} (_ : Scheme g) (wx wy wh : ℕ → ℕ → ℝ) (f : Fields) (h : ℕ → ℕ → ℝ) : ℝ :=
  sumX g (fun i j => wx i j * f.Ex i j ^ 2) + sumY g (fun i j => wy i j * f.Ey i j ^ 2) + sumC g (fun i j => wh i j * (f.Hz i j * h i j))

lemma sumX_congr {g : Grid} {F G : ℕ → ℕ → ℝ} (h : ∀ i < g.nx, ∀ j ≤ g.ny, F i j = G i j) : sumX g F = sumX g G :=
  sum_congr rfl fun i hi => sum_congr rfl fun j hj => h i (mem_range.1 hi) j (Nat.lt_succ_iff.1 (mem_range.1 hj))

lemma sumY_congr {g : Grid} {F G : ℕ → ℕ → ℝ} (h : ∀ i ≤ g.nx, ∀ j < g.ny, F i j = G i j) : sumY g F = sumY g G :=
  sum_congr rfl fun j hj => sum_congr rfl fun i hi => h i (Nat.lt_succ_iff.1 (mem_range.1 hi)) j (mem_range.1 hj)

lemma sumC_congr {g : Grid} {F G : ℕ → ℕ → ℝ} (h : ∀ i < g.nx, ∀ j < g.ny, F i j = G i j) : sumC g F = sumC g G :=
  sum_congr rfl fun i hi => sum_congr rfl fun j hj => h i (mem_range.1 hi) j (mem_range.1 hj)

lemma sumX_add (g : Grid) (F G : ℕ → ℕ → ℝ) : sumX g (fun i j => F i j + G i j) = sumX g F + sumX g G := by
  simp [sumX, sum_add_distrib]
lemma sumY_add (g : Grid) (F G : ℕ → ℕ → ℝ) : sumY g (fun i j => F i j + G i j) = sumY g F + sumY g G := by
  simp [sumY, sum_add_distrib]
lemma sumC_add (g : Grid) (F G : ℕ → ℕ → ℝ) : sumC g (fun i j => F i j + G i j) = sumC g F + sumC g G := by
  simp [sumC, sum_add_distrib]
lemma sumX_mul (g : Grid) (a : ℝ) (F : ℕ → ℕ → ℝ) : sumX g (fun i j => a * F i j) = a * sumX g F := by
  simp [sumX, mul_sum]
lemma sumY_mul (g : Grid) (a : ℝ) (F : ℕ → ℕ → ℝ) : sumY g (fun i j => a * F i j) = a * sumY g F := by
  simp [sumY, mul_sum]
lemma sumC_mul (g : Grid) (a : ℝ) (F : ℕ → ℕ → ℝ) : sumC g (fun i j => a * F i j) = a * sumC g F := by
  simp [sumC, mul_sum]

/-- Energy balance of the general scheme. -/
lemma Scheme.balance {g : Grid} (s : Scheme g) (wx wy wh : ℕ → ℕ → ℝ) (τ : ℝ) (J : Curr) (f : Fields) (hq : s.Quiet f)
    (hux : ∀ i j, s.ux i j → 1 ≤ j ∧ j < g.ny) (huy : ∀ i j, s.uy i j → 1 ≤ i ∧ i < g.nx)
    (hh : ∀ i j, s.act i j → wh i j * s.kap i j = τ) (hx : ∀ i j, s.ux i j → wx i j * s.ax = τ * s.px i j)
    (hy : ∀ i j, s.uy i j → wy i j * s.ay = τ * s.py i j) :
    s.energy wx wy wh (s.step J f) (s.h (s.step J f)) - s.energy wx wy wh f (s.h f) =
      -s.c3 * (sumX g (fun i j => if s.ux i j then wx i j * J.Jx i j * (f.Ex i j + (s.step J f).Ex i j) else 0) +
        sumY g (fun i j => if s.uy i j then wy i j * J.Jy i j * (f.Ey i j + (s.step J f).Ey i j) else 0)) := by
  set f' := s.step J f with hf'
  have hq' : s.Quiet f' := s.quiet_step J f hq
  -- the sum of the fields before and after
  set q : Fields := ⟨fun i j => f.Ex i j + f'.Ex i j, fun i j => f.Ey i j + f'.Ey i j, f.Hz⟩ with hqd
  have hd := circ_dual g s.px s.py q f'.Hz
    (fun i => by simp only [hqd]; rw [hq.ex i 0 (fun h => by have := hux i 0 h; omega), hq'.ex i 0 (fun h => by have := hux i 0 h; omega), add_zero])
    (fun i => by simp only [hqd]; rw [hq.ex i _ (fun h => by have := hux i _ h; omega), hq'.ex i _ (fun h => by have := hux i _ h; omega), add_zero])
    (fun j => by simp only [hqd]; rw [hq.ey 0 j (fun h => by have := huy 0 j h; omega), hq'.ey 0 j (fun h => by have := huy 0 j h; omega), add_zero])
    (fun j => by simp only [hqd]; rw [hq.ey _ j (fun h => by have := huy _ j h; omega), hq'.ey _ j (fun h => by have := huy _ j h; omega), add_zero])
  have eC : sumC g (fun i j => wh i j * (f'.Hz i j * s.h f' i j)) =
      sumC g (fun i j => wh i j * (f.Hz i j * s.h f i j)) + -τ * sumC g (fun i j => f'.Hz i j * circ s.px s.py q i j) := by
    rw [← sumC_mul, ← sumC_add]
    refine sumC_congr fun i _ j _ => ?_
    have eq : circ s.px s.py q i j = circ s.px s.py f i j + circ s.px s.py f' i j := by simp only [circ, hqd]; ring
    by_cases ha : s.act i j
    · have e1 : f'.Hz i j = f.Hz i j - s.kap i j * circ s.px s.py f i j := if_pos ha
      have e2 : s.h f i j = f'.Hz i j := rfl
      have e3 : s.h f' i j = f'.Hz i j - s.kap i j * circ s.px s.py f' i j := if_pos ha
      rw [e2, e3, eq, ← hh i j ha]
      linear_combination (wh i j * f'.Hz i j) * e1
    · have e1 : f'.Hz i j = 0 := hq'.hz i j ha
      have e2 : s.h f i j = f'.Hz i j := rfl
      rw [e2, e1]; ring
  have eX : sumX g (fun i j => wx i j * f'.Ex i j ^ 2) =
      sumX g (fun i j => wx i j * f.Ex i j ^ 2) +
        (τ * sumX g (fun i j => q.Ex i j * s.px i j * (if 1 ≤ j ∧ j < g.ny then f'.Hz i j - f'.Hz i (j - 1) else 0)) +
          -s.c3 * sumX g (fun i j => if s.ux i j then wx i j * J.Jx i j * (f.Ex i j + f'.Ex i j) else 0)) := by
    rw [← sumX_mul, ← sumX_mul, ← sumX_add, ← sumX_add]
    refine sumX_congr fun i _ j _ => ?_
    by_cases ha : s.ux i j
    · have e1 : f'.Ex i j = f.Ex i j + s.ax * (f'.Hz i j - f'.Hz i (j - 1)) - s.c3 * J.Jx i j := if_pos ha
      rw [if_pos (hux i j ha), if_pos ha]
      show _ = _ + (τ * ((f.Ex i j + f'.Ex i j) * s.px i j * _) + _)
      have := hx i j ha
      linear_combination (wx i j * (f.Ex i j + f'.Ex i j)) * e1 + ((f.Ex i j + f'.Ex i j) * (f'.Hz i j - f'.Hz i (j - 1))) * this
    · have e1 : f'.Ex i j = 0 := hq'.ex i j ha
      have e2 : f.Ex i j = 0 := hq.ex i j ha
      have e3 : q.Ex i j = 0 := by show f.Ex i j + f'.Ex i j = 0; rw [e1, e2, add_zero]
      rw [if_neg ha, e1, e2, e3]; ring
  have eY : sumY g (fun i j => wy i j * f'.Ey i j ^ 2) =
      sumY g (fun i j => wy i j * f.Ey i j ^ 2) +
        (-τ * sumY g (fun i j => q.Ey i j * s.py i j * (if 1 ≤ i ∧ i < g.nx then f'.Hz i j - f'.Hz (i - 1) j else 0)) +
          -s.c3 * sumY g (fun i j => if s.uy i j then wy i j * J.Jy i j * (f.Ey i j + f'.Ey i j) else 0)) := by
    rw [← sumY_mul, ← sumY_mul, ← sumY_add, ← sumY_add]
    refine sumY_congr fun i _ j _ => ?_
    by_cases ha : s.uy i j
    · have e1 : f'.Ey i j = f.Ey i j - s.ay * (f'.Hz i j - f'.Hz (i - 1) j) - s.c3 * J.Jy i j := if_pos ha
      rw [if_pos (huy i j ha), if_pos ha]
      show _ = _ + (-τ * ((f.Ey i j + f'.Ey i j) * s.py i j * _) + _)
      have := hy i j ha
      linear_combination (wy i j * (f.Ey i j + f'.Ey i j)) * e1 - ((f.Ey i j + f'.Ey i j) * (f'.Hz i j - f'.Hz (i - 1) j)) * this
    · have e1 : f'.Ey i j = 0 := hq'.ey i j ha
      have e2 : f.Ey i j = 0 := hq.ey i j ha
      have e3 : q.Ey i j = 0 := by show f.Ey i j + f'.Ey i j = 0; rw [e1, e2, add_zero]
      rw [if_neg ha, e1, e2, e3]; ring
  unfold Scheme.energy
  rw [eX, eY, eC, hd]
  ring

/-! #### Bounds -/

lemma cs_pair {a b r s y z : ℝ} (hr : 0 ≤ r) (hs : 0 ≤ s) (hy : 0 ≤ y) (hz : 0 ≤ z) (ha : a ^ 2 = r * y) (hb : b ^ 2 = s * z) :
    2 * (a * b) ≤ r * z + s * y := by
  have h1 : 0 ≤ r * z := mul_nonneg hr hz
  have h2 : 0 ≤ s * y := mul_nonneg hs hy
  have h3 : (2 * (a * b)) ^ 2 ≤ (r * z + s * y) ^ 2 := by
    have : (2 * (a * b)) ^ 2 = 4 * ((r * z) * (s * y)) := by
      calc (2 * (a * b)) ^ 2 = 4 * (a ^ 2 * b ^ 2) := by ring
        _ = _ := by rw [ha, hb]; ring
    nlinarith [sq_nonneg (r * z - s * y)]
  exact (abs_le_of_sq_le_sq' h3 (by linarith)).2

lemma cs_four {a b c d r s t u w x y z : ℝ} (hr : 0 ≤ r) (hs : 0 ≤ s) (ht : 0 ≤ t) (hu : 0 ≤ u) (hw : 0 ≤ w) (hx : 0 ≤ x) (hy : 0 ≤ y)
    (hz : 0 ≤ z) (ha : a ^ 2 = r * w) (hb : b ^ 2 = s * x) (hc : c ^ 2 = t * y) (hd : d ^ 2 = u * z) :
    (a + b + c + d) ^ 2 ≤ (r + s + t + u) * (w + x + y + z) := by
  have h1 := cs_pair hr hs hw hx ha hb
  have h2 := cs_pair hr ht hw hy ha hc
  have h3 := cs_pair hr hu hw hz ha hd
  have h4 := cs_pair hs ht hx hy hb hc
  have h5 := cs_pair hs hu hx hz hb hd
  have h6 := cs_pair ht hu hy hz hc hd
  nlinarith

/-- Electric plus magnetic energy at the same value of the counters. -/
def Scheme.norm {g : Grid} (_ : Scheme g) (wx wy wh : ℕ → ℕ → ℝ) (f : Fields) : ℝ :=
  sumX g (fun i j => wx i j * f.Ex i j ^ 2) + sumY g (fun i j => wy i j * f.Ey i j ^ 2) + sumC g (fun i j => wh i j * f.Hz i j ^ 2)

lemma sumC_le {g : Grid} {F G : ℕ → ℕ → ℝ} (h : ∀ i < g.nx, ∀ j < g.ny, F i j ≤ G i j) : sumC g F ≤ sumC g G :=
  sum_le_sum fun i hi => sum_le_sum fun j hj => h i (mem_range.1 hi) j (mem_range.1 hj)

lemma sumC_edges (g : Grid) (X Y : ℕ → ℕ → ℝ) (hX : ∀ i j, 0 ≤ X i j) (hY : ∀ i j, 0 ≤ Y i j) :
    sumC g (fun i j => Y (i + 1) j + Y i j + X i (j + 1) + X i j) ≤ 2 * (sumX g X + sumY g Y) := by
  have e : sumC g (fun i j => Y (i + 1) j + Y i j + X i (j + 1) + X i j) =
      (sumC g (fun i j => Y (i + 1) j) + sumC g Y) + (sumC g (fun i j => X i (j + 1)) + sumC g X) := by
    rw [← sumC_add, ← sumC_add, ← sumC_add]
    exact sumC_congr fun i _ j _ => by ring
  have x1 : sumC g (fun i j => X i (j + 1)) ≤ sumX g X := by
    refine sum_le_sum fun i _ => ?_
    rw [sum_range_succ' (fun j => X i j)]
    linarith [hX i 0]
  have x2 : sumC g X ≤ sumX g X := by
    refine sum_le_sum fun i _ => ?_
    rw [sum_range_succ (fun j => X i j)]
    linarith [hX i g.ny]
  have y1 : sumC g (fun i j => Y (i + 1) j) ≤ sumY g Y := by
    unfold sumC sumY
    rw [sum_comm]
    refine sum_le_sum fun j _ => ?_
    rw [sum_range_succ' (fun i => Y i j)]
    linarith [hY 0 j]
  have y2 : sumC g Y ≤ sumY g Y := by
    unfold sumC sumY
    rw [sum_comm]
    refine sum_le_sum fun j _ => ?_
    rw [sum_range_succ (fun i => Y i j)]
    linarith [hY g.nx j]
  rw [e]; linarith

/-- If the time step is small enough the energy is between multiples of the norm. -/
lemma Scheme.coercive {g : Grid} (s : Scheme g) (wx wy wh rx ry : ℕ → ℕ → ℝ) (τ θ : ℝ) (hθ : 0 < θ) (f : Fields) (hq : s.Quiet f)
    (hwx : ∀ i j, 0 ≤ wx i j) (hwy : ∀ i j, 0 ≤ wy i j) (hrx : ∀ i j, 0 ≤ rx i j) (hry : ∀ i j, 0 ≤ ry i j)
    (hpx : ∀ i j, s.px i j ^ 2 = rx i j * wx i j) (hpy : ∀ i j, s.py i j ^ 2 = ry i j * wy i j)
    (hwh : ∀ i j, s.act i j → 0 < wh i j) (hh : ∀ i j, s.act i j → wh i j * s.kap i j = τ)
    (hcfl : ∀ i j, s.act i j → τ ^ 2 * (ry (i + 1) j + ry i j + rx i (j + 1) + rx i j) ≤ 2 * θ ^ 2 * wh i j) :
    (1 - θ) * s.norm wx wy wh f ≤ s.energy wx wy wh f (s.h f) ∧ s.energy wx wy wh f (s.h f) ≤ (1 + θ) * s.norm wx wy wh f := by
  set X : ℕ → ℕ → ℝ := fun i j => wx i j * f.Ex i j ^ 2
  set Y : ℕ → ℕ → ℝ := fun i j => wy i j * f.Ey i j ^ 2
  have hX : ∀ i j, 0 ≤ X i j := fun i j => mul_nonneg (hwx i j) (sq_nonneg _)
  have hY : ∀ i j, 0 ≤ Y i j := fun i j => mul_nonneg (hwy i j) (sq_nonneg _)
  have key : ∀ i j, |wh i j * (f.Hz i j * s.h f i j) - wh i j * f.Hz i j ^ 2| ≤
      θ * (wh i j * f.Hz i j ^ 2) + θ / 2 * (Y (i + 1) j + Y i j + X i (j + 1) + X i j) := by
    intro i j
    by_cases ha : s.act i j
    · have e1 : s.h f i j = f.Hz i j - s.kap i j * circ s.px s.py f i j := if_pos ha
      have e2 : wh i j * (f.Hz i j * s.h f i j) - wh i j * f.Hz i j ^ 2 = -(τ * (f.Hz i j * circ s.px s.py f i j)) := by
        rw [e1, ← hh i j ha]; ring
      rw [e2, abs_neg]
      set V := circ s.px s.py f i j with hV
      set N := Y (i + 1) j + Y i j + X i (j + 1) + X i j with hN
      have hN0 : 0 ≤ N := by rw [hN]; linarith [hY (i + 1) j, hY i j, hX i (j + 1), hX i j]
      have hcs : V ^ 2 ≤ (ry (i + 1) j + ry i j + rx i (j + 1) + rx i j) * N := by
        have := cs_four (a := f.Ey (i + 1) j * s.py (i + 1) j) (b := -(f.Ey i j * s.py i j)) (c := -(f.Ex i (j + 1) * s.px i (j + 1)))
          (d := f.Ex i j * s.px i j) (hry (i + 1) j) (hry i j) (hrx i (j + 1)) (hrx i j) (hY (i + 1) j) (hY i j) (hX i (j + 1)) (hX i j)
          (by rw [mul_pow, hpy]; ring) (by rw [neg_sq, mul_pow, hpy]; ring) (by rw [neg_sq, mul_pow, hpx]; ring) (by rw [mul_pow, hpx]; ring)
        refine le_trans (le_of_eq ?_) this
        rw [hV, circ]; ring
      have hw := hwh i j ha
      have hb := hcfl i j ha
      have hsq : (τ * (f.Hz i j * V)) ^ 2 ≤ (θ * (wh i j * f.Hz i j ^ 2) + θ / 2 * N) ^ 2 := by
        have h1 : (τ * (f.Hz i j * V)) ^ 2 ≤ 2 * θ ^ 2 * (wh i j * f.Hz i j ^ 2) * N := by
          have hH := sq_nonneg (f.Hz i j)
          calc (τ * (f.Hz i j * V)) ^ 2 = f.Hz i j ^ 2 * (τ ^ 2 * V ^ 2) := by ring
            _ ≤ f.Hz i j ^ 2 * (τ ^ 2 * ((ry (i + 1) j + ry i j + rx i (j + 1) + rx i j) * N)) := by
              gcongr
            _ = f.Hz i j ^ 2 * (τ ^ 2 * (ry (i + 1) j + ry i j + rx i (j + 1) + rx i j)) * N := by ring
            _ ≤ f.Hz i j ^ 2 * (2 * θ ^ 2 * wh i j) * N := by gcongr
            _ = _ := by ring
        nlinarith [sq_nonneg (θ * (wh i j * f.Hz i j ^ 2) - θ / 2 * N)]
      have hpos : 0 ≤ θ * (wh i j * f.Hz i j ^ 2) + θ / 2 * N := by positivity
      exact abs_le_of_sq_le_sq hsq hpos
    · have e1 : f.Hz i j = 0 := hq.hz i j ha
      rw [e1]
      have : 0 ≤ Y (i + 1) j + Y i j + X i (j + 1) + X i j := by linarith [hY (i + 1) j, hY i j, hX i (j + 1), hX i j]
      simp only [zero_mul, mul_zero, ne_eq, OfNat.ofNat_ne_zero, not_false_eq_true, zero_pow, sub_zero, abs_zero, zero_add]
      positivity
  have hedges := sumC_edges g X Y hX hY
  have eE : s.energy wx wy wh f (s.h f) - s.norm wx wy wh f = sumC g (fun i j => wh i j * (f.Hz i j * s.h f i j) - wh i j * f.Hz i j ^ 2) := by
    have := sumC_add g (fun i j => wh i j * (f.Hz i j * s.h f i j) - wh i j * f.Hz i j ^ 2) (fun i j => wh i j * f.Hz i j ^ 2)
    simp only [sub_add_cancel] at this
    unfold Scheme.energy Scheme.norm
    rw [this]; ring
  have up : sumC g (fun i j => wh i j * (f.Hz i j * s.h f i j) - wh i j * f.Hz i j ^ 2) ≤ θ * s.norm wx wy wh f := by
    have h1 := sumC_le (g := g) fun i _ j _ => (abs_le.1 (key i j)).2
    rw [sumC_add, sumC_mul, sumC_mul] at h1
    unfold Scheme.norm
    nlinarith
  have lo : -(θ * s.norm wx wy wh f) ≤ sumC g (fun i j => wh i j * (f.Hz i j * s.h f i j) - wh i j * f.Hz i j ^ 2) := by
    have h1 := sumC_le (g := g) fun i _ j _ => (abs_le.1 (key i j)).1
    have h2 : sumC g (fun i j => -(θ * (wh i j * f.Hz i j ^ 2) + θ / 2 * (Y (i + 1) j + Y i j + X i (j + 1) + X i j))) =
        -(θ * sumC g (fun i j => wh i j * f.Hz i j ^ 2) + θ / 2 * sumC g (fun i j => Y (i + 1) j + Y i j + X i (j + 1) + X i j)) := by
      rw [← sumC_mul, ← sumC_mul, ← sumC_add, neg_eq_neg_one_mul, ← sumC_mul]
      exact sumC_congr fun i _ j _ => by ring
    rw [h2] at h1
    unfold Scheme.norm
    nlinarith
  constructor <;> linarith

/-! #### The two schemes -/

/-- The staircased scheme as a general scheme. -/
def fdtd (p : Phys) (g : Grid) (dt : ℝ) : Scheme g where
  act i j := i < g.nx ∧ j < g.ny ∧ g.int i j
  kap _ _ := dt / p.mu
  px _ _ := 1 / g.dy
  py _ _ := 1 / g.dx
  ux := freeX g
  uy := freeY g
  ax := dt / (g.dy * p.eps)
  ay := dt / (g.dx * p.eps)
  c3 := dt / p.eps

/-- The conformal scheme as a general scheme. -/
def dm (p : Phys) (g : Grid) (dt : ℝ) : Scheme g where
  act i j := i < g.nx ∧ j < g.ny ∧ g.int i j
  kap i j := dt / (p.mu * g.S i j)
  px := g.lx
  py := g.ly
  ux i j := i < g.nx ∧ (1 ≤ j ∧ j < g.ny) ∧ g.lx i j > 0
  uy i j := (1 ≤ i ∧ i < g.nx) ∧ j < g.ny ∧ g.ly i j > 0
  ax := dt / (p.eps * g.dy)
  ay := dt / (p.eps * g.dx)
  c3 := dt / p.eps

lemma fdtd_h (p : Phys) (g : Grid) (dt : ℝ) (f : Fields) : (fdtd p g dt).h f = (advHFdtd p g dt f).Hz := by
  funext i j
  show (if _ then _ else _) = if _ then _ else _
  refine if_congr Iff.rfl ?_ rfl
  simp only [circ, fdtd, div_eq_mul_inv, mul_inv]; ring

lemma fdtd_step (p : Phys) (g : Grid) (dt : ℝ) (J : Curr) (f : Fields) : (fdtd p g dt).step J f = stepFdtd p g dt J f := by
  unfold Scheme.step stepFdtd advEFdtd
  rw [fdtd_h]
  congr 1
  · funext i j
    refine if_congr Iff.rfl ?_ rfl
    show _ = f.Ex i j - _ + _
    simp only [fdtd]; ring
  · funext i j
    refine if_congr Iff.rfl ?_ rfl
    show _ = f.Ey i j - _ - _
    simp only [fdtd]; ring

lemma dm_h (p : Phys) (g : Grid) (dt : ℝ) (f : Fields) : (dm p g dt).h f = (advHDm p g dt f).Hz := by
  funext i j
  show (if _ then _ else _) = if _ then _ else _
  refine if_congr Iff.rfl ?_ rfl
  simp only [circ, dm, voltage]; ring

lemma dm_step (p : Phys) (g : Grid) (dt : ℝ) (J : Curr) (f : Fields) : (dm p g dt).step J f = stepDm p g dt J f := by
  unfold Scheme.step stepDm advEDm
  rw [dm_h]
  congr 1
  · funext i j
    exact if_congr Iff.rfl rfl rfl
  · funext i j
    exact if_congr Iff.rfl rfl rfl

lemma quiet_fdtd {p : Phys} {g : Grid} {dt : ℝ} {f : Fields} : (fdtd p g dt).Quiet f ↔ Quiet g f :=
  ⟨fun h => ⟨h.ex, h.ey, h.hz⟩, fun h => ⟨h.ex, h.ey, h.hz⟩⟩

lemma quiet_dm {p : Phys} {g : Grid} {dt : ℝ} {f : Fields} : (dm p g dt).Quiet f ↔ QuietDm g f :=
  ⟨fun h => ⟨h.ex, h.ey, h.hz⟩, fun h => ⟨h.ex, h.ey, h.hz⟩⟩

/-! ### C89: the staircased scheme -/

/-- **C89, conductors.** Whatever the currents, fields that vanish in the conductors and on the border of the box stay so. -/
theorem C89_quiet (p : Phys) (g : Grid) (dt : ℝ) (J : ℕ → Curr) (f : Fields) (hf : Quiet g f) (n : ℕ) :
    Quiet g (run (stepFdtd p g dt) J f n) := by
  induction n with
  | zero => exact hf
  | succ n ih =>
    have := (fdtd p g dt).quiet_step (J n) _ (quiet_fdtd.2 ih)
    rw [fdtd_step] at this
    exact quiet_fdtd.1 this

/-- The fields of a new solver are such. -/
theorem C89_quiet_start (g : Grid) : Quiet g zero := ⟨fun _ _ _ => rfl, fun _ _ _ => rfl, fun _ _ _ => rfl⟩

lemma energy_eq (p : Phys) (g : Grid) (dt : ℝ) (f : Fields) (h : ℕ → ℕ → ℝ) :
    (fdtd p g dt).energy (fun _ _ => p.eps / 2) (fun _ _ => p.eps / 2) (fun _ _ => p.mu / 2) f h * (g.dx * g.dy) = energy p g f h := by
  unfold Scheme.energy energy
  rw [sumX_mul, sumY_mul, sumC_mul]; ring

/-- **C89, energy balance.** In one step the energy changes by minus the work of the currents on the edges that carry a field. -/
theorem C89_energy (p : Phys) (g : Grid) (dt : ℝ) (heps : p.eps ≠ 0) (hmu : p.mu ≠ 0) (J : Curr) (f : Fields) (hf : Quiet g f) :
    energy p g (stepFdtd p g dt J f) (advHFdtd p g dt (stepFdtd p g dt J f)).Hz - energy p g f (advHFdtd p g dt f).Hz =
      -dt * (g.dx * g.dy) *
        (sumX g (fun i j => if freeX g i j then J.Jx i j * ((f.Ex i j + (stepFdtd p g dt J f).Ex i j) / 2) else 0) +
         sumY g (fun i j => if freeY g i j then J.Jy i j * ((f.Ey i j + (stepFdtd p g dt J f).Ey i j) / 2) else 0)) := by
  have h := (fdtd p g dt).balance (fun _ _ => p.eps / 2) (fun _ _ => p.eps / 2) (fun _ _ => p.mu / 2) (dt / 2) J f (quiet_fdtd.2 hf)
    (fun i j h => h.2.1) (fun i j h => h.1) (fun i j _ => by simp only [fdtd]; field_simp)
    (fun i j _ => by simp only [fdtd, div_eq_mul_inv, mul_inv, one_mul]; linear_combination (dt * g.dy⁻¹ * 2⁻¹) * mul_inv_cancel₀ heps)
    (fun i j _ => by simp only [fdtd, div_eq_mul_inv, mul_inv, one_mul]; linear_combination (dt * g.dx⁻¹ * 2⁻¹) * mul_inv_cancel₀ heps)
  rw [fdtd_step, fdtd_h, fdtd_h] at h
  rw [← energy_eq p g dt, ← energy_eq p g dt, ← sub_mul, h]
  have e1 : sumX g (fun i j => if (fdtd p g dt).ux i j then p.eps / 2 * J.Jx i j * (f.Ex i j + (stepFdtd p g dt J f).Ex i j) else 0) =
      p.eps * sumX g (fun i j => if freeX g i j then J.Jx i j * ((f.Ex i j + (stepFdtd p g dt J f).Ex i j) / 2) else 0) := by
    rw [← sumX_mul]
    refine sumX_congr fun i _ j _ => ?_
    by_cases hx : freeX g i j
    · rw [if_pos hx, if_pos (show (fdtd p g dt).ux i j from hx)]; ring
    · rw [if_neg hx, if_neg (show ¬ (fdtd p g dt).ux i j from hx)]; ring
  have e2 : sumY g (fun i j => if (fdtd p g dt).uy i j then p.eps / 2 * J.Jy i j * (f.Ey i j + (stepFdtd p g dt J f).Ey i j) else 0) =
      p.eps * sumY g (fun i j => if freeY g i j then J.Jy i j * ((f.Ey i j + (stepFdtd p g dt J f).Ey i j) / 2) else 0) := by
    rw [← sumY_mul]
    refine sumY_congr fun i _ j _ => ?_
    by_cases hx : freeY g i j
    · rw [if_pos hx, if_pos (show (fdtd p g dt).uy i j from hx)]; ring
    · rw [if_neg hx, if_neg (show ¬ (fdtd p g dt).uy i j from hx)]; ring
  rw [e1, e2]
  simp only [fdtd]
  field_simp

/-- No currents. -/
def noCurr : Curr := ⟨fun _ _ => 0, fun _ _ => 0⟩

/-- **C89, conservation.** Without currents the energy is the same after every number of steps. -/
theorem C89_conserved (p : Phys) (g : Grid) (dt : ℝ) (heps : p.eps ≠ 0) (hmu : p.mu ≠ 0) (f : Fields) (hf : Quiet g f) (n : ℕ) :
    energy p g (run (stepFdtd p g dt) (fun _ => noCurr) f n) (advHFdtd p g dt (run (stepFdtd p g dt) (fun _ => noCurr) f n)).Hz =
      energy p g f (advHFdtd p g dt f).Hz := by
  induction n with
  | zero => rfl
  | succ n ih =>
    have h := C89_energy p g dt heps hmu noCurr _ (C89_quiet p g dt (fun _ => noCurr) f hf n)
    have z : ∀ F : ℕ → ℕ → ℝ, sumX g (fun i j => if freeX g i j then noCurr.Jx i j * F i j else 0) = 0 := fun F => by
      simp [noCurr, sumX]
    have z' : ∀ F : ℕ → ℕ → ℝ, sumY g (fun i j => if freeY g i j then noCurr.Jy i j * F i j else 0) = 0 := fun F => by
      simp [noCurr, sumY]
    rw [z, z', add_zero, mul_zero, sub_eq_zero] at h
    rw [← ih, ← h]; rfl

/-- Sum of the squares of the fields, weighted with the material constants. -/
def size (p : Phys) (g : Grid) (f : Fields) : ℝ :=
  p.eps * (sumX g (fun i j => f.Ex i j ^ 2) + sumY g (fun i j => f.Ey i j ^ 2)) + p.mu * sumC g (fun i j => f.Hz i j ^ 2)

lemma timeStep_sq (p : Phys) (g : Grid) (cfln : ℝ) (hc : p.c ^ 2 * p.eps * p.mu = 1) (hx : 0 < g.dx) :
    timeStep p g cfln ^ 2 * (1 / g.dx ^ 2 + 1 / g.dy ^ 2) = cfln ^ 2 * (p.eps * p.mu) := by
  have hK : 0 < 1 / g.dx ^ 2 + 1 / g.dy ^ 2 := by positivity
  have hc0 : p.c ≠ 0 := by rintro h; rw [h] at hc; norm_num at hc
  have hs : Real.sqrt (1 / g.dx ^ 2 + 1 / g.dy ^ 2) ^ 2 = 1 / g.dx ^ 2 + 1 / g.dy ^ 2 := Real.sq_sqrt hK.le
  unfold timeStep
  rw [div_pow, mul_pow, hs, div_mul_eq_mul_div, div_eq_iff (by positivity)]
  linear_combination (-(cfln ^ 2) * (1 / g.dx ^ 2 + 1 / g.dy ^ 2)) * hc

/-- **C89, stability.** With a Courant number below one the fields of a run without currents stay bounded for ever: their size never exceeds
the initial size by more than the factor (1 + cfln) / (1 - cfln), whatever the shape of the conductors. -/
theorem C89_stable (p : Phys) (g : Grid) (cfln : ℝ) (heps : 0 < p.eps) (hmu : 0 < p.mu) (hc : p.c ^ 2 * p.eps * p.mu = 1) (hx : 0 < g.dx)
    (hy : 0 < g.dy) (h0 : 0 < cfln) (h1 : cfln < 1) (f : Fields) (hf : Quiet g f) (n : ℕ) :
    size p g (run (stepFdtd p g (timeStep p g cfln)) (fun _ => noCurr) f n) ≤ (1 + cfln) / (1 - cfln) * size p g f := by
  set dt := timeStep p g cfln with hdt
  have ht := timeStep_sq p g cfln hc hx
  rw [← hdt] at ht
  have co : ∀ f, Quiet g f → (1 - cfln) * (size p g f / 2) ≤ (fdtd p g dt).energy (fun _ _ => p.eps / 2) (fun _ _ => p.eps / 2) (fun _ _ => p.mu / 2) f ((fdtd p g dt).h f) ∧
      (fdtd p g dt).energy (fun _ _ => p.eps / 2) (fun _ _ => p.eps / 2) (fun _ _ => p.mu / 2) f ((fdtd p g dt).h f) ≤ (1 + cfln) * (size p g f / 2) := by
    intro f hf
    have h := (fdtd p g dt).coercive (fun _ _ => p.eps / 2) (fun _ _ => p.eps / 2) (fun _ _ => p.mu / 2)
      (fun _ _ => 2 / (p.eps * g.dy ^ 2)) (fun _ _ => 2 / (p.eps * g.dx ^ 2)) (dt / 2) cfln h0 f (quiet_fdtd.2 hf)
      (fun _ _ => by positivity) (fun _ _ => by positivity) (fun _ _ => by positivity) (fun _ _ => by positivity)
      (fun _ _ => by simp only [fdtd]; field_simp) (fun _ _ => by simp only [fdtd]; field_simp)
      (fun _ _ _ => by positivity) (fun _ _ _ => by simp only [fdtd]; field_simp)
      (fun _ _ _ => by
        refine le_of_eq ?_
        have e : (dt / 2) ^ 2 * (2 / (p.eps * g.dx ^ 2) + 2 / (p.eps * g.dx ^ 2) + 2 / (p.eps * g.dy ^ 2) + 2 / (p.eps * g.dy ^ 2)) =
            (dt ^ 2 * (1 / g.dx ^ 2 + 1 / g.dy ^ 2)) / p.eps := by field_simp; ring
        rw [e, ht]; field_simp)
    have e : (fdtd p g dt).norm (fun _ _ => p.eps / 2) (fun _ _ => p.eps / 2) (fun _ _ => p.mu / 2) f = size p g f / 2 := by
      unfold Scheme.norm size
      rw [sumX_mul, sumY_mul, sumC_mul]; ring
    rw [e] at h
    exact h
  have hn := (co _ (C89_quiet p g dt (fun _ => noCurr) f hf n)).1
  have hi := (co f hf).2
  have hcons := C89_conserved p g dt heps.ne' hmu.ne' f hf n
  rw [← energy_eq p g dt, ← energy_eq p g dt] at hcons
  have hcons := mul_right_cancel₀ (mul_pos hx hy).ne' hcons
  rw [fdtd_h] at hn hi
  rw [div_mul_eq_mul_div, le_div_iff₀ (by linarith)]
  linarith

/-! ### C90: the conformal scheme -/

/-- **C90, conductors.** Whatever the currents, fields that vanish in the conductors and on the border of the box stay so. -/
theorem C90_quiet (p : Phys) (g : Grid) (dt : ℝ) (J : ℕ → Curr) (f : Fields) (hf : QuietDm g f) (n : ℕ) :
    QuietDm g (run (stepDm p g dt) J f n) := by
  induction n with
  | zero => exact hf
  | succ n ih =>
    have := (dm p g dt).quiet_step (J n) _ (quiet_dm.2 ih)
    rw [dm_step] at this
    exact quiet_dm.1 this

/-- The fields of a new solver are such. -/
theorem C90_quiet_start (g : Grid) : QuietDm g zero := ⟨fun _ _ _ => rfl, fun _ _ _ => rfl, fun _ _ _ => rfl⟩

lemma energyDm_eq (p : Phys) (g : Grid) (dt : ℝ) (f : Fields) (h : ℕ → ℕ → ℝ) :
    (dm p g dt).energy (fun i j => p.eps / 2 * (g.lx i j * g.dy)) (fun i j => p.eps / 2 * (g.ly i j * g.dx)) (fun i j => p.mu / 2 * g.S i j) f h =
      energyDm p g f h := by
  unfold Scheme.energy energyDm
  simp only [mul_assoc (p.eps / 2), mul_assoc (p.mu / 2)]
  rw [sumX_mul, sumY_mul, sumC_mul]; ring

/-- **C90, energy balance.** In one step the energy changes by minus the work of the currents on the free parts of the edges. -/
theorem C90_energy (p : Phys) (g : Grid) (dt : ℝ) (heps : p.eps ≠ 0) (hmu : p.mu ≠ 0) (hx : g.dx ≠ 0) (hy : g.dy ≠ 0)
    (hS : ∀ i j, g.int i j → g.S i j ≠ 0) (J : Curr) (f : Fields) (hf : QuietDm g f) :
    energyDm p g (stepDm p g dt J f) (advHDm p g dt (stepDm p g dt J f)).Hz - energyDm p g f (advHDm p g dt f).Hz =
      -dt *
        (sumX g (fun i j => if i < g.nx ∧ (1 ≤ j ∧ j < g.ny) ∧ g.lx i j > 0 then
            g.lx i j * g.dy * (J.Jx i j * ((f.Ex i j + (stepDm p g dt J f).Ex i j) / 2)) else 0) +
         sumY g (fun i j => if (1 ≤ i ∧ i < g.nx) ∧ j < g.ny ∧ g.ly i j > 0 then
            g.ly i j * g.dx * (J.Jy i j * ((f.Ey i j + (stepDm p g dt J f).Ey i j) / 2)) else 0)) := by
  have h := (dm p g dt).balance (fun i j => p.eps / 2 * (g.lx i j * g.dy)) (fun i j => p.eps / 2 * (g.ly i j * g.dx))
    (fun i j => p.mu / 2 * g.S i j) (dt / 2) J f (quiet_dm.2 hf)
    (fun i j h => h.2.1) (fun i j h => h.1) (fun i j h => by have := hS i j h.2.2; simp only [dm]; field_simp)
    (fun i j _ => by simp only [dm]; field_simp) (fun i j _ => by simp only [dm]; field_simp)
  rw [dm_step, dm_h, dm_h, energyDm_eq, energyDm_eq] at h
  rw [h]
  have e1 : sumX g (fun i j => if (dm p g dt).ux i j then p.eps / 2 * (g.lx i j * g.dy) * J.Jx i j * (f.Ex i j + (stepDm p g dt J f).Ex i j) else 0) =
      p.eps * sumX g (fun i j => if i < g.nx ∧ (1 ≤ j ∧ j < g.ny) ∧ g.lx i j > 0 then
        g.lx i j * g.dy * (J.Jx i j * ((f.Ex i j + (stepDm p g dt J f).Ex i j) / 2)) else 0) := by
    rw [← sumX_mul]
    refine sumX_congr fun i _ j _ => ?_
    by_cases hx : i < g.nx ∧ (1 ≤ j ∧ j < g.ny) ∧ g.lx i j > 0
    · rw [if_pos hx, if_pos (show (dm p g dt).ux i j from hx)]; ring
    · rw [if_neg hx, if_neg (show ¬ (dm p g dt).ux i j from hx)]; ring
  have e2 : sumY g (fun i j => if (dm p g dt).uy i j then p.eps / 2 * (g.ly i j * g.dx) * J.Jy i j * (f.Ey i j + (stepDm p g dt J f).Ey i j) else 0) =
      p.eps * sumY g (fun i j => if (1 ≤ i ∧ i < g.nx) ∧ j < g.ny ∧ g.ly i j > 0 then
        g.ly i j * g.dx * (J.Jy i j * ((f.Ey i j + (stepDm p g dt J f).Ey i j) / 2)) else 0) := by
    rw [← sumY_mul]
    refine sumY_congr fun i _ j _ => ?_
    by_cases hx : (1 ≤ i ∧ i < g.nx) ∧ j < g.ny ∧ g.ly i j > 0
    · rw [if_pos hx, if_pos (show (dm p g dt).uy i j from hx)]; ring
    · rw [if_neg hx, if_neg (show ¬ (dm p g dt).uy i j from hx)]; ring
  rw [e1, e2, ← mul_add, ← mul_assoc]
  congr 1
  simp only [dm]
  field_simp

/-- **C90, conservation.** Without currents the energy is the same after every number of steps. -/
theorem C90_conserved (p : Phys) (g : Grid) (dt : ℝ) (heps : p.eps ≠ 0) (hmu : p.mu ≠ 0) (hx : g.dx ≠ 0) (hy : g.dy ≠ 0)
    (hS : ∀ i j, g.int i j → g.S i j ≠ 0) (f : Fields) (hf : QuietDm g f) (n : ℕ) :
    energyDm p g (run (stepDm p g dt) (fun _ => noCurr) f n) (advHDm p g dt (run (stepDm p g dt) (fun _ => noCurr) f n)).Hz =
      energyDm p g f (advHDm p g dt f).Hz := by
  induction n with
  | zero => rfl
  | succ n ih =>
    have h := C90_energy p g dt heps hmu hx hy hS noCurr _ (C90_quiet p g dt (fun _ => noCurr) f hf n)
    have z : ∀ F G : ℕ → ℕ → ℝ, sumX g (fun i j => if i < g.nx ∧ (1 ≤ j ∧ j < g.ny) ∧ g.lx i j > 0 then G i j * (noCurr.Jx i j * F i j) else 0) = 0 :=
      fun F G => by simp [noCurr, sumX]
    have z' : ∀ F G : ℕ → ℕ → ℝ, sumY g (fun i j => if (1 ≤ i ∧ i < g.nx) ∧ j < g.ny ∧ g.ly i j > 0 then G i j * (noCurr.Jy i j * F i j) else 0) = 0 :=
      fun F G => by simp [noCurr, sumY]
    rw [z, z', add_zero, mul_zero, sub_eq_zero] at h
    rw [← ih, ← h]; rfl

/-- Sum of the squares of the fields, weighted with the material constants and the free parts of edges and cells. -/
def sizeDm (p : Phys) (g : Grid) (f : Fields) : ℝ :=
  p.eps * (sumX g (fun i j => g.lx i j * g.dy * f.Ex i j ^ 2) + sumY g (fun i j => g.ly i j * g.dx * f.Ey i j ^ 2)) +
    p.mu * sumC g (fun i j => g.S i j * f.Hz i j ^ 2)

/-- **C90, stability.** If the grid marks no cell as unstable and the Courant number is below one over the square root of two, the fields
of a run without currents stay bounded for ever. -/
theorem C90_stable (p : Phys) (g : Grid) (cfln : ℝ) (heps : 0 < p.eps) (hmu : 0 < p.mu) (hc : p.c ^ 2 * p.eps * p.mu = 1) (hx : 0 < g.dx)
    (hy : 0 < g.dy) (h0 : 0 < cfln) (h1 : Real.sqrt 2 * cfln < 1) (hlx : ∀ i j, 0 ≤ g.lx i j) (hly : ∀ i j, 0 ≤ g.ly i j)
    (hint : ∀ i j, g.int i j ↔ 0 < g.S i j) (hmark : ∀ i < g.nx, ∀ j < g.ny, ¬ (Cond.markCell g.lx g.ly g.S g.dx g.dy i j).unst)
    (f : Fields) (hf : QuietDm g f) (n : ℕ) :
    sizeDm p g (run (stepDm p g (timeStep p g cfln)) (fun _ => noCurr) f n) ≤
      (1 + Real.sqrt 2 * cfln) / (1 - Real.sqrt 2 * cfln) * sizeDm p g f := by
  set dt := timeStep p g cfln with hdt
  have ht := timeStep_sq p g cfln hc hx
  rw [← hdt] at ht
  have h2 : Real.sqrt 2 ^ 2 = 2 := Real.sq_sqrt (by norm_num)
  have hθ : 0 < Real.sqrt 2 * cfln := mul_pos (Real.sqrt_pos.2 (by norm_num)) h0
  have co : ∀ f, QuietDm g f → (1 - Real.sqrt 2 * cfln) * (sizeDm p g f / 2) ≤ energyDm p g f ((dm p g dt).h f) ∧
      energyDm p g f ((dm p g dt).h f) ≤ (1 + Real.sqrt 2 * cfln) * (sizeDm p g f / 2) := by
    intro f hf
    have h := (dm p g dt).coercive (fun i j => p.eps / 2 * (g.lx i j * g.dy)) (fun i j => p.eps / 2 * (g.ly i j * g.dx))
      (fun i j => p.mu / 2 * g.S i j) (fun i j => 2 * g.lx i j / (p.eps * g.dy)) (fun i j => 2 * g.ly i j / (p.eps * g.dx)) (dt / 2)
      (Real.sqrt 2 * cfln) hθ f (quiet_dm.2 hf)
      (fun i j => by have := hlx i j; positivity) (fun i j => by have := hly i j; positivity)
      (fun i j => by have := hlx i j; positivity) (fun i j => by have := hly i j; positivity)
      (fun _ _ => by simp only [dm]; field_simp) (fun _ _ => by simp only [dm]; field_simp)
      (fun i j h => by have := (hint i j).1 h.2.2; positivity)
      (fun i j h => by have := (hint i j).1 h.2.2; simp only [dm]; field_simp)
      (fun i j h => by
        have hS := (hint i j).1 h.2.2
        have hm := hmark i h.1 j h.2.1
        have hm : ¬ g.S i j < if g.S i j > 0 then 0.5 * max (max (g.lx i j * g.dy) (g.lx i (j + 1) * g.dy)) (max (g.ly i j * g.dx) (g.ly (i + 1) j * g.dx)) else 0 := hm
        rw [if_pos hS, not_lt] at hm
        have m1 := le_max_left (g.lx i j * g.dy) (g.lx i (j + 1) * g.dy)
        have m2 := le_max_right (g.lx i j * g.dy) (g.lx i (j + 1) * g.dy)
        have m3 := le_max_left (g.ly i j * g.dx) (g.ly (i + 1) j * g.dx)
        have m4 := le_max_right (g.ly i j * g.dx) (g.ly (i + 1) j * g.dx)
        have m5 := le_max_left (max (g.lx i j * g.dy) (g.lx i (j + 1) * g.dy)) (max (g.ly i j * g.dx) (g.ly (i + 1) j * g.dx))
        have m6 := le_max_right (max (g.lx i j * g.dy) (g.lx i (j + 1) * g.dy)) (max (g.ly i j * g.dx) (g.ly (i + 1) j * g.dx))
        have b1 : g.lx i j / g.dy ≤ 2 * g.S i j * (1 / g.dy ^ 2) := by
          rw [mul_one_div, div_le_div_iff₀ hy (by positivity)]; nlinarith
        have b2 : g.lx i (j + 1) / g.dy ≤ 2 * g.S i j * (1 / g.dy ^ 2) := by
          rw [mul_one_div, div_le_div_iff₀ hy (by positivity)]; nlinarith
        have b3 : g.ly i j / g.dx ≤ 2 * g.S i j * (1 / g.dx ^ 2) := by
          rw [mul_one_div, div_le_div_iff₀ hx (by positivity)]; nlinarith
        have b4 : g.ly (i + 1) j / g.dx ≤ 2 * g.S i j * (1 / g.dx ^ 2) := by
          rw [mul_one_div, div_le_div_iff₀ hx (by positivity)]; nlinarith
        have e : (dt / 2) ^ 2 * (2 * g.ly (i + 1) j / (p.eps * g.dx) + 2 * g.ly i j / (p.eps * g.dx) + 2 * g.lx i (j + 1) / (p.eps * g.dy) + 2 * g.lx i j / (p.eps * g.dy)) =
            (dt ^ 2 / (2 * p.eps)) * (g.ly (i + 1) j / g.dx + g.ly i j / g.dx + g.lx i (j + 1) / g.dy + g.lx i j / g.dy) := by field_simp
        have e2 : 2 * (Real.sqrt 2 * cfln) ^ 2 * (p.mu / 2 * g.S i j) = (dt ^ 2 / (2 * p.eps)) * (4 * g.S i j * (1 / g.dx ^ 2 + 1 / g.dy ^ 2)) := by
          have : (dt ^ 2 / (2 * p.eps)) * (4 * g.S i j * (1 / g.dx ^ 2 + 1 / g.dy ^ 2)) = (dt ^ 2 * (1 / g.dx ^ 2 + 1 / g.dy ^ 2)) * (2 * g.S i j / p.eps) := by
            field_simp; ring
          rw [this, ht, mul_pow, h2]; field_simp
        show (dt / 2) ^ 2 * _ ≤ _
        rw [e, e2]
        refine mul_le_mul_of_nonneg_left ?_ (by positivity)
        linarith)
    have e : (dm p g dt).norm (fun i j => p.eps / 2 * (g.lx i j * g.dy)) (fun i j => p.eps / 2 * (g.ly i j * g.dx)) (fun i j => p.mu / 2 * g.S i j) f =
        sizeDm p g f / 2 := by
      unfold Scheme.norm sizeDm
      simp only [mul_assoc (p.eps / 2), mul_assoc (p.mu / 2)]
      rw [sumX_mul, sumY_mul, sumC_mul]; ring
    rw [e, energyDm_eq] at h
    exact h
  have hn := (co _ (C90_quiet p g dt (fun _ => noCurr) f hf n)).1
  have hi := (co f hf).2
  have hcons := C90_conserved p g dt heps.ne' hmu.ne' hx.ne' hy.ne' (fun i j h => ((hint i j).1 h).ne') f hf n
  rw [dm_h] at hn hi
  rw [div_mul_eq_mul_div, le_div_iff₀ (by linarith)]
  linarith

/-- A grid without conductors, as the constructor makes it: full edges, free fraction 1 (`C86_ends`), every cell interior. -/
structure Empty (g : Grid) : Prop where
  lx : ∀ i j, g.lx i j = g.dx
  ly : ∀ i j, g.ly i j = g.dy
  S : ∀ i j, g.S i j = 1
  int : ∀ i j, g.int i j

/-- **C90, refuted in general.** Without conductors the conformal scheme is the standard scheme for a medium whose permeability is divided by
the area of a cell: waves travel at the speed of light times the square root of that area (a number that depends on the unit of length). -/
theorem C90_speed_refuted (p : Phys) (g : Grid) (dt : ℝ) (hx : 0 < g.dx) (hy : 0 < g.dy) (he : Empty g) (J : Curr) (f : Fields) :
    stepDm p g dt J f = stepFdtd { p with mu := p.mu / (g.dx * g.dy) } g dt J f := by
  have eH : advHDm p g dt f = advHFdtd { p with mu := p.mu / (g.dx * g.dy) } g dt f := by
    unfold advHDm advHFdtd
    congr 1
    funext i j
    refine if_congr Iff.rfl ?_ rfl
    simp only [voltage, he.lx, he.ly, he.S, mul_one]
    by_cases hm : p.mu = 0
    · simp [hm]
    · field_simp; ring
  unfold stepDm stepFdtd
  rw [eH]
  unfold advEDm advEFdtd
  congr 1
  · funext i j
    simp only [he.lx, gt_iff_lt, hx, he.int, and_true, mul_comm p.eps]
    refine if_congr Iff.rfl ?_ rfl
    ring
  · funext i j
    simp only [he.ly, gt_iff_lt, hy, he.int, and_true, mul_comm p.eps]
    refine if_congr Iff.rfl ?_ rfl
    ring

/-- **C90.** With cells of unit area the conformal and the standard scheme agree on grids without conductors. Missing: other cell sizes
(refuted by `C90_speed_refuted`). -/
theorem C90_fdtd_partial (p : Phys) (g : Grid) (dt : ℝ) (hx : 0 < g.dx) (hy : 0 < g.dy) (hd : g.dx * g.dy = 1) (he : Empty g) (J : Curr) (f : Fields) :
    stepDm p g dt J f = stepFdtd p g dt J f := by
  rw [C90_speed_refuted p g dt hx hy he, hd, div_one]

/-- **C90, refuted.** With cells of any other area they differ after one step, for a field that vanishes on the border. -/
theorem C90_fdtd_refuted (p : Phys) (g : Grid) (dt : ℝ) (hdt : dt ≠ 0) (hmu : p.mu ≠ 0) (hx : 0 < g.dx) (hy : 0 < g.dy) (hd : g.dx * g.dy ≠ 1)
    (he : Empty g) (hnx : 2 ≤ g.nx) (hny : 1 ≤ g.ny) : ∃ f, Quiet g f ∧ (stepDm p g dt noCurr f).Hz 0 0 ≠ (stepFdtd p g dt noCurr f).Hz 0 0 := by
  refine ⟨⟨fun _ _ => 0, fun i j => if i = 1 ∧ j = 0 then 1 else 0, fun _ _ => 0⟩, ⟨fun _ _ _ => rfl, fun i j h => ?_, fun _ _ _ => rfl⟩, ?_⟩
  · refine if_neg fun hij => h ?_
    obtain ⟨rfl, rfl⟩ := hij
    exact ⟨⟨le_rfl, by omega⟩, by omega, he.int _ _, by rw [he.ly]; exact hy⟩
  · rw [C90_speed_refuted p g dt hx hy he]
    have h1 : ∀ p : Phys, (stepFdtd p g dt noCurr ⟨fun _ _ => 0, fun i j => if i = 1 ∧ j = 0 then 1 else 0, fun _ _ => 0⟩).Hz 0 0 = -(dt / (g.dx * p.mu)) := by
      intro p
      show (if _ then _ else _) = _
      rw [if_pos ⟨by omega, by omega, he.int _ _⟩]
      norm_num
    rw [h1, h1]
    dsimp only
    intro h
    apply hd
    field_simp at h
    nlinarith [h]

/-- A grid of two by two unit cells without conductors. -/
def box : Grid := ⟨2, 2, 1, 1, fun _ _ => 1, fun _ _ => 1, fun _ _ => 1, fun _ _ => True⟩

/-- It meets the hypotheses of the theorems on the standard and on the conformal scheme, with a field that is not zero. -/
example : Empty box ∧ (∀ i < box.nx, ∀ j < box.ny, ¬ (Cond.markCell box.lx box.ly box.S box.dx box.dy i j).unst) ∧
    ∃ f, Quiet box f ∧ QuietDm box f ∧ f.Hz 0 0 = 1 ∧ f.Ex 0 1 = 1 := by
  refine ⟨⟨fun _ _ => rfl, fun _ _ => rfl, fun _ _ => rfl, fun _ _ => trivial⟩, fun i _ j _ => ?_, ?_⟩
  · unfold Cond.markCell box; norm_num
  · refine ⟨⟨fun i j => if i = 0 ∧ j = 1 then 1 else 0, fun _ _ => 0, fun i j => if i = 0 ∧ j = 0 then 1 else 0⟩, ⟨fun i j h => ?_, fun _ _ _ => rfl, fun i j h => ?_⟩,
      ⟨fun i j h => ?_, fun _ _ _ => rfl, fun i j h => ?_⟩, by simp, by simp⟩
    all_goals
      refine if_neg fun hij => h ?_
      obtain ⟨rfl, rfl⟩ := hij
      simp [freeX, box]

end
end S2
end Wakis
