import Verif.PmlLayout2
import Mathlib.Analysis.SpecialFunctions.Log.Basic

/-!
# C93: the two-dimensional solver with absorbing layers

Model of `PmlBlock2D` (`wakis/pmlBlock2D.py`), of the conductivities and of a step of the FDTD scheme with blocks (`wakis/solver2D.py`). The blocks
are indexed by their place along x and y; they are connected as `C92_wired_partial` shows.
-/

namespace Wakis
namespace S2
noncomputable section
open Classical Finset

/-! ### Model -/

/-- The layers along an axis: cell counts of the layer at the low end, of the box and of the layer at the high end (0 for no layer), and the
conductivities of the cells of each. -/
structure Axis where
  n : Ext → ℕ
  s : Ext → ℕ → ℝ

/-- `sigma_m_…` (solver2D.py:203-234) with `alpha_pml = 3` and `R0_pml = 0.001` (solver2D.py:107-108). -/
def sigMax (p : Phys) (N : ℕ) (d : ℝ) : ℝ := -(3 + 1) * p.eps * p.c / (2 * ((N : ℝ) - 1) * d) * Real.log 0.001

/-- The conductivity `n` cells inside a layer (solver2D.py:238-240 and the like). -/
def prof (m : ℝ) (N n : ℕ) : ℝ := m * ((n : ℝ) / N) ^ 3

/-- The conductivities along x (solver2D.py:236-282): low layers are filled from the end by negative indices; the maximum at the high end is
computed with `dy` (solver2D.py:224). A block without a layer along x keeps zeros. -/
def axisX (p : Phys) (nx low high : ℕ) (dx dy : ℝ) : Axis where
  n := fun | .box => nx | .low => low | .high => high
  s := fun | .box => fun _ => 0 | .low => fun i => prof (sigMax p low dx) low (low - 1 - i) | .high => fun i => prof (sigMax p high dy) high i

/-- The conductivities along y (solver2D.py:242-294). -/
def axisY (p : Phys) (ny low high : ℕ) (dy : ℝ) : Axis where
  n := fun | .box => ny | .low => low | .high => high
  s := fun | .box => fun _ => 0 | .low => fun i => prof (sigMax p low dy) low (low - 1 - i) | .high => fun i => prof (sigMax p high dy) high i

/-- `Ax`, `Ay`, `Az` (pmlBlock2D.py:71-79). -/
def coA (p : Phys) (dt σ : ℝ) : ℝ := (2 * p.eps - dt * σ) / (2 * p.eps + dt * σ)
/-- `Bx`, `By` (pmlBlock2D.py:80-81). -/
def coB (p : Phys) (dt σ : ℝ) : ℝ := 2 * dt / (2 * p.eps + dt * σ)
/-- `Cx`, `Cy` (pmlBlock2D.py:83-88) with `sigma_star = sigma * mu_0 / eps_0` (solver2D.py:296-319). -/
def coC (p : Phys) (dt σ : ℝ) : ℝ := (2 * p.mu - dt * (σ * p.mu / p.eps)) / (2 * p.mu + dt * (σ * p.mu / p.eps))
/-- `Dx`, `Dy` (pmlBlock2D.py:92-93). -/
def coD (p : Phys) (dt σ : ℝ) : ℝ := 2 * dt / (2 * p.mu + dt * (σ * p.mu / p.eps))

/-- The split fields of a block (pmlBlock2D.py:26-32). `Ex`, `Ey` and `Hz` are their sums after every method that changes them. -/
structure Split where
  exy : ℕ → ℕ → ℝ
  exz : ℕ → ℕ → ℝ
  eyx : ℕ → ℕ → ℝ
  eyz : ℕ → ℕ → ℝ
  hzx : ℕ → ℕ → ℝ
  hzy : ℕ → ℕ → ℝ

/-- `Ex` (pmlBlock2D.py:123, 157). -/
def Split.ex (s : Split) (i j : ℕ) : ℝ := s.exy i j + s.exz i j
/-- `Ey` (pmlBlock2D.py:124, 141). -/
def Split.ey (s : Split) (i j : ℕ) : ℝ := s.eyx i j + s.eyz i j
/-- `Hz` (pmlBlock2D.py:106). -/
def Split.hz (s : Split) (i j : ℕ) : ℝ := s.hzx i j + s.hzy i j

/-- The fields of the solver and of its blocks; the entry of the box itself is not used. -/
structure St where
  box : Fields
  blk : Ext → Ext → Split

/-- `Hz` of the block at a place, or of the solver. -/
def St.hz (s : St) : Ext → Ext → ℕ → ℕ → ℝ
  | .box, .box => s.box.Hz
  | a, b => (s.blk a b).hz

/-- `lx_block` or `ly_block` of a block (C92). -/
def Axis.lo (x : Axis) : Ext → Option Ext
  | .low => none
  | .box => if 0 < x.n .low then some .low else none
  | .high => some .box
/-- `rx_block` or `ry_block`. -/
def Axis.hi (x : Axis) : Ext → Option Ext
  | .low => some .box
  | .box => if 0 < x.n .high then some .high else none
  | .high => none

/-- `PmlBlock2D.advance_h_fdtd` (pmlBlock2D.py:96-106). -/
def advBlkH (p : Phys) (dt dx dy : ℝ) (x y : Axis) (a b : Ext) (s : Split) : Split :=
  { s with
    hzx := fun i j => if i < x.n a ∧ j < y.n b then
      coC p dt (x.s a i) * s.hzx i j - coD p dt (x.s a i) / dx * (s.ey (i + 1) j - s.ey i j) else s.hzx i j
    hzy := fun i j => if i < x.n a ∧ j < y.n b then
      coC p dt (y.s b j) * s.hzy i j + coD p dt (y.s b j) / dy * (s.ex i (j + 1) - s.ex i j) else s.hzy i j }

/-- `PmlBlock2D.advance_e_fdtd` (pmlBlock2D.py:108-124); `sigma_z` stays zero. -/
def advBlkE (p : Phys) (dt dx dy : ℝ) (x y : Axis) (a b : Ext) (s : Split) : Split :=
  { s with
    exy := fun i j => if i < x.n a ∧ (1 ≤ j ∧ j < y.n b) then
      coA p dt (y.s b j) * s.exy i j + coB p dt (y.s b j) / dy * (s.hz i j - s.hz i (j - 1)) else s.exy i j
    exz := fun i j => if i < x.n a ∧ (1 ≤ j ∧ j < y.n b) then coA p dt 0 * s.exz i j else s.exz i j
    eyz := fun i j => if (1 ≤ i ∧ i < x.n a) ∧ j < y.n b then coA p dt 0 * s.eyz i j else s.eyz i j
    eyx := fun i j => if (1 ≤ i ∧ i < x.n a) ∧ j < y.n b then
      coA p dt (x.s a i) * s.eyx i j - coB p dt (x.s a i) / dx * (s.hz i j - s.hz (i - 1) j) else s.eyx i j }

/-- `PmlBlock2D.update_e_boundary` (pmlBlock2D.py:126-157): index -1 is the last node of a component and the last cell of a conductivity. -/
def bndBlk (p : Phys) (dt dx dy : ℝ) (x y : Axis) (s : St) (a b : Ext) : Split :=
  let f := s.blk a b
  { f with
    eyx := fun i j => if j < y.n b then
        if i = 0 then match x.lo a with
          | some a' => coA p dt (x.s a 0) * f.eyx 0 j - coB p dt (x.s a 0) / dx * (f.hz 0 j - s.hz a' b (x.n a' - 1) j)
          | none => f.eyx i j
        else if i = x.n a then match x.hi a with
          | some a' => coA p dt (x.s a (x.n a - 1)) * f.eyx i j - coB p dt (x.s a (x.n a - 1)) / dx * (s.hz a' b 0 j - f.hz (i - 1) j)
          | none => f.eyx i j
        else f.eyx i j
      else f.eyx i j
    eyz := fun i j => if j < y.n b ∧ ((i = 0 ∧ (x.lo a).isSome) ∨ (i = x.n a ∧ (x.hi a).isSome)) then coA p dt 0 * f.eyz i j else f.eyz i j
    exy := fun i j => if i < x.n a then
        if j = 0 then match y.lo b with
          | some b' => coA p dt (y.s b 0) * f.exy i 0 + coB p dt (y.s b 0) / dy * (f.hz i 0 - s.hz a b' i (y.n b' - 1))
          | none => f.exy i j
        else if j = y.n b then match y.hi b with
          | some b' => coA p dt (y.s b (y.n b - 1)) * f.exy i j + coB p dt (y.s b (y.n b - 1)) / dy * (s.hz a b' i 0 - f.hz i (j - 1))
          | none => f.exy i j
        else f.exy i j
      else f.exy i j
    exz := fun i j => if i < x.n a ∧ ((j = 0 ∧ (y.lo b).isSome) ∨ (j = y.n b ∧ (y.hi b).isSome)) then coA p dt 0 * f.exz i j else f.exz i j }

/-- The part of `EMSolver2D.update_e_boundary` that changes the solver's own fields (solver2D.py:342-376). -/
def bndBox (p : Phys) (g : Grid) (dt : ℝ) (x y : Axis) (J : Curr) (s : St) : Fields :=
  let f := s.box
  { f with
    Ey := fun i j => if j < g.ny then
        if i = 0 then match x.lo .box with
          | some a' => f.Ey 0 j - dt / p.eps * J.Jy 0 j - dt / (g.dx * p.eps) * (f.Hz 0 j - s.hz a' .box (x.n a' - 1) j)
          | none => f.Ey i j
        else if i = g.nx then match x.hi .box with
          | some a' => f.Ey i j - dt / p.eps * J.Jy i j - dt / (g.dx * p.eps) * (s.hz a' .box 0 j - f.Hz (i - 1) j)
          | none => f.Ey i j
        else f.Ey i j
      else f.Ey i j
    Ex := fun i j => if i < g.nx then
        if j = 0 then match y.lo .box with
          | some b' => f.Ex i 0 - dt / p.eps * J.Jx i 0 + dt / (g.dy * p.eps) * (f.Hz i 0 - s.hz .box b' i (y.n b' - 1))
          | none => f.Ex i j
        else if j = g.ny then match y.hi .box with
          | some b' => f.Ex i j - dt / p.eps * J.Jx i j + dt / (g.dy * p.eps) * (s.hz .box b' i 0 - f.Hz i (j - 1))
          | none => f.Ex i j
        else f.Ex i j
      else f.Ex i j }

/-- `one_step_fdtd` with blocks (solver2D.py:428-437): all magnetic fields, the electric fields inside the box and the blocks, then those on the
borders, for which only magnetic fields of neighbours are read. -/
def stepPml (p : Phys) (g : Grid) (dt : ℝ) (x y : Axis) (J : Curr) (s : St) : St :=
  let s1 : St := ⟨advHFdtd p g dt s.box, fun a b => advBlkH p dt g.dx g.dy x y a b (s.blk a b)⟩
  let s2 : St := ⟨advEFdtd p g dt J s1.box, fun a b => advBlkE p dt g.dx g.dy x y a b (s1.blk a b)⟩
  ⟨bndBox p g dt x y J s2, fun a b => bndBlk p dt g.dx g.dy x y s2 a b⟩

/-- The part of `update_e_boundary_dm` that changes the solver's own `Ey` (solver2D.py:590-611), where the cell size is `dy`. -/
def bndBoxDmEy (p : Phys) (g : Grid) (dt : ℝ) (x : Axis) (J : Curr) (s : St) (i j : ℕ) : ℝ :=
  let f := s.box
  if j < g.ny then
    if i = 0 then match x.lo .box with
      | some a' => f.Ey 0 j - dt / p.eps * J.Jy 0 j - dt / (p.eps * g.dy) * (f.Hz 0 j - s.hz a' .box (x.n a' - 1) j)
      | none => f.Ey i j
    else if i = g.nx then match x.hi .box with
      | some a' => f.Ey i j - dt / p.eps * J.Jy i j - dt / (p.eps * g.dy) * (s.hz a' .box 0 j - f.Hz (i - 1) j)
      | none => f.Ey i j
    else f.Ey i j
  else f.Ey i j

/-- All fields zero (solver2D.py:118-120, pmlBlock2D.py:24-32). -/
def zeroSplit : Split := ⟨fun _ _ => 0, fun _ _ => 0, fun _ _ => 0, fun _ _ => 0, fun _ _ => 0, fun _ _ => 0⟩

/-- The fields of a new solver. -/
def zeroSt : St := ⟨zero, fun _ _ => zeroSplit⟩

/-- The state after `n` steps. -/
def runPml (p : Phys) (g : Grid) (dt : ℝ) (x y : Axis) (J : ℕ → Curr) : ℕ → St
  | 0 => zeroSt
  | n + 1 => stepPml p g dt x y (J n) (runPml p g dt x y J n)

/-! ### Specification: one grid with a perfectly matched layer -/

/-- The index of the first cell of a part of the axis. -/
def Axis.off (x : Axis) : Ext → ℕ
  | .low => 0
  | .box => x.n .low
  | .high => x.n .low + x.n .box
/-- All cells of the axis. -/
def Axis.tot (x : Axis) : ℕ := x.n .low + x.n .box + x.n .high
/-- The conductivity of a cell of the axis. -/
def Axis.sig (x : Axis) (I : ℕ) : ℝ :=
  if I < x.n .low then x.s .low I else if I < x.n .low + x.n .box then x.s .box (I - x.n .low) else x.s .high (I - (x.n .low + x.n .box))

/-- What a single grid with a split-field layer needs: cell counts, conductivities by column and by row, which cells and edges are free, and
currents. -/
structure Mono where
  tx : ℕ
  ty : ℕ
  sx : ℕ → ℝ
  sy : ℕ → ℝ
  cell : ℕ → ℕ → Prop
  fx : ℕ → ℕ → Prop
  fy : ℕ → ℕ → Prop
  Jx : ℕ → ℕ → ℝ
  Jy : ℕ → ℕ → ℝ

/-- Magnetic update of Berenger's split equations on one grid. -/
def monoH (p : Phys) (dt dx dy : ℝ) (m : Mono) (s : Split) : Split :=
  { s with
    hzx := fun I J => if I < m.tx ∧ J < m.ty ∧ m.cell I J then
      coC p dt (m.sx I) * s.hzx I J - coD p dt (m.sx I) / dx * (s.ey (I + 1) J - s.ey I J) else s.hzx I J
    hzy := fun I J => if I < m.tx ∧ J < m.ty ∧ m.cell I J then
      coC p dt (m.sy J) * s.hzy I J + coD p dt (m.sy J) / dy * (s.ex I (J + 1) - s.ex I J) else s.hzy I J }

/-- Electric update of Berenger's split equations on one grid with conducting border. -/
def monoE (p : Phys) (dt dx dy : ℝ) (m : Mono) (s : Split) : Split :=
  { s with
    exy := fun I J => if I < m.tx ∧ (1 ≤ J ∧ J < m.ty) ∧ m.fx I J then
      coA p dt (m.sy J) * s.exy I J + coB p dt (m.sy J) / dy * (s.hz I J - s.hz I (J - 1)) - dt / p.eps * m.Jx I J else s.exy I J
    eyx := fun I J => if (1 ≤ I ∧ I < m.tx) ∧ J < m.ty ∧ m.fy I J then
      coA p dt (m.sx I) * s.eyx I J - coB p dt (m.sx I) / dx * (s.hz I J - s.hz (I - 1) J) - dt / p.eps * m.Jy I J else s.eyx I J }

/-- The state of the single grid after `n` steps with the grid data `m 0, m 1, …` (only the currents differ). -/
def runMono (p : Phys) (dt dx dy : ℝ) (m : ℕ → Mono) : ℕ → Split
  | 0 => zeroSplit
  | n + 1 => monoE p dt dx dy (m n) (monoH p dt dx dy (m n) (runMono p dt dx dy m n))

/-- The single grid made of the box and its layers: conductors and currents are in the box. -/
def whole (g : Grid) (x y : Axis) (J : Curr) : Mono where
  tx := x.tot
  ty := y.tot
  sx := x.sig
  sy := y.sig
  cell I K := (x.n .low ≤ I ∧ I < x.n .low + g.nx) ∧ (y.n .low ≤ K ∧ K < y.n .low + g.ny) → g.int (I - x.n .low) (K - y.n .low)
  fx I K := (x.n .low ≤ I ∧ I < x.n .low + g.nx) ∧ (y.n .low < K ∧ K < y.n .low + g.ny) →
    g.int (I - x.n .low) (K - y.n .low) ∧ g.lx (I - x.n .low) (K - y.n .low) > 0
  fy I K := (x.n .low < I ∧ I < x.n .low + g.nx) ∧ (y.n .low ≤ K ∧ K < y.n .low + g.ny) →
    g.int (I - x.n .low) (K - y.n .low) ∧ g.ly (I - x.n .low) (K - y.n .low) > 0
  Jx I K := if (x.n .low ≤ I ∧ I < x.n .low + g.nx) ∧ (y.n .low ≤ K ∧ K ≤ y.n .low + g.ny) then J.Jx (I - x.n .low) (K - y.n .low) else 0
  Jy I K := if (x.n .low ≤ I ∧ I ≤ x.n .low + g.nx) ∧ (y.n .low ≤ K ∧ K < y.n .low + g.ny) then J.Jy (I - x.n .low) (K - y.n .low) else 0

/-- The fields of the solver and its blocks are those of the single grid, also on the borders, which neighbours hold twice. -/
structure Same (g : Grid) (x y : Axis) (s : St) (G : Split) : Prop where
  boxH : ∀ i j, i < g.nx → j < g.ny → s.box.Hz i j = G.hz (x.n .low + i) (y.n .low + j)
  boxEx : ∀ i j, i < g.nx → j ≤ g.ny → s.box.Ex i j = G.ex (x.n .low + i) (y.n .low + j)
  boxEy : ∀ i j, i ≤ g.nx → j < g.ny → s.box.Ey i j = G.ey (x.n .low + i) (y.n .low + j)
  blkH : ∀ a b, ¬ (a = .box ∧ b = .box) → ∀ i j, i < x.n a → j < y.n b →
    (s.blk a b).hzx i j = G.hzx (x.off a + i) (y.off b + j) ∧ (s.blk a b).hzy i j = G.hzy (x.off a + i) (y.off b + j)
  blkEx : ∀ a b, ¬ (a = .box ∧ b = .box) → ∀ i j, i < x.n a → 0 < y.n b → j ≤ y.n b →
    (s.blk a b).exy i j = G.exy (x.off a + i) (y.off b + j) ∧ (s.blk a b).exz i j = G.exz (x.off a + i) (y.off b + j)
  blkEy : ∀ a b, ¬ (a = .box ∧ b = .box) → ∀ i j, 0 < x.n a → i ≤ x.n a → j < y.n b →
    (s.blk a b).eyx i j = G.eyx (x.off a + i) (y.off b + j) ∧ (s.blk a b).eyz i j = G.eyz (x.off a + i) (y.off b + j)

/-- Layers that do not conduct next to the box. -/
structure Axis.Ok (x : Axis) : Prop where
  pos : 0 < x.n .box
  box : ∀ i, x.s .box i = 0
  low : 0 < x.n .low → x.s .low (x.n .low - 1) = 0
  high : x.s .high 0 = 0

/-- The currents vanish on those sides of the box where a layer begins. -/
structure NoEdge (g : Grid) (x y : Axis) (J : Curr) : Prop where
  xlo : 0 < x.n .low → ∀ j, J.Jy 0 j = 0
  xhi : 0 < x.n .high → ∀ j, J.Jy g.nx j = 0
  ylo : 0 < y.n .low → ∀ i, J.Jx i 0 = 0
  yhi : 0 < y.n .high → ∀ i, J.Jx i g.ny = 0

/-! ### Axis lemmas -/

lemma Axis.off_lt (x : Axis) {a : Ext} {i : ℕ} (h : i < x.n a) : x.off a + i < x.tot := by
  cases a <;> simp only [Axis.off, Axis.tot] <;> omega

lemma Axis.sig_off (x : Axis) {a : Ext} {i : ℕ} (h : i < x.n a) : x.sig (x.off a + i) = x.s a i := by
  unfold Axis.sig
  cases a
  · rw [if_neg (by simp only [Axis.off]; omega), if_pos (by simp only [Axis.off]; omega)]
    congr 1; simp only [Axis.off]; omega
  · rw [if_pos (by simp only [Axis.off]; omega)]
    congr 1; simp only [Axis.off]; omega
  · rw [if_neg (by simp only [Axis.off]; omega), if_neg (by simp only [Axis.off]; omega)]
    congr 1; simp only [Axis.off]; omega

lemma Axis.lo_some {x : Axis} (hx : 0 < x.n .box) {a a' : Ext} (h : x.lo a = some a') : x.off a' + x.n a' = x.off a ∧ 0 < x.n a' := by
  cases a
  · simp only [Axis.lo] at h
    split_ifs at h with h1
    cases h
    exact ⟨by simp [Axis.off], h1⟩
  · cases h
  · cases h
    exact ⟨by simp [Axis.off], hx⟩

lemma Axis.lo_none {x : Axis} {a : Ext} (h : x.lo a = none) : x.off a = 0 := by
  cases a
  · simp only [Axis.lo] at h
    split_ifs at h with h1
    simp only [Axis.off]; omega
  · rfl
  · cases h

lemma Axis.hi_some {x : Axis} (hx : 0 < x.n .box) {a a' : Ext} (h : x.hi a = some a') : x.off a' = x.off a + x.n a ∧ 0 < x.n a' := by
  cases a
  · simp only [Axis.hi] at h
    split_ifs at h with h1
    cases h
    exact ⟨by simp [Axis.off], h1⟩
  · cases h
    exact ⟨by simp [Axis.off], hx⟩
  · cases h

lemma Axis.hi_none {x : Axis} {a : Ext} (h : x.hi a = none) : x.off a + x.n a = x.tot := by
  cases a
  · simp only [Axis.hi] at h
    split_ifs at h with h1
    simp only [Axis.off, Axis.tot]; omega
  · cases h
  · simp only [Axis.off, Axis.tot]

lemma Axis.sig_hi {x : Axis} (hx : x.Ok) {a a' : Ext} (h : x.hi a = some a') (ha : 0 < x.n a) :
    x.s a (x.n a - 1) = 0 ∧ x.sig (x.off a + x.n a) = 0 := by
  obtain ⟨h1, h2⟩ := Axis.hi_some hx.pos h
  have e : x.sig (x.off a + x.n a) = x.s a' 0 := by rw [← h1, ← x.sig_off h2, add_zero]
  rw [e]
  cases a
  · simp only [Axis.hi] at h
    split_ifs at h
    cases h
    exact ⟨hx.box _, hx.high⟩
  · cases h
    exact ⟨hx.low ha, hx.box _⟩
  · cases h

lemma Axis.in_box {x : Axis} {a : Ext} {i : ℕ} (hi : i < x.n a) (h : x.n .low ≤ x.off a + i ∧ x.off a + i < x.n .low + x.n .box) : a = .box := by
  cases a
  · rfl
  · simp only [Axis.off] at h; omega
  · simp only [Axis.off] at h; omega

/-! ### The step -/

lemma coA_zero {p : Phys} (h : 0 < p.eps) (dt : ℝ) : coA p dt 0 = 1 := by unfold coA; field_simp; ring
lemma coB_zero {p : Phys} (h : 0 < p.eps) (dt : ℝ) : coB p dt 0 = dt / p.eps := by unfold coB; field_simp; ring
lemma coC_zero {p : Phys} (h : 0 < p.mu) (dt : ℝ) : coC p dt 0 = 1 := by unfold coC; simp [h.ne']
lemma coD_zero {p : Phys} (h : 0 < p.mu) (dt : ℝ) : coD p dt 0 = dt / p.mu := by unfold coD; field_simp; ring

section
variable {p : Phys} {g : Grid} {dt : ℝ} {x y : Axis} {J : Curr} {s : St} {G : Split}

lemma Same.hz (h : Same g x y s G) (hgx : g.nx = x.n .box) (hgy : g.ny = y.n .box) (a b : Ext) (i j : ℕ) (hi : i < x.n a) (hj : j < y.n b) :
    s.hz a b i j = G.hz (x.off a + i) (y.off b + j) := by
  by_cases hab : a = .box ∧ b = .box
  · obtain ⟨rfl, rfl⟩ := hab
    exact h.boxH i j (hgx ▸ hi) (hgy ▸ hj)
  · have e : s.hz a b i j = (s.blk a b).hz i j := by
      cases a <;> cases b <;> first | rfl | exact absurd ⟨rfl, rfl⟩ hab
    obtain ⟨h1, h2⟩ := h.blkH a b hab i j hi hj
    rw [e, Split.hz, Split.hz, h1, h2]

lemma Same.blkEx' (h : Same g x y s G) (a b : Ext) (hab : ¬ (a = .box ∧ b = .box)) (i j : ℕ) (hi : i < x.n a) (hb : 0 < y.n b) (hj : j ≤ y.n b) :
    (s.blk a b).ex i j = G.ex (x.off a + i) (y.off b + j) := by
  obtain ⟨h1, h2⟩ := h.blkEx a b hab i j hi hb hj
  rw [Split.ex, Split.ex, h1, h2]

lemma Same.blkEy' (h : Same g x y s G) (a b : Ext) (hab : ¬ (a = .box ∧ b = .box)) (i j : ℕ) (ha : 0 < x.n a) (hi : i ≤ x.n a) (hj : j < y.n b) :
    (s.blk a b).ey i j = G.ey (x.off a + i) (y.off b + j) := by
  obtain ⟨h1, h2⟩ := h.blkEy a b hab i j ha hi hj
  rw [Split.ey, Split.ey, h1, h2]

lemma same_h (hmu : 0 < p.mu) (hx : x.Ok) (hy : y.Ok) (hgx : g.nx = x.n .box) (hgy : g.ny = y.n .box) (h : Same g x y s G) :
    Same g x y ⟨advHFdtd p g dt s.box, fun a b => advBlkH p dt g.dx g.dy x y a b (s.blk a b)⟩ (monoH p dt g.dx g.dy (whole g x y J) G) := by
  refine ⟨fun i j hi hj => ?_, h.boxEx, h.boxEy, fun a b hab i j hi hj => ?_, h.blkEx, h.blkEy⟩
  · have tx : x.n .low + i < x.tot := x.off_lt (a := .box) (hgx ▸ hi)
    have ty : y.n .low + j < y.tot := y.off_lt (a := .box) (hgy ▸ hj)
    have sx : x.sig (x.n .low + i) = 0 := (x.sig_off (a := .box) (hgx ▸ hi)).trans (hx.box i)
    have sy : y.sig (y.n .low + j) = 0 := (y.sig_off (a := .box) (hgy ▸ hj)).trans (hy.box j)
    have ex : (x.n .low + i) - x.n .low = i := by omega
    have ey : (y.n .low + j) - y.n .low = j := by omega
    have hcell : (whole g x y J).cell (x.n .low + i) (y.n .low + j) ↔ g.int i j := by
      simp only [whole, ex, ey]
      exact ⟨fun hh => hh ⟨⟨by omega, by omega⟩, by omega, by omega⟩, fun hh _ => hh⟩
    simp only [Split.hz, monoH, advHFdtd]
    by_cases hint : g.int i j
    · have c1 : x.n .low + i < (whole g x y J).tx ∧ y.n .low + j < (whole g x y J).ty ∧ (whole g x y J).cell (x.n .low + i) (y.n .low + j) :=
        ⟨tx, ty, hcell.2 hint⟩
      rw [if_pos ⟨hi, hj, hint⟩, if_pos c1, if_pos c1, show (whole g x y J).sx = x.sig from rfl, show (whole g x y J).sy = y.sig from rfl, sx, sy,
        coC_zero hmu, coD_zero hmu, h.boxH i j hi hj, h.boxEy i j hi.le hj, h.boxEy (i + 1) j hi hj, h.boxEx i j hi hj.le,
        h.boxEx i (j + 1) hi hj, ← add_assoc, ← add_assoc, Split.hz]
      ring
    · have c1 : ¬ (x.n .low + i < (whole g x y J).tx ∧ y.n .low + j < (whole g x y J).ty ∧ (whole g x y J).cell (x.n .low + i) (y.n .low + j)) :=
        fun hh => hint (hcell.1 hh.2.2)
      rw [if_neg (fun hh => hint hh.2.2), if_neg c1, if_neg c1]
      exact h.boxH i j hi hj
  · have c1 : x.off a + i < (whole g x y J).tx ∧ y.off b + j < (whole g x y J).ty ∧ (whole g x y J).cell (x.off a + i) (y.off b + j) := by
      refine ⟨x.off_lt hi, y.off_lt hj, fun hh => absurd ⟨?_, ?_⟩ hab⟩
      · exact Axis.in_box hi (hgx ▸ hh.1)
      · exact Axis.in_box hj (hgy ▸ hh.2)
    obtain ⟨h1, h2⟩ := h.blkH a b hab i j hi hj
    have ha : 0 < x.n a := by omega
    have hb : 0 < y.n b := by omega
    simp only [monoH, advBlkH]
    have c0 : i < x.n a ∧ j < y.n b := ⟨hi, hj⟩
    rw [if_pos c0, if_pos c0, if_pos c1, if_pos c1, show (whole g x y J).sx = x.sig from rfl, show (whole g x y J).sy = y.sig from rfl,
      x.sig_off hi, y.sig_off hj, h1, h2, h.blkEy' a b hab i j ha hi.le hj, h.blkEy' a b hab (i + 1) j ha hi hj,
      h.blkEx' a b hab i j hi hb hj.le, h.blkEx' a b hab i (j + 1) hi hb hj]
    exact ⟨rfl, rfl⟩

lemma fy_blk (hgx : g.nx = x.n .box) (hgy : g.ny = y.n .box) {a b : Ext} (hab : ¬ (a = .box ∧ b = .box)) {i j : ℕ} (hi : i ≤ x.n a) (hj : j < y.n b) :
    (whole g x y J).fy (x.off a + i) (y.off b + j) := by
  intro hh
  rw [hgx, hgy] at hh
  have hb := Axis.in_box hj hh.2
  cases a <;> simp only [Axis.off] at hh
  · exact absurd ⟨rfl, hb⟩ hab
  · omega
  · omega

lemma fx_blk (hgx : g.nx = x.n .box) (hgy : g.ny = y.n .box) {a b : Ext} (hab : ¬ (a = .box ∧ b = .box)) {i j : ℕ} (hi : i < x.n a) (hj : j ≤ y.n b) :
    (whole g x y J).fx (x.off a + i) (y.off b + j) := by
  intro hh
  rw [hgx, hgy] at hh
  have ha := Axis.in_box hi hh.1
  cases b <;> simp only [Axis.off] at hh
  · exact absurd ⟨ha, rfl⟩ hab
  · omega
  · omega

lemma jy_blk (hJ : NoEdge g x y J) (hgx : g.nx = x.n .box) (hgy : g.ny = y.n .box) {a b : Ext} (hab : ¬ (a = .box ∧ b = .box)) {i j : ℕ}
    (ha : 0 < x.n a) (hi : i ≤ x.n a) (hj : j < y.n b) : (whole g x y J).Jy (x.off a + i) (y.off b + j) = 0 := by
  simp only [whole]
  split_ifs with hh
  · have hb := Axis.in_box hj (hgy ▸ hh.2)
    cases a
    · exact absurd ⟨rfl, hb⟩ hab
    · have e : x.off .low + i - x.n .low = 0 := by simp only [Axis.off]; omega
      rw [e]; exact hJ.xlo ha _
    · have e : x.off .high + i - x.n .low = g.nx := by simp only [Axis.off] at hh ⊢; omega
      rw [e]; exact hJ.xhi ha _
  · rfl

lemma jx_blk (hJ : NoEdge g x y J) (hgx : g.nx = x.n .box) (hgy : g.ny = y.n .box) {a b : Ext} (hab : ¬ (a = .box ∧ b = .box)) {i j : ℕ}
    (hb : 0 < y.n b) (hi : i < x.n a) (hj : j ≤ y.n b) : (whole g x y J).Jx (x.off a + i) (y.off b + j) = 0 := by
  simp only [whole]
  split_ifs with hh
  · have ha := Axis.in_box hi (hgx ▸ hh.1)
    cases b
    · exact absurd ⟨ha, rfl⟩ hab
    · have e : y.off .low + j - y.n .low = 0 := by simp only [Axis.off]; omega
      rw [e]; exact hJ.ylo hb _
    · have e : y.off .high + j - y.n .low = g.ny := by simp only [Axis.off] at hh ⊢; omega
      rw [e]; exact hJ.yhi hb _
  · rfl

/-- The state before the borders are updated. -/
def mid (p : Phys) (g : Grid) (dt : ℝ) (x y : Axis) (J : Curr) (s : St) : St :=
  ⟨advEFdtd p g dt J s.box, fun a b => advBlkE p dt g.dx g.dy x y a b (s.blk a b)⟩

lemma mid_hz (a b : Ext) : (mid p g dt x y J s).hz a b = s.hz a b := by cases a <;> cases b <;> rfl

lemma same_blkEy (heps : 0 < p.eps) (hx : x.Ok) (hgx : g.nx = x.n .box) (hgy : g.ny = y.n .box) (hJ : NoEdge g x y J) (h : Same g x y s G)
    (a b : Ext) (hab : ¬ (a = .box ∧ b = .box)) (i j : ℕ) (ha : 0 < x.n a) (hi : i ≤ x.n a) (hj : j < y.n b) :
    (bndBlk p dt g.dx g.dy x y (mid p g dt x y J s) a b).eyx i j = (monoE p dt g.dx g.dy (whole g x y J) G).eyx (x.off a + i) (y.off b + j) ∧
    (bndBlk p dt g.dx g.dy x y (mid p g dt x y J s) a b).eyz i j = (monoE p dt g.dx g.dy (whole g x y J) G).eyz (x.off a + i) (y.off b + j) := by
  obtain ⟨h1, h2⟩ := h.blkEy a b hab i j ha hi hj
  have hK : y.off b + j < y.tot := y.off_lt hj
  have hfy := fy_blk (J := J) hgx hgy hab hi hj
  have hJy := jy_blk hJ hgx hgy hab ha hi hj
  have hbh : ∀ i', i' < x.n a → (s.blk a b).hz i' j = G.hz (x.off a + i') (y.off b + j) := by
    intro i' hi'
    obtain ⟨q1, q2⟩ := h.blkH a b hab i' j hi' hj
    rw [Split.hz, Split.hz, q1, q2]
  have hz' : ∀ q : Split, (advBlkE p dt g.dx g.dy x y a b q).hz = q.hz := fun _ => rfl
  constructor
  · -- eyx
    have upd : ∀ (hin : 1 ≤ x.off a + i ∧ x.off a + i < x.tot), (monoE p dt g.dx g.dy (whole g x y J) G).eyx (x.off a + i) (y.off b + j) =
        coA p dt (x.sig (x.off a + i)) * G.eyx (x.off a + i) (y.off b + j) - coB p dt (x.sig (x.off a + i)) / g.dx *
          (G.hz (x.off a + i) (y.off b + j) - G.hz (x.off a + i - 1) (y.off b + j)) := by
      intro hin
      simp only [monoE]
      rw [if_pos (show (1 ≤ x.off a + i ∧ x.off a + i < (whole g x y J).tx) ∧ y.off b + j < (whole g x y J).ty ∧ _ from ⟨hin, hK, hfy⟩), hJy]
      rw [mul_zero, sub_zero]; rfl
    have keep : ∀ (hin : ¬ (1 ≤ x.off a + i ∧ x.off a + i < x.tot)), (monoE p dt g.dx g.dy (whole g x y J) G).eyx (x.off a + i) (y.off b + j) =
        G.eyx (x.off a + i) (y.off b + j) := by
      intro hin
      simp only [monoE]
      rw [if_neg (fun hh => hin hh.1)]
    simp only [bndBlk, mid]
    rw [if_pos hj]
    by_cases i0 : i = 0
    · subst i0
      rw [if_pos rfl]
      have hold : (advBlkE p dt g.dx g.dy x y a b (s.blk a b)).eyx 0 j = (s.blk a b).eyx 0 j := by simp only [advBlkE]; rw [if_neg (by omega)]
      cases hlo : x.lo a with
      | none =>
        dsimp only
        rw [hold, h1, keep (by rw [Axis.lo_none hlo]; omega)]
      | some a' =>
        obtain ⟨q1, q2⟩ := Axis.lo_some hx.pos hlo
        dsimp only
        have hn : (mid p g dt x y J s).hz a' b (x.n a' - 1) j = G.hz (x.off a + 0 - 1) (y.off b + j) := by
          rw [mid_hz, h.hz hgx hgy a' b _ j (by omega) hj]
          congr 1; omega
        rw [upd ⟨by omega, x.off_lt ha⟩, x.sig_off ha, hold, h1, hz', hbh 0 ha]
        exact congrArg (fun t => _ - _ * (_ - t)) hn
    · rw [if_neg i0]
      by_cases iN : i = x.n a
      · rw [if_pos iN]
        have hold : (advBlkE p dt g.dx g.dy x y a b (s.blk a b)).eyx i j = (s.blk a b).eyx i j := by simp only [advBlkE]; rw [if_neg (by omega)]
        cases hhi : x.hi a with
        | none =>
          dsimp only
          rw [hold, h1, keep (by have := Axis.hi_none hhi; omega)]
        | some a' =>
          obtain ⟨q1, q2⟩ := Axis.hi_some hx.pos hhi
          obtain ⟨q3, q4⟩ := Axis.sig_hi hx hhi ha
          dsimp only
          have hn : (mid p g dt x y J s).hz a' b 0 j = G.hz (x.off a + i) (y.off b + j) := by
            rw [mid_hz, h.hz hgx hgy a' b 0 j q2 hj]
            congr 1; omega
          have hlt : x.off a + i < x.tot := by
            have := x.off_lt q2
            omega
          rw [upd ⟨by omega, hlt⟩, hold, h1, hz', hbh (i - 1) (by omega), q3]
          rw [show x.sig (x.off a + i) = 0 by rw [iN]; exact q4, show x.off a + (i - 1) = x.off a + i - 1 by omega]
          exact congrArg (fun t => _ - _ * (t - _)) hn
      · rw [if_neg iN]
        have hlt : i < x.n a := by omega
        have hnew : (advBlkE p dt g.dx g.dy x y a b (s.blk a b)).eyx i j = coA p dt (x.s a i) * (s.blk a b).eyx i j -
            coB p dt (x.s a i) / g.dx * ((s.blk a b).hz i j - (s.blk a b).hz (i - 1) j) := by
          simp only [advBlkE]; rw [if_pos ⟨⟨by omega, hlt⟩, hj⟩]
        rw [hnew, upd ⟨by omega, x.off_lt hlt⟩, x.sig_off hlt, h1, hbh i hlt, hbh (i - 1) (by omega), show x.off a + (i - 1) = x.off a + i - 1 by omega]
  · -- eyz
    show (if _ then _ else _) = G.eyz _ _
    have e : (advBlkE p dt g.dx g.dy x y a b (s.blk a b)).eyz i j = (s.blk a b).eyz i j := by
      simp only [advBlkE]; rw [coA_zero heps, one_mul, ite_self]
    rw [coA_zero heps, one_mul, ite_self]
    exact e.trans h2

lemma same_blkEx (heps : 0 < p.eps) (hy : y.Ok) (hgx : g.nx = x.n .box) (hgy : g.ny = y.n .box) (hJ : NoEdge g x y J) (h : Same g x y s G)
    (a b : Ext) (hab : ¬ (a = .box ∧ b = .box)) (i j : ℕ) (hi : i < x.n a) (hb : 0 < y.n b) (hj : j ≤ y.n b) :
    (bndBlk p dt g.dx g.dy x y (mid p g dt x y J s) a b).exy i j = (monoE p dt g.dx g.dy (whole g x y J) G).exy (x.off a + i) (y.off b + j) ∧
    (bndBlk p dt g.dx g.dy x y (mid p g dt x y J s) a b).exz i j = (monoE p dt g.dx g.dy (whole g x y J) G).exz (x.off a + i) (y.off b + j) := by
  obtain ⟨h1, h2⟩ := h.blkEx a b hab i j hi hb hj
  have hK : x.off a + i < x.tot := x.off_lt hi
  have hfy := fx_blk (J := J) hgx hgy hab hi hj
  have hJy := jx_blk hJ hgx hgy hab hb hi hj
  have hbh : ∀ j', j' < y.n b → (s.blk a b).hz i j' = G.hz (x.off a + i) (y.off b + j') := by
    intro j' hj'
    obtain ⟨q1, q2⟩ := h.blkH a b hab i j' hi hj'
    rw [Split.hz, Split.hz, q1, q2]
  have hz' : ∀ q : Split, (advBlkE p dt g.dx g.dy x y a b q).hz = q.hz := fun _ => rfl
  constructor
  · -- exy
    have upd : ∀ (hin : 1 ≤ y.off b + j ∧ y.off b + j < y.tot), (monoE p dt g.dx g.dy (whole g x y J) G).exy (x.off a + i) (y.off b + j) =
        coA p dt (y.sig (y.off b + j)) * G.exy (x.off a + i) (y.off b + j) + coB p dt (y.sig (y.off b + j)) / g.dy *
          (G.hz (x.off a + i) (y.off b + j) - G.hz (x.off a + i) (y.off b + j - 1)) := by
      intro hin
      simp only [monoE]
      rw [if_pos (show x.off a + i < (whole g x y J).tx ∧ (1 ≤ y.off b + j ∧ y.off b + j < (whole g x y J).ty) ∧ _ from ⟨hK, hin, hfy⟩), hJy]
      rw [mul_zero, sub_zero]; rfl
    have keep : ∀ (hin : ¬ (1 ≤ y.off b + j ∧ y.off b + j < y.tot)), (monoE p dt g.dx g.dy (whole g x y J) G).exy (x.off a + i) (y.off b + j) =
        G.exy (x.off a + i) (y.off b + j) := by
      intro hin
      simp only [monoE]
      rw [if_neg (fun hh => hin hh.2.1)]
    simp only [bndBlk, mid]
    rw [if_pos hi]
    by_cases i0 : j = 0
    · subst i0
      rw [if_pos rfl]
      have hold : (advBlkE p dt g.dx g.dy x y a b (s.blk a b)).exy i 0 = (s.blk a b).exy i 0 := by simp only [advBlkE]; rw [if_neg (by omega)]
      cases hlo : y.lo b with
      | none =>
        dsimp only
        rw [hold, h1, keep (by rw [Axis.lo_none hlo]; omega)]
      | some b' =>
        obtain ⟨q1, q2⟩ := Axis.lo_some hy.pos hlo
        dsimp only
        have hn : (mid p g dt x y J s).hz a b' i (y.n b' - 1) = G.hz (x.off a + i) (y.off b + 0 - 1) := by
          rw [mid_hz, h.hz hgx hgy a b' i _ hi (by omega)]
          congr 1; omega
        rw [upd ⟨by omega, y.off_lt hb⟩, y.sig_off hb, hold, h1, hz', hbh 0 hb]
        exact congrArg (fun t => _ + _ * (_ - t)) hn
    · rw [if_neg i0]
      by_cases iN : j = y.n b
      · rw [if_pos iN]
        have hold : (advBlkE p dt g.dx g.dy x y a b (s.blk a b)).exy i j = (s.blk a b).exy i j := by simp only [advBlkE]; rw [if_neg (by omega)]
        cases hhi : y.hi b with
        | none =>
          dsimp only
          rw [hold, h1, keep (by have := Axis.hi_none hhi; omega)]
        | some b' =>
          obtain ⟨q1, q2⟩ := Axis.hi_some hy.pos hhi
          obtain ⟨q3, q4⟩ := Axis.sig_hi hy hhi hb
          dsimp only
          have hn : (mid p g dt x y J s).hz a b' i 0 = G.hz (x.off a + i) (y.off b + j) := by
            rw [mid_hz, h.hz hgx hgy a b' i 0 hi q2]
            congr 1; omega
          have hlt : y.off b + j < y.tot := by
            have := y.off_lt q2
            omega
          rw [upd ⟨by omega, hlt⟩, hold, h1, hz', hbh (j - 1) (by omega), q3]
          rw [show y.sig (y.off b + j) = 0 by rw [iN]; exact q4, show y.off b + (j - 1) = y.off b + j - 1 by omega]
          exact congrArg (fun t => _ + _ * (t - _)) hn
      · rw [if_neg iN]
        have hlt : j < y.n b := by omega
        have hnew : (advBlkE p dt g.dx g.dy x y a b (s.blk a b)).exy i j = coA p dt (y.s b j) * (s.blk a b).exy i j +
            coB p dt (y.s b j) / g.dy * ((s.blk a b).hz i j - (s.blk a b).hz i (j - 1)) := by
          simp only [advBlkE]; rw [if_pos ⟨hi, by omega, hlt⟩]
        rw [hnew, upd ⟨by omega, y.off_lt hlt⟩, y.sig_off hlt, h1, hbh j hlt, hbh (j - 1) (by omega), show y.off b + (j - 1) = y.off b + j - 1 by omega]
  · -- exz
    show (if _ then _ else _) = G.exz _ _
    have e : (advBlkE p dt g.dx g.dy x y a b (s.blk a b)).exz i j = (s.blk a b).exz i j := by
      simp only [advBlkE]; rw [coA_zero heps, one_mul, ite_self]
    rw [coA_zero heps, one_mul, ite_self]
    exact e.trans h2

lemma same_boxEy (heps : 0 < p.eps) (hx : x.Ok) (hgx : g.nx = x.n .box) (hgy : g.ny = y.n .box) (h : Same g x y s G)
    (i j : ℕ) (hi : i ≤ g.nx) (hj : j < g.ny) :
    (bndBox p g dt x y J (mid p g dt x y J s)).Ey i j = (monoE p dt g.dx g.dy (whole g x y J) G).ey (x.n .low + i) (y.n .low + j) := by
  have h1 := h.boxEy i j hi hj
  have hK : y.n .low + j < y.tot := y.off_lt (a := .box) (hgy ▸ hj)
  have hpos : 0 < g.nx := hgx ▸ hx.pos
  have ei : x.n .low + i - x.n .low = i := by omega
  have ej : y.n .low + j - y.n .low = j := by omega
  have hJy : (whole g x y J).Jy (x.n .low + i) (y.n .low + j) = J.Jy i j := by
    simp only [whole]
    rw [if_pos ⟨⟨by omega, by omega⟩, by omega, by omega⟩, ei, ej]
  have upd : ∀ (hin : 1 ≤ x.n .low + i ∧ x.n .low + i < x.tot) (hf : (whole g x y J).fy (x.n .low + i) (y.n .low + j)) (hs : x.sig (x.n .low + i) = 0),
      (monoE p dt g.dx g.dy (whole g x y J) G).ey (x.n .low + i) (y.n .low + j) =
      s.box.Ey i j - dt / p.eps * J.Jy i j - dt / (g.dx * p.eps) *
        (G.hz (x.n .low + i) (y.n .low + j) - G.hz (x.n .low + i - 1) (y.n .low + j)) := by
    intro hin hf hs
    simp only [Split.ey, monoE]
    rw [if_pos (show (1 ≤ x.n .low + i ∧ x.n .low + i < (whole g x y J).tx) ∧ y.n .low + j < (whole g x y J).ty ∧ _ from ⟨hin, hK, hf⟩), hJy,
      show (whole g x y J).sx = x.sig from rfl, hs, coA_zero heps, coB_zero heps, h1, Split.ey, one_mul, div_div, mul_comm p.eps g.dx]
    ring
  have keep : ∀ (hin : ¬ ((1 ≤ x.n .low + i ∧ x.n .low + i < x.tot) ∧ (whole g x y J).fy (x.n .low + i) (y.n .low + j))),
      (monoE p dt g.dx g.dy (whole g x y J) G).ey (x.n .low + i) (y.n .low + j) = s.box.Ey i j := by
    intro hin
    simp only [Split.ey, monoE]
    rw [if_neg (fun hh => hin ⟨hh.1, hh.2.2⟩), h1]; rfl
  simp only [bndBox, mid]
  rw [if_pos hj]
  by_cases i0 : i = 0
  · subst i0
    rw [if_pos rfl]
    have hold : (advEFdtd p g dt J s.box).Ey 0 j = s.box.Ey 0 j := by
      simp only [advEFdtd]; rw [if_neg (by omega)]
    cases hlo : x.lo .box with
    | none =>
      dsimp only
      have : x.n .low = 0 := Axis.lo_none hlo
      rw [hold, keep (by omega)]
    | some a' =>
      obtain ⟨q1, q2⟩ := Axis.lo_some hx.pos hlo
      have q1' : x.off a' + x.n a' = x.n .low := q1
      dsimp only
      have hn : (mid p g dt x y J s).hz a' .box (x.n a' - 1) j = G.hz (x.n .low + 0 - 1) (y.n .low + j) := by
        rw [mid_hz, h.hz hgx hgy a' .box _ j (by omega) (hgy ▸ hj)]
        rw [show x.off a' + (x.n a' - 1) = x.n .low + 0 - 1 by omega]; rfl
      rw [upd ⟨by omega, x.off_lt (a := .box) hx.pos⟩ (fun hh => by omega) ((x.sig_off (a := .box) hx.pos).trans (hx.box 0)), hold,
        ← h.boxH 0 j hpos hj]
      exact congrArg (fun t => _ - _ * (_ - t)) hn
  · rw [if_neg i0]
    by_cases iN : i = g.nx
    · rw [if_pos iN]
      have hold : (advEFdtd p g dt J s.box).Ey i j = s.box.Ey i j := by
        simp only [advEFdtd]; rw [if_neg (by omega)]
      cases hhi : x.hi .box with
      | none =>
        dsimp only
        have : x.n .low + x.n .box = x.tot := Axis.hi_none hhi
        rw [hold, keep (by omega)]
      | some a' =>
        obtain ⟨q1, q2⟩ := Axis.hi_some hx.pos hhi
        obtain ⟨q3, q4⟩ := Axis.sig_hi hx hhi hx.pos
        have q1' : x.off a' = x.n .low + x.n .box := q1
        have q4' : x.sig (x.n .low + x.n .box) = 0 := q4
        dsimp only
        have hn : (mid p g dt x y J s).hz a' .box 0 j = G.hz (x.n .low + i) (y.n .low + j) := by
          rw [mid_hz, h.hz hgx hgy a' .box 0 j q2 (hgy ▸ hj)]
          rw [show x.off a' + 0 = x.n .low + i by omega]; rfl
        have hlt : x.n .low + i < x.tot := by
          have := x.off_lt q2
          omega
        rw [upd ⟨by omega, hlt⟩ (fun hh => by omega) (by rw [iN, hgx]; exact q4'), hold, show x.n .low + i - 1 = x.n .low + (i - 1) by omega,
          ← h.boxH (i - 1) j (by omega) hj]
        exact congrArg (fun t => _ - _ * (t - _)) hn
    · rw [if_neg iN]
      have hlt : i < g.nx := by omega
      have hf : (whole g x y J).fy (x.n .low + i) (y.n .low + j) ↔ g.int i j ∧ g.ly i j > 0 := by
        simp only [whole, ei, ej]
        exact ⟨fun hh => hh ⟨⟨by omega, by omega⟩, by omega, by omega⟩, fun hh _ => hh⟩
      by_cases hm : g.int i j ∧ g.ly i j > 0
      · have hnew : (advEFdtd p g dt J s.box).Ey i j = s.box.Ey i j - dt / p.eps * J.Jy i j - dt / (g.dx * p.eps) * (s.box.Hz i j - s.box.Hz (i - 1) j) := by
          simp only [advEFdtd]; rw [if_pos ⟨⟨by omega, hlt⟩, hj, hm⟩]
        rw [hnew, upd ⟨by omega, x.off_lt (a := .box) (hgx ▸ hlt)⟩ (hf.2 hm) ((x.sig_off (a := .box) (hgx ▸ hlt)).trans (hx.box i)),
          h.boxH i j hlt hj, h.boxH (i - 1) j (by omega) hj, show x.n .low + i - 1 = x.n .low + (i - 1) by omega]
      · have hold : (advEFdtd p g dt J s.box).Ey i j = s.box.Ey i j := by
          simp only [advEFdtd]; rw [if_neg (fun hh => hm hh.2.2)]
        rw [hold, keep (fun hh => hm (hf.1 hh.2))]

lemma same_boxEx (heps : 0 < p.eps) (hy : y.Ok) (hgx : g.nx = x.n .box) (hgy : g.ny = y.n .box) (h : Same g x y s G)
    (i j : ℕ) (hi : i < g.nx) (hj : j ≤ g.ny) :
    (bndBox p g dt x y J (mid p g dt x y J s)).Ex i j = (monoE p dt g.dx g.dy (whole g x y J) G).ex (x.n .low + i) (y.n .low + j) := by
  have h1 := h.boxEx i j hi hj
  have hK : x.n .low + i < x.tot := x.off_lt (a := .box) (hgx ▸ hi)
  have hpos : 0 < g.ny := hgy ▸ hy.pos
  have ei : x.n .low + i - x.n .low = i := by omega
  have ej : y.n .low + j - y.n .low = j := by omega
  have hJx : (whole g x y J).Jx (x.n .low + i) (y.n .low + j) = J.Jx i j := by
    simp only [whole]
    rw [if_pos ⟨⟨by omega, by omega⟩, by omega, by omega⟩, ei, ej]
  have upd : ∀ (hin : 1 ≤ y.n .low + j ∧ y.n .low + j < y.tot) (hf : (whole g x y J).fx (x.n .low + i) (y.n .low + j)) (hs : y.sig (y.n .low + j) = 0),
      (monoE p dt g.dx g.dy (whole g x y J) G).ex (x.n .low + i) (y.n .low + j) =
      s.box.Ex i j - dt / p.eps * J.Jx i j + dt / (g.dy * p.eps) *
        (G.hz (x.n .low + i) (y.n .low + j) - G.hz (x.n .low + i) (y.n .low + j - 1)) := by
    intro hin hf hs
    simp only [Split.ex, monoE]
    rw [if_pos (show x.n .low + i < (whole g x y J).tx ∧ (1 ≤ y.n .low + j ∧ y.n .low + j < (whole g x y J).ty) ∧ _ from ⟨hK, hin, hf⟩), hJx,
      show (whole g x y J).sy = y.sig from rfl, hs, coA_zero heps, coB_zero heps, h1, Split.ex, one_mul, div_div, mul_comm p.eps g.dy]
    ring
  have keep : ∀ (hin : ¬ ((1 ≤ y.n .low + j ∧ y.n .low + j < y.tot) ∧ (whole g x y J).fx (x.n .low + i) (y.n .low + j))),
      (monoE p dt g.dx g.dy (whole g x y J) G).ex (x.n .low + i) (y.n .low + j) = s.box.Ex i j := by
    intro hin
    simp only [Split.ex, monoE]
    rw [if_neg (fun hh => hin hh.2), h1]; rfl
  simp only [bndBox, mid]
  rw [if_pos hi]
  by_cases i0 : j = 0
  · subst i0
    rw [if_pos rfl]
    have hold : (advEFdtd p g dt J s.box).Ex i 0 = s.box.Ex i 0 := by
      simp only [advEFdtd]; rw [if_neg (by omega)]
    cases hlo : y.lo .box with
    | none =>
      dsimp only
      have : y.n .low = 0 := Axis.lo_none hlo
      rw [hold, keep (by omega)]
    | some b' =>
      obtain ⟨q1, q2⟩ := Axis.lo_some hy.pos hlo
      have q1' : y.off b' + y.n b' = y.n .low := q1
      dsimp only
      have hn : (mid p g dt x y J s).hz .box b' i (y.n b' - 1) = G.hz (x.n .low + i) (y.n .low + 0 - 1) := by
        rw [mid_hz, h.hz hgx hgy .box b' i _ (hgx ▸ hi) (by omega)]
        rw [show y.off b' + (y.n b' - 1) = y.n .low + 0 - 1 by omega]; rfl
      rw [upd ⟨by omega, y.off_lt (a := .box) hy.pos⟩ (fun hh => by omega) ((y.sig_off (a := .box) hy.pos).trans (hy.box 0)), hold,
        ← h.boxH i 0 hi hpos]
      exact congrArg (fun t => _ + _ * (_ - t)) hn
  · rw [if_neg i0]
    by_cases iN : j = g.ny
    · rw [if_pos iN]
      have hold : (advEFdtd p g dt J s.box).Ex i j = s.box.Ex i j := by
        simp only [advEFdtd]; rw [if_neg (by omega)]
      cases hhi : y.hi .box with
      | none =>
        dsimp only
        have : y.n .low + y.n .box = y.tot := Axis.hi_none hhi
        rw [hold, keep (by omega)]
      | some b' =>
        obtain ⟨q1, q2⟩ := Axis.hi_some hy.pos hhi
        obtain ⟨q3, q4⟩ := Axis.sig_hi hy hhi hy.pos
        have q1' : y.off b' = y.n .low + y.n .box := q1
        have q4' : y.sig (y.n .low + y.n .box) = 0 := q4
        dsimp only
        have hn : (mid p g dt x y J s).hz .box b' i 0 = G.hz (x.n .low + i) (y.n .low + j) := by
          rw [mid_hz, h.hz hgx hgy .box b' i 0 (hgx ▸ hi) q2]
          rw [show y.off b' + 0 = y.n .low + j by omega]; rfl
        have hlt : y.n .low + j < y.tot := by
          have := y.off_lt q2
          omega
        rw [upd ⟨by omega, hlt⟩ (fun hh => by omega) (by rw [iN, hgy]; exact q4'), hold, show y.n .low + j - 1 = y.n .low + (j - 1) by omega,
          ← h.boxH i (j - 1) hi (by omega)]
        exact congrArg (fun t => _ + _ * (t - _)) hn
    · rw [if_neg iN]
      have hlt : j < g.ny := by omega
      have hf : (whole g x y J).fx (x.n .low + i) (y.n .low + j) ↔ g.int i j ∧ g.lx i j > 0 := by
        simp only [whole, ei, ej]
        exact ⟨fun hh => hh ⟨⟨by omega, by omega⟩, by omega, by omega⟩, fun hh _ => hh⟩
      by_cases hm : g.int i j ∧ g.lx i j > 0
      · have hnew : (advEFdtd p g dt J s.box).Ex i j = s.box.Ex i j - dt / p.eps * J.Jx i j + dt / (g.dy * p.eps) * (s.box.Hz i j - s.box.Hz i (j - 1)) := by
          simp only [advEFdtd]; rw [if_pos ⟨hi, ⟨by omega, hlt⟩, hm⟩]
        rw [hnew, upd ⟨by omega, y.off_lt (a := .box) (hgy ▸ hlt)⟩ (hf.2 hm) ((y.sig_off (a := .box) (hgy ▸ hlt)).trans (hy.box j)),
          h.boxH i j hi hlt, h.boxH i (j - 1) hi (by omega), show y.n .low + j - 1 = y.n .low + (j - 1) by omega]
      · have hold : (advEFdtd p g dt J s.box).Ex i j = s.box.Ex i j := by
          simp only [advEFdtd]; rw [if_neg (fun hh => hm hh.2.2)]
        rw [hold, keep (fun hh => hm (hf.1 hh.2))]

lemma same_step (heps : 0 < p.eps) (hmu : 0 < p.mu) (hx : x.Ok) (hy : y.Ok) (hgx : g.nx = x.n .box) (hgy : g.ny = y.n .box) (hJ : NoEdge g x y J)
    (h : Same g x y s G) : Same g x y (stepPml p g dt x y J s) (monoE p dt g.dx g.dy (whole g x y J) (monoH p dt g.dx g.dy (whole g x y J) G)) := by
  have h1 := same_h (p := p) (dt := dt) (J := J) hmu hx hy hgx hgy h
  refine ⟨?_, ?_, ?_, ?_, ?_, ?_⟩
  · exact h1.boxH
  · exact same_boxEx heps hy hgx hgy h1
  · exact same_boxEy heps hx hgx hgy h1
  · exact h1.blkH
  · exact same_blkEx heps hy hgx hgy hJ h1
  · exact same_blkEy heps hx hgx hgy hJ h1

end

/-! ### Theorems -/

/-- **C93, one grid.** After every number of steps the fields of the solver and of all its blocks are those of a single grid with a split-field
matched layer around the box: neighbours agree on the fields they share, and nothing happens at the seams. -/
theorem C93_monolith (p : Phys) (heps : 0 < p.eps) (hmu : 0 < p.mu) (g : Grid) (dt : ℝ) (x y : Axis) (hx : x.Ok) (hy : y.Ok)
    (hgx : g.nx = x.n .box) (hgy : g.ny = y.n .box) (J : ℕ → Curr) (hJ : ∀ n, NoEdge g x y (J n)) (n : ℕ) :
    Same g x y (runPml p g dt x y J n) (runMono p dt g.dx g.dy (fun k => whole g x y (J k)) n) := by
  induction n with
  | zero =>
    refine ⟨?_, ?_, ?_, ?_, ?_, ?_⟩ <;> intros <;>
      simp [runPml, runMono, zeroSt, zero, zeroSplit, Split.hz, Split.ex, Split.ey]
  | succ n ih => exact same_step heps hmu hx hy hgx hgy (hJ n) ih

/-- The layers the constructor makes meet the hypotheses. (For a layer of one cell the code divides by zero and the conductivities are nan;
Lean's division by zero is zero.) -/
theorem C93_axes (p : Phys) (nx low high : ℕ) (h : 0 < nx) (dx dy : ℝ) : (axisX p nx low high dx dy).Ok ∧ (axisY p nx low high dy).Ok := by
  refine ⟨⟨h, fun _ => rfl, fun _ => ?_, ?_⟩, h, fun _ => rfl, fun _ => ?_, ?_⟩ <;> simp [axisX, axisY, prof]

/-- **C93, damping.** In a layer that conducts, the factors on the old fields have absolute value at most one, less than one where the conductivity
is positive; electric and magnetic factors are equal (the layer is matched), and the factors on the new fields are positive. -/
theorem C93_coeffs (p : Phys) (heps : 0 < p.eps) (hmu : 0 < p.mu) (dt σ : ℝ) (hdt : 0 < dt) (hσ : 0 ≤ σ) :
    |coA p dt σ| ≤ 1 ∧ (0 < σ → |coA p dt σ| < 1) ∧ coC p dt σ = coA p dt σ ∧ 0 < coB p dt σ ∧ coB p dt σ ≤ dt / p.eps ∧
      0 < coD p dt σ ∧ coD p dt σ ≤ dt / p.mu := by
  have h1 : 0 < 2 * p.eps + dt * σ := by positivity
  have h2 : 0 < 2 * p.mu + dt * (σ * p.mu / p.eps) := by positivity
  have h0 : 0 ≤ dt * σ := by positivity
  refine ⟨?_, fun hp => ?_, ?_, ?_, ?_, ?_, ?_⟩
  · rw [coA, abs_div, abs_of_pos h1, div_le_one h1, abs_le]
    constructor <;> linarith
  · have h0' : 0 < dt * σ := by positivity
    rw [coA, abs_div, abs_of_pos h1, div_lt_one h1, abs_lt]
    constructor <;> linarith
  · unfold coA coC
    rw [div_eq_div_iff h2.ne' h1.ne']
    field_simp
  · unfold coB; positivity
  · unfold coB
    rw [div_le_div_iff₀ h1 heps]
    nlinarith [mul_nonneg hdt.le h0]
  · unfold coD; positivity
  · unfold coD
    rw [div_le_div_iff₀ h2 hmu]
    have : 0 ≤ dt * (dt * (σ * p.mu / p.eps)) := by positivity
    nlinarith

lemma sigMax_pos (p : Phys) (heps : 0 < p.eps) (hc : 0 < p.c) (N : ℕ) (hN : 2 ≤ N) (d : ℝ) (hd : 0 < d) : 0 < sigMax p N d := by
  unfold sigMax
  have hl : Real.log 0.001 < 0 := Real.log_neg (by norm_num) (by norm_num)
  have hN' : (0 : ℝ) < (N : ℝ) - 1 := by
    have : (2 : ℝ) ≤ N := by exact_mod_cast hN
    linarith
  have e : -(3 + 1) * p.eps * p.c / (2 * ((N : ℝ) - 1) * d) = -((3 + 1) * p.eps * p.c / (2 * ((N : ℝ) - 1) * d)) := by ring
  rw [e]
  have : 0 < (3 + 1) * p.eps * p.c / (2 * ((N : ℝ) - 1) * d) := by positivity
  nlinarith

/-- **C93, profile.** The conductivity of a layer of at least two cells is zero next to the box, grows strictly from cell to cell and stays below its
maximum. -/
theorem C93_profile (p : Phys) (heps : 0 < p.eps) (hc : 0 < p.c) (N : ℕ) (hN : 2 ≤ N) (d : ℝ) (hd : 0 < d) :
    prof (sigMax p N d) N 0 = 0 ∧ (∀ n, prof (sigMax p N d) N n < prof (sigMax p N d) N (n + 1)) ∧
      ∀ n, n < N → 0 ≤ prof (sigMax p N d) N n ∧ prof (sigMax p N d) N n < sigMax p N d := by
  have hs := sigMax_pos p heps hc N hN d hd
  have hN0 : (0 : ℝ) < N := by
    have : 0 < N := by omega
    exact_mod_cast this
  refine ⟨by simp [prof], fun n => ?_, fun n hn => ⟨?_, ?_⟩⟩
  · unfold prof
    refine mul_lt_mul_of_pos_left (pow_lt_pow_left₀ ?_ (by positivity) (by norm_num)) hs
    rw [div_lt_div_iff_of_pos_right hN0]
    push_cast; linarith
  · unfold prof; positivity
  · unfold prof
    have h1 : (n : ℝ) / N < 1 := by
      rw [div_lt_one hN0]; exact_mod_cast hn
    have : ((n : ℝ) / N) ^ 3 < 1 := pow_lt_one₀ (by positivity) h1 (by norm_num)
    nlinarith

/-- **C93, the two ends of x.** Layers of equally many cells at the two ends of x mirror each other exactly if the cells are square. (Wanted: always;
the code computes the conductivity at the high end with the cell size along y.) -/
theorem C93_mirror_partial (p : Phys) (heps : 0 < p.eps) (hc : 0 < p.c) (nx N : ℕ) (hN : 2 ≤ N) (dx dy : ℝ) (hx : 0 < dx) (hy : 0 < dy) :
    (∀ n, n < N → (axisX p nx N N dx dy).s .low (N - 1 - n) = (axisX p nx N N dx dy).s .high n) ↔ dx = dy := by
  have hN0 : (0 : ℝ) < N := by
    have : 0 < N := by omega
    exact_mod_cast this
  have hN1 : (0 : ℝ) < (N : ℝ) - 1 := by
    have : (2 : ℝ) ≤ N := by exact_mod_cast hN
    linarith
  constructor
  · intro h
    have h1 := h 1 (by omega)
    simp only [axisX] at h1
    rw [show N - 1 - (N - 1 - 1) = 1 by omega] at h1
    unfold prof at h1
    have h2 : (((1 : ℕ) : ℝ) / N) ^ 3 ≠ 0 := by positivity
    have h3 := mul_right_cancel₀ h2 h1
    unfold sigMax at h3
    have hl : Real.log 0.001 < 0 := Real.log_neg (by norm_num) (by norm_num)
    have h4 := mul_right_cancel₀ hl.ne h3
    rw [div_eq_div_iff (by positivity) (by positivity)] at h4
    have h5 : -(3 + 1) * p.eps * p.c * (2 * ((N : ℝ) - 1)) ≠ 0 := by
      have : (3 + 1) * p.eps * p.c * (2 * ((N : ℝ) - 1)) ≠ 0 := by positivity
      intro hh
      apply this
      linarith
    have h6 : -(3 + 1) * p.eps * p.c * (2 * ((N : ℝ) - 1)) * dy = -(3 + 1) * p.eps * p.c * (2 * ((N : ℝ) - 1)) * dx := by linarith
    exact (mul_left_cancel₀ h5 h6).symm
  · rintro rfl n hn
    simp only [axisX]
    rw [show N - 1 - (N - 1 - n) = n by omega]

/-- The sums of the split fields. -/
def Split.sum (s : Split) : Fields := ⟨s.ex, s.ey, s.hz⟩

/-- **C93, empty layer.** A matched layer without conductivity is empty space: on the single grid the sums of the split fields follow the
staircased scheme of C89 on a grid of all cells. -/
theorem C93_vacuum (p : Phys) (heps : 0 < p.eps) (hmu : 0 < p.mu) (dt : ℝ) (g : Grid) (m : Mono) (hm : m.tx = g.nx ∧ m.ty = g.ny)
    (hsx : ∀ i, m.sx i = 0) (hsy : ∀ i, m.sy i = 0) (hc : ∀ i j, m.cell i j ↔ g.int i j) (hfx : ∀ i j, m.fx i j ↔ g.int i j ∧ g.lx i j > 0)
    (hfy : ∀ i j, m.fy i j ↔ g.int i j ∧ g.ly i j > 0) (s : Split) :
    (monoE p dt g.dx g.dy m (monoH p dt g.dx g.dy m s)).sum = stepFdtd p g dt ⟨m.Jx, m.Jy⟩ s.sum := by
  have hH : (monoH p dt g.dx g.dy m s).sum = advHFdtd p g dt s.sum := by
    unfold Split.sum advHFdtd
    congr 1
    funext i j
    simp only [Split.hz, monoH, hsx, hsy, coC_zero hmu, coD_zero hmu, hm.1, hm.2, hc]
    split_ifs
    · have e1 : dt / p.mu / g.dx = dt / (g.dx * p.mu) := by rw [div_div, mul_comm]
      have e2 : dt / p.mu / g.dy = dt / (g.dy * p.mu) := by rw [div_div, mul_comm]
      rw [e1, e2]; ring
    · rfl
  rw [stepFdtd, ← hH]
  generalize monoH p dt g.dx g.dy m s = t
  unfold Split.sum advEFdtd
  have e1 : dt / p.eps / g.dx = dt / (g.dx * p.eps) := by rw [div_div, mul_comm]
  have e2 : dt / p.eps / g.dy = dt / (g.dy * p.eps) := by rw [div_div, mul_comm]
  congr 1
  · funext i j
    simp only [Split.ex, monoE, hsy, coA_zero heps, coB_zero heps, hm.1, hm.2, hfx, e2]
    split_ifs
    · have : (monoE p dt g.dx g.dy m t).hz = t.hz := rfl
      ring
    · rfl
  · funext i j
    simp only [Split.ey, monoE, hsx, coA_zero heps, coB_zero heps, hm.1, hm.2, hfy, e1]
    split_ifs
    · ring
    · rfl

lemma blk_border (p : Phys) (heps : 0 < p.eps) (dt dx dy : ℝ) (x y : Axis) (hx : x.Ok) (hl : 0 < x.n .low) (s : St) (j : ℕ) (hj : j < y.n .box) :
    (bndBlk p dt dx dy x y s .low .box).ey (x.n .low) j = (s.blk .low .box).ey (x.n .low) j - dt / p.eps / dx *
      (s.box.Hz 0 j - s.hz .low .box (x.n .low - 1) j) := by
  have q := (Axis.sig_hi (x := x) hx (a := .low) (a' := .box) rfl hl).1
  simp only [Split.ey, bndBlk]
  rw [if_pos hj, if_neg (by omega), if_pos trivial, q, coA_zero heps, coB_zero heps, one_mul, one_mul, ite_self]
  simp only [Axis.hi]
  have e1 : s.hz .box .box 0 j = s.box.Hz 0 j := rfl
  have e2 : s.hz .low .box (x.n .low - 1) j = (s.blk .low .box).hz (x.n .low - 1) j := rfl
  rw [e1, e2]
  ring

/-- **C93, conformal scheme, refuted.** In the conformal scheme the box and its layer at low x agree on the field they share after a step only if
the cells are square or the magnetic field does not jump: the box uses the wrong cell size. -/
theorem C93_dm_refuted (p : Phys) (heps : 0 < p.eps) (g : Grid) (dt : ℝ) (hdt : 0 < dt) (hdx : 0 < g.dx) (hdy : 0 < g.dy) (x y : Axis) (hx : x.Ok)
    (hl : 0 < x.n .low) (hgy : g.ny = y.n .box) (J : Curr) (s : St) (j : ℕ) (hj : j < g.ny) (hJ : J.Jy 0 j = 0)
    (h : s.box.Ey 0 j = (s.blk .low .box).ey (x.n .low) j) :
    bndBoxDmEy p g dt x J s 0 j = (bndBlk p dt g.dx g.dy x y s .low .box).ey (x.n .low) j ↔
      (g.dx = g.dy ∨ s.box.Hz 0 j = s.hz .low .box (x.n .low - 1) j) := by
  rw [blk_border p heps dt g.dx g.dy x y hx hl s j (hgy ▸ hj)]
  have e : bndBoxDmEy p g dt x J s 0 j = s.box.Ey 0 j - dt / p.eps * J.Jy 0 j - dt / (p.eps * g.dy) *
      (s.box.Hz 0 j - s.hz .low .box (x.n .low - 1) j) := by
    unfold bndBoxDmEy
    dsimp only
    rw [if_pos hj, if_pos rfl]
    simp only [Axis.lo, if_pos hl]
  rw [e, hJ, h, mul_zero, sub_zero]
  constructor
  · intro hh
    by_cases hz : s.box.Hz 0 j = s.hz .low .box (x.n .low - 1) j
    · exact .inr hz
    · left
      have hz' : s.box.Hz 0 j - s.hz .low .box (x.n .low - 1) j ≠ 0 := sub_ne_zero.2 hz
      have h2 : dt / (p.eps * g.dy) * (s.box.Hz 0 j - s.hz .low .box (x.n .low - 1) j) = dt / p.eps / g.dx * (s.box.Hz 0 j - s.hz .low .box (x.n .low - 1) j) := by
        linarith
      have h3 := mul_right_cancel₀ hz' h2
      rw [div_div, div_eq_div_iff (by positivity) (by positivity)] at h3
      have h4 : dt * p.eps * g.dx = dt * p.eps * g.dy := by linarith
      exact mul_left_cancel₀ (by positivity) h4
  · rintro (hh | hh)
    · rw [hh, div_div]
    · rw [hh]; ring

/-- **C93, currents on the seam, refuted.** In the staircased scheme they agree after a step only if no current flows there: the block does not know
the currents of the box. -/
theorem C93_seam_current_refuted (p : Phys) (heps : 0 < p.eps) (g : Grid) (dt : ℝ) (hdt : 0 < dt) (x y : Axis) (hx : x.Ok)
    (hl : 0 < x.n .low) (hgy : g.ny = y.n .box) (J : Curr) (s : St) (j : ℕ) (hj : j < g.ny) (h : s.box.Ey 0 j = (s.blk .low .box).ey (x.n .low) j) :
    (bndBox p g dt x y J s).Ey 0 j = (bndBlk p dt g.dx g.dy x y s .low .box).ey (x.n .low) j ↔ J.Jy 0 j = 0 := by
  rw [blk_border p heps dt g.dx g.dy x y hx hl s j (hgy ▸ hj)]
  have e : (bndBox p g dt x y J s).Ey 0 j = s.box.Ey 0 j - dt / p.eps * J.Jy 0 j - dt / (g.dx * p.eps) *
      (s.box.Hz 0 j - s.hz .low .box (x.n .low - 1) j) := by
    simp only [bndBox]
    rw [if_pos hj, if_pos trivial]
    simp only [Axis.lo, if_pos hl]
  have e1 : dt / p.eps / g.dx = dt / (g.dx * p.eps) := by rw [div_div, mul_comm]
  rw [e, h, e1]
  have hk : dt / p.eps ≠ 0 := by positivity
  constructor
  · intro hh
    have : dt / p.eps * J.Jy 0 j = 0 := by linarith
    exact (mul_eq_zero.1 this).resolve_left hk
  · intro hh
    rw [hh]; ring

/-- A box of 4 by 5 cells with layers of ten cells on all sides meets the hypotheses of `C93_monolith`. -/
example (p : Phys) : (axisX p 4 10 10 1 2).Ok ∧ (axisY p 5 10 10 2).Ok ∧ (axisX p 4 10 10 1 2).n .box = 4 ∧ (axisX p 4 10 10 1 2).tot = 24 ∧
    NoEdge ⟨4, 5, 1, 2, fun _ _ => 1, fun _ _ => 2, fun _ _ => 1, fun _ _ => True⟩ (axisX p 4 10 10 1 2) (axisY p 5 10 10 2)
      ⟨fun i j => if i = 2 ∧ j = 2 then 1 else 0, fun _ _ => 0⟩ :=
  ⟨(C93_axes p 4 10 10 (by norm_num) 1 2).1, (C93_axes p 5 10 10 (by norm_num) 1 2).2, rfl, rfl,
    ⟨fun _ _ => rfl, fun _ _ => rfl, fun _ _ => if_neg (by omega), fun _ i => if_neg (fun h => absurd h.2 (by show ¬ (5 = 2); omega))⟩⟩

end
end S2
end Wakis
