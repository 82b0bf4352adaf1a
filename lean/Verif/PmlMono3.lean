import Verif.PmlLayout3

/-!
# C97: the three-dimensional solver with absorbing layers

Model of `PmlBlock3D` (`wakis/pmlBlock3D.py`), of `update_e_boundary` and of a step of the FDTD scheme with blocks (`wakis/solver3D.py`). The blocks are indexed
by their place and have the cell counts of their place; `C96` says when this is so.
-/

namespace Wakis
namespace L3
noncomputable section
open Classical Finset
open S2 (Phys Ext Axis coA coB coC coD)

/-! ### Model -/

/-- The layers along an axis: cell counts and conductivities by cell (`S2.Axis`, the starred arrays divided by `mu_0/eps_0`) and by node. -/
structure Line extends Axis where
  sn : Ext → ℕ → ℝ

/-- The split fields of a block (pmlBlock3D.py:42-57). `Ex`, … are their sums after every step of the time loop (pmlBlock3D.py:223-231). -/
structure Split where
  exy : A3
  exz : A3
  eyx : A3
  eyz : A3
  ezx : A3
  ezy : A3
  hxy : A3
  hxz : A3
  hyx : A3
  hyz : A3
  hzx : A3
  hzy : A3

/-- `sum_e_fields`, `sum_h_fields` (pmlBlock3D.py:223-231). -/
def Split.ex (s : Split) (i j k : ℕ) : ℝ := s.exy i j k + s.exz i j k
@[inherit_doc Split.ex] def Split.ey (s : Split) (i j k : ℕ) : ℝ := s.eyx i j k + s.eyz i j k
@[inherit_doc Split.ex] def Split.ez (s : Split) (i j k : ℕ) : ℝ := s.ezx i j k + s.ezy i j k
@[inherit_doc Split.ex] def Split.hx (s : Split) (i j k : ℕ) : ℝ := s.hxy i j k + s.hxz i j k
@[inherit_doc Split.ex] def Split.hy (s : Split) (i j k : ℕ) : ℝ := s.hyx i j k + s.hyz i j k
@[inherit_doc Split.ex] def Split.hz (s : Split) (i j k : ℕ) : ℝ := s.hzx i j k + s.hzy i j k

/-- The fields of the solver and of its blocks; the entry of the box itself is not used. -/
structure St where
  box : Fields
  blk : Place → Split

/-- `blocks_mat[q].Hx`: of a block or, in the centre, of the solver (solver3D.py:79). -/
def St.hx (s : St) (q : Place) : A3 := if q = (.box, .box, .box) then s.box.Hx else (s.blk q).hx
/-- `blocks_mat[q].Hy`. -/
def St.hy (s : St) (q : Place) : A3 := if q = (.box, .box, .box) then s.box.Hy else (s.blk q).hy
/-- `blocks_mat[q].Hz`. -/
def St.hz (s : St) (q : Place) : A3 := if q = (.box, .box, .box) then s.box.Hz else (s.blk q).hz

/-- `PmlBlock3D.advance_h_fdtd` (pmlBlock3D.py:126-168). -/
def advBlkH (p : Phys) (dt dx dy dz : ℝ) (x y z : Line) (q : Place) (s : Split) : Split :=
  { s with
    hzx := fun i j k => if i < x.n q.1 ∧ j < y.n q.2.1 ∧ k < z.n q.2.2 + 1 then
      coC p dt (x.s q.1 i) * s.hzx i j k - coD p dt (x.s q.1 i) / dx * (s.ey (i + 1) j k - s.ey i j k) else s.hzx i j k
    hzy := fun i j k => if i < x.n q.1 ∧ j < y.n q.2.1 ∧ k < z.n q.2.2 + 1 then
      coC p dt (y.s q.2.1 j) * s.hzy i j k + coD p dt (y.s q.2.1 j) / dy * (s.ex i (j + 1) k - s.ex i j k) else s.hzy i j k
    hxy := fun i j k => if i < x.n q.1 + 1 ∧ j < y.n q.2.1 ∧ k < z.n q.2.2 then
      coC p dt (y.s q.2.1 j) * s.hxy i j k - coD p dt (y.s q.2.1 j) / dy * (s.ez i (j + 1) k - s.ez i j k) else s.hxy i j k
    hxz := fun i j k => if i < x.n q.1 + 1 ∧ j < y.n q.2.1 ∧ k < z.n q.2.2 then
      coC p dt (z.s q.2.2 k) * s.hxz i j k + coD p dt (z.s q.2.2 k) / dz * (s.ey i j (k + 1) - s.ey i j k) else s.hxz i j k
    hyx := fun i j k => if i < x.n q.1 ∧ j < y.n q.2.1 + 1 ∧ k < z.n q.2.2 then
      coC p dt (x.s q.1 i) * s.hyx i j k + coD p dt (x.s q.1 i) / dx * (s.ez (i + 1) j k - s.ez i j k) else s.hyx i j k
    hyz := fun i j k => if i < x.n q.1 ∧ j < y.n q.2.1 + 1 ∧ k < z.n q.2.2 then
      coC p dt (z.s q.2.2 k) * s.hyz i j k - coD p dt (z.s q.2.2 k) / dz * (s.ex i j (k + 1) - s.ex i j k) else s.hyz i j k }

/-- The difference of a magnetic field across node `i` of a line of cells at place `e` of an axis, where it is taken: inside the line, and at its ends if there is a
neighbour, whose last (`lo`) or first (`hi`) entry is read. Inside the line this is in `advance_e_fdtd` (pmlBlock3D.py:170-221, solver3D.py:1694-1729), at the ends in
`update_e_boundary` (pmlBlock3D.py:232-368, solver3D.py:1290-1576). -/
def diff (x : Line) (e : Ext) (H : ℕ → ℝ) (lo hi : Ext → ℝ) (i : ℕ) : Option ℝ :=
  if i = 0 then (x.lo e).map fun e' => H 0 - lo e'
  else if i = x.n e then (x.hi e).map fun e' => hi e' - H (i - 1)
  else if i < x.n e then some (H i - H (i - 1))
  else none

/-- The update of a split electric field from such a difference. -/
def lineE (p : Phys) (dt d sg : ℝ) (x : Line) (e : Ext) (F : ℝ) (i : ℕ) : Option ℝ → ℝ
  | some δ => coA p dt (x.sn e i) * F + sg * (coB p dt (x.sn e i) / d * δ)
  | none => F

/-- `PmlBlock3D.advance_e_fdtd` and `PmlBlock3D.update_e_boundary` (pmlBlock3D.py:170-221, 232-368): they read no electric field but the own entry and only magnetic
fields, which they do not change. -/
def advBlkE (p : Phys) (dt dx dy dz : ℝ) (x y z : Line) (st : St) (q : Place) : Split :=
  let s := st.blk q
  { s with
    exy := fun i j k => if i < x.n q.1 ∧ k < z.n q.2.2 + 1 then lineE p dt dy 1 y q.2.1 (s.exy i j k) j
      (diff y q.2.1 (fun j => s.hz i j k) (fun b => st.hz (q.1, b, q.2.2) i (y.n b - 1) k) (fun b => st.hz (q.1, b, q.2.2) i 0 k) j) else s.exy i j k
    exz := fun i j k => if i < x.n q.1 ∧ j < y.n q.2.1 + 1 then lineE p dt dz (-1) z q.2.2 (s.exz i j k) k
      (diff z q.2.2 (fun k => s.hy i j k) (fun c => st.hy (q.1, q.2.1, c) i j (z.n c - 1)) (fun c => st.hy (q.1, q.2.1, c) i j 0) k) else s.exz i j k
    eyx := fun i j k => if j < y.n q.2.1 ∧ k < z.n q.2.2 + 1 then lineE p dt dx (-1) x q.1 (s.eyx i j k) i
      (diff x q.1 (fun i => s.hz i j k) (fun a => st.hz (a, q.2.1, q.2.2) (x.n a - 1) j k) (fun a => st.hz (a, q.2.1, q.2.2) 0 j k) i) else s.eyx i j k
    eyz := fun i j k => if i < x.n q.1 + 1 ∧ j < y.n q.2.1 then lineE p dt dz 1 z q.2.2 (s.eyz i j k) k
      (diff z q.2.2 (fun k => s.hx i j k) (fun c => st.hx (q.1, q.2.1, c) i j (z.n c - 1)) (fun c => st.hx (q.1, q.2.1, c) i j 0) k) else s.eyz i j k
    ezx := fun i j k => if j < y.n q.2.1 + 1 ∧ k < z.n q.2.2 then lineE p dt dx 1 x q.1 (s.ezx i j k) i
      (diff x q.1 (fun i => s.hy i j k) (fun a => st.hy (a, q.2.1, q.2.2) (x.n a - 1) j k) (fun a => st.hy (a, q.2.1, q.2.2) 0 j k) i) else s.ezx i j k
    ezy := fun i j k => if i < x.n q.1 + 1 ∧ k < z.n q.2.2 then lineE p dt dy (-1) y q.2.1 (s.ezy i j k) j
      (diff y q.2.1 (fun j => s.hx i j k) (fun b => st.hx (q.1, b, q.2.2) i (y.n b - 1) k) (fun b => st.hx (q.1, b, q.2.2) i 0 k) j) else s.ezy i j k }

/-- The new value of an electric field of the solver: both differences have to be there, and inside the box the edge must not conduct. -/
def boxE (old J cJ ca cb : ℝ) (inside free : Prop) : Option ℝ → Option ℝ → ℝ
  | some a, some b => if inside → free then old - cJ * J + ca * a - cb * b else old
  | _, _ => old

/-- `advance_e_fdtd` and `update_e_boundary` of the solver (solver3D.py:1290-1576, 1694-1729): the loops over the inside, the six faces and the twelve edges. On the
faces and edges `l_x`, … are not looked at. -/
def advBoxE (p : Phys) (g : Grid) (dt : ℝ) (x y z : Line) (J : Curr) (st : St) : Fields :=
  let f := st.box
  { f with
    Ex := fun i j k => if i < g.nx then
        boxE (f.Ex i j k) (J.Jx i j k) (dt / p.eps) (dt / (g.dy * p.eps)) (dt / (g.dz * p.eps)) ((1 ≤ j ∧ j < g.ny) ∧ (1 ≤ k ∧ k < g.nz)) (g.lx i j k > 0)
          (diff y .box (fun j => f.Hz i j k) (fun b => st.hz (.box, b, .box) i (y.n b - 1) k) (fun b => st.hz (.box, b, .box) i 0 k) j)
          (diff z .box (fun k => f.Hy i j k) (fun c => st.hy (.box, .box, c) i j (z.n c - 1)) (fun c => st.hy (.box, .box, c) i j 0) k)
      else f.Ex i j k
    Ey := fun i j k => if j < g.ny then
        boxE (f.Ey i j k) (J.Jy i j k) (dt / p.eps) (dt / (g.dz * p.eps)) (dt / (g.dx * p.eps)) ((1 ≤ i ∧ i < g.nx) ∧ (1 ≤ k ∧ k < g.nz)) (g.ly i j k > 0)
          (diff z .box (fun k => f.Hx i j k) (fun c => st.hx (.box, .box, c) i j (z.n c - 1)) (fun c => st.hx (.box, .box, c) i j 0) k)
          (diff x .box (fun i => f.Hz i j k) (fun a => st.hz (a, .box, .box) (x.n a - 1) j k) (fun a => st.hz (a, .box, .box) 0 j k) i)
      else f.Ey i j k
    Ez := fun i j k => if k < g.nz then
        boxE (f.Ez i j k) (J.Jz i j k) (dt / p.eps) (dt / (g.dx * p.eps)) (dt / (g.dy * p.eps)) ((1 ≤ i ∧ i < g.nx) ∧ (1 ≤ j ∧ j < g.ny)) (g.lz i j k > 0)
          (diff x .box (fun i => f.Hy i j k) (fun a => st.hy (a, .box, .box) (x.n a - 1) j k) (fun a => st.hy (a, .box, .box) 0 j k) i)
          (diff y .box (fun j => f.Hx i j k) (fun b => st.hx (.box, b, .box) i (y.n b - 1) k) (fun b => st.hx (.box, b, .box) i 0 k) j)
      else f.Ez i j k }

/-- `one_step_fdtd` with blocks (solver3D.py:1609-1657): all magnetic fields, then the electric ones, for which only magnetic fields of neighbours are read. -/
def stepPml (p : Phys) (g : Grid) (dt : ℝ) (x y z : Line) (J : Curr) (s : St) : St :=
  let s1 : St := ⟨advHFdtd p g dt s.box, fun q => advBlkH p dt g.dx g.dy g.dz x y z q (s.blk q)⟩
  ⟨advBoxE p g dt x y z J s1, fun q => advBlkE p dt g.dx g.dy g.dz x y z s1 q⟩

/-- `one_step_dm` with blocks (solver3D.py:1731-1767): it does not call any of their methods nor `update_e_boundary`. -/
def stepPmlDm (p : Phys) (g : Grid) (dt : ℝ) (J : Curr) (s : St) : St := ⟨stepDm p g dt J s.box, s.blk⟩

/-- All fields zero (pmlBlock3D.py:39-57). -/
def zeroSplit : Split :=
  ⟨fun _ _ _ => 0, fun _ _ _ => 0, fun _ _ _ => 0, fun _ _ _ => 0, fun _ _ _ => 0, fun _ _ _ => 0, fun _ _ _ => 0, fun _ _ _ => 0, fun _ _ _ => 0,
    fun _ _ _ => 0, fun _ _ _ => 0, fun _ _ _ => 0⟩

/-- The fields of a new solver. -/
def zeroSt : St := ⟨zero, fun _ => zeroSplit⟩

/-- The state after `n` steps. -/
def runPml (step : Curr → St → St) (J : ℕ → Curr) : ℕ → St
  | 0 => zeroSt
  | n + 1 => step (J n) (runPml step J n)

/-! ### Specification: one grid with a perfectly matched layer -/

/-- The conductivity at a node of the axis. -/
def Line.node (x : Line) (I : ℕ) : ℝ :=
  if I < x.n .low then x.sn .low I else if I ≤ x.n .low + x.n .box then x.sn .box (I - x.n .low) else x.sn .high (I - (x.n .low + x.n .box))

/-- What a single grid with a split-field layer needs: cell counts, conductivities by cell and by node, which faces and edges are free, and currents. -/
structure Mono where
  tx : ℕ
  ty : ℕ
  tz : ℕ
  cx : ℕ → ℝ
  cy : ℕ → ℝ
  cz : ℕ → ℝ
  nx : ℕ → ℝ
  ny : ℕ → ℝ
  nz : ℕ → ℝ
  faceX : ℕ → ℕ → ℕ → Prop
  faceY : ℕ → ℕ → ℕ → Prop
  faceZ : ℕ → ℕ → ℕ → Prop
  edgeX : ℕ → ℕ → ℕ → Prop
  edgeY : ℕ → ℕ → ℕ → Prop
  edgeZ : ℕ → ℕ → ℕ → Prop
  J : Curr

/-- Magnetic update of Berenger's split equations on one grid. -/
def monoH (p : Phys) (dt dx dy dz : ℝ) (m : Mono) (s : Split) : Split :=
  { s with
    hxy := fun I J K => if (I ≤ m.tx ∧ J < m.ty ∧ K < m.tz) ∧ m.faceX I J K then
      coC p dt (m.cy J) * s.hxy I J K - coD p dt (m.cy J) / dy * (s.ez I (J + 1) K - s.ez I J K) else s.hxy I J K
    hxz := fun I J K => if (I ≤ m.tx ∧ J < m.ty ∧ K < m.tz) ∧ m.faceX I J K then
      coC p dt (m.cz K) * s.hxz I J K + coD p dt (m.cz K) / dz * (s.ey I J (K + 1) - s.ey I J K) else s.hxz I J K
    hyz := fun I J K => if (I < m.tx ∧ J ≤ m.ty ∧ K < m.tz) ∧ m.faceY I J K then
      coC p dt (m.cz K) * s.hyz I J K - coD p dt (m.cz K) / dz * (s.ex I J (K + 1) - s.ex I J K) else s.hyz I J K
    hyx := fun I J K => if (I < m.tx ∧ J ≤ m.ty ∧ K < m.tz) ∧ m.faceY I J K then
      coC p dt (m.cx I) * s.hyx I J K + coD p dt (m.cx I) / dx * (s.ez (I + 1) J K - s.ez I J K) else s.hyx I J K
    hzx := fun I J K => if (I < m.tx ∧ J < m.ty ∧ K ≤ m.tz) ∧ m.faceZ I J K then
      coC p dt (m.cx I) * s.hzx I J K - coD p dt (m.cx I) / dx * (s.ey (I + 1) J K - s.ey I J K) else s.hzx I J K
    hzy := fun I J K => if (I < m.tx ∧ J < m.ty ∧ K ≤ m.tz) ∧ m.faceZ I J K then
      coC p dt (m.cy J) * s.hzy I J K + coD p dt (m.cy J) / dy * (s.ex I (J + 1) K - s.ex I J K) else s.hzy I J K }

/-- Electric update of Berenger's split equations on one grid with conducting border. The current is in the first part. -/
def monoE (p : Phys) (dt dx dy dz : ℝ) (m : Mono) (s : Split) : Split :=
  { s with
    exy := fun I J K => if (I < m.tx ∧ (1 ≤ J ∧ J < m.ty) ∧ (1 ≤ K ∧ K < m.tz)) ∧ m.edgeX I J K then
      coA p dt (m.ny J) * s.exy I J K + coB p dt (m.ny J) / dy * (s.hz I J K - s.hz I (J - 1) K) - dt / p.eps * m.J.Jx I J K else s.exy I J K
    exz := fun I J K => if (I < m.tx ∧ (1 ≤ J ∧ J < m.ty) ∧ (1 ≤ K ∧ K < m.tz)) ∧ m.edgeX I J K then
      coA p dt (m.nz K) * s.exz I J K - coB p dt (m.nz K) / dz * (s.hy I J K - s.hy I J (K - 1)) else s.exz I J K
    eyz := fun I J K => if ((1 ≤ I ∧ I < m.tx) ∧ J < m.ty ∧ (1 ≤ K ∧ K < m.tz)) ∧ m.edgeY I J K then
      coA p dt (m.nz K) * s.eyz I J K + coB p dt (m.nz K) / dz * (s.hx I J K - s.hx I J (K - 1)) - dt / p.eps * m.J.Jy I J K else s.eyz I J K
    eyx := fun I J K => if ((1 ≤ I ∧ I < m.tx) ∧ J < m.ty ∧ (1 ≤ K ∧ K < m.tz)) ∧ m.edgeY I J K then
      coA p dt (m.nx I) * s.eyx I J K - coB p dt (m.nx I) / dx * (s.hz I J K - s.hz (I - 1) J K) else s.eyx I J K
    ezx := fun I J K => if ((1 ≤ I ∧ I < m.tx) ∧ (1 ≤ J ∧ J < m.ty) ∧ K < m.tz) ∧ m.edgeZ I J K then
      coA p dt (m.nx I) * s.ezx I J K + coB p dt (m.nx I) / dx * (s.hy I J K - s.hy (I - 1) J K) - dt / p.eps * m.J.Jz I J K else s.ezx I J K
    ezy := fun I J K => if ((1 ≤ I ∧ I < m.tx) ∧ (1 ≤ J ∧ J < m.ty) ∧ K < m.tz) ∧ m.edgeZ I J K then
      coA p dt (m.ny J) * s.ezy I J K - coB p dt (m.ny J) / dy * (s.hx I J K - s.hx I (J - 1) K) else s.ezy I J K }

/-- The state of the single grid after `n` steps with the grid data `m 0, m 1, …` (only the currents differ). -/
def runMono (p : Phys) (dt dx dy dz : ℝ) (m : ℕ → Mono) : ℕ → Split
  | 0 => zeroSplit
  | n + 1 => monoE p dt dx dy dz (m n) (monoH p dt dx dy dz (m n) (runMono p dt dx dy dz m n))

/-- The single grid made of the box and its layers: conductors and currents are in the box. -/
def whole (g : Grid) (x y z : Line) (J : Curr) : Mono where
  tx := x.tot
  ty := y.tot
  tz := z.tot
  cx := x.sig
  cy := y.sig
  cz := z.sig
  nx := x.node
  ny := y.node
  nz := z.node
  faceX I K L := (x.n .low ≤ I ∧ I ≤ x.n .low + g.nx) ∧ (y.n .low ≤ K ∧ K < y.n .low + g.ny) ∧ (z.n .low ≤ L ∧ L < z.n .low + g.nz) →
    g.Syz (I - x.n .low) (K - y.n .low) (L - z.n .low) > 0
  faceY I K L := (x.n .low ≤ I ∧ I < x.n .low + g.nx) ∧ (y.n .low ≤ K ∧ K ≤ y.n .low + g.ny) ∧ (z.n .low ≤ L ∧ L < z.n .low + g.nz) →
    g.Szx (I - x.n .low) (K - y.n .low) (L - z.n .low) > 0
  faceZ I K L := (x.n .low ≤ I ∧ I < x.n .low + g.nx) ∧ (y.n .low ≤ K ∧ K < y.n .low + g.ny) ∧ (z.n .low ≤ L ∧ L ≤ z.n .low + g.nz) →
    g.Sxy (I - x.n .low) (K - y.n .low) (L - z.n .low) > 0
  edgeX I K L := (x.n .low ≤ I ∧ I < x.n .low + g.nx) ∧ (y.n .low < K ∧ K < y.n .low + g.ny) ∧ (z.n .low < L ∧ L < z.n .low + g.nz) →
    g.lx (I - x.n .low) (K - y.n .low) (L - z.n .low) > 0
  edgeY I K L := (x.n .low < I ∧ I < x.n .low + g.nx) ∧ (y.n .low ≤ K ∧ K < y.n .low + g.ny) ∧ (z.n .low < L ∧ L < z.n .low + g.nz) →
    g.ly (I - x.n .low) (K - y.n .low) (L - z.n .low) > 0
  edgeZ I K L := (x.n .low < I ∧ I < x.n .low + g.nx) ∧ (y.n .low < K ∧ K < y.n .low + g.ny) ∧ (z.n .low ≤ L ∧ L < z.n .low + g.nz) →
    g.lz (I - x.n .low) (K - y.n .low) (L - z.n .low) > 0
  J :=
    { Jx := fun I K L => if (x.n .low ≤ I ∧ I < x.n .low + g.nx) ∧ (y.n .low ≤ K ∧ K ≤ y.n .low + g.ny) ∧ (z.n .low ≤ L ∧ L ≤ z.n .low + g.nz) then
        J.Jx (I - x.n .low) (K - y.n .low) (L - z.n .low) else 0
      Jy := fun I K L => if (x.n .low ≤ I ∧ I ≤ x.n .low + g.nx) ∧ (y.n .low ≤ K ∧ K < y.n .low + g.ny) ∧ (z.n .low ≤ L ∧ L ≤ z.n .low + g.nz) then
        J.Jy (I - x.n .low) (K - y.n .low) (L - z.n .low) else 0
      Jz := fun I K L => if (x.n .low ≤ I ∧ I ≤ x.n .low + g.nx) ∧ (y.n .low ≤ K ∧ K ≤ y.n .low + g.ny) ∧ (z.n .low ≤ L ∧ L < z.n .low + g.nz) then
        J.Jz (I - x.n .low) (K - y.n .low) (L - z.n .low) else 0 }

/-- A component of a block is that of the single grid: `n` counts along an axis, with the last node where the component has one. -/
def Part (q : Place) (x y z : Line) (bx by_ bz : Bool) (F G : A3) : Prop :=
  ∀ i j k, i < x.n q.1 + bx.toNat → j < y.n q.2.1 + by_.toNat → k < z.n q.2.2 + bz.toNat → F i j k = G (x.off q.1 + i) (y.off q.2.1 + j) (z.off q.2.2 + k)

/-- The block at place `q` exists: it has cells and is not the box. -/
def Real_ (q : Place) (x y z : Line) : Prop := q ≠ (.box, .box, .box) ∧ 0 < x.n q.1 ∧ 0 < y.n q.2.1 ∧ 0 < z.n q.2.2

/-- The fields of the solver and its blocks are those of the single grid, also on the borders, which neighbours hold twice. -/
structure Same (x y z : Line) (s : St) (G : Split) : Prop where
  Ex : Part (.box, .box, .box) x y z false true true s.box.Ex G.ex
  Ey : Part (.box, .box, .box) x y z true false true s.box.Ey G.ey
  Ez : Part (.box, .box, .box) x y z true true false s.box.Ez G.ez
  Hx : Part (.box, .box, .box) x y z true false false s.box.Hx G.hx
  Hy : Part (.box, .box, .box) x y z false true false s.box.Hy G.hy
  Hz : Part (.box, .box, .box) x y z false false true s.box.Hz G.hz
  exy : ∀ q, Real_ q x y z → Part q x y z false true true (s.blk q).exy G.exy
  exz : ∀ q, Real_ q x y z → Part q x y z false true true (s.blk q).exz G.exz
  eyx : ∀ q, Real_ q x y z → Part q x y z true false true (s.blk q).eyx G.eyx
  eyz : ∀ q, Real_ q x y z → Part q x y z true false true (s.blk q).eyz G.eyz
  ezx : ∀ q, Real_ q x y z → Part q x y z true true false (s.blk q).ezx G.ezx
  ezy : ∀ q, Real_ q x y z → Part q x y z true true false (s.blk q).ezy G.ezy
  hxy : ∀ q, Real_ q x y z → Part q x y z true false false (s.blk q).hxy G.hxy
  hxz : ∀ q, Real_ q x y z → Part q x y z true false false (s.blk q).hxz G.hxz
  hyx : ∀ q, Real_ q x y z → Part q x y z false true false (s.blk q).hyx G.hyx
  hyz : ∀ q, Real_ q x y z → Part q x y z false true false (s.blk q).hyz G.hyz
  hzx : ∀ q, Real_ q x y z → Part q x y z false false true (s.blk q).hzx G.hzx
  hzy : ∀ q, Real_ q x y z → Part q x y z false false true (s.blk q).hzy G.hzy

/-- The box has cells and does not conduct; the layers do not conduct at the nodes next to it. -/
structure Line.Ok (x : Line) : Prop where
  pos : 0 < x.n .box
  cell : ∀ i, x.s .box i = 0
  node : ∀ i, x.sn .box i = 0
  low : x.sn .low (x.n .low) = 0
  high : x.sn .high 0 = 0

/-- The grid, the axes and the box fit together. -/
structure Fit (g : Grid) (x y z : Line) : Prop where
  okx : x.Ok
  oky : y.Ok
  okz : z.Ok
  gx : g.nx = x.n .box
  gy : g.ny = y.n .box
  gz : g.nz = z.n .box

/-- The currents along those sides of the box where a layer begins vanish, and the faces of the grid there are free. -/
structure Clear (g : Grid) (x y z : Line) (J : Curr) : Prop where
  xlo : 0 < x.n .low → ∀ j k, J.Jy 0 j k = 0 ∧ J.Jz 0 j k = 0 ∧ g.Syz 0 j k > 0
  xhi : 0 < x.n .high → ∀ j k, J.Jy g.nx j k = 0 ∧ J.Jz g.nx j k = 0 ∧ g.Syz g.nx j k > 0
  ylo : 0 < y.n .low → ∀ i k, J.Jx i 0 k = 0 ∧ J.Jz i 0 k = 0 ∧ g.Szx i 0 k > 0
  yhi : 0 < y.n .high → ∀ i k, J.Jx i g.ny k = 0 ∧ J.Jz i g.ny k = 0 ∧ g.Szx i g.ny k > 0
  zlo : 0 < z.n .low → ∀ i j, J.Jx i j 0 = 0 ∧ J.Jy i j 0 = 0 ∧ g.Sxy i j 0 > 0
  zhi : 0 < z.n .high → ∀ i j, J.Jx i j g.nz = 0 ∧ J.Jy i j g.nz = 0 ∧ g.Sxy i j g.nz > 0

/-! ### Lines -/

lemma Line.node_off (x : Line) (hx : x.Ok) {e : Ext} {i : ℕ} (hi : i ≤ x.n e) : x.node (x.off e + i) = x.sn e i := by
  unfold Line.node
  cases e
  · rw [if_neg (by simp only [Axis.off]; omega), if_pos (by simp only [Axis.off]; omega), hx.node, hx.node]
  · by_cases h : i < x.n .low
    · rw [if_pos (by simp only [Axis.off]; omega)]; congr 1; simp only [Axis.off]; omega
    · have e : i = x.n .low := by omega
      rw [if_neg (by simp only [Axis.off]; omega), if_pos (by simp only [Axis.off]; omega), hx.node, e, hx.low]
  · by_cases h : i = 0
    · subst h
      rw [if_neg (by simp only [Axis.off]; omega), if_pos (by simp only [Axis.off]; omega), hx.node, hx.high]
    · rw [if_neg (by simp only [Axis.off]; omega), if_neg (by simp only [Axis.off]; omega)]; congr 1; simp only [Axis.off]; omega

lemma diff_eq {x : Line} (hx : x.Ok) {e : Ext} (hn : 0 < x.n e) {H GH : ℕ → ℝ} {lo hi : Ext → ℝ} (hH : ∀ i, i < x.n e → H i = GH (x.off e + i))
    (hlo : ∀ e', x.lo e = some e' → lo e' = GH (x.off e' + (x.n e' - 1))) (hhi : ∀ e', x.hi e = some e' → hi e' = GH (x.off e' + 0)) {i : ℕ} (hi' : i ≤ x.n e) :
    diff x e H lo hi i = if 1 ≤ x.off e + i ∧ x.off e + i < x.tot then some (GH (x.off e + i) - GH (x.off e + i - 1)) else none := by
  unfold diff
  by_cases h0 : i = 0
  · subst h0
    rw [if_pos rfl]
    cases h : x.lo e with
    | none => rw [if_neg (by rw [Axis.lo_none h]; omega)]; rfl
    | some e' =>
      obtain ⟨q1, q2⟩ := Axis.lo_some hx.pos h
      rw [if_pos ⟨by omega, Axis.off_lt _ hn⟩, hH 0 hn, Option.map_some, hlo e' h, show x.off e + 0 - 1 = x.off e' + (x.n e' - 1) by omega]
  · rw [if_neg h0]
    by_cases hN : i = x.n e
    · rw [if_pos hN]
      cases h : x.hi e with
      | none => rw [if_neg (by have := Axis.hi_none h; omega)]; rfl
      | some e' =>
        obtain ⟨q1, q2⟩ := Axis.hi_some hx.pos h
        have := Axis.off_lt x.toAxis q2
        rw [if_pos ⟨by omega, by omega⟩, hH (i - 1) (by omega), Option.map_some, hhi e' h, show x.off e + (i - 1) = x.off e + i - 1 by omega,
          show x.off e' + 0 = x.off e + i by omega]
    · have hlt : i < x.n e := by omega
      rw [if_neg hN, if_pos hlt, if_pos ⟨by omega, Axis.off_lt _ hlt⟩, hH i hlt, hH (i - 1) (by omega), show x.off e + (i - 1) = x.off e + i - 1 by omega]








/-! ### Proof of the equivalence -/

lemma seam (x : Line) {e : Ext} {i : ℕ} (hn : 0 < x.n e) (hi : i ≤ x.n e) (h : x.n .low ≤ x.off e + i ∧ x.off e + i ≤ x.n .low + x.n .box) :
    e = .box ∨ (0 < x.n .low ∧ x.off e + i - x.n .low = 0) ∨ (0 < x.n .high ∧ x.off e + i - x.n .low = x.n .box) := by
  cases e
  · exact .inl rfl
  · simp only [Axis.off] at h ⊢; exact .inr (.inl ⟨hn, by omega⟩)
  · simp only [Axis.off] at h ⊢; exact .inr (.inr ⟨hn, by omega⟩)

lemma within (x : Line) {e : Ext} {i : ℕ} (hi : i < x.n e) (h : x.n .low ≤ x.off e + i ∧ x.off e + i < x.n .low + x.n .box) : e = .box := Axis.in_box hi h

lemma strict (x : Line) {e : Ext} {i : ℕ} (hi : i ≤ x.n e) (h : x.n .low < x.off e + i ∧ x.off e + i < x.n .low + x.n .box) : e = .box := by
  cases e <;> simp only [Axis.off] at h ⊢ <;> omega

lemma off_le (x : Line) {e : Ext} {i : ℕ} (hi : i ≤ x.n e) : x.off e + i ≤ x.tot := by
  cases e <;> simp only [Axis.off, Axis.tot] <;> omega

variable {p : Phys} {g : Grid} {dt : ℝ} {x y z : Line} {J : Curr} {s : St} {G : Split}

lemma faceX_blk (f : Fit g x y z) (c : Clear g x y z J) {q : Place} (hq : Real_ q x y z) {i j k : ℕ} (hi : i ≤ x.n q.1) (hj : j < y.n q.2.1) (hk : k < z.n q.2.2) :
    (whole g x y z J).faceX (x.off q.1 + i) (y.off q.2.1 + j) (z.off q.2.2 + k) := by
  rintro ⟨h1, h2, h3⟩
  rw [f.gx] at h1; rw [f.gy] at h2; rw [f.gz] at h3
  have ey := within y hj h2
  have ez := within z hk h3
  rcases seam x hq.2.1 hi h1 with ex | ⟨hl, e⟩ | ⟨hl, e⟩
  · exact absurd (Prod.ext ex (Prod.ext ey ez)) hq.1
  · rw [e]; exact (c.xlo hl _ _).2.2
  · rw [e, ← f.gx]; exact (c.xhi hl _ _).2.2

lemma faceY_blk (f : Fit g x y z) (c : Clear g x y z J) {q : Place} (hq : Real_ q x y z) {i j k : ℕ} (hi : i < x.n q.1) (hj : j ≤ y.n q.2.1) (hk : k < z.n q.2.2) :
    (whole g x y z J).faceY (x.off q.1 + i) (y.off q.2.1 + j) (z.off q.2.2 + k) := by
  rintro ⟨h1, h2, h3⟩
  rw [f.gx] at h1; rw [f.gy] at h2; rw [f.gz] at h3
  have ex := within x hi h1
  have ez := within z hk h3
  rcases seam y hq.2.2.1 hj h2 with ey | ⟨hl, e⟩ | ⟨hl, e⟩
  · exact absurd (Prod.ext ex (Prod.ext ey ez)) hq.1
  · rw [e]; exact (c.ylo hl _ _).2.2
  · rw [e, ← f.gy]; exact (c.yhi hl _ _).2.2

lemma faceZ_blk (f : Fit g x y z) (c : Clear g x y z J) {q : Place} (hq : Real_ q x y z) {i j k : ℕ} (hi : i < x.n q.1) (hj : j < y.n q.2.1) (hk : k ≤ z.n q.2.2) :
    (whole g x y z J).faceZ (x.off q.1 + i) (y.off q.2.1 + j) (z.off q.2.2 + k) := by
  rintro ⟨h1, h2, h3⟩
  rw [f.gx] at h1; rw [f.gy] at h2; rw [f.gz] at h3
  have ex := within x hi h1
  have ey := within y hj h2
  rcases seam z hq.2.2.2 hk h3 with ez | ⟨hl, e⟩ | ⟨hl, e⟩
  · exact absurd (Prod.ext ex (Prod.ext ey ez)) hq.1
  · rw [e]; exact (c.zlo hl _ _).2.2
  · rw [e, ← f.gz]; exact (c.zhi hl _ _).2.2

lemma edgeX_blk (f : Fit g x y z) {q : Place} (hq : Real_ q x y z) {i j k : ℕ} (hi : i < x.n q.1) (hj : j ≤ y.n q.2.1) (hk : k ≤ z.n q.2.2) :
    (whole g x y z J).edgeX (x.off q.1 + i) (y.off q.2.1 + j) (z.off q.2.2 + k) := by
  rintro ⟨h1, h2, h3⟩
  rw [f.gx] at h1; rw [f.gy] at h2; rw [f.gz] at h3
  have ex := within x hi h1
  have ey := strict y hj h2
  have ez := strict z hk h3
  exact absurd (Prod.ext ex (Prod.ext ey ez)) hq.1

lemma jx_blk (f : Fit g x y z) (c : Clear g x y z J) {q : Place} (hq : Real_ q x y z) {i j k : ℕ} (hi : i < x.n q.1) (hj : j ≤ y.n q.2.1) (hk : k ≤ z.n q.2.2) :
    (whole g x y z J).J.Jx (x.off q.1 + i) (y.off q.2.1 + j) (z.off q.2.2 + k) = 0 := by
  simp only [whole]
  refine ite_eq_right_iff.2 fun h => ?_
  obtain ⟨h1, h2, h3⟩ := h
  rw [f.gx] at h1; rw [f.gy] at h2; rw [f.gz] at h3
  have ex := within x hi h1
  rcases seam y hq.2.2.1 hj h2 with ey | ⟨hl, e⟩ | ⟨hl, e⟩
  · rcases seam z hq.2.2.2 hk h3 with ez | ⟨hl, e⟩ | ⟨hl, e⟩
    · exact absurd (Prod.ext ex (Prod.ext ey ez)) hq.1
    · rw [e]; exact (c.zlo hl _ _).1
    · rw [e, ← f.gz]; exact (c.zhi hl _ _).1
  · rw [e]; exact (c.ylo hl _ _).1
  · rw [e, ← f.gy]; exact (c.yhi hl _ _).1

lemma edgeY_blk (f : Fit g x y z) {q : Place} (hq : Real_ q x y z) {i j k : ℕ} (hi : i ≤ x.n q.1) (hj : j < y.n q.2.1) (hk : k ≤ z.n q.2.2) :
    (whole g x y z J).edgeY (x.off q.1 + i) (y.off q.2.1 + j) (z.off q.2.2 + k) := by
  rintro ⟨h1, h2, h3⟩
  rw [f.gx] at h1; rw [f.gy] at h2; rw [f.gz] at h3
  have ex := strict x hi h1
  have ey := within y hj h2
  have ez := strict z hk h3
  exact absurd (Prod.ext ex (Prod.ext ey ez)) hq.1

lemma jy_blk (f : Fit g x y z) (c : Clear g x y z J) {q : Place} (hq : Real_ q x y z) {i j k : ℕ} (hi : i ≤ x.n q.1) (hj : j < y.n q.2.1) (hk : k ≤ z.n q.2.2) :
    (whole g x y z J).J.Jy (x.off q.1 + i) (y.off q.2.1 + j) (z.off q.2.2 + k) = 0 := by
  simp only [whole]
  refine ite_eq_right_iff.2 fun h => ?_
  obtain ⟨h1, h2, h3⟩ := h
  rw [f.gx] at h1; rw [f.gy] at h2; rw [f.gz] at h3
  have ey := within y hj h2
  rcases seam x hq.2.1 hi h1 with ex | ⟨hl, e⟩ | ⟨hl, e⟩
  · rcases seam z hq.2.2.2 hk h3 with ez | ⟨hl, e⟩ | ⟨hl, e⟩
    · exact absurd (Prod.ext ex (Prod.ext ey ez)) hq.1
    · rw [e]; exact (c.zlo hl _ _).2.1
    · rw [e, ← f.gz]; exact (c.zhi hl _ _).2.1
  · rw [e]; exact (c.xlo hl _ _).1
  · rw [e, ← f.gx]; exact (c.xhi hl _ _).1

lemma edgeZ_blk (f : Fit g x y z) {q : Place} (hq : Real_ q x y z) {i j k : ℕ} (hi : i ≤ x.n q.1) (hj : j ≤ y.n q.2.1) (hk : k < z.n q.2.2) :
    (whole g x y z J).edgeZ (x.off q.1 + i) (y.off q.2.1 + j) (z.off q.2.2 + k) := by
  rintro ⟨h1, h2, h3⟩
  rw [f.gx] at h1; rw [f.gy] at h2; rw [f.gz] at h3
  have ex := strict x hi h1
  have ey := strict y hj h2
  have ez := within z hk h3
  exact absurd (Prod.ext ex (Prod.ext ey ez)) hq.1

lemma jz_blk (f : Fit g x y z) (c : Clear g x y z J) {q : Place} (hq : Real_ q x y z) {i j k : ℕ} (hi : i ≤ x.n q.1) (hj : j ≤ y.n q.2.1) (hk : k < z.n q.2.2) :
    (whole g x y z J).J.Jz (x.off q.1 + i) (y.off q.2.1 + j) (z.off q.2.2 + k) = 0 := by
  simp only [whole]
  refine ite_eq_right_iff.2 fun h => ?_
  obtain ⟨h1, h2, h3⟩ := h
  rw [f.gx] at h1; rw [f.gy] at h2; rw [f.gz] at h3
  have ez := within z hk h3
  rcases seam x hq.2.1 hi h1 with ex | ⟨hl, e⟩ | ⟨hl, e⟩
  · rcases seam y hq.2.2.1 hj h2 with ey | ⟨hl, e⟩ | ⟨hl, e⟩
    · exact absurd (Prod.ext ex (Prod.ext ey ez)) hq.1
    · rw [e]; exact (c.ylo hl _ _).2.1
    · rw [e, ← f.gy]; exact (c.yhi hl _ _).2.1
  · rw [e]; exact (c.xlo hl _ _).2.1
  · rw [e, ← f.gx]; exact (c.xhi hl _ _).2.1

/-- The tangential electric and the normal magnetic field on the border of the single grid are zero. -/
structure Border (tx ty tz : ℕ) (G : Split) : Prop where
  x : ∀ I J K, I = 0 ∨ I = tx → G.eyx I J K = 0 ∧ G.eyz I J K = 0 ∧ G.ezx I J K = 0 ∧ G.ezy I J K = 0 ∧ G.hxy I J K = 0 ∧ G.hxz I J K = 0
  y : ∀ I J K, J = 0 ∨ J = ty → G.exy I J K = 0 ∧ G.exz I J K = 0 ∧ G.ezx I J K = 0 ∧ G.ezy I J K = 0 ∧ G.hyx I J K = 0 ∧ G.hyz I J K = 0
  z : ∀ I J K, K = 0 ∨ K = tz → G.exy I J K = 0 ∧ G.exz I J K = 0 ∧ G.eyx I J K = 0 ∧ G.eyz I J K = 0 ∧ G.hzx I J K = 0 ∧ G.hzy I J K = 0

lemma border_h {dx dy dz : ℝ} {m : Mono} (h : Border m.tx m.ty m.tz G) : Border m.tx m.ty m.tz (monoH p dt dx dy dz m G) := by
  refine ⟨fun I J K hI => ?_, fun I J K hJ => ?_, fun I J K hK => ?_⟩
  · obtain ⟨a1, a2, a3, a4, a5, a6⟩ := h.x I J K hI
    obtain ⟨_, _, b3, b4, _, _⟩ := h.x I (J + 1) K hI
    obtain ⟨c1, c2, _, _, _, _⟩ := h.x I J (K + 1) hI
    exact ⟨a1, a2, a3, a4, by simp only [monoH, Split.ez, a3, a4, a5, b3, b4]; simp, by simp only [monoH, Split.ey, a1, a2, a6, c1, c2]; simp⟩
  · obtain ⟨a1, a2, a3, a4, a5, a6⟩ := h.y I J K hJ
    obtain ⟨_, _, b3, b4, _, _⟩ := h.y (I + 1) J K hJ
    obtain ⟨c1, c2, _, _, _, _⟩ := h.y I J (K + 1) hJ
    exact ⟨a1, a2, a3, a4, by simp only [monoH, Split.ez, a3, a4, a5, b3, b4]; simp, by simp only [monoH, Split.ex, a1, a2, a6, c1, c2]; simp⟩
  · obtain ⟨a1, a2, a3, a4, a5, a6⟩ := h.z I J K hK
    obtain ⟨_, _, b3, b4, _, _⟩ := h.z (I + 1) J K hK
    obtain ⟨c1, c2, _, _, _, _⟩ := h.z I (J + 1) K hK
    exact ⟨a1, a2, a3, a4, by simp only [monoH, Split.ey, a3, a4, a5, b3, b4]; simp, by simp only [monoH, Split.ex, a1, a2, a6, c1, c2]; simp⟩

lemma border_e {dx dy dz : ℝ} {m : Mono} (h : Border m.tx m.ty m.tz G) : Border m.tx m.ty m.tz (monoE p dt dx dy dz m G) := by
  refine ⟨fun I J K hI => ?_, fun I J K hJ => ?_, fun I J K hK => ?_⟩
  · obtain ⟨a1, a2, a3, a4, a5, a6⟩ := h.x I J K hI
    refine ⟨(if_neg ?_).trans a1, (if_neg ?_).trans a2, (if_neg ?_).trans a3, (if_neg ?_).trans a4, a5, a6⟩ <;> (rintro ⟨h, _⟩; omega)
  · obtain ⟨a1, a2, a3, a4, a5, a6⟩ := h.y I J K hJ
    refine ⟨(if_neg ?_).trans a1, (if_neg ?_).trans a2, (if_neg ?_).trans a3, (if_neg ?_).trans a4, a5, a6⟩ <;> (rintro ⟨h, _⟩; omega)
  · obtain ⟨a1, a2, a3, a4, a5, a6⟩ := h.z I J K hK
    refine ⟨(if_neg ?_).trans a1, (if_neg ?_).trans a2, (if_neg ?_).trans a3, (if_neg ?_).trans a4, a5, a6⟩ <;> (rintro ⟨h, _⟩; omega)

lemma Same.hx (h : Same x y z s G) (q : Place) (h1 : 0 < x.n q.1) (h2 : 0 < y.n q.2.1) (h3 : 0 < z.n q.2.2) : Part q x y z true false false (s.hx q) G.hx := by
  intro i j k hi hj hk
  unfold St.hx
  by_cases hq : q = (.box, .box, .box)
  · rw [if_pos hq]; subst hq; exact h.Hx i j k hi hj hk
  · rw [if_neg hq]
    exact congrArg₂ (· + ·) (h.hxy q ⟨hq, h1, h2, h3⟩ i j k hi hj hk) (h.hxz q ⟨hq, h1, h2, h3⟩ i j k hi hj hk)

lemma Same.hy (h : Same x y z s G) (q : Place) (h1 : 0 < x.n q.1) (h2 : 0 < y.n q.2.1) (h3 : 0 < z.n q.2.2) : Part q x y z false true false (s.hy q) G.hy := by
  intro i j k hi hj hk
  unfold St.hy
  by_cases hq : q = (.box, .box, .box)
  · rw [if_pos hq]; subst hq; exact h.Hy i j k hi hj hk
  · rw [if_neg hq]
    exact congrArg₂ (· + ·) (h.hyx q ⟨hq, h1, h2, h3⟩ i j k hi hj hk) (h.hyz q ⟨hq, h1, h2, h3⟩ i j k hi hj hk)

lemma Same.hz (h : Same x y z s G) (q : Place) (h1 : 0 < x.n q.1) (h2 : 0 < y.n q.2.1) (h3 : 0 < z.n q.2.2) : Part q x y z false false true (s.hz q) G.hz := by
  intro i j k hi hj hk
  unfold St.hz
  by_cases hq : q = (.box, .box, .box)
  · rw [if_pos hq]; subst hq; exact h.Hz i j k hi hj hk
  · rw [if_neg hq]
    exact congrArg₂ (· + ·) (h.hzx q ⟨hq, h1, h2, h3⟩ i j k hi hj hk) (h.hzy q ⟨hq, h1, h2, h3⟩ i j k hi hj hk)

lemma Same.ex (h : Same x y z s G) {q : Place} (hq : Real_ q x y z) : Part q x y z false true true (s.blk q).ex G.ex := fun i j k hi hj hk =>
  congrArg₂ (· + ·) (h.exy q hq i j k hi hj hk) (h.exz q hq i j k hi hj hk)

lemma Same.ey (h : Same x y z s G) {q : Place} (hq : Real_ q x y z) : Part q x y z true false true (s.blk q).ey G.ey := fun i j k hi hj hk =>
  congrArg₂ (· + ·) (h.eyx q hq i j k hi hj hk) (h.eyz q hq i j k hi hj hk)

lemma Same.ez (h : Same x y z s G) {q : Place} (hq : Real_ q x y z) : Part q x y z true true false (s.blk q).ez G.ez := fun i j k hi hj hk =>
  congrArg₂ (· + ·) (h.ezx q hq i j k hi hj hk) (h.ezy q hq i j k hi hj hk)

lemma coef {p : Phys} (dt d F D : ℝ) (h : 0 < p.mu) : coC p dt 0 * F - coD p dt 0 / d * D = F - dt / (d * p.mu) * D := by
  rw [S2.coC_zero h, S2.coD_zero h, one_mul, div_div, mul_comm p.mu d]

lemma coef' {p : Phys} (dt d F D : ℝ) (h : 0 < p.mu) : coC p dt 0 * F + coD p dt 0 / d * D = F + dt / (d * p.mu) * D := by
  rw [S2.coC_zero h, S2.coD_zero h, one_mul, div_div, mul_comm p.mu d]

/-- The fields after the magnetic half of a step. -/
def midH (p : Phys) (g : Grid) (dt : ℝ) (x y z : Line) (s : St) : St := ⟨advHFdtd p g dt s.box, fun q => advBlkH p dt g.dx g.dy g.dz x y z q (s.blk q)⟩

lemma same_hxy (f : Fit g x y z) (c : Clear g x y z J) (h : Same x y z s G) (q : Place) (hq : Real_ q x y z) :
    Part q x y z true false false ((midH p g dt x y z s).blk q).hxy (monoH p dt g.dx g.dy g.dz (whole g x y z J) G).hxy := by
  intro i j k hi hj hk
  have e0 := h.ez hq i j k (by simp only [Bool.toNat_true, Bool.toNat_false] at *; omega) (by simp only [Bool.toNat_true, Bool.toNat_false] at *; omega) (by simp only [Bool.toNat_true, Bool.toNat_false] at *; omega)
  have e1 := h.ez hq i (j + 1) k (by simp only [Bool.toNat_true, Bool.toNat_false] at *; omega) (by simp only [Bool.toNat_true, Bool.toNat_false] at *; omega) (by simp only [Bool.toNat_true, Bool.toNat_false] at *; omega)
  have e2 := h.hxy q hq i j k hi hj hk
  simp only [Bool.toNat_true, Bool.toNat_false, Nat.add_zero] at hi hj hk
  have k1 := faceX_blk f c hq (Nat.lt_succ_iff.1 hi) hj hk
  have k2 := off_le x (Nat.lt_succ_iff.1 hi)
  have k3 := Axis.off_lt y.toAxis hj
  have k4 := Axis.off_lt z.toAxis hk
  have k5 := Axis.sig_off y.toAxis hj
  simp only [← Nat.add_assoc] at e1
  simp only [midH, advBlkH, monoH]
  rw [if_pos ⟨hi, hj, hk⟩, if_pos ⟨⟨k2, k3, k4⟩, k1⟩, e0, e1, e2, show (whole g x y z J).cy = y.sig from rfl, k5]

lemma same_hxz (f : Fit g x y z) (c : Clear g x y z J) (h : Same x y z s G) (q : Place) (hq : Real_ q x y z) :
    Part q x y z true false false ((midH p g dt x y z s).blk q).hxz (monoH p dt g.dx g.dy g.dz (whole g x y z J) G).hxz := by
  intro i j k hi hj hk
  have e0 := h.ey hq i j k (by simp only [Bool.toNat_true, Bool.toNat_false] at *; omega) (by simp only [Bool.toNat_true, Bool.toNat_false] at *; omega) (by simp only [Bool.toNat_true, Bool.toNat_false] at *; omega)
  have e1 := h.ey hq i j (k + 1) (by simp only [Bool.toNat_true, Bool.toNat_false] at *; omega) (by simp only [Bool.toNat_true, Bool.toNat_false] at *; omega) (by simp only [Bool.toNat_true, Bool.toNat_false] at *; omega)
  have e2 := h.hxz q hq i j k hi hj hk
  simp only [Bool.toNat_true, Bool.toNat_false, Nat.add_zero] at hi hj hk
  have k1 := faceX_blk f c hq (Nat.lt_succ_iff.1 hi) hj hk
  have k2 := off_le x (Nat.lt_succ_iff.1 hi)
  have k3 := Axis.off_lt y.toAxis hj
  have k4 := Axis.off_lt z.toAxis hk
  have k5 := Axis.sig_off z.toAxis hk
  simp only [← Nat.add_assoc] at e1
  simp only [midH, advBlkH, monoH]
  rw [if_pos ⟨hi, hj, hk⟩, if_pos ⟨⟨k2, k3, k4⟩, k1⟩, e0, e1, e2, show (whole g x y z J).cz = z.sig from rfl, k5]

lemma same_box_hx (hmu : 0 < p.mu) (f : Fit g x y z) (h : Same x y z s G) :
    Part (.box, .box, .box) x y z true false false (midH p g dt x y z s).box.Hx (monoH p dt g.dx g.dy g.dz (whole g x y z J) G).hx := by
  intro i j k hi hj hk
  have a0 := h.Ez i j k (by simp only [Bool.toNat_true, Bool.toNat_false] at *; omega) (by simp only [Bool.toNat_true, Bool.toNat_false] at *; omega) (by simp only [Bool.toNat_true, Bool.toNat_false] at *; omega)
  have a1 := h.Ez i (j + 1) k (by simp only [Bool.toNat_true, Bool.toNat_false] at *; omega) (by simp only [Bool.toNat_true, Bool.toNat_false] at *; omega) (by simp only [Bool.toNat_true, Bool.toNat_false] at *; omega)
  have b0 := h.Ey i j k (by simp only [Bool.toNat_true, Bool.toNat_false] at *; omega) (by simp only [Bool.toNat_true, Bool.toNat_false] at *; omega) (by simp only [Bool.toNat_true, Bool.toNat_false] at *; omega)
  have b1 := h.Ey i j (k + 1) (by simp only [Bool.toNat_true, Bool.toNat_false] at *; omega) (by simp only [Bool.toNat_true, Bool.toNat_false] at *; omega) (by simp only [Bool.toNat_true, Bool.toNat_false] at *; omega)
  have e2 := h.Hx i j k hi hj hk
  simp only [Bool.toNat_true, Bool.toNat_false, Nat.add_zero] at hi hj hk
  have k2 := off_le x (Nat.lt_succ_iff.1 hi)
  have k3 := Axis.off_lt y.toAxis hj
  have k4 := Axis.off_lt z.toAxis hk
  have k5 := (Axis.sig_off y.toAxis hj).trans (f.oky.cell _)
  have k6 := (Axis.sig_off z.toAxis hk).trans (f.okz.cell _)
  have k1 : (whole g x y z J).faceX (x.off .box + i) (y.off .box + j) (z.off .box + k) ↔ g.Syz i j k > 0 := by
    have h1 := f.gx; have h2 := f.gy; have h3 := f.gz
    simp only [whole, Axis.off, Nat.add_sub_cancel_left]
    exact ⟨fun t => t ⟨⟨by omega, by omega⟩, ⟨by omega, by omega⟩, ⟨by omega, by omega⟩⟩, fun t _ => t⟩
  simp only [← Nat.add_assoc] at a1 b1
  have e3 : (midH p g dt x y z s).box.Hx i j k = if g.Syz i j k > 0 then
      s.box.Hx i j k - dt / (g.dy * p.mu) * (s.box.Ez i (j + 1) k - s.box.Ez i j k)
        + dt / (g.dz * p.mu) * (s.box.Ey i j (k + 1) - s.box.Ey i j k) else s.box.Hx i j k := by
    have h1 := f.gx; have h2 := f.gy; have h3 := f.gz
    simp only [midH, advHFdtd]
    exact if_congr ⟨fun t => t.2, fun t => ⟨⟨by omega, by omega, by omega⟩, t⟩⟩ rfl rfl
  rw [e3, a0, a1, b0, b1, e2]
  by_cases hS : g.Syz i j k > 0
  · have t := k1.2 hS
    simp only [Split.hx, monoH]
    rw [if_pos hS, if_pos ⟨⟨k2, k3, k4⟩, t⟩, if_pos ⟨⟨k2, k3, k4⟩, t⟩, show (whole g x y z J).cy = y.sig from rfl,
      show (whole g x y z J).cz = z.sig from rfl, k5, k6, coef _ _ _ _ hmu, coef' _ _ _ _ hmu]
    ring
  · have t := fun t => hS (k1.1 t)
    simp only [Split.hx, monoH]
    rw [if_neg hS, if_neg (fun u => t u.2), if_neg (fun u => t u.2)]

lemma same_hyz (f : Fit g x y z) (c : Clear g x y z J) (h : Same x y z s G) (q : Place) (hq : Real_ q x y z) :
    Part q x y z false true false ((midH p g dt x y z s).blk q).hyz (monoH p dt g.dx g.dy g.dz (whole g x y z J) G).hyz := by
  intro i j k hi hj hk
  have e0 := h.ex hq i j k (by simp only [Bool.toNat_true, Bool.toNat_false] at *; omega) (by simp only [Bool.toNat_true, Bool.toNat_false] at *; omega) (by simp only [Bool.toNat_true, Bool.toNat_false] at *; omega)
  have e1 := h.ex hq i j (k + 1) (by simp only [Bool.toNat_true, Bool.toNat_false] at *; omega) (by simp only [Bool.toNat_true, Bool.toNat_false] at *; omega) (by simp only [Bool.toNat_true, Bool.toNat_false] at *; omega)
  have e2 := h.hyz q hq i j k hi hj hk
  simp only [Bool.toNat_true, Bool.toNat_false, Nat.add_zero] at hi hj hk
  have k1 := faceY_blk f c hq hi (Nat.lt_succ_iff.1 hj) hk
  have k2 := Axis.off_lt x.toAxis hi
  have k3 := off_le y (Nat.lt_succ_iff.1 hj)
  have k4 := Axis.off_lt z.toAxis hk
  have k5 := Axis.sig_off z.toAxis hk
  simp only [← Nat.add_assoc] at e1
  simp only [midH, advBlkH, monoH]
  rw [if_pos ⟨hi, hj, hk⟩, if_pos ⟨⟨k2, k3, k4⟩, k1⟩, e0, e1, e2, show (whole g x y z J).cz = z.sig from rfl, k5]

lemma same_hyx (f : Fit g x y z) (c : Clear g x y z J) (h : Same x y z s G) (q : Place) (hq : Real_ q x y z) :
    Part q x y z false true false ((midH p g dt x y z s).blk q).hyx (monoH p dt g.dx g.dy g.dz (whole g x y z J) G).hyx := by
  intro i j k hi hj hk
  have e0 := h.ez hq i j k (by simp only [Bool.toNat_true, Bool.toNat_false] at *; omega) (by simp only [Bool.toNat_true, Bool.toNat_false] at *; omega) (by simp only [Bool.toNat_true, Bool.toNat_false] at *; omega)
  have e1 := h.ez hq (i + 1) j k (by simp only [Bool.toNat_true, Bool.toNat_false] at *; omega) (by simp only [Bool.toNat_true, Bool.toNat_false] at *; omega) (by simp only [Bool.toNat_true, Bool.toNat_false] at *; omega)
  have e2 := h.hyx q hq i j k hi hj hk
  simp only [Bool.toNat_true, Bool.toNat_false, Nat.add_zero] at hi hj hk
  have k1 := faceY_blk f c hq hi (Nat.lt_succ_iff.1 hj) hk
  have k2 := Axis.off_lt x.toAxis hi
  have k3 := off_le y (Nat.lt_succ_iff.1 hj)
  have k4 := Axis.off_lt z.toAxis hk
  have k5 := Axis.sig_off x.toAxis hi
  simp only [← Nat.add_assoc] at e1
  simp only [midH, advBlkH, monoH]
  rw [if_pos ⟨hi, hj, hk⟩, if_pos ⟨⟨k2, k3, k4⟩, k1⟩, e0, e1, e2, show (whole g x y z J).cx = x.sig from rfl, k5]

lemma same_box_hy (hmu : 0 < p.mu) (f : Fit g x y z) (h : Same x y z s G) :
    Part (.box, .box, .box) x y z false true false (midH p g dt x y z s).box.Hy (monoH p dt g.dx g.dy g.dz (whole g x y z J) G).hy := by
  intro i j k hi hj hk
  have a0 := h.Ex i j k (by simp only [Bool.toNat_true, Bool.toNat_false] at *; omega) (by simp only [Bool.toNat_true, Bool.toNat_false] at *; omega) (by simp only [Bool.toNat_true, Bool.toNat_false] at *; omega)
  have a1 := h.Ex i j (k + 1) (by simp only [Bool.toNat_true, Bool.toNat_false] at *; omega) (by simp only [Bool.toNat_true, Bool.toNat_false] at *; omega) (by simp only [Bool.toNat_true, Bool.toNat_false] at *; omega)
  have b0 := h.Ez i j k (by simp only [Bool.toNat_true, Bool.toNat_false] at *; omega) (by simp only [Bool.toNat_true, Bool.toNat_false] at *; omega) (by simp only [Bool.toNat_true, Bool.toNat_false] at *; omega)
  have b1 := h.Ez (i + 1) j k (by simp only [Bool.toNat_true, Bool.toNat_false] at *; omega) (by simp only [Bool.toNat_true, Bool.toNat_false] at *; omega) (by simp only [Bool.toNat_true, Bool.toNat_false] at *; omega)
  have e2 := h.Hy i j k hi hj hk
  simp only [Bool.toNat_true, Bool.toNat_false, Nat.add_zero] at hi hj hk
  have k2 := Axis.off_lt x.toAxis hi
  have k3 := off_le y (Nat.lt_succ_iff.1 hj)
  have k4 := Axis.off_lt z.toAxis hk
  have k5 := (Axis.sig_off z.toAxis hk).trans (f.okz.cell _)
  have k6 := (Axis.sig_off x.toAxis hi).trans (f.okx.cell _)
  have k1 : (whole g x y z J).faceY (x.off .box + i) (y.off .box + j) (z.off .box + k) ↔ g.Szx i j k > 0 := by
    have h1 := f.gx; have h2 := f.gy; have h3 := f.gz
    simp only [whole, Axis.off, Nat.add_sub_cancel_left]
    exact ⟨fun t => t ⟨⟨by omega, by omega⟩, ⟨by omega, by omega⟩, ⟨by omega, by omega⟩⟩, fun t _ => t⟩
  simp only [← Nat.add_assoc] at a1 b1
  have e3 : (midH p g dt x y z s).box.Hy i j k = if g.Szx i j k > 0 then
      s.box.Hy i j k - dt / (g.dz * p.mu) * (s.box.Ex i j (k + 1) - s.box.Ex i j k)
        + dt / (g.dx * p.mu) * (s.box.Ez (i + 1) j k - s.box.Ez i j k) else s.box.Hy i j k := by
    have h1 := f.gx; have h2 := f.gy; have h3 := f.gz
    simp only [midH, advHFdtd]
    exact if_congr ⟨fun t => t.2, fun t => ⟨⟨by omega, by omega, by omega⟩, t⟩⟩ rfl rfl
  rw [e3, a0, a1, b0, b1, e2]
  by_cases hS : g.Szx i j k > 0
  · have t := k1.2 hS
    simp only [Split.hy, monoH]
    rw [if_pos hS, if_pos ⟨⟨k2, k3, k4⟩, t⟩, if_pos ⟨⟨k2, k3, k4⟩, t⟩, show (whole g x y z J).cz = z.sig from rfl,
      show (whole g x y z J).cx = x.sig from rfl, k5, k6, coef _ _ _ _ hmu, coef' _ _ _ _ hmu]
    ring
  · have t := fun t => hS (k1.1 t)
    simp only [Split.hy, monoH]
    rw [if_neg hS, if_neg (fun u => t u.2), if_neg (fun u => t u.2)]

lemma same_hzx (f : Fit g x y z) (c : Clear g x y z J) (h : Same x y z s G) (q : Place) (hq : Real_ q x y z) :
    Part q x y z false false true ((midH p g dt x y z s).blk q).hzx (monoH p dt g.dx g.dy g.dz (whole g x y z J) G).hzx := by
  intro i j k hi hj hk
  have e0 := h.ey hq i j k (by simp only [Bool.toNat_true, Bool.toNat_false] at *; omega) (by simp only [Bool.toNat_true, Bool.toNat_false] at *; omega) (by simp only [Bool.toNat_true, Bool.toNat_false] at *; omega)
  have e1 := h.ey hq (i + 1) j k (by simp only [Bool.toNat_true, Bool.toNat_false] at *; omega) (by simp only [Bool.toNat_true, Bool.toNat_false] at *; omega) (by simp only [Bool.toNat_true, Bool.toNat_false] at *; omega)
  have e2 := h.hzx q hq i j k hi hj hk
  simp only [Bool.toNat_true, Bool.toNat_false, Nat.add_zero] at hi hj hk
  have k1 := faceZ_blk f c hq hi hj (Nat.lt_succ_iff.1 hk)
  have k2 := Axis.off_lt x.toAxis hi
  have k3 := Axis.off_lt y.toAxis hj
  have k4 := off_le z (Nat.lt_succ_iff.1 hk)
  have k5 := Axis.sig_off x.toAxis hi
  simp only [← Nat.add_assoc] at e1
  simp only [midH, advBlkH, monoH]
  rw [if_pos ⟨hi, hj, hk⟩, if_pos ⟨⟨k2, k3, k4⟩, k1⟩, e0, e1, e2, show (whole g x y z J).cx = x.sig from rfl, k5]

lemma same_hzy (f : Fit g x y z) (c : Clear g x y z J) (h : Same x y z s G) (q : Place) (hq : Real_ q x y z) :
    Part q x y z false false true ((midH p g dt x y z s).blk q).hzy (monoH p dt g.dx g.dy g.dz (whole g x y z J) G).hzy := by
  intro i j k hi hj hk
  have e0 := h.ex hq i j k (by simp only [Bool.toNat_true, Bool.toNat_false] at *; omega) (by simp only [Bool.toNat_true, Bool.toNat_false] at *; omega) (by simp only [Bool.toNat_true, Bool.toNat_false] at *; omega)
  have e1 := h.ex hq i (j + 1) k (by simp only [Bool.toNat_true, Bool.toNat_false] at *; omega) (by simp only [Bool.toNat_true, Bool.toNat_false] at *; omega) (by simp only [Bool.toNat_true, Bool.toNat_false] at *; omega)
  have e2 := h.hzy q hq i j k hi hj hk
  simp only [Bool.toNat_true, Bool.toNat_false, Nat.add_zero] at hi hj hk
  have k1 := faceZ_blk f c hq hi hj (Nat.lt_succ_iff.1 hk)
  have k2 := Axis.off_lt x.toAxis hi
  have k3 := Axis.off_lt y.toAxis hj
  have k4 := off_le z (Nat.lt_succ_iff.1 hk)
  have k5 := Axis.sig_off y.toAxis hj
  simp only [← Nat.add_assoc] at e1
  simp only [midH, advBlkH, monoH]
  rw [if_pos ⟨hi, hj, hk⟩, if_pos ⟨⟨k2, k3, k4⟩, k1⟩, e0, e1, e2, show (whole g x y z J).cy = y.sig from rfl, k5]

lemma same_box_hz (hmu : 0 < p.mu) (f : Fit g x y z) (h : Same x y z s G) :
    Part (.box, .box, .box) x y z false false true (midH p g dt x y z s).box.Hz (monoH p dt g.dx g.dy g.dz (whole g x y z J) G).hz := by
  intro i j k hi hj hk
  have a0 := h.Ey i j k (by simp only [Bool.toNat_true, Bool.toNat_false] at *; omega) (by simp only [Bool.toNat_true, Bool.toNat_false] at *; omega) (by simp only [Bool.toNat_true, Bool.toNat_false] at *; omega)
  have a1 := h.Ey (i + 1) j k (by simp only [Bool.toNat_true, Bool.toNat_false] at *; omega) (by simp only [Bool.toNat_true, Bool.toNat_false] at *; omega) (by simp only [Bool.toNat_true, Bool.toNat_false] at *; omega)
  have b0 := h.Ex i j k (by simp only [Bool.toNat_true, Bool.toNat_false] at *; omega) (by simp only [Bool.toNat_true, Bool.toNat_false] at *; omega) (by simp only [Bool.toNat_true, Bool.toNat_false] at *; omega)
  have b1 := h.Ex i (j + 1) k (by simp only [Bool.toNat_true, Bool.toNat_false] at *; omega) (by simp only [Bool.toNat_true, Bool.toNat_false] at *; omega) (by simp only [Bool.toNat_true, Bool.toNat_false] at *; omega)
  have e2 := h.Hz i j k hi hj hk
  simp only [Bool.toNat_true, Bool.toNat_false, Nat.add_zero] at hi hj hk
  have k2 := Axis.off_lt x.toAxis hi
  have k3 := Axis.off_lt y.toAxis hj
  have k4 := off_le z (Nat.lt_succ_iff.1 hk)
  have k5 := (Axis.sig_off x.toAxis hi).trans (f.okx.cell _)
  have k6 := (Axis.sig_off y.toAxis hj).trans (f.oky.cell _)
  have k1 : (whole g x y z J).faceZ (x.off .box + i) (y.off .box + j) (z.off .box + k) ↔ g.Sxy i j k > 0 := by
    have h1 := f.gx; have h2 := f.gy; have h3 := f.gz
    simp only [whole, Axis.off, Nat.add_sub_cancel_left]
    exact ⟨fun t => t ⟨⟨by omega, by omega⟩, ⟨by omega, by omega⟩, ⟨by omega, by omega⟩⟩, fun t _ => t⟩
  simp only [← Nat.add_assoc] at a1 b1
  have e3 : (midH p g dt x y z s).box.Hz i j k = if g.Sxy i j k > 0 then
      s.box.Hz i j k - dt / (g.dx * p.mu) * (s.box.Ey (i + 1) j k - s.box.Ey i j k)
        + dt / (g.dy * p.mu) * (s.box.Ex i (j + 1) k - s.box.Ex i j k) else s.box.Hz i j k := by
    have h1 := f.gx; have h2 := f.gy; have h3 := f.gz
    simp only [midH, advHFdtd]
    exact if_congr ⟨fun t => t.2, fun t => ⟨⟨by omega, by omega, by omega⟩, t⟩⟩ rfl rfl
  rw [e3, a0, a1, b0, b1, e2]
  by_cases hS : g.Sxy i j k > 0
  · have t := k1.2 hS
    simp only [Split.hz, monoH]
    rw [if_pos hS, if_pos ⟨⟨k2, k3, k4⟩, t⟩, if_pos ⟨⟨k2, k3, k4⟩, t⟩, show (whole g x y z J).cx = x.sig from rfl,
      show (whole g x y z J).cy = y.sig from rfl, k5, k6, coef _ _ _ _ hmu, coef' _ _ _ _ hmu]
    ring
  · have t := fun t => hS (k1.1 t)
    simp only [Split.hz, monoH]
    rw [if_neg hS, if_neg (fun u => t u.2), if_neg (fun u => t u.2)]

lemma same_h (hmu : 0 < p.mu) (f : Fit g x y z) (c : Clear g x y z J) (h : Same x y z s G) :
    Same x y z (midH p g dt x y z s) (monoH p dt g.dx g.dy g.dz (whole g x y z J) G) where
  Ex := h.Ex
  Ey := h.Ey
  Ez := h.Ez
  Hx := same_box_hx hmu f h
  Hy := same_box_hy hmu f h
  Hz := same_box_hz hmu f h
  exy := h.exy
  exz := h.exz
  eyx := h.eyx
  eyz := h.eyz
  ezx := h.ezx
  ezy := h.ezy
  hxy := same_hxy f c h
  hxz := same_hxz f c h
  hyx := same_hyx f c h
  hyz := same_hyz f c h
  hzx := same_hzx f c h
  hzy := same_hzy f c h

lemma line_fin {A B M : Prop} [Decidable A] [Decidable M] {a b F δ X sg : ℝ} (hM : M ↔ A ∧ B) (hX : X = a * F + sg * (b * δ)) (hB : ¬ B → F = 0 ∧ δ = 0) :
    (if A then a * F + sg * (b * δ) else F) = if M then X else F := by
  by_cases b' : B
  · by_cases a' : A
    · rw [if_pos a', if_pos (hM.2 ⟨a', b'⟩), hX]
    · rw [if_neg a', if_neg fun m => a' (hM.1 m).1]
  · obtain ⟨h1, h2⟩ := hB b'
    rw [if_neg fun m => b' (hM.1 m).2, h1, h2]
    simp

lemma lineE_eq {d sg F D : ℝ} {e : Ext} {i : ℕ} {A : Prop} [Decidable A] {δ : Option ℝ} (hx : x.Ok) (hi : i ≤ x.n e) (hδ : δ = if A then some D else none) :
    lineE p dt d sg x e F i δ = if A then coA p dt (x.node (x.off e + i)) * F + sg * (coB p dt (x.node (x.off e + i)) / d * D) else F := by
  rw [hδ, Line.node_off x hx hi]
  by_cases a : A
  · rw [if_pos a, if_pos a]; rfl
  · rw [if_neg a, if_neg a]; rfl

lemma boxE_eq {old j cJ ca cb a b : ℝ} {inside free P Q : Prop} [Decidable P] [Decidable Q] [Decidable ((P ∧ Q) ∧ (inside → free))] :
    boxE old j cJ ca cb inside free (if P then some a else none) (if Q then some b else none) =
      if (P ∧ Q) ∧ (inside → free) then old - cJ * j + ca * a - cb * b else old := by
  by_cases h1 : P
  · by_cases h2 : Q
    · rw [if_pos h1, if_pos h2]
      exact if_congr ⟨fun t => ⟨⟨h1, h2⟩, t⟩, fun t => t.2⟩ rfl rfl
    · rw [if_pos h1, if_neg h2, if_neg fun t => h2 t.1.2]; rfl
  · have e : ¬ ((P ∧ Q) ∧ (inside → free)) := fun t => h1 t.1.1
    rw [if_neg h1, if_neg e]; rfl

lemma Same.hx_blk (h : Same x y z s G) {q : Place} (hq : Real_ q x y z) : Part q x y z true false false (s.blk q).hx G.hx := fun i j k hi hj hk =>
  congrArg₂ (· + ·) (h.hxy q hq i j k hi hj hk) (h.hxz q hq i j k hi hj hk)

lemma Same.hy_blk (h : Same x y z s G) {q : Place} (hq : Real_ q x y z) : Part q x y z false true false (s.blk q).hy G.hy := fun i j k hi hj hk =>
  congrArg₂ (· + ·) (h.hyx q hq i j k hi hj hk) (h.hyz q hq i j k hi hj hk)

lemma Same.hz_blk (h : Same x y z s G) {q : Place} (hq : Real_ q x y z) : Part q x y z false false true (s.blk q).hz G.hz := fun i j k hi hj hk =>
  congrArg₂ (· + ·) (h.hzx q hq i j k hi hj hk) (h.hzy q hq i j k hi hj hk)

lemma same_exy (f : Fit g x y z) (c : Clear g x y z J) (h : Same x y z s G) (hb : Border x.tot y.tot z.tot G) (q : Place) (hq : Real_ q x y z) :
    Part q x y z false true true (advBlkE p dt g.dx g.dy g.dz x y z s q).exy (monoE p dt g.dx g.dy g.dz (whole g x y z J) G).exy := by
  intro i j k hi hj hk
  have e2 := h.exy q hq i j k hi hj hk
  have e0 := diff_eq (x := y) f.oky (e := q.2.1) hq.2.2.1 (H := fun t => (s.blk q).hz i t k) (GH := fun t => G.hz (x.off q.1 + i) t (z.off q.2.2 + k))
    (lo := fun e => s.hz (q.1, e, q.2.2) i (y.n e - 1) k) (hi := fun e => s.hz (q.1, e, q.2.2) i 0 k)
    (fun t ht => Same.hz_blk h hq i t k (by simp only [Bool.toNat_true, Bool.toNat_false] at *; omega) (by simp only [Bool.toNat_true, Bool.toNat_false] at *; omega) (by simp only [Bool.toNat_true, Bool.toNat_false] at *; omega))
    (fun e he => have r := (Axis.lo_some f.oky.pos he).2; h.hz (q.1, e, q.2.2) hq.2.1 r hq.2.2.2 i (y.n e - 1) k (by simp only [Bool.toNat_true, Bool.toNat_false] at *; omega) (by simp only [Bool.toNat_true, Bool.toNat_false] at *; omega) (by simp only [Bool.toNat_true, Bool.toNat_false] at *; omega))
    (fun e he => have r := (Axis.hi_some f.oky.pos he).2; h.hz (q.1, e, q.2.2) hq.2.1 r hq.2.2.2 i 0 k (by simp only [Bool.toNat_true, Bool.toNat_false] at *; omega) (by simp only [Bool.toNat_true, Bool.toNat_false] at *; omega) (by simp only [Bool.toNat_true, Bool.toNat_false] at *; omega)) (i := j) (Nat.lt_succ_iff.1 hj)
  simp only [Bool.toNat_true, Bool.toNat_false, Nat.add_zero] at hi hj hk
  have k1 := edgeX_blk (J := J) f hq hi (Nat.lt_succ_iff.1 hj) (Nat.lt_succ_iff.1 hk)
  have k2 := Axis.off_lt x.toAxis hi
  have k3 := off_le y (Nat.lt_succ_iff.1 hj)
  have k4 := off_le z (Nat.lt_succ_iff.1 hk)
  have k5 := jx_blk f c hq hi (Nat.lt_succ_iff.1 hj) (Nat.lt_succ_iff.1 hk)
  have e1 := lineE_eq (p := p) (dt := dt) (d := g.dy) (sg := 1) (F := (s.blk q).exy i j k) f.oky (Nat.lt_succ_iff.1 hj) e0
  have e3 : (advBlkE p dt g.dx g.dy g.dz x y z s q).exy i j k = _ := (if_pos ⟨hi, hk⟩).trans e1
  rw [e3, e2]
  simp only [monoE]
  refine line_fin (B := 1 ≤ z.off q.2.2 + k ∧ z.off q.2.2 + k < z.tot) ?_ ?_ ?_
  · simp only [whole] at k1 ⊢
    constructor
    · rintro ⟨t, _⟩; exact ⟨by tauto, by tauto⟩
    · rintro ⟨t1, t2⟩; exact ⟨by tauto, k1⟩
  · rw [k5]; simp only [whole]; ring
  · intro t
    have t' : z.off q.2.2 + k = 0 ∨ z.off q.2.2 + k = z.tot := by omega
    obtain ⟨u0, _, _, _, u1, u2⟩ := hb.z (x.off q.1 + i) (y.off q.2.1 + j) (z.off q.2.2 + k) t'
    have w := hb.z (x.off q.1 + i) (y.off q.2.1 + j - 1) (z.off q.2.2 + k) t'
    exact ⟨u0, by simp only [Split.hz, u1, u2, w.2.2.2.2.1, w.2.2.2.2.2]; ring⟩

lemma same_exz (f : Fit g x y z) (c : Clear g x y z J) (h : Same x y z s G) (hb : Border x.tot y.tot z.tot G) (q : Place) (hq : Real_ q x y z) :
    Part q x y z false true true (advBlkE p dt g.dx g.dy g.dz x y z s q).exz (monoE p dt g.dx g.dy g.dz (whole g x y z J) G).exz := by
  intro i j k hi hj hk
  have e2 := h.exz q hq i j k hi hj hk
  have e0 := diff_eq (x := z) f.okz (e := q.2.2) hq.2.2.2 (H := fun t => (s.blk q).hy i j t) (GH := fun t => G.hy (x.off q.1 + i) (y.off q.2.1 + j) t)
    (lo := fun e => s.hy (q.1, q.2.1, e) i j (z.n e - 1)) (hi := fun e => s.hy (q.1, q.2.1, e) i j 0)
    (fun t ht => Same.hy_blk h hq i j t (by simp only [Bool.toNat_true, Bool.toNat_false] at *; omega) (by simp only [Bool.toNat_true, Bool.toNat_false] at *; omega) (by simp only [Bool.toNat_true, Bool.toNat_false] at *; omega))
    (fun e he => have r := (Axis.lo_some f.okz.pos he).2; h.hy (q.1, q.2.1, e) hq.2.1 hq.2.2.1 r i j (z.n e - 1) (by simp only [Bool.toNat_true, Bool.toNat_false] at *; omega) (by simp only [Bool.toNat_true, Bool.toNat_false] at *; omega) (by simp only [Bool.toNat_true, Bool.toNat_false] at *; omega))
    (fun e he => have r := (Axis.hi_some f.okz.pos he).2; h.hy (q.1, q.2.1, e) hq.2.1 hq.2.2.1 r i j 0 (by simp only [Bool.toNat_true, Bool.toNat_false] at *; omega) (by simp only [Bool.toNat_true, Bool.toNat_false] at *; omega) (by simp only [Bool.toNat_true, Bool.toNat_false] at *; omega)) (i := k) (Nat.lt_succ_iff.1 hk)
  simp only [Bool.toNat_true, Bool.toNat_false, Nat.add_zero] at hi hj hk
  have k1 := edgeX_blk (J := J) f hq hi (Nat.lt_succ_iff.1 hj) (Nat.lt_succ_iff.1 hk)
  have k2 := Axis.off_lt x.toAxis hi
  have k3 := off_le y (Nat.lt_succ_iff.1 hj)
  have k4 := off_le z (Nat.lt_succ_iff.1 hk)
  have k5 := jx_blk f c hq hi (Nat.lt_succ_iff.1 hj) (Nat.lt_succ_iff.1 hk)
  have e1 := lineE_eq (p := p) (dt := dt) (d := g.dz) (sg := -1) (F := (s.blk q).exz i j k) f.okz (Nat.lt_succ_iff.1 hk) e0
  have e3 : (advBlkE p dt g.dx g.dy g.dz x y z s q).exz i j k = _ := (if_pos ⟨hi, hj⟩).trans e1
  rw [e3, e2]
  simp only [monoE]
  refine line_fin (B := 1 ≤ y.off q.2.1 + j ∧ y.off q.2.1 + j < y.tot) ?_ ?_ ?_
  · simp only [whole] at k1 ⊢
    constructor
    · rintro ⟨t, _⟩; exact ⟨by tauto, by tauto⟩
    · rintro ⟨t1, t2⟩; exact ⟨by tauto, k1⟩
  · simp only [whole]; ring
  · intro t
    have t' : y.off q.2.1 + j = 0 ∨ y.off q.2.1 + j = y.tot := by omega
    obtain ⟨_, u0, _, _, u1, u2⟩ := hb.y (x.off q.1 + i) (y.off q.2.1 + j) (z.off q.2.2 + k) t'
    have w := hb.y (x.off q.1 + i) (y.off q.2.1 + j) (z.off q.2.2 + k - 1) t'
    exact ⟨u0, by simp only [Split.hy, u1, u2, w.2.2.2.2.1, w.2.2.2.2.2]; ring⟩

lemma same_eyx (f : Fit g x y z) (c : Clear g x y z J) (h : Same x y z s G) (hb : Border x.tot y.tot z.tot G) (q : Place) (hq : Real_ q x y z) :
    Part q x y z true false true (advBlkE p dt g.dx g.dy g.dz x y z s q).eyx (monoE p dt g.dx g.dy g.dz (whole g x y z J) G).eyx := by
  intro i j k hi hj hk
  have e2 := h.eyx q hq i j k hi hj hk
  have e0 := diff_eq (x := x) f.okx (e := q.1) hq.2.1 (H := fun t => (s.blk q).hz t j k) (GH := fun t => G.hz t (y.off q.2.1 + j) (z.off q.2.2 + k))
    (lo := fun e => s.hz (e, q.2.1, q.2.2) (x.n e - 1) j k) (hi := fun e => s.hz (e, q.2.1, q.2.2) 0 j k)
    (fun t ht => Same.hz_blk h hq t j k (by simp only [Bool.toNat_true, Bool.toNat_false] at *; omega) (by simp only [Bool.toNat_true, Bool.toNat_false] at *; omega) (by simp only [Bool.toNat_true, Bool.toNat_false] at *; omega))
    (fun e he => have r := (Axis.lo_some f.okx.pos he).2; h.hz (e, q.2.1, q.2.2) r hq.2.2.1 hq.2.2.2 (x.n e - 1) j k (by simp only [Bool.toNat_true, Bool.toNat_false] at *; omega) (by simp only [Bool.toNat_true, Bool.toNat_false] at *; omega) (by simp only [Bool.toNat_true, Bool.toNat_false] at *; omega))
    (fun e he => have r := (Axis.hi_some f.okx.pos he).2; h.hz (e, q.2.1, q.2.2) r hq.2.2.1 hq.2.2.2 0 j k (by simp only [Bool.toNat_true, Bool.toNat_false] at *; omega) (by simp only [Bool.toNat_true, Bool.toNat_false] at *; omega) (by simp only [Bool.toNat_true, Bool.toNat_false] at *; omega)) (i := i) (Nat.lt_succ_iff.1 hi)
  simp only [Bool.toNat_true, Bool.toNat_false, Nat.add_zero] at hi hj hk
  have k1 := edgeY_blk (J := J) f hq (Nat.lt_succ_iff.1 hi) hj (Nat.lt_succ_iff.1 hk)
  have k2 := off_le x (Nat.lt_succ_iff.1 hi)
  have k3 := Axis.off_lt y.toAxis hj
  have k4 := off_le z (Nat.lt_succ_iff.1 hk)
  have k5 := jy_blk f c hq (Nat.lt_succ_iff.1 hi) hj (Nat.lt_succ_iff.1 hk)
  have e1 := lineE_eq (p := p) (dt := dt) (d := g.dx) (sg := -1) (F := (s.blk q).eyx i j k) f.okx (Nat.lt_succ_iff.1 hi) e0
  have e3 : (advBlkE p dt g.dx g.dy g.dz x y z s q).eyx i j k = _ := (if_pos ⟨hj, hk⟩).trans e1
  rw [e3, e2]
  simp only [monoE]
  refine line_fin (B := 1 ≤ z.off q.2.2 + k ∧ z.off q.2.2 + k < z.tot) ?_ ?_ ?_
  · simp only [whole] at k1 ⊢
    constructor
    · rintro ⟨t, _⟩; exact ⟨by tauto, by tauto⟩
    · rintro ⟨t1, t2⟩; exact ⟨by tauto, k1⟩
  · simp only [whole]; ring
  · intro t
    have t' : z.off q.2.2 + k = 0 ∨ z.off q.2.2 + k = z.tot := by omega
    obtain ⟨_, _, u0, _, u1, u2⟩ := hb.z (x.off q.1 + i) (y.off q.2.1 + j) (z.off q.2.2 + k) t'
    have w := hb.z (x.off q.1 + i - 1) (y.off q.2.1 + j) (z.off q.2.2 + k) t'
    exact ⟨u0, by simp only [Split.hz, u1, u2, w.2.2.2.2.1, w.2.2.2.2.2]; ring⟩

lemma same_eyz (f : Fit g x y z) (c : Clear g x y z J) (h : Same x y z s G) (hb : Border x.tot y.tot z.tot G) (q : Place) (hq : Real_ q x y z) :
    Part q x y z true false true (advBlkE p dt g.dx g.dy g.dz x y z s q).eyz (monoE p dt g.dx g.dy g.dz (whole g x y z J) G).eyz := by
  intro i j k hi hj hk
  have e2 := h.eyz q hq i j k hi hj hk
  have e0 := diff_eq (x := z) f.okz (e := q.2.2) hq.2.2.2 (H := fun t => (s.blk q).hx i j t) (GH := fun t => G.hx (x.off q.1 + i) (y.off q.2.1 + j) t)
    (lo := fun e => s.hx (q.1, q.2.1, e) i j (z.n e - 1)) (hi := fun e => s.hx (q.1, q.2.1, e) i j 0)
    (fun t ht => Same.hx_blk h hq i j t (by simp only [Bool.toNat_true, Bool.toNat_false] at *; omega) (by simp only [Bool.toNat_true, Bool.toNat_false] at *; omega) (by simp only [Bool.toNat_true, Bool.toNat_false] at *; omega))
    (fun e he => have r := (Axis.lo_some f.okz.pos he).2; h.hx (q.1, q.2.1, e) hq.2.1 hq.2.2.1 r i j (z.n e - 1) (by simp only [Bool.toNat_true, Bool.toNat_false] at *; omega) (by simp only [Bool.toNat_true, Bool.toNat_false] at *; omega) (by simp only [Bool.toNat_true, Bool.toNat_false] at *; omega))
    (fun e he => have r := (Axis.hi_some f.okz.pos he).2; h.hx (q.1, q.2.1, e) hq.2.1 hq.2.2.1 r i j 0 (by simp only [Bool.toNat_true, Bool.toNat_false] at *; omega) (by simp only [Bool.toNat_true, Bool.toNat_false] at *; omega) (by simp only [Bool.toNat_true, Bool.toNat_false] at *; omega)) (i := k) (Nat.lt_succ_iff.1 hk)
  simp only [Bool.toNat_true, Bool.toNat_false, Nat.add_zero] at hi hj hk
  have k1 := edgeY_blk (J := J) f hq (Nat.lt_succ_iff.1 hi) hj (Nat.lt_succ_iff.1 hk)
  have k2 := off_le x (Nat.lt_succ_iff.1 hi)
  have k3 := Axis.off_lt y.toAxis hj
  have k4 := off_le z (Nat.lt_succ_iff.1 hk)
  have k5 := jy_blk f c hq (Nat.lt_succ_iff.1 hi) hj (Nat.lt_succ_iff.1 hk)
  have e1 := lineE_eq (p := p) (dt := dt) (d := g.dz) (sg := 1) (F := (s.blk q).eyz i j k) f.okz (Nat.lt_succ_iff.1 hk) e0
  have e3 : (advBlkE p dt g.dx g.dy g.dz x y z s q).eyz i j k = _ := (if_pos ⟨hi, hj⟩).trans e1
  rw [e3, e2]
  simp only [monoE]
  refine line_fin (B := 1 ≤ x.off q.1 + i ∧ x.off q.1 + i < x.tot) ?_ ?_ ?_
  · simp only [whole] at k1 ⊢
    constructor
    · rintro ⟨t, _⟩; exact ⟨by tauto, by tauto⟩
    · rintro ⟨t1, t2⟩; exact ⟨by tauto, k1⟩
  · rw [k5]; simp only [whole]; ring
  · intro t
    have t' : x.off q.1 + i = 0 ∨ x.off q.1 + i = x.tot := by omega
    obtain ⟨_, u0, _, _, u1, u2⟩ := hb.x (x.off q.1 + i) (y.off q.2.1 + j) (z.off q.2.2 + k) t'
    have w := hb.x (x.off q.1 + i) (y.off q.2.1 + j) (z.off q.2.2 + k - 1) t'
    exact ⟨u0, by simp only [Split.hx, u1, u2, w.2.2.2.2.1, w.2.2.2.2.2]; ring⟩

lemma same_ezx (f : Fit g x y z) (c : Clear g x y z J) (h : Same x y z s G) (hb : Border x.tot y.tot z.tot G) (q : Place) (hq : Real_ q x y z) :
    Part q x y z true true false (advBlkE p dt g.dx g.dy g.dz x y z s q).ezx (monoE p dt g.dx g.dy g.dz (whole g x y z J) G).ezx := by
  intro i j k hi hj hk
  have e2 := h.ezx q hq i j k hi hj hk
  have e0 := diff_eq (x := x) f.okx (e := q.1) hq.2.1 (H := fun t => (s.blk q).hy t j k) (GH := fun t => G.hy t (y.off q.2.1 + j) (z.off q.2.2 + k))
    (lo := fun e => s.hy (e, q.2.1, q.2.2) (x.n e - 1) j k) (hi := fun e => s.hy (e, q.2.1, q.2.2) 0 j k)
    (fun t ht => Same.hy_blk h hq t j k (by simp only [Bool.toNat_true, Bool.toNat_false] at *; omega) (by simp only [Bool.toNat_true, Bool.toNat_false] at *; omega) (by simp only [Bool.toNat_true, Bool.toNat_false] at *; omega))
    (fun e he => have r := (Axis.lo_some f.okx.pos he).2; h.hy (e, q.2.1, q.2.2) r hq.2.2.1 hq.2.2.2 (x.n e - 1) j k (by simp only [Bool.toNat_true, Bool.toNat_false] at *; omega) (by simp only [Bool.toNat_true, Bool.toNat_false] at *; omega) (by simp only [Bool.toNat_true, Bool.toNat_false] at *; omega))
    (fun e he => have r := (Axis.hi_some f.okx.pos he).2; h.hy (e, q.2.1, q.2.2) r hq.2.2.1 hq.2.2.2 0 j k (by simp only [Bool.toNat_true, Bool.toNat_false] at *; omega) (by simp only [Bool.toNat_true, Bool.toNat_false] at *; omega) (by simp only [Bool.toNat_true, Bool.toNat_false] at *; omega)) (i := i) (Nat.lt_succ_iff.1 hi)
  simp only [Bool.toNat_true, Bool.toNat_false, Nat.add_zero] at hi hj hk
  have k1 := edgeZ_blk (J := J) f hq (Nat.lt_succ_iff.1 hi) (Nat.lt_succ_iff.1 hj) hk
  have k2 := off_le x (Nat.lt_succ_iff.1 hi)
  have k3 := off_le y (Nat.lt_succ_iff.1 hj)
  have k4 := Axis.off_lt z.toAxis hk
  have k5 := jz_blk f c hq (Nat.lt_succ_iff.1 hi) (Nat.lt_succ_iff.1 hj) hk
  have e1 := lineE_eq (p := p) (dt := dt) (d := g.dx) (sg := 1) (F := (s.blk q).ezx i j k) f.okx (Nat.lt_succ_iff.1 hi) e0
  have e3 : (advBlkE p dt g.dx g.dy g.dz x y z s q).ezx i j k = _ := (if_pos ⟨hj, hk⟩).trans e1
  rw [e3, e2]
  simp only [monoE]
  refine line_fin (B := 1 ≤ y.off q.2.1 + j ∧ y.off q.2.1 + j < y.tot) ?_ ?_ ?_
  · simp only [whole] at k1 ⊢
    constructor
    · rintro ⟨t, _⟩; exact ⟨by tauto, by tauto⟩
    · rintro ⟨t1, t2⟩; exact ⟨by tauto, k1⟩
  · rw [k5]; simp only [whole]; ring
  · intro t
    have t' : y.off q.2.1 + j = 0 ∨ y.off q.2.1 + j = y.tot := by omega
    obtain ⟨_, _, u0, _, u1, u2⟩ := hb.y (x.off q.1 + i) (y.off q.2.1 + j) (z.off q.2.2 + k) t'
    have w := hb.y (x.off q.1 + i - 1) (y.off q.2.1 + j) (z.off q.2.2 + k) t'
    exact ⟨u0, by simp only [Split.hy, u1, u2, w.2.2.2.2.1, w.2.2.2.2.2]; ring⟩

lemma same_ezy (f : Fit g x y z) (c : Clear g x y z J) (h : Same x y z s G) (hb : Border x.tot y.tot z.tot G) (q : Place) (hq : Real_ q x y z) :
    Part q x y z true true false (advBlkE p dt g.dx g.dy g.dz x y z s q).ezy (monoE p dt g.dx g.dy g.dz (whole g x y z J) G).ezy := by
  intro i j k hi hj hk
  have e2 := h.ezy q hq i j k hi hj hk
  have e0 := diff_eq (x := y) f.oky (e := q.2.1) hq.2.2.1 (H := fun t => (s.blk q).hx i t k) (GH := fun t => G.hx (x.off q.1 + i) t (z.off q.2.2 + k))
    (lo := fun e => s.hx (q.1, e, q.2.2) i (y.n e - 1) k) (hi := fun e => s.hx (q.1, e, q.2.2) i 0 k)
    (fun t ht => Same.hx_blk h hq i t k (by simp only [Bool.toNat_true, Bool.toNat_false] at *; omega) (by simp only [Bool.toNat_true, Bool.toNat_false] at *; omega) (by simp only [Bool.toNat_true, Bool.toNat_false] at *; omega))
    (fun e he => have r := (Axis.lo_some f.oky.pos he).2; h.hx (q.1, e, q.2.2) hq.2.1 r hq.2.2.2 i (y.n e - 1) k (by simp only [Bool.toNat_true, Bool.toNat_false] at *; omega) (by simp only [Bool.toNat_true, Bool.toNat_false] at *; omega) (by simp only [Bool.toNat_true, Bool.toNat_false] at *; omega))
    (fun e he => have r := (Axis.hi_some f.oky.pos he).2; h.hx (q.1, e, q.2.2) hq.2.1 r hq.2.2.2 i 0 k (by simp only [Bool.toNat_true, Bool.toNat_false] at *; omega) (by simp only [Bool.toNat_true, Bool.toNat_false] at *; omega) (by simp only [Bool.toNat_true, Bool.toNat_false] at *; omega)) (i := j) (Nat.lt_succ_iff.1 hj)
  simp only [Bool.toNat_true, Bool.toNat_false, Nat.add_zero] at hi hj hk
  have k1 := edgeZ_blk (J := J) f hq (Nat.lt_succ_iff.1 hi) (Nat.lt_succ_iff.1 hj) hk
  have k2 := off_le x (Nat.lt_succ_iff.1 hi)
  have k3 := off_le y (Nat.lt_succ_iff.1 hj)
  have k4 := Axis.off_lt z.toAxis hk
  have k5 := jz_blk f c hq (Nat.lt_succ_iff.1 hi) (Nat.lt_succ_iff.1 hj) hk
  have e1 := lineE_eq (p := p) (dt := dt) (d := g.dy) (sg := -1) (F := (s.blk q).ezy i j k) f.oky (Nat.lt_succ_iff.1 hj) e0
  have e3 : (advBlkE p dt g.dx g.dy g.dz x y z s q).ezy i j k = _ := (if_pos ⟨hi, hk⟩).trans e1
  rw [e3, e2]
  simp only [monoE]
  refine line_fin (B := 1 ≤ x.off q.1 + i ∧ x.off q.1 + i < x.tot) ?_ ?_ ?_
  · simp only [whole] at k1 ⊢
    constructor
    · rintro ⟨t, _⟩; exact ⟨by tauto, by tauto⟩
    · rintro ⟨t1, t2⟩; exact ⟨by tauto, k1⟩
  · simp only [whole]; ring
  · intro t
    have t' : x.off q.1 + i = 0 ∨ x.off q.1 + i = x.tot := by omega
    obtain ⟨_, _, _, u0, u1, u2⟩ := hb.x (x.off q.1 + i) (y.off q.2.1 + j) (z.off q.2.2 + k) t'
    have w := hb.x (x.off q.1 + i) (y.off q.2.1 + j - 1) (z.off q.2.2 + k) t'
    exact ⟨u0, by simp only [Split.hx, u1, u2, w.2.2.2.2.1, w.2.2.2.2.2]; ring⟩

lemma coefE {p : Phys} (dt d F D : ℝ) (h : 0 < p.eps) : coA p dt 0 * F - coB p dt 0 / d * D = F - dt / (d * p.eps) * D := by
  rw [S2.coA_zero h, S2.coB_zero h, one_mul, div_div, mul_comm p.eps d]

lemma coefE' {p : Phys} (dt d F D : ℝ) (h : 0 < p.eps) : coA p dt 0 * F + coB p dt 0 / d * D = F + dt / (d * p.eps) * D := by
  rw [S2.coA_zero h, S2.coB_zero h, one_mul, div_div, mul_comm p.eps d]

lemma same_box_ex (heps : 0 < p.eps) (f : Fit g x y z) (h : Same x y z s G) :
    Part (.box, .box, .box) x y z false true true (advBoxE p g dt x y z J s).Ex (monoE p dt g.dx g.dy g.dz (whole g x y z J) G).ex := by
  intro i j k hi hj hk
  have e2 := h.Ex i j k hi hj hk
  have d1 := diff_eq (x := y) f.oky (e := Ext.box) f.oky.pos (H := fun t => s.box.Hz i t k) (GH := fun t => G.hz (x.off Ext.box + i) t (z.off Ext.box + k))
    (lo := fun e => s.hz (Ext.box, e, Ext.box) i (y.n e - 1) k) (hi := fun e => s.hz (Ext.box, e, Ext.box) i 0 k)
    (fun t ht => h.Hz i t k (by simp only [Bool.toNat_true, Bool.toNat_false] at *; omega) (by simp only [Bool.toNat_true, Bool.toNat_false] at *; omega) (by simp only [Bool.toNat_true, Bool.toNat_false] at *; omega))
    (fun e he => have r := (Axis.lo_some f.oky.pos he).2; h.hz (Ext.box, e, Ext.box) f.okx.pos r f.okz.pos i (y.n e - 1) k (by simp only [Bool.toNat_true, Bool.toNat_false] at *; omega) (by simp only [Bool.toNat_true, Bool.toNat_false] at *; omega) (by simp only [Bool.toNat_true, Bool.toNat_false] at *; omega))
    (fun e he => have r := (Axis.hi_some f.oky.pos he).2; h.hz (Ext.box, e, Ext.box) f.okx.pos r f.okz.pos i 0 k (by simp only [Bool.toNat_true, Bool.toNat_false] at *; omega) (by simp only [Bool.toNat_true, Bool.toNat_false] at *; omega) (by simp only [Bool.toNat_true, Bool.toNat_false] at *; omega)) (i := j) (Nat.lt_succ_iff.1 hj)
  have d2 := diff_eq (x := z) f.okz (e := Ext.box) f.okz.pos (H := fun t => s.box.Hy i j t) (GH := fun t => G.hy (x.off Ext.box + i) (y.off Ext.box + j) t)
    (lo := fun e => s.hy (Ext.box, Ext.box, e) i j (z.n e - 1)) (hi := fun e => s.hy (Ext.box, Ext.box, e) i j 0)
    (fun t ht => h.Hy i j t (by simp only [Bool.toNat_true, Bool.toNat_false] at *; omega) (by simp only [Bool.toNat_true, Bool.toNat_false] at *; omega) (by simp only [Bool.toNat_true, Bool.toNat_false] at *; omega))
    (fun e he => have r := (Axis.lo_some f.okz.pos he).2; h.hy (Ext.box, Ext.box, e) f.okx.pos f.oky.pos r i j (z.n e - 1) (by simp only [Bool.toNat_true, Bool.toNat_false] at *; omega) (by simp only [Bool.toNat_true, Bool.toNat_false] at *; omega) (by simp only [Bool.toNat_true, Bool.toNat_false] at *; omega))
    (fun e he => have r := (Axis.hi_some f.okz.pos he).2; h.hy (Ext.box, Ext.box, e) f.okx.pos f.oky.pos r i j 0 (by simp only [Bool.toNat_true, Bool.toNat_false] at *; omega) (by simp only [Bool.toNat_true, Bool.toNat_false] at *; omega) (by simp only [Bool.toNat_true, Bool.toNat_false] at *; omega)) (i := k) (Nat.lt_succ_iff.1 hk)
  simp only [Bool.toNat_true, Bool.toNat_false, Nat.add_zero] at hi hj hk
  have k2 := Axis.off_lt x.toAxis hi
  have k3 := off_le y (Nat.lt_succ_iff.1 hj)
  have k4 := off_le z (Nat.lt_succ_iff.1 hk)
  have k5 := (Line.node_off y f.oky (Nat.lt_succ_iff.1 hj)).trans (f.oky.node _)
  have k6 := (Line.node_off z f.okz (Nat.lt_succ_iff.1 hk)).trans (f.okz.node _)
  have k1 : (whole g x y z J).edgeX (x.off .box + i) (y.off .box + j) (z.off .box + k) ↔ (((1 ≤ j ∧ j < g.ny) ∧ (1 ≤ k ∧ k < g.nz)) → g.lx i j k > 0) := by
    have h1 := f.gx; have h2 := f.gy; have h3 := f.gz
    simp only [whole, Axis.off, Nat.add_sub_cancel_left]
    refine imp_congr_left ?_
    omega
  have k7 : (whole g x y z J).J.Jx (x.off .box + i) (y.off .box + j) (z.off .box + k) = J.Jx i j k := by
    have h1 := f.gx; have h2 := f.gy; have h3 := f.gz
    simp only [whole, Axis.off, Nat.add_sub_cancel_left]
    refine if_pos ?_
    omega
  have hg : i < g.nx := f.gx ▸ hi
  have e3 : (advBoxE p g dt x y z J s).Ex i j k = boxE _ _ _ _ _ _ _ _ _ := if_pos hg
  rw [e3, d1, d2, boxE_eq, e2]
  simp only [Split.ex, monoE]
  by_cases hc : ((1 ≤ y.off .box + j ∧ y.off .box + j < y.tot) ∧ (1 ≤ z.off .box + k ∧ z.off .box + k < z.tot)) ∧
      (((1 ≤ j ∧ j < g.ny) ∧ (1 ≤ k ∧ k < g.nz)) → g.lx i j k > 0)
  · rw [if_pos hc, if_pos ⟨by simp only [whole]; tauto, k1.2 hc.2⟩, if_pos ⟨by simp only [whole]; tauto, k1.2 hc.2⟩, k7,
      show (whole g x y z J).ny = y.node from rfl, show (whole g x y z J).nz = z.node from rfl, k5, k6, coefE _ _ _ _ heps, coefE' _ _ _ _ heps]
    simp only [Split.hz, Split.hy]
    ring
  · rw [if_neg hc, if_neg (fun u => hc ⟨by have := u.1; simp only [whole] at this; tauto, k1.1 u.2⟩),
      if_neg (fun u => hc ⟨by have := u.1; simp only [whole] at this; tauto, k1.1 u.2⟩)]

lemma same_box_ey (heps : 0 < p.eps) (f : Fit g x y z) (h : Same x y z s G) :
    Part (.box, .box, .box) x y z true false true (advBoxE p g dt x y z J s).Ey (monoE p dt g.dx g.dy g.dz (whole g x y z J) G).ey := by
  intro i j k hi hj hk
  have e2 := h.Ey i j k hi hj hk
  have d1 := diff_eq (x := z) f.okz (e := Ext.box) f.okz.pos (H := fun t => s.box.Hx i j t) (GH := fun t => G.hx (x.off Ext.box + i) (y.off Ext.box + j) t)
    (lo := fun e => s.hx (Ext.box, Ext.box, e) i j (z.n e - 1)) (hi := fun e => s.hx (Ext.box, Ext.box, e) i j 0)
    (fun t ht => h.Hx i j t (by simp only [Bool.toNat_true, Bool.toNat_false] at *; omega) (by simp only [Bool.toNat_true, Bool.toNat_false] at *; omega) (by simp only [Bool.toNat_true, Bool.toNat_false] at *; omega))
    (fun e he => have r := (Axis.lo_some f.okz.pos he).2; h.hx (Ext.box, Ext.box, e) f.okx.pos f.oky.pos r i j (z.n e - 1) (by simp only [Bool.toNat_true, Bool.toNat_false] at *; omega) (by simp only [Bool.toNat_true, Bool.toNat_false] at *; omega) (by simp only [Bool.toNat_true, Bool.toNat_false] at *; omega))
    (fun e he => have r := (Axis.hi_some f.okz.pos he).2; h.hx (Ext.box, Ext.box, e) f.okx.pos f.oky.pos r i j 0 (by simp only [Bool.toNat_true, Bool.toNat_false] at *; omega) (by simp only [Bool.toNat_true, Bool.toNat_false] at *; omega) (by simp only [Bool.toNat_true, Bool.toNat_false] at *; omega)) (i := k) (Nat.lt_succ_iff.1 hk)
  have d2 := diff_eq (x := x) f.okx (e := Ext.box) f.okx.pos (H := fun t => s.box.Hz t j k) (GH := fun t => G.hz t (y.off Ext.box + j) (z.off Ext.box + k))
    (lo := fun e => s.hz (e, Ext.box, Ext.box) (x.n e - 1) j k) (hi := fun e => s.hz (e, Ext.box, Ext.box) 0 j k)
    (fun t ht => h.Hz t j k (by simp only [Bool.toNat_true, Bool.toNat_false] at *; omega) (by simp only [Bool.toNat_true, Bool.toNat_false] at *; omega) (by simp only [Bool.toNat_true, Bool.toNat_false] at *; omega))
    (fun e he => have r := (Axis.lo_some f.okx.pos he).2; h.hz (e, Ext.box, Ext.box) r f.oky.pos f.okz.pos (x.n e - 1) j k (by simp only [Bool.toNat_true, Bool.toNat_false] at *; omega) (by simp only [Bool.toNat_true, Bool.toNat_false] at *; omega) (by simp only [Bool.toNat_true, Bool.toNat_false] at *; omega))
    (fun e he => have r := (Axis.hi_some f.okx.pos he).2; h.hz (e, Ext.box, Ext.box) r f.oky.pos f.okz.pos 0 j k (by simp only [Bool.toNat_true, Bool.toNat_false] at *; omega) (by simp only [Bool.toNat_true, Bool.toNat_false] at *; omega) (by simp only [Bool.toNat_true, Bool.toNat_false] at *; omega)) (i := i) (Nat.lt_succ_iff.1 hi)
  simp only [Bool.toNat_true, Bool.toNat_false, Nat.add_zero] at hi hj hk
  have k2 := off_le x (Nat.lt_succ_iff.1 hi)
  have k3 := Axis.off_lt y.toAxis hj
  have k4 := off_le z (Nat.lt_succ_iff.1 hk)
  have k5 := (Line.node_off z f.okz (Nat.lt_succ_iff.1 hk)).trans (f.okz.node _)
  have k6 := (Line.node_off x f.okx (Nat.lt_succ_iff.1 hi)).trans (f.okx.node _)
  have k1 : (whole g x y z J).edgeY (x.off .box + i) (y.off .box + j) (z.off .box + k) ↔ (((1 ≤ i ∧ i < g.nx) ∧ (1 ≤ k ∧ k < g.nz)) → g.ly i j k > 0) := by
    have h1 := f.gx; have h2 := f.gy; have h3 := f.gz
    simp only [whole, Axis.off, Nat.add_sub_cancel_left]
    refine imp_congr_left ?_
    omega
  have k7 : (whole g x y z J).J.Jy (x.off .box + i) (y.off .box + j) (z.off .box + k) = J.Jy i j k := by
    have h1 := f.gx; have h2 := f.gy; have h3 := f.gz
    simp only [whole, Axis.off, Nat.add_sub_cancel_left]
    refine if_pos ?_
    omega
  have hg : j < g.ny := f.gy ▸ hj
  have e3 : (advBoxE p g dt x y z J s).Ey i j k = boxE _ _ _ _ _ _ _ _ _ := if_pos hg
  rw [e3, d1, d2, boxE_eq, e2]
  simp only [Split.ey, monoE]
  by_cases hc : ((1 ≤ z.off .box + k ∧ z.off .box + k < z.tot) ∧ (1 ≤ x.off .box + i ∧ x.off .box + i < x.tot)) ∧
      (((1 ≤ i ∧ i < g.nx) ∧ (1 ≤ k ∧ k < g.nz)) → g.ly i j k > 0)
  · rw [if_pos hc, if_pos ⟨by simp only [whole]; tauto, k1.2 hc.2⟩, if_pos ⟨by simp only [whole]; tauto, k1.2 hc.2⟩, k7,
      show (whole g x y z J).nz = z.node from rfl, show (whole g x y z J).nx = x.node from rfl, k5, k6, coefE _ _ _ _ heps, coefE' _ _ _ _ heps]
    simp only [Split.hx, Split.hz]
    ring
  · rw [if_neg hc, if_neg (fun u => hc ⟨by have := u.1; simp only [whole] at this; tauto, k1.1 u.2⟩),
      if_neg (fun u => hc ⟨by have := u.1; simp only [whole] at this; tauto, k1.1 u.2⟩)]

lemma same_box_ez (heps : 0 < p.eps) (f : Fit g x y z) (h : Same x y z s G) :
    Part (.box, .box, .box) x y z true true false (advBoxE p g dt x y z J s).Ez (monoE p dt g.dx g.dy g.dz (whole g x y z J) G).ez := by
  intro i j k hi hj hk
  have e2 := h.Ez i j k hi hj hk
  have d1 := diff_eq (x := x) f.okx (e := Ext.box) f.okx.pos (H := fun t => s.box.Hy t j k) (GH := fun t => G.hy t (y.off Ext.box + j) (z.off Ext.box + k))
    (lo := fun e => s.hy (e, Ext.box, Ext.box) (x.n e - 1) j k) (hi := fun e => s.hy (e, Ext.box, Ext.box) 0 j k)
    (fun t ht => h.Hy t j k (by simp only [Bool.toNat_true, Bool.toNat_false] at *; omega) (by simp only [Bool.toNat_true, Bool.toNat_false] at *; omega) (by simp only [Bool.toNat_true, Bool.toNat_false] at *; omega))
    (fun e he => have r := (Axis.lo_some f.okx.pos he).2; h.hy (e, Ext.box, Ext.box) r f.oky.pos f.okz.pos (x.n e - 1) j k (by simp only [Bool.toNat_true, Bool.toNat_false] at *; omega) (by simp only [Bool.toNat_true, Bool.toNat_false] at *; omega) (by simp only [Bool.toNat_true, Bool.toNat_false] at *; omega))
    (fun e he => have r := (Axis.hi_some f.okx.pos he).2; h.hy (e, Ext.box, Ext.box) r f.oky.pos f.okz.pos 0 j k (by simp only [Bool.toNat_true, Bool.toNat_false] at *; omega) (by simp only [Bool.toNat_true, Bool.toNat_false] at *; omega) (by simp only [Bool.toNat_true, Bool.toNat_false] at *; omega)) (i := i) (Nat.lt_succ_iff.1 hi)
  have d2 := diff_eq (x := y) f.oky (e := Ext.box) f.oky.pos (H := fun t => s.box.Hx i t k) (GH := fun t => G.hx (x.off Ext.box + i) t (z.off Ext.box + k))
    (lo := fun e => s.hx (Ext.box, e, Ext.box) i (y.n e - 1) k) (hi := fun e => s.hx (Ext.box, e, Ext.box) i 0 k)
    (fun t ht => h.Hx i t k (by simp only [Bool.toNat_true, Bool.toNat_false] at *; omega) (by simp only [Bool.toNat_true, Bool.toNat_false] at *; omega) (by simp only [Bool.toNat_true, Bool.toNat_false] at *; omega))
    (fun e he => have r := (Axis.lo_some f.oky.pos he).2; h.hx (Ext.box, e, Ext.box) f.okx.pos r f.okz.pos i (y.n e - 1) k (by simp only [Bool.toNat_true, Bool.toNat_false] at *; omega) (by simp only [Bool.toNat_true, Bool.toNat_false] at *; omega) (by simp only [Bool.toNat_true, Bool.toNat_false] at *; omega))
    (fun e he => have r := (Axis.hi_some f.oky.pos he).2; h.hx (Ext.box, e, Ext.box) f.okx.pos r f.okz.pos i 0 k (by simp only [Bool.toNat_true, Bool.toNat_false] at *; omega) (by simp only [Bool.toNat_true, Bool.toNat_false] at *; omega) (by simp only [Bool.toNat_true, Bool.toNat_false] at *; omega)) (i := j) (Nat.lt_succ_iff.1 hj)
  simp only [Bool.toNat_true, Bool.toNat_false, Nat.add_zero] at hi hj hk
  have k2 := off_le x (Nat.lt_succ_iff.1 hi)
  have k3 := off_le y (Nat.lt_succ_iff.1 hj)
  have k4 := Axis.off_lt z.toAxis hk
  have k5 := (Line.node_off x f.okx (Nat.lt_succ_iff.1 hi)).trans (f.okx.node _)
  have k6 := (Line.node_off y f.oky (Nat.lt_succ_iff.1 hj)).trans (f.oky.node _)
  have k1 : (whole g x y z J).edgeZ (x.off .box + i) (y.off .box + j) (z.off .box + k) ↔ (((1 ≤ i ∧ i < g.nx) ∧ (1 ≤ j ∧ j < g.ny)) → g.lz i j k > 0) := by
    have h1 := f.gx; have h2 := f.gy; have h3 := f.gz
    simp only [whole, Axis.off, Nat.add_sub_cancel_left]
    refine imp_congr_left ?_
    omega
  have k7 : (whole g x y z J).J.Jz (x.off .box + i) (y.off .box + j) (z.off .box + k) = J.Jz i j k := by
    have h1 := f.gx; have h2 := f.gy; have h3 := f.gz
    simp only [whole, Axis.off, Nat.add_sub_cancel_left]
    refine if_pos ?_
    omega
  have hg : k < g.nz := f.gz ▸ hk
  have e3 : (advBoxE p g dt x y z J s).Ez i j k = boxE _ _ _ _ _ _ _ _ _ := if_pos hg
  rw [e3, d1, d2, boxE_eq, e2]
  simp only [Split.ez, monoE]
  by_cases hc : ((1 ≤ x.off .box + i ∧ x.off .box + i < x.tot) ∧ (1 ≤ y.off .box + j ∧ y.off .box + j < y.tot)) ∧
      (((1 ≤ i ∧ i < g.nx) ∧ (1 ≤ j ∧ j < g.ny)) → g.lz i j k > 0)
  · rw [if_pos hc, if_pos ⟨by simp only [whole]; tauto, k1.2 hc.2⟩, if_pos ⟨by simp only [whole]; tauto, k1.2 hc.2⟩, k7,
      show (whole g x y z J).nx = x.node from rfl, show (whole g x y z J).ny = y.node from rfl, k5, k6, coefE _ _ _ _ heps, coefE' _ _ _ _ heps]
    simp only [Split.hy, Split.hx]
    ring
  · rw [if_neg hc, if_neg (fun u => hc ⟨by have := u.1; simp only [whole] at this; tauto, k1.1 u.2⟩),
      if_neg (fun u => hc ⟨by have := u.1; simp only [whole] at this; tauto, k1.1 u.2⟩)]

lemma same_e (heps : 0 < p.eps) (f : Fit g x y z) (c : Clear g x y z J) (h : Same x y z s G) (hb : Border x.tot y.tot z.tot G) :
    Same x y z ⟨advBoxE p g dt x y z J s, fun q => advBlkE p dt g.dx g.dy g.dz x y z s q⟩ (monoE p dt g.dx g.dy g.dz (whole g x y z J) G) where
  Ex := same_box_ex heps f h
  Ey := same_box_ey heps f h
  Ez := same_box_ez heps f h
  Hx := h.Hx
  Hy := h.Hy
  Hz := h.Hz
  exy := same_exy f c h hb
  exz := same_exz f c h hb
  eyx := same_eyx f c h hb
  eyz := same_eyz f c h hb
  ezx := same_ezx f c h hb
  ezy := same_ezy f c h hb
  hxy := h.hxy
  hxz := h.hxz
  hyx := h.hyx
  hyz := h.hyz
  hzx := h.hzx
  hzy := h.hzy

/-! ### Theorems -/

/-- The layers as the solver makes them, along one axis (solver3D.py:600-647, see `C97_arrays`). -/
def line (p : Phys) (N : Cnt) (dx dy dz : ℝ) (a : Ax) : Line where
  n := N a
  s e i := match e with
    | .box => 0
    | .low => if i < N a .low then S2.prof (S2.sigMax p (N a .low) (sizeUsed dx dy dz a .low)) (N a .low) (N a .low - 1 - i) else 0
    | .high => if i < N a .high then S2.prof (S2.sigMax p (N a .high) (sizeUsed dx dy dz a .high)) (N a .high) i else 0
  sn e := wantNode (S2.sigMax p (N a e) (sizeUsed dx dy dz a e)) (N a e) e

lemma run_border (J : ℕ → Curr) (n : ℕ) : Border x.tot y.tot z.tot (runMono p dt g.dx g.dy g.dz (fun n => whole g x y z (J n)) n) := by
  induction n with
  | zero => constructor <;> exact fun _ _ _ _ => ⟨rfl, rfl, rfl, rfl, rfl, rfl⟩
  | succ n ih => exact border_e (m := whole g x y z (J n)) (border_h (m := whole g x y z (J n)) ih)

/-- **C97.** The solver with its blocks computes what one large grid does, with a split-field layer around the box and conducting border: from zero fields, after
any number of steps, for any cell counts and conductivities of the layers, and any conductors and currents that keep off the layers. -/
theorem C97_monolith (p : Phys) (heps : 0 < p.eps) (hmu : 0 < p.mu) (g : Grid) (dt : ℝ) (x y z : Line) (f : Fit g x y z) (J : ℕ → Curr)
    (hJ : ∀ n, Clear g x y z (J n)) (n : ℕ) :
    Same x y z (runPml (stepPml p g dt x y z) J n) (runMono p dt g.dx g.dy g.dz (fun n => whole g x y z (J n)) n) := by
  induction n with
  | zero => constructor <;> first | exact fun _ _ _ _ _ _ => (add_zero (0 : ℝ)).symm | exact fun _ _ _ _ _ _ _ _ => rfl
  | succ n ih => exact same_e heps f (hJ n) (same_h hmu f (hJ n) ih) (border_h (m := whole g x y z (J n)) (run_border J n))

/-- **C97, the lines of the solver.** They meet the conditions of `C97_monolith`. -/
theorem C97_axes (p : Phys) (N : Cnt) (dx dy dz : ℝ) (a : Ax) (h : 0 < N a .box) : (line p N dx dy dz a).Ok where
  pos := h
  cell _ := rfl
  node _ := rfl
  low := by
    show wantNode _ (N a .low) .low (N a .low) = 0
    simp [wantNode]
  high := by
    show wantNode _ (N a .high) .high 0 = 0
    simp [wantNode]

/-- **C97, the arrays of the blocks.** Where the solver can be constructed, the corners absorb and the layers along y are equally thick if one at high y meets one along
z, every block has the cell counts and the conductivities of these lines. -/
theorem C97_arrays (p : Phys) (bc : Bc) (N : Cnt) (dx dy dz : ℝ) (hN : N.Ok bc) (hok : build bc N = .ok ()) (hc : ¬ HighCorner bc)
    (hy : HighYZ bc → N .y .low = N .y .high) (q : Place) (hq : needed bc q = true) (a : Ax) :
    (∃ s, sizes bc q = some s ∧ N a (at_ s a) = (line p N dx dy dz a).n (at_ q a)) ∧
      (∀ i, i ≤ N a (at_ q a) → sigma p bc N dx dy dz q a i = (line p N dx dy dz a).sn (at_ q a) i) ∧
      ∀ i, i < N a (at_ q a) → sigmaStar p bc N dx dy dz q a i = (line p N dx dy dz a).s (at_ q a) i * p.mu / p.eps := by
  refine ⟨⟨_, C96_sizes_partial bc q hq, ?_⟩, fun i hi => C96_conductivity_partial p bc N dx dy dz hN hok hc q hq a i hi, fun i hi => ?_⟩
  · split_ifs with h
    · have hyz : HighYZ bc := by
        obtain ⟨q1, q2, q3⟩ := q
        obtain ⟨rfl, rfl, h3⟩ := h
        simp only [needed, has, Bool.and_eq_true] at hq
        refine ⟨hq.1.1.2, ?_⟩
        cases q3
        · exact absurd rfl h3
        · exact .inl hq.1.2
        · exact .inr hq.1.2
      obtain ⟨q1, q2, q3⟩ := q
      obtain ⟨rfl, rfl, -⟩ := h
      cases a
      · rfl
      · exact hy hyz
      · rfl
    · rfl
  · have key : ∀ bc : Bc, ¬ LowCorner bc → ¬ HighCorner bc → ∀ q, needed bc q = true → q ∈ writes bc := forall_bc (by decide +kernel)
    unfold sigmaStar
    rw [if_pos (key bc ((C96_built_partial bc N hN).1 hok).1 hc q hq)]
    revert hi
    cases at_ q a with
    | box => intro _; show (0 : ℝ) = 0 * p.mu / p.eps; simp
    | low => intro hi; simp only [line]; rw [if_pos hi, if_pos hi, mul_div_assoc]
    | high => intro hi; simp only [line]; rw [if_pos hi, if_pos hi, mul_div_assoc]

lemma nest {A X M : Prop} [Decidable A] [Decidable X] [Decidable M] {u v : ℝ} (h : A ∧ X ↔ M) :
    (if A then (if X then u else v) else v) = if M then u else v := by
  by_cases a : A
  · rw [if_pos a]; exact if_congr ⟨fun t => h.1 ⟨a, t⟩, fun t => (h.2 t).2⟩ rfl rfl
  · rw [if_neg a, if_neg fun t => a (h.2 t).1]

/-- **C97, without layers.** Then the step is that of `C94`. -/
theorem C97_no_layers (p : Phys) (g : Grid) (dt : ℝ) (x y z : Line) (f : Fit g x y z) (hx : x.n .low = 0 ∧ x.n .high = 0) (hy : y.n .low = 0 ∧ y.n .high = 0)
    (hz : z.n .low = 0 ∧ z.n .high = 0) (J : Curr) (s : St) : (stepPml p g dt x y z J s).box = stepFdtd p g dt J s.box := by
  have key : ∀ (x : Line) (_ : x.n .low = 0 ∧ x.n .high = 0) (H : ℕ → ℝ) (lo hi : Ext → ℝ) (i : ℕ),
      diff x .box H lo hi i = if 1 ≤ i ∧ i < x.n .box then some (H i - H (i - 1)) else none := by
    intro x h H lo hi i
    unfold diff
    by_cases h0 : i = 0
    · rw [if_pos h0, if_neg (by omega)]; simp [Axis.lo, h.1]
    · rw [if_neg h0]
      by_cases hN : i = x.n .box
      · rw [if_pos hN, if_neg (by omega)]; simp [Axis.hi, h.2]
      · rw [if_neg hN]; exact if_congr ⟨fun t => ⟨by omega, t⟩, fun t => t.2⟩ rfl rfl
  have E1 : (stepPml p g dt x y z J s).box.Ex = (stepFdtd p g dt J s.box).Ex := by
    funext i j k
    simp only [stepPml, advBoxE, stepFdtd, advE, key y hy, key z hz, boxE_eq, ← f.gy, ← f.gz]
    exact nest (by unfold freeX; tauto)
  have E2 : (stepPml p g dt x y z J s).box.Ey = (stepFdtd p g dt J s.box).Ey := by
    funext i j k
    simp only [stepPml, advBoxE, stepFdtd, advE, key x hx, key z hz, boxE_eq, ← f.gx, ← f.gz]
    exact nest (by unfold freeY; tauto)
  have E3 : (stepPml p g dt x y z J s).box.Ez = (stepFdtd p g dt J s.box).Ez := by
    funext i j k
    simp only [stepPml, advBoxE, stepFdtd, advE, key x hx, key y hy, boxE_eq, ← f.gx, ← f.gy]
    exact nest (by unfold freeZ; tauto)
  have t : ∀ a b : Fields, a.Ex = b.Ex → a.Ey = b.Ey → a.Ez = b.Ez → a.Hx = b.Hx → a.Hy = b.Hy → a.Hz = b.Hz → a = b := by
    rintro ⟨⟩ ⟨⟩ h1 h2 h3 h4 h5 h6; cases h1; cases h2; cases h3; cases h4; cases h5; cases h6; rfl
  exact t _ _ E1 E2 E3 rfl rfl rfl

/-- **C97, refuted for 'DM'.** With the conformal scheme the layers are never used: the blocks stay at zero and the fields of the box are those without layers. -/
theorem C97_dm_refuted (p : Phys) (g : Grid) (dt : ℝ) (J : ℕ → Curr) (n : ℕ) :
    runPml (stepPmlDm p g dt) J n = ⟨run (stepDm p g dt) J zero n, fun _ => zeroSplit⟩ := by
  induction n with
  | zero => rfl
  | succ n ih => simp only [runPml, run, ih, stepPmlDm]

/-- **C97, currents on the seam, refuted.** After the first step the field on the side of the box next to a layer at low x is the same in the box and in the block only if
no current flows there: the block does not know the currents of the box. -/
theorem C97_seam_current_refuted (p : Phys) (heps : 0 < p.eps) (g : Grid) (dt : ℝ) (hdt : 0 < dt) (x y z : Line) (f : Fit g x y z) (hl : 0 < x.n .low) (J : Curr)
    (j k : ℕ) (hj : j < g.ny) (hk : 1 ≤ k ∧ k < g.nz) :
    (stepPml p g dt x y z J zeroSt).box.Ey 0 j k = ((stepPml p g dt x y z J zeroSt).blk (.low, .box, .box)).ey (x.n .low) j k ↔ J.Jy 0 j k = 0 := by
  have z1 : midH p g dt x y z zeroSt = zeroSt := by
    have h1 : advHFdtd p g dt zero = zero := by simp [advHFdtd, zero]
    have h2 : ∀ q, advBlkH p dt g.dx g.dy g.dz x y z q zeroSplit = zeroSplit := by
      intro q; simp [advBlkH, zeroSplit, Split.ex, Split.ey, Split.ez]
    simp only [midH, zeroSt, h1, h2]
  have zH : ∀ q i j k, zeroSt.hx q i j k = 0 ∧ zeroSt.hy q i j k = 0 ∧ zeroSt.hz q i j k = 0 := by
    intro q i j k
    refine ⟨?_, ?_, ?_⟩
    · unfold St.hx; split_ifs <;> simp [zeroSt, zero, zeroSplit, Split.hx]
    · unfold St.hy; split_ifs <;> simp [zeroSt, zero, zeroSplit, Split.hy]
    · unfold St.hz; split_ifs <;> simp [zeroSt, zero, zeroSplit, Split.hz]
  have zb : ∀ (x : Line) (e : Ext) (lo hi : Ext → ℝ) (_ : ∀ e, lo e = 0) (_ : ∀ e, hi e = 0) (i : ℕ) (d sg : ℝ),
      lineE p dt d sg x e 0 i (diff x e (fun _ => 0) lo hi i) = 0 := by
    intro x e lo hi h1 h2 i d sg
    have : ∀ δ ∈ diff x e (fun _ => 0) lo hi i, δ = 0 := by
      intro δ hδ
      unfold diff at hδ
      split_ifs at hδ
      · obtain ⟨e', _, rfl⟩ := Option.map_eq_some_iff.1 hδ; rw [h1]; ring
      · obtain ⟨e', _, rfl⟩ := Option.map_eq_some_iff.1 hδ; rw [h2]; ring
      · cases hδ; ring
      · cases hδ
    cases hd : diff x e (fun _ => 0) lo hi i with
    | none => rfl
    | some δ => rw [this δ hd]; simp [lineE]
  have e1 : ((stepPml p g dt x y z J zeroSt).blk (.low, .box, .box)).ey (x.n .low) j k = 0 := by
    show (advBlkE p dt g.dx g.dy g.dz x y z (midH p g dt x y z zeroSt) (.low, .box, .box)).ey (x.n .low) j k = 0
    rw [z1]
    have o0 : ∀ i j k, (zeroSt.blk (.low, .box, .box)).hz i j k = 0 := fun _ _ _ => add_zero (0 : ℝ)
    have o1 : ∀ i j k, (zeroSt.blk (.low, .box, .box)).hx i j k = 0 := fun _ _ _ => add_zero (0 : ℝ)
    have o2 : ∀ i j k, (zeroSt.blk (.low, .box, .box)).eyx i j k = 0 := fun _ _ _ => rfl
    have o3 : ∀ i j k, (zeroSt.blk (.low, .box, .box)).eyz i j k = 0 := fun _ _ _ => rfl
    simp only [advBlkE, Split.ey, o0, o1, o2, o3]
    rw [zb x _ _ _ (fun _ => (zH _ _ _ _).2.2) (fun _ => (zH _ _ _ _).2.2), zb z _ _ _ (fun _ => (zH _ _ _ _).1) (fun _ => (zH _ _ _ _).1)]
    simp
  have e2 : (stepPml p g dt x y z J zeroSt).box.Ey 0 j k = - (dt / p.eps * J.Jy 0 j k) := by
    show (advBoxE p g dt x y z J (midH p g dt x y z zeroSt)).Ey 0 j k = _
    rw [z1]
    have hz := f.gz
    have d1 : diff z .box (fun k => zeroSt.box.Hx 0 j k) (fun c => zeroSt.hx (.box, .box, c) 0 j (z.n c - 1)) (fun c => zeroSt.hx (.box, .box, c) 0 j 0) k = some 0 := by
      unfold diff
      rw [if_neg (by omega), if_neg (by omega), if_pos (by omega)]
      simp [zeroSt, zero]
    have d2 : diff x .box (fun i => zeroSt.box.Hz i j k) (fun a => zeroSt.hz (a, .box, .box) (x.n a - 1) j k) (fun a => zeroSt.hz (a, .box, .box) 0 j k) 0 = some 0 := by
      unfold diff
      rw [if_pos rfl]
      simp only [(zH _ _ _ _).2.2, Axis.lo, if_pos hl, Option.map_some]
      simp [zeroSt, zero]
    simp only [advBoxE]
    rw [if_pos hj, d1, d2]
    simp [boxE, zeroSt, zero]
  rw [e1, e2]
  have hk : dt / p.eps ≠ 0 := by positivity
  constructor
  · intro h; exact (mul_eq_zero.1 (neg_eq_zero.1 h)).resolve_left hk
  · intro h; rw [h]; simp

/-- A box of 4 by 5 by 6 cells with layers of ten cells on all sides and a current inside meets the hypotheses of `C97_monolith`, `C97_arrays` and
`C97_seam_current_refuted`. -/
example (p : Phys) : ∃ (N : Cnt) (g : Grid) (J : Curr), N.Ok ⟨true, true, true, true, true, true⟩ ∧ build ⟨true, true, true, true, true, true⟩ N = .ok () ∧
    Fit g (line p N 1 1 1 .x) (line p N 1 1 1 .y) (line p N 1 1 1 .z) ∧ Clear g (line p N 1 1 1 .x) (line p N 1 1 1 .y) (line p N 1 1 1 .z) J ∧
    J.Jz 2 2 2 = 1 ∧ 0 < (line p N 1 1 1 .x).n .low ∧ 2 < g.nz := by
  let N : Cnt := fun a e => match a, e with | .x, .box => 4 | .y, .box => 5 | .z, .box => 6 | _, _ => 10
  have hN : N.Ok ⟨true, true, true, true, true, true⟩ := by constructor <;> simp [N]
  refine ⟨N, ⟨4, 5, 6, 1, 1, 1, fun _ _ _ => 1, fun _ _ _ => 1, fun _ _ _ => 1, fun _ _ _ => 1, fun _ _ _ => 1, fun _ _ _ => 1, fun _ _ _ => True,
      fun _ _ _ => True, fun _ _ _ => True⟩,
    ⟨fun _ _ _ => 0, fun _ _ _ => 0, fun i j k => if i = 2 ∧ j = 2 ∧ k = 2 then 1 else 0⟩, hN, (C96_all_partial N hN rfl).1,
    ⟨C97_axes _ _ _ _ _ _ (by simp [N]), C97_axes _ _ _ _ _ _ (by simp [N]), C97_axes _ _ _ _ _ _ (by simp [N]), rfl, rfl, rfl⟩, ?_, by simp, by simp [line, N], by simp⟩
  constructor <;> intro _ _ _ <;> simp

end
end L3
end Wakis
