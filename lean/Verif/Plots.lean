import Verif.MpiGather
import Verif.WakeModel

/-!
# Pictures of the fields (C113, C114)

`wakis/plotting.py`: `plot2D` (606-882) and `plot1D` (884-1141), `wakis/field.py`: `inspect` (565-683): which numbers are drawn where.  Figures, colours, fonts, patches, rounding of the numbers in the titles and files
are not modelled.
-/

namespace Wakis
namespace Plot
open Sol hiding matOf
open Mpi
open Wake (pyInt)
variable {K : Type} [Field K] [LinearOrder K] [FloorRing K]
set_option linter.unusedSectionVars false

/-! ### Model -/

/-- solverFIT3D.py:144-146: `grid.x[:-1] + dx / 2`. -/
def centre (x : ℕ → K) (i : ℕ) : K := x i + (x (i + 1) - x i) / 2

/-- What the routines read of a solver (plotting.py:686-696, 946-959). -/
structure Scene (K : Type) where
  Nx : ℕ
  Ny : ℕ
  /-- `self.Nz`, under MPI `grid.NZ` -/
  Nz : ℕ
  /-- the grid lines; `grid.xmin` is the first, `grid.xmax` the last (under MPI those of the global grid for z) -/
  x : ℕ → K
  y : ℕ → K
  z : ℕ → K
  /-- `_z`: `self.z`, under MPI `grid.Z` -/
  zc : ℕ → K
  /-- length and entries of `self.z`, the cell centres of this process -/
  zl : Arr K
  /-- `self.E[x, y, z, component]` and so on for a field name (plotting.py:786-791), under MPI `mpi_gather` (751) -/
  get : String → Sel → Sel → Sel → Fld.CKey → Py (Arr3 K)

/-- `if field == "E": _field = …` (plotting.py:786-791, 1065-1070); another name leaves `_field` unbound. -/
def which (name : String) : Py Which := if name = "E" then .ok .E else if name = "H" then .ok .H else if name = "J" then .ok .J else .error .unboundLocalError

/-- The array a block of values is. -/
def arr3 (b : Fld.Block K) : Arr3 K := ⟨b.xs.length, b.ys.length, b.zs.length, b.val⟩

/-- A solver in one process. -/
def serial (norm3 : K → K → K → K) (Nx Ny Nz : ℕ) (x y z : ℕ → K) (F : Which → Fld K) : Scene K where
  Nx := Nx
  Ny := Ny
  Nz := Nz
  x := x
  y := y
  z := z
  zc := centre z
  zl := ⟨Nz, centre z⟩
  get name kx ky kz c := do
    let w ← which name
    let b ← (F w).getitem norm3 kx ky kz c
    return arr3 b

/-- Rank 0 of `size` processes, with a grid from `zmin` to `zmax` in `NZ` layers (gridFIT3D.py:320-324) and the parts `fs w r` of the fields; `zl` are the cell centres of rank 0 (with its ghost layer). -/
def mpi (norm3 : K → K → K → K) (size Nx Ny NZ : ℕ) (x y : ℕ → K) (zmin zmax : K) (zl : Arr K) (fs : Which → ℕ → Fld K) : Scene K where
  Nx := Nx
  Ny := Ny
  Nz := NZ
  x := x
  y := y
  z := fun i => zmin + i * ((zmax - zmin) / NZ)
  zc := fun i => zmin + i * ((zmax - zmin) / NZ) + (zmax - zmin) / (2 * NZ)
  zl := zl
  get name kx ky kz c := do
    let (w, c) ← parseField name (some c)
    mpiGather norm3 size NZ (fs w) (some kx) (some ky) (some kz) c

/-- The argument `plane` of `plot2D` or `line` of `plot1D`: a name or three indices. -/
inductive Where
  | name (s : String)
  | sels (x y z : Sel)

/-- What `imshow` gets (with `origin="lower"`), the axis labels and the position in the title. -/
structure Picture (K : Type) where
  rows : ℕ
  cols : ℕ
  val : ℕ → ℕ → K
  left : K
  right : K
  bottom : K
  top : K
  xax : String
  yax : String
  pos : K

/-- `type(i) is int` (plotting.py:713, 719, 725). -/
def isInt : Sel → Bool
  | .int _ => true
  | .slice _ _ => false

/-- `a[s]` for a one-dimensional array of length `n` (`self.x[x]`, plotting.py:714-731). -/
def pick (n : ℕ) (a : ℕ → K) (s : Sel) : Py (List K) := do
  let l ← s.resolve n
  return l.map a

/-- `a[i]` for the value in a title (plotting.py:714, 720, 726). -/
def pick1 (n : ℕ) (a : ℕ → K) (s : Sel) : Py K := do
  let l ← pick n a s
  match l with
  | v :: _ => return v
  | [] => throw .typeError

/-- `a[s].min(), a[s].max()` (plotting.py:718, 724, 730); `ValueError` for no elements. -/
def bounds (n : ℕ) (a : ℕ → K) (s : Sel) : Py (K × K) := do
  let l ← pick n a s
  match l with
  | v :: r => return (r.foldl min v, r.foldl max v)
  | [] => throw .valueError

/-- Indices, title position, axis labels and extent chosen by `plot2D`. -/
structure Cut (K : Type) where
  x : Sel
  y : Sel
  z : Sel
  pos : K
  xax : String
  yax : String
  left : K
  right : K
  bottom : K
  top : K

/-- plotting.py:712-731: a cut given by three indices.  Without an integer `extent` stays unbound.  (`type(i) is int` is taken to hold for every integer.) -/
def cutSels (S : Scene K) (x y z : Sel) : Py (Cut K) := do
  let c ← if isInt z then do
      let a ← pick1 S.zl.len S.zl.val z
      let (l, r) ← bounds S.Ny (centre S.y) y
      let (b, t) ← bounds S.Nx (centre S.x) x
      pure (some (⟨x, y, z, a, "y", "x", l, r, b, t⟩ : Cut K))
    else pure none
  let c ← if isInt x then do
      let a ← pick1 S.Nx (centre S.x) x
      let (l, r) ← bounds S.Nz S.zc z
      let (b, t) ← bounds S.Ny (centre S.y) y
      pure (some (⟨x, y, z, a, "z", "y", l, r, b, t⟩ : Cut K))
    else pure c
  let c ← if isInt y then do
      let a ← pick1 S.Ny (centre S.y) y
      let (l, r) ← bounds S.Nz S.zc z
      let (b, t) ← bounds S.Nx (centre S.x) x
      pure (some (⟨x, y, z, a, "z", "x", l, r, b, t⟩ : Cut K))
    else pure c
  match c with
  | some c => pure c
  | none => throw .unboundLocalError

/-- plotting.py:733-753: a cut given by a name.  An unknown name prints a message and leaves `x` unbound. -/
def cutName (S : Scene K) (s : String) (pos : K) : Py (Cut K) :=
  if s = "XY" then
    .ok ⟨.slice (some 0) (some S.Nx), .slice (some 0) (some S.Ny), .int (pyInt (S.Nz * pos)), pos * (S.z S.Nz - S.z 0) + S.z 0, "y", "x", S.y 0, S.y S.Ny, S.x 0, S.x S.Nx⟩
  else if s = "ZY" ∨ s = "YZ" then
    .ok ⟨.int (pyInt (S.Nx * pos)), .slice (some 0) (some S.Ny), .slice (some 0) (some S.Nz), pos * (S.x S.Nx - S.x 0) + S.x 0, "z", "y", S.z 0, S.z S.Nz, S.y 0, S.y S.Ny⟩
  else if s = "ZX" ∨ s = "XZ" then
    .ok ⟨.slice (some 0) (some S.Nx), .int (pyInt (S.Ny * pos)), .slice (some 0) (some S.Nz), pos * (S.y S.Ny - S.y 0) + S.y 0, "z", "x", S.z 0, S.z S.Nz, S.x 0, S.x S.Nx⟩
  else .error .unboundLocalError

def cut2D (S : Scene K) (plane : Where) (pos : K) : Py (Cut K) :=
  match plane with
  | .sels x y z => cutSels S x y z
  | .name s => cutName S s pos

/-- plotting.py:698-704: `"Ex"` and `"EAbs"` override the component. -/
def split2 (field component : String) : String × String :=
  if field.toList.length = 2 ∨ field.toList.length = 4 then (String.ofList (field.toList.take 1), String.ofList (field.toList.drop 1)) else (field, component)

/-- numpy drops the axes indexed by an integer; `imshow` wants two axes (`TypeError` otherwise). -/
def draw (c : Cut K) (A : Arr3 K) : Py (Picture K) :=
  match isInt c.x, isInt c.y, isInt c.z with
  | true, false, false => .ok ⟨A.n1, A.n2, fun i j => A.val 0 i j, c.left, c.right, c.bottom, c.top, c.xax, c.yax, c.pos⟩
  | false, true, false => .ok ⟨A.n0, A.n2, fun i j => A.val i 0 j, c.left, c.right, c.bottom, c.top, c.xax, c.yax, c.pos⟩
  | false, false, true => .ok ⟨A.n0, A.n1, fun i j => A.val i j 0, c.left, c.right, c.bottom, c.top, c.xax, c.yax, c.pos⟩
  | _, _, _ => .error .typeError

/-- plotting.py:606-882 `plot2D(field, component, plane, pos)`. -/
def plot2D (S : Scene K) (field component : String) (plane : Where) (pos : K) : Py (Picture K) := do
  let (name, comp) := split2 field component
  let c ← cut2D S plane pos
  let A ← S.get name c.x c.y c.z (.str comp)
  draw c A

/-- One curve of `plot1D`: abscissas, values and the two positions in the label. -/
structure Curve (K : Type) where
  n : ℕ
  xx : ℕ → K
  val : ℕ → K
  xax : String
  a : K
  b : K

/-- The indices, abscissas and label chosen by `plot1D`. -/
structure Line (K : Type) where
  x : Sel
  y : Sel
  z : Sel
  xx : List K
  xax : String
  a : K
  b : K

/-- plotting.py:991-1043: the line.  `round` of an array is a `TypeError`; without a slice, or for an unknown name, `xx` or `x` is unbound. -/
def line1D (S : Scene K) (line : Where) (pos : K) : Py (Line K) :=
  match line with
  | .sels x y z =>
    if !isInt z then do
      let a ← label S.Nx (centre S.x) x
      let b ← label S.Ny (centre S.y) y
      let xx ← pick S.Nz S.zc z
      pure ⟨x, y, z, xx, "z", a, b⟩
    else if !isInt x then do
      let a ← label S.Ny (centre S.y) y
      let b ← label S.Nz S.zc z
      let xx ← pick S.Nx (centre S.x) x
      pure ⟨x, y, z, xx, "x", a, b⟩
    else if !isInt y then do
      let a ← label S.Nx (centre S.x) x
      let b ← label S.Nz S.zc z
      let xx ← pick S.Ny (centre S.y) y
      pure ⟨x, y, z, xx, "y", a, b⟩
    else .error .unboundLocalError
  | .name s =>
    if pyLower s = "x" then do
      let y := Sel.int (pyInt (S.Ny * pos))
      let z := Sel.int (pyInt (S.Nz * pos))
      let a ← label S.Ny (centre S.y) y
      let b ← label S.Nz S.zc z
      let xx ← pick S.Nx (centre S.x) (.slice (some 0) (some S.Nx))
      pure ⟨.slice (some 0) (some S.Nx), y, z, xx, "x", a, b⟩
    else if pyLower s = "y" then do
      let x := Sel.int (pyInt (S.Nx * pos))
      let z := Sel.int (pyInt (S.Nz * pos))
      let a ← label S.Nx (centre S.x) x
      let b ← label S.Nz S.zc z
      let xx ← pick S.Ny (centre S.y) (.slice (some 0) (some S.Ny))
      pure ⟨x, .slice (some 0) (some S.Ny), z, xx, "y", a, b⟩
    else if pyLower s = "z" then do
      let x := Sel.int (pyInt (S.Nx * pos))
      let y := Sel.int (pyInt (S.Ny * pos))
      let a ← label S.Nx (centre S.x) x
      let b ← label S.Ny (centre S.y) y
      let xx ← pick S.Nz S.zc (.slice (some 0) (some S.Nz))
      pure ⟨x, y, .slice (some 0) (some S.Nz), xx, "z", a, b⟩
    else .error .unboundLocalError
where
  /-- `round(a[i], 3)` (not rounded). -/
  label (n : ℕ) (a : ℕ → K) (s : Sel) : Py K := do
    let v ← pick1 n a s
    if isInt s then pure v else throw .typeError

/-- plotting.py:976-978: only `"Ex"` overrides the component. -/
def split1 (field component : String) : String × String :=
  if field.toList.length = 2 then (String.ofList (field.toList.take 1), String.ofList (field.toList.drop 1)) else (field, component)

/-- plotting.py:964-973: the seven default colours; `colors[i]` with `i ≥ 7` is an `IndexError`. -/
def nColors : ℕ := 7

/-- One pass of the loop at plotting.py:989-1079: curve number `i` at position `pos`. -/
def curve (S : Scene K) (field component : String) (line : Where) (i : ℕ) (pos : K) : Py (Curve K) := do
  let (name, comp) := split1 field component
  let l ← line1D S line pos
  let A ← S.get name l.x l.y l.z (.str comp)
  if nColors ≤ i then throw .indexError
  let val := if l.xax = "x" then fun i => A.val i 0 0 else if l.xax = "y" then fun i => A.val 0 i 0 else fun i => A.val 0 0 i
  return ⟨l.xx.length, fun i => l.xx.getD i 0, val, l.xax, l.a, l.b⟩

/-- The loop from curve number `i` on. -/
def curves (S : Scene K) (field component : String) (line : Where) : ℕ → List K → Py (List (Curve K))
  | _, [] => .ok []
  | i, p :: ps => do
    let c ← curve S field component line i p
    let cs ← curves S field component line (i + 1) ps
    return c :: cs

/-- plotting.py:884-1141 `plot1D(field, component, line, pos)` with the default colours. -/
def plot1D (S : Scene K) (field component : String) (line : Where) (pos : List K) : Py (List (Curve K)) := curves S field component line 0 pos

/-- field.py:607-655 `Field.inspect(plane)`: what is drawn of component `d`, in units of cells (`x`, `y`, `z` not given).  An unknown plane leaves `transpose` unbound. -/
def inspect (f : Fld K) (plane : String) (d : ℕ) : Py (Picture K) :=
  let m := Fld.reshapeF f.Nx f.Ny (f.part d)
  if plane = "XY" then do
    let b ← f.index3 m (.slice (some 0) (some f.Nx)) (.slice (some 0) (some f.Ny)) (.int (f.Nz / 2 : ℕ))
    return ⟨b.ys.length, b.xs.length, fun i j => b.val j i 0, 0, f.Nx, 0, f.Ny, "nx", "ny", (f.Nz / 2 : ℕ)⟩
  else if plane = "XZ" then do
    let b ← f.index3 m (.slice (some 0) (some f.Nx)) (.int (f.Ny / 2 : ℕ)) (.slice (some 0) (some f.Nz))
    return ⟨b.xs.length, b.zs.length, fun i j => b.val i 0 j, 0, f.Nz, 0, f.Nx, "nz", "nx", (f.Ny / 2 : ℕ)⟩
  else if plane = "YZ" then do
    let b ← f.index3 m (.int (f.Nx / 2 : ℕ)) (.slice (some 0) (some f.Ny)) (.slice (some 0) (some f.Nz))
    return ⟨b.ys.length, b.zs.length, fun i j => b.val 0 i j, 0, f.Nz, 0, f.Ny, "nz", "ny", (f.Nx / 2 : ℕ)⟩
  else .error .unboundLocalError

/-- field.py:637, 648: `vmax = field.max()`, `vmin = -field.max()` of component `d`; `ValueError` for an empty field. -/
def inspectRange (f : Fld K) (d : ℕ) : Py (K × K) :=
  match (List.range f.N).map (f.part d) with
  | v :: r => .ok (-(r.foldl max v), r.foldl max v)
  | [] => .error .valueError

/-! ### Specification -/

/-- A point is in cell `i` of an axis with grid lines `x`. -/
def InCell (x : ℕ → K) (n i : ℕ) (p : K) : Prop := i < n ∧ x i ≤ p ∧ p < x (i + 1)

/-- `n` cells of equal length. -/
def Equidistant (x : ℕ → K) (n : ℕ) : Prop := x 0 < x n ∧ ∀ i ≤ n, x i = x 0 + i * ((x n - x 0) / n)

/-- The colour at the point `(u, v)` of a picture: `imshow` with `origin="lower"` divides the extent into `rows × cols` equal rectangles. -/
def Shows (P : Picture K) (u v a : K) : Prop :=
  ∃ i j : ℕ, i < P.rows ∧ j < P.cols ∧ P.left + j * ((P.right - P.left) / P.cols) ≤ u ∧ u < P.left + (j + 1) * ((P.right - P.left) / P.cols) ∧
    P.bottom + i * ((P.top - P.bottom) / P.rows) ≤ v ∧ v < P.bottom + (i + 1) * ((P.top - P.bottom) / P.rows) ∧ P.val i j = a

/-- The coordinate of a point named by an axis label. -/
def coord (ax : String) (p : K × K × K) : K := if ax = "x" then p.1 else if ax = "y" then p.2.1 else p.2.2

/-- The axis a plane is normal to. -/
def normal (plane : String) : String := if plane = "XY" then "z" else if plane = "ZY" ∨ plane = "YZ" then "x" else "y"

/-- `field[i, j, k, component]`. -/
def Value (norm3 : K → K → K → K) (f : Fld K) (c : Fld.CKey) (i j k : ℕ) (a : K) : Prop :=
  ∃ b, f.getitem norm3 (.int i) (.int j) (.int k) c = .ok b ∧ b.val 0 0 0 = a

/-! ### Lemmas -/

theorem resolve_full (n : ℕ) : (Sel.slice (some 0) (some (n : ℤ))).resolve n = .ok (List.range n) := by
  have h : ¬ ((n : ℤ) < 0) := by omega
  simp [Sel.resolve, sliceLo, sliceHi, clipBound, h]

theorem resolve_int {n i : ℕ} (h : i < n) : (Sel.int (i : ℤ)).resolve n = .ok [i] := by
  simp [Sel.resolve, pyIndex_natCast h, Except.map]

/-- The components one can ask for. -/
theorem matOf_some (norm3 : K → K → K → K) (f : Fld K) {c : Fld.CKey} (hc : (∃ d, Fld.Names c d) ∨ Fld.isAbs c = true) : ∃ M, matOf norm3 f c = some M := by
  unfold matOf Fld.toMatrix
  cases h : Fld.compOf c with
  | some d => exact ⟨_, rfl⟩
  | none =>
    rcases hc with ⟨d, hd⟩ | ha
    · rw [Fld.names_iff.1 hd] at h; cases h
    · exact ⟨f.absWith norm3, by simp [ha]⟩

theorem get_of_mat {norm3 : K → K → K → K} {f : Fld K} {c : Fld.CKey} {M : ℕ → ℕ → ℕ → K} (hM : matOf norm3 f c = some M) {kx ky kz : Sel} {xs ys zs : List ℕ}
    (hx : kx.resolve f.Nx = .ok xs) (hy : ky.resolve f.Ny = .ok ys) (hz : kz.resolve f.Nz = .ok zs) :
    f.getitem norm3 kx ky kz c = .ok ⟨xs, ys, zs, fun a b c => M (xs.getD a 0) (ys.getD b 0) (zs.getD c 0)⟩ := by
  rw [getitem_eq, hM]
  simp only [Fld.index3, Fld.resolve3, hx, hy, hz, bind, Except.bind, pure, Except.pure]

theorem value_of_mat {norm3 : K → K → K → K} {f : Fld K} {c : Fld.CKey} {M : ℕ → ℕ → ℕ → K} (hM : matOf norm3 f c = some M) {i j k : ℕ} (hi : i < f.Nx) (hj : j < f.Ny) (hk : k < f.Nz) :
    Value norm3 f c i j k (M i j k) := ⟨_, get_of_mat hM (resolve_int hi) (resolve_int hj) (resolve_int hk), rfl⟩

theorem range_getD {n i : ℕ} (h : i < n) : (List.range n).getD i 0 = i := by
  rw [getD_lt (by simpa using h)]; simp

section
variable [IsStrictOrderedRing K]

theorem cut_index {n : ℕ} {pos : K} (h0 : 0 ≤ pos) (h1 : pos < 1) (hn : 0 < n) : pyInt ((n : K) * pos) = ((⌊(n : K) * pos⌋₊ : ℕ) : ℤ) ∧ ⌊(n : K) * pos⌋₊ < n := by
  have hn' : (0 : K) < n := by exact_mod_cast hn
  have h2 : 0 ≤ (n : K) * pos := mul_nonneg hn'.le h0
  constructor
  · unfold pyInt
    rw [if_pos h2, Int.natCast_floor_eq_floor h2]
  · rw [Nat.floor_lt h2]
    calc (n : K) * pos < n * 1 := mul_lt_mul_of_pos_left h1 hn'
      _ = n := mul_one _

/-- On an equidistant axis the index `int(n * pos)` is that of the cell that contains the position. -/
theorem cut_cell {x : ℕ → K} {n k : ℕ} (hx : Equidistant x n) {pos : K} (hk : InCell x n k (pos * (x n - x 0) + x 0)) : ⌊(n : K) * pos⌋₊ = k := by
  obtain ⟨hk1, hk2, hk3⟩ := hk
  have hn : (0 : K) < n := by have : 0 < n := by omega
                              exact_mod_cast this
  rw [hx.2 k (by omega)] at hk2
  rw [hx.2 (k + 1) (by omega)] at hk3
  have d : 0 < (x n - x 0) / n := div_pos (sub_pos.2 hx.1) hn
  have e : pos * (x n - x 0) = (n * pos) * ((x n - x 0) / n) := by field_simp
  have a1 : (k : K) * ((x n - x 0) / n) ≤ n * pos * ((x n - x 0) / n) := by rw [← e]; linarith
  have a2 : n * pos * ((x n - x 0) / n) < ((k + 1 : ℕ) : K) * ((x n - x 0) / n) := by rw [← e]; linarith
  have b1 := le_of_mul_le_mul_right a1 d
  have b2 := lt_of_mul_lt_mul_right a2 d.le
  rw [Nat.floor_eq_iff (le_trans (Nat.cast_nonneg k) b1)]
  exact ⟨b1, by push_cast at b2; exact b2⟩

theorem pixel_of_cell {x : ℕ → K} {n i : ℕ} (hx : Equidistant x n) {p : K} (h : InCell x n i p) : x 0 + i * ((x n - x 0) / n) ≤ p ∧ p < x 0 + (i + 1) * ((x n - x 0) / n) := by
  obtain ⟨h1, h2, h3⟩ := h
  rw [hx.2 i (by omega)] at h2
  rw [hx.2 (i + 1) (by omega)] at h3
  push_cast at h3
  exact ⟨h2, h3⟩

theorem Equidistant.pos {x : ℕ → K} {n : ℕ} (hx : Equidistant x n) : 0 < n := by
  rcases Nat.eq_zero_or_pos n with rfl | h
  · exact absurd hx.1 (lt_irrefl _)
  · exact h

theorem serial_get (norm3 : K → K → K → K) {Nx Ny Nz : ℕ} {x y z : ℕ → K} {F : Which → Fld K} {name : String} {w : Which} (hw : which name = .ok w) (kx ky kz : Sel) (c : Fld.CKey) :
    (serial norm3 Nx Ny Nz x y z F).get name kx ky kz c = ((F w).getitem norm3 kx ky kz c).map arr3 := by
  show (which name >>= fun w => (F w).getitem norm3 kx ky kz c >>= fun b => pure (arr3 b)) = _
  rw [hw]
  show ((F w).getitem norm3 kx ky kz c >>= fun b => pure (arr3 b)) = _
  cases (F w).getitem norm3 kx ky kz c <;> rfl

theorem serial_get_ok (norm3 : K → K → K → K) {Nx Ny Nz : ℕ} {x y z : ℕ → K} {F : Which → Fld K} {name : String} {w : Which} (hw : which name = .ok w) {c : Fld.CKey}
    {M : ℕ → ℕ → ℕ → K} (hM : Mpi.matOf norm3 (F w) c = some M) {kx ky kz : Sel} {xs ys zs : List ℕ} (h1 : kx.resolve (F w).Nx = .ok xs) (h2 : ky.resolve (F w).Ny = .ok ys)
    (h3 : kz.resolve (F w).Nz = .ok zs) :
    (serial norm3 Nx Ny Nz x y z F).get name kx ky kz c = .ok ⟨xs.length, ys.length, zs.length, fun a b c => M (xs.getD a 0) (ys.getD b 0) (zs.getD c 0)⟩ := by
  rw [serial_get norm3 hw, get_of_mat hM h1 h2 h3]; rfl

theorem plot_of_cut {S : Scene K} {field component name comp : String} (hs : split2 field component = (name, comp)) {plane : Where} {pos : K} {c : Cut K} (h : cut2D S plane pos = .ok c)
    {A : Arr3 K} (hA : S.get name c.x c.y c.z (.str comp) = .ok A) : plot2D S field component plane pos = draw c A := by
  unfold plot2D
  rw [hs]
  simp only [h, hA, bind, Except.bind]

/-! ### what a caller asks for -/

/-- The letter of a field. -/
def symbol : Which → String
  | .E => "E"
  | .H => "H"
  | .J => "J"

/-- `plot2D("E", component="x")`, `plot2D("Ex")` or `plot2D("EAbs")`: the call asks for component `comp` of field `w`. -/
def Asked (w : Which) (comp field component : String) : Prop := (field = symbol w ∧ component = comp) ∨ (field = symbol w ++ comp ∧ comp ∈ ["x", "y", "z", "Abs"])

/-- `plot1D("E", component="x")` or `plot1D("Ex")`. -/
def AskedLine (w : Which) (comp field component : String) : Prop := (field = symbol w ∧ component = comp) ∨ (field = symbol w ++ comp ∧ comp ∈ ["x", "y", "z"])

theorem which_symbol (w : Which) : which (symbol w) = .ok w := by cases w <;> rfl

theorem Asked.split {w : Which} {comp field component : String} (h : Asked w comp field component) : split2 field component = (symbol w, comp) ∧ which (symbol w) = .ok w := by
  refine ⟨?_, which_symbol w⟩
  rcases h with ⟨rfl, rfl⟩ | ⟨rfl, hc⟩
  · cases w <;> rfl
  · have : comp = "x" ∨ comp = "y" ∨ comp = "z" ∨ comp = "Abs" := by simpa using hc
    unfold split2
    rcases this with rfl | rfl | rfl | rfl <;> cases w <;> rw [if_pos (by decide)] <;> exact Prod.ext (by decide) (by decide)

theorem AskedLine.split {w : Which} {comp field component : String} (h : AskedLine w comp field component) : split1 field component = (symbol w, comp) ∧ which (symbol w) = .ok w := by
  refine ⟨?_, which_symbol w⟩
  rcases h with ⟨rfl, rfl⟩ | ⟨rfl, hc⟩
  · cases w <;> rfl
  · have : comp = "x" ∨ comp = "y" ∨ comp = "z" := by simpa using hc
    unfold split1
    rcases this with rfl | rfl | rfl <;> cases w <;> rw [if_pos (by decide)] <;> exact Prod.ext (by decide) (by decide)

/-! ### C113 -/

/-- **C113 (plot2D).** Three equidistant axes, any of the five plane names, a relative position `0 ≤ pos < 1`, a field E, H or J with any component or the magnitude.  The picture's two axes and the normal are
the three axes; the title gives the position `min + pos (max - min)` on the normal; at every point of the picture the colour is the field value of the cell that contains the point. -/
theorem C113_picture_partial (norm3 : K → K → K → K) {Nx Ny Nz : ℕ} {x y z : ℕ → K} (hx : Equidistant x Nx) (hy : Equidistant y Ny) (hz : Equidistant z Nz) {F : Which → Fld K}
    (hF : ∀ w, (F w).Nx = Nx ∧ (F w).Ny = Ny ∧ (F w).Nz = Nz) {plane : String} (hp : plane ∈ ["XY", "ZY", "YZ", "ZX", "XZ"]) {pos : K} (h0 : 0 ≤ pos) (h1 : pos < 1)
    {field component comp : String} {w : Which} (hask : Asked w comp field component) (hc : (∃ d, Fld.Names (.str comp) d) ∨ Fld.isAbs (.str comp) = true) :
    ∃ P, plot2D (serial norm3 Nx Ny Nz x y z F) field component (.name plane) pos = .ok P ∧
      [P.xax, P.yax, normal plane].Perm ["x", "y", "z"] ∧
      P.pos = coord (normal plane) (pos * (x Nx - x 0) + x 0, pos * (y Ny - y 0) + y 0, pos * (z Nz - z 0) + z 0) ∧
      ∀ p : K × K × K, ∀ i j k, InCell x Nx i p.1 → InCell y Ny j p.2.1 → InCell z Nz k p.2.2 → coord (normal plane) p = P.pos →
        ∃ a, Value norm3 (F w) (.str comp) i j k a ∧ Shows P (coord P.xax p) (coord P.yax p) a := by
  obtain ⟨hs, hw⟩ := hask.split
  obtain ⟨f1, f2, f3⟩ := hF w
  obtain ⟨M, hM⟩ := matOf_some norm3 (F w) hc
  have mem : plane = "XY" ∨ plane = "ZY" ∨ plane = "YZ" ∨ plane = "ZX" ∨ plane = "XZ" := by simpa using hp
  have fx : (Sel.slice (some 0) (some (Nx : ℤ))).resolve (F w).Nx = .ok (List.range Nx) := by rw [f1]; exact resolve_full Nx
  have fy : (Sel.slice (some 0) (some (Ny : ℤ))).resolve (F w).Ny = .ok (List.range Ny) := by rw [f2]; exact resolve_full Ny
  have fz : (Sel.slice (some 0) (some (Nz : ℤ))).resolve (F w).Nz = .ok (List.range Nz) := by rw [f3]; exact resolve_full Nz
  have ix : (Sel.int (pyInt ((Nx : K) * pos))).resolve (F w).Nx = .ok [⌊(Nx : K) * pos⌋₊] := by
    obtain ⟨e, l⟩ := cut_index (n := Nx) h0 h1 hx.pos; rw [e, f1]; exact resolve_int l
  have iy : (Sel.int (pyInt ((Ny : K) * pos))).resolve (F w).Ny = .ok [⌊(Ny : K) * pos⌋₊] := by
    obtain ⟨e, l⟩ := cut_index (n := Ny) h0 h1 hy.pos; rw [e, f2]; exact resolve_int l
  have iz : (Sel.int (pyInt ((Nz : K) * pos))).resolve (F w).Nz = .ok [⌊(Nz : K) * pos⌋₊] := by
    obtain ⟨e, l⟩ := cut_index (n := Nz) h0 h1 hz.pos; rw [e, f3]; exact resolve_int l
  have ZY : ∀ pl, pl = "ZY" ∨ pl = "YZ" → cut2D (serial norm3 Nx Ny Nz x y z F) (.name pl) pos = .ok ⟨.int (pyInt (Nx * pos)), .slice (some 0) (some Ny), .slice (some 0) (some Nz),
      pos * (x Nx - x 0) + x 0, "z", "y", z 0, z Nz, y 0, y Ny⟩ := by
    rintro pl (rfl | rfl) <;> rfl
  have ZX : ∀ pl, pl = "ZX" ∨ pl = "XZ" → cut2D (serial norm3 Nx Ny Nz x y z F) (.name pl) pos = .ok ⟨.slice (some 0) (some Nx), .int (pyInt (Ny * pos)), .slice (some 0) (some Nz),
      pos * (y Ny - y 0) + y 0, "z", "x", z 0, z Nz, x 0, x Nx⟩ := by
    rintro pl (rfl | rfl) <;> rfl
  have V : ∀ {i j k}, i < Nx → j < Ny → k < Nz → Value norm3 (F w) (.str comp) i j k (M i j k) := fun hi hj hk => value_of_mat hM (by omega) (by omega) (by omega)
  have cases3 : plane = "XY" ∨ (plane = "ZY" ∨ plane = "YZ") ∨ (plane = "ZX" ∨ plane = "XZ") := by tauto
  rcases cases3 with rfl | hpl | hpl
  · refine ⟨_, plot_of_cut hs (plane := .name "XY") rfl (serial_get_ok norm3 hw hM fx fy iz), by show List.Perm ["y", "x", "z"] _; decide, rfl, ?_⟩
    rintro ⟨px, py, pz⟩ i j k hi hj hk e
    have e : pz = pos * (z Nz - z 0) + z 0 := e
    refine ⟨_, V hi.1 hj.1 hk.1, i, j, by simpa using hi.1, by simpa using hj.1, ?_⟩
    obtain ⟨u1, u2⟩ := pixel_of_cell hx hi
    obtain ⟨v1, v2⟩ := pixel_of_cell hy hj
    have q := cut_cell hz (by rw [← e]; exact hk)
    simp only [List.length_range]
    refine ⟨v1, v2, u1, u2, ?_⟩
    show M _ _ _ = _
    rw [range_getD hi.1, range_getD hj.1]
    exact congrArg _ q
  · refine ⟨_, plot_of_cut hs (ZY plane hpl) (serial_get_ok norm3 hw hM ix fy fz), ?_, ?_, ?_⟩
    · rcases hpl with rfl | rfl <;> (show List.Perm ["z", "y", "x"] _; decide)
    · rcases hpl with rfl | rfl <;> rfl
    rintro ⟨px, py, pz⟩ i j k hi hj hk e
    have e : px = pos * (x Nx - x 0) + x 0 := by rcases hpl with rfl | rfl <;> exact e
    refine ⟨_, V hi.1 hj.1 hk.1, j, k, by simpa using hj.1, by simpa using hk.1, ?_⟩
    obtain ⟨u1, u2⟩ := pixel_of_cell hy hj
    obtain ⟨v1, v2⟩ := pixel_of_cell hz hk
    have q := cut_cell hx (by rw [← e]; exact hi)
    simp only [List.length_range]
    refine ⟨v1, v2, u1, u2, ?_⟩
    show M _ _ _ = _
    rw [range_getD hj.1, range_getD hk.1]
    exact congrArg (fun a => M a j k) q
  · refine ⟨_, plot_of_cut hs (ZX plane hpl) (serial_get_ok norm3 hw hM fx iy fz), ?_, ?_, ?_⟩
    · rcases hpl with rfl | rfl <;> (show List.Perm ["z", "x", "y"] _; decide)
    · rcases hpl with rfl | rfl <;> rfl
    rintro ⟨px, py, pz⟩ i j k hi hj hk e
    have e : py = pos * (y Ny - y 0) + y 0 := by rcases hpl with rfl | rfl <;> exact e
    refine ⟨_, V hi.1 hj.1 hk.1, i, k, by simpa using hi.1, by simpa using hk.1, ?_⟩
    obtain ⟨u1, u2⟩ := pixel_of_cell hx hi
    obtain ⟨v1, v2⟩ := pixel_of_cell hz hk
    have q := cut_cell hy (by rw [← e]; exact hj)
    simp only [List.length_range]
    refine ⟨v1, v2, u1, u2, ?_⟩
    show M _ _ _ = _
    rw [range_getD hi.1, range_getD hk.1]
    exact congrArg (fun a => M i a k) q

theorem pyInt_end (n : ℕ) : pyInt ((n : K) * 1) = (n : ℤ) := by
  unfold pyInt
  rw [mul_one, if_pos (Nat.cast_nonneg n)]
  exact Int.floor_natCast n

theorem resolve_end (n : ℕ) : (Sel.int (n : ℤ)).resolve n = .error .indexError := by
  have : pyIndex n (n : ℤ) = .error .indexError := by unfold pyIndex; rw [if_neg (by omega), if_neg (by omega)]
  simp [Sel.resolve, this, Except.map]

theorem get_error {norm3 : K → K → K → K} {f : Fld K} {c : Fld.CKey} (hc : (∃ d, Fld.Names c d) ∨ Fld.isAbs c = true) {kx ky kz : Sel}
    (h : (∃ xs ys, kx.resolve f.Nx = .ok xs ∧ ky.resolve f.Ny = .ok ys ∧ kz.resolve f.Nz = .error .indexError) ∨ kx.resolve f.Nx = .error .indexError ∨
      ∃ xs, kx.resolve f.Nx = .ok xs ∧ ky.resolve f.Ny = .error .indexError) : f.getitem norm3 kx ky kz c = .error .indexError := by
  obtain ⟨M, hM⟩ := matOf_some norm3 f hc
  rw [getitem_eq, hM]
  simp only [Fld.index3, Fld.resolve3]
  rcases h with ⟨xs, ys, h1, h2, h3⟩ | h | ⟨xs, h1, h2⟩
  · simp only [h1, h2, h3, bind, Except.bind]
  · simp only [h, bind, Except.bind]
  · simp only [h1, h2, bind, Except.bind]

/-- **C113 refuted (upper end).** The documented range of `pos` is 0 to 1; with `pos = 1` every plot on every grid fails. -/
theorem C113_end_refuted (norm3 : K → K → K → K) {Nx Ny Nz : ℕ} {x y z : ℕ → K} {F : Which → Fld K} (hF : ∀ w, (F w).Nx = Nx ∧ (F w).Ny = Ny ∧ (F w).Nz = Nz)
    {plane : String} (hp : plane ∈ ["XY", "ZY", "YZ", "ZX", "XZ"]) {field component comp : String} {w : Which} (hask : Asked w comp field component)
    (hc : (∃ d, Fld.Names (.str comp) d) ∨ Fld.isAbs (.str comp) = true) : plot2D (serial norm3 Nx Ny Nz x y z F) field component (.name plane) 1 = .error .indexError := by
  obtain ⟨hs, hw⟩ := hask.split
  obtain ⟨f1, f2, f3⟩ := hF w
  have mem : plane = "XY" ∨ (plane = "ZY" ∨ plane = "YZ") ∨ (plane = "ZX" ∨ plane = "XZ") := by
    have : plane = "XY" ∨ plane = "ZY" ∨ plane = "YZ" ∨ plane = "ZX" ∨ plane = "XZ" := by simpa using hp
    tauto
  have fx : (Sel.slice (some 0) (some (Nx : ℤ))).resolve (F w).Nx = .ok (List.range Nx) := by rw [f1]; exact resolve_full Nx
  have fy : (Sel.slice (some 0) (some (Ny : ℤ))).resolve (F w).Ny = .ok (List.range Ny) := by rw [f2]; exact resolve_full Ny
  have ix : (Sel.int (pyInt ((Nx : K) * 1))).resolve (F w).Nx = .error .indexError := by rw [pyInt_end, f1]; exact resolve_end Nx
  have iy : (Sel.int (pyInt ((Ny : K) * 1))).resolve (F w).Ny = .error .indexError := by rw [pyInt_end, f2]; exact resolve_end Ny
  have iz : (Sel.int (pyInt ((Nz : K) * 1))).resolve (F w).Nz = .error .indexError := by rw [pyInt_end, f3]; exact resolve_end Nz
  have fail : ∀ {c : Cut K}, cut2D (serial norm3 Nx Ny Nz x y z F) (.name plane) 1 = .ok c → (F w).getitem norm3 c.x c.y c.z (.str comp) = .error .indexError →
      plot2D (serial norm3 Nx Ny Nz x y z F) field component (.name plane) 1 = .error .indexError := by
    intro c h1 h2
    unfold plot2D
    rw [hs]
    simp only [h1, bind, Except.bind]
    rw [serial_get norm3 hw, h2]
    rfl
  rcases mem with rfl | hpl | hpl
  · exact fail rfl (get_error hc (.inl ⟨_, _, fx, fy, iz⟩))
  · exact fail (c := ⟨.int (pyInt ((Nx : K) * 1)), .slice (some 0) (some Ny), .slice (some 0) (some Nz), 1 * (x Nx - x 0) + x 0, "z", "y", z 0, z Nz, y 0, y Ny⟩)
      (by rcases hpl with rfl | rfl <;> rfl) (get_error hc (.inr (.inl ix)))
  · exact fail (c := ⟨.slice (some 0) (some Nx), .int (pyInt ((Ny : K) * 1)), .slice (some 0) (some Nz), 1 * (y Ny - y 0) + y 0, "z", "x", z 0, z Nz, x 0, x Nx⟩)
      (by rcases hpl with rfl | rfl <;> rfl) (get_error hc (.inr (.inr ⟨_, fx, iy⟩)))

/-- The picture of plane XY, written out. -/
theorem plotXY (norm3 : K → K → K → K) {Nx Ny Nz : ℕ} {x y z : ℕ → K} {F : Which → Fld K} (hF : ∀ w, (F w).Nx = Nx ∧ (F w).Ny = Ny ∧ (F w).Nz = Nz) {pos : K} (h0 : 0 ≤ pos) (h1 : pos < 1)
    (hz : 0 < Nz) {M : ℕ → ℕ → ℕ → K} (hM : Mpi.matOf norm3 (F .E) (.str "x") = some M) :
    ∃ P, plot2D (serial norm3 Nx Ny Nz x y z F) "Ex" "z" (.name "XY") pos = .ok P ∧ P.rows = Nx ∧ P.cols = Ny ∧ P.left = y 0 ∧ P.right = y Ny ∧ P.bottom = x 0 ∧ P.top = x Nx ∧
      ∀ i < Nx, ∀ j < Ny, P.val i j = M i j ⌊(Nz : K) * pos⌋₊ := by
  obtain ⟨f1, f2, f3⟩ := hF .E
  have hs : split2 "Ex" "z" = ("E", "x") := by decide
  have hw : which "E" = .ok .E := by decide
  have fx : (Sel.slice (some 0) (some (Nx : ℤ))).resolve (F .E).Nx = .ok (List.range Nx) := by rw [f1]; exact resolve_full Nx
  have fy : (Sel.slice (some 0) (some (Ny : ℤ))).resolve (F .E).Ny = .ok (List.range Ny) := by rw [f2]; exact resolve_full Ny
  have iz : (Sel.int (pyInt ((Nz : K) * pos))).resolve (F .E).Nz = .ok [⌊(Nz : K) * pos⌋₊] := by
    obtain ⟨e, l⟩ := cut_index (n := Nz) h0 h1 hz; rw [e, f3]; exact resolve_int l
  refine ⟨_, plot_of_cut hs (plane := .name "XY") rfl (serial_get_ok norm3 hw hM fx fy iz), by simp, by simp, rfl, rfl, rfl, rfl, ?_⟩
  intro i hi j hj
  show M _ _ _ = _
  rw [range_getD hi, range_getD hj]
  rfl

omit [FloorRing K] [IsStrictOrderedRing K] in
theorem axis_lt {y : ℕ → K} {n : ℕ} (hy : ∀ i < n, y i < y (i + 1)) {i j : ℕ} (hij : i < j) (hj : j ≤ n) : y i < y j := by
  induction j with
  | zero => omega
  | succ j ih =>
    rcases Nat.lt_or_ge i j with h | h
    · exact (ih h (by omega)).trans (hy j (by omega))
    · obtain rfl : i = j := by omega
      exact hy i (by omega)

omit [FloorRing K] [IsStrictOrderedRing K] in
/-- Every point of the axis is in a cell. -/
theorem find_cell {y : ℕ → K} {n : ℕ} {p : K} (h0 : y 0 ≤ p) (h1 : p < y n) : ∃ j, InCell y n j p := by
  induction n with
  | zero => exact absurd (h0.trans_lt h1) (lt_irrefl _)
  | succ n ih =>
    rcases lt_or_ge p (y n) with h | h
    · obtain ⟨j, a, b⟩ := ih h
      exact ⟨j, by omega, b⟩
    · exact ⟨n, by omega, h, h1⟩

/-- **C113 refuted (graded grids).** If the cells along y are not of equal length, there is a field whose picture is wrong: at some point inside the domain the colour is not the value of the cell that contains the
point (the pixels are of equal width whatever the cells are). -/
theorem C113_graded_refuted (norm3 : K → K → K → K) {Nx Ny Nz : ℕ} (hNx : 0 < Nx) (hNy : 0 < Ny) (hNz : 0 < Nz) {x y z : ℕ → K} (hx : ∀ i < Nx, x i < x (i + 1)) (hy : ∀ i < Ny, y i < y (i + 1))
    (hne : ¬ Equidistant y Ny) {pos : K} (h0 : 0 ≤ pos) (h1 : pos < 1) :
    ∃ F : Which → Fld K, (∀ w, (F w).Nx = Nx ∧ (F w).Ny = Ny ∧ (F w).Nz = Nz) ∧ ∃ P, plot2D (serial norm3 Nx Ny Nz x y z F) "Ex" "z" (.name "XY") pos = .ok P ∧
      ∃ (px py a b : K) (i j : ℕ), InCell x Nx i px ∧ InCell y Ny j py ∧ Value norm3 (F .E) (.str "x") i j ⌊(Nz : K) * pos⌋₊ a ∧ Shows P py px b ∧ a ≠ b := by
  set F : Which → Fld K := fun _ => ⟨Nx, Ny, Nz, fun n => ((n / Nx % Ny : ℕ) : K)⟩ with hF
  have hM : Mpi.matOf norm3 (F .E) (.str "x") = some (Fld.reshapeF Nx Ny ((F .E).part 0)) := rfl
  obtain ⟨P, hP, e1, e2, e3, e4, e5, e6, hv⟩ := plotXY norm3 (x := x) (y := y) (z := z) (F := F) (fun _ => ⟨rfl, rfl, rfl⟩) h0 h1 hNz hM
  have M1 : ∀ i < Nx, ∀ j < Ny, ∀ k, Fld.reshapeF Nx Ny ((F .E).part 0) i j k = (j : K) := by
    intro i hi j hj k
    show (((0 * (F .E).N + (i + Nx * (j + Ny * k))) / Nx % Ny : ℕ) : K) = _
    rw [Nat.zero_mul, Nat.zero_add, Nat.add_mul_div_left _ _ hNx, Nat.div_eq_of_lt hi, Nat.zero_add, Nat.add_mul_mod_self_left, Nat.mod_eq_of_lt hj]
  have kz : ⌊(Nz : K) * pos⌋₊ < Nz := (cut_index (n := Nz) h0 h1 hNz).2
  have xl := axis_lt hx hNx le_rfl
  have yl := axis_lt hy hNy le_rfl
  have nx : (0 : K) < Nx := by exact_mod_cast hNx
  have ny : (0 : K) < Ny := by exact_mod_cast hNy
  have hd : 0 < (y Ny - y 0) / Ny := div_pos (sub_pos.2 yl) ny
  set q : ℕ → K := fun j => y 0 + j * ((y Ny - y 0) / Ny) with hq
  have q0 : q 0 = y 0 := by simp [hq]
  have qN : q Ny = y Ny := by simp only [hq]; field_simp; ring
  have qm : ∀ i < Ny, q i < q (i + 1) := fun i _ => by simp only [hq]; push_cast; linarith
  -- a point whose cell and pixel differ settles it
  have key : ∀ (py : K) (j j' : ℕ), InCell y Ny j py → InCell q Ny j' py → j ≠ j' → ∃ (px py a b : K) (i j : ℕ), InCell x Nx i px ∧ InCell y Ny j py ∧
      Value norm3 (F .E) (.str "x") i j ⌊(Nz : K) * pos⌋₊ a ∧ Shows P py px b ∧ a ≠ b := by
    intro py j j' hj hj' hjj
    refine ⟨x 0, py, j, j', 0, j, ⟨hNx, le_rfl, hx 0 hNx⟩, hj, ?_, ⟨0, j', by rw [e1]; exact hNx, by rw [e2]; exact hj'.1, ?_, ?_, ?_, ?_, ?_⟩, by exact_mod_cast hjj⟩
    · have := value_of_mat hM (i := 0) (j := j) (k := ⌊(Nz : K) * pos⌋₊) hNx hj.1 kz
      rwa [M1 0 hNx j hj.1] at this
    · rw [e3, e4, e2]; exact hj'.2.1
    · rw [e3, e4, e2]; have := hj'.2.2; simp only [hq] at this; push_cast at this; exact this
    · rw [e5, e6, e1]; simp
    · rw [e5, e6, e1]
      have : 0 < (x Nx - x 0) / Nx := div_pos (sub_pos.2 xl) nx
      push_cast; linarith
    · rw [hv 0 hNx j' hj'.1, M1 0 hNx j' hj'.1]
  refine ⟨F, fun _ => ⟨rfl, rfl, rfl⟩, P, hP, ?_⟩
  have hex : ∃ j ≤ Ny, y j ≠ q j := by
    by_contra h
    push Not at h
    exact hne ⟨yl, h⟩
  obtain ⟨j, hj, hjq⟩ := hex
  have j0 : j ≠ 0 := by rintro rfl; exact hjq q0.symm
  have jN : j ≠ Ny := by rintro rfl; exact hjq qN.symm
  rcases lt_or_gt_of_ne hjq with h | h
  · have c : InCell y Ny j (y j) := ⟨by omega, le_rfl, hy j (by omega)⟩
    obtain ⟨j', c'⟩ := find_cell (y := q) (n := Ny) (p := y j) (by rw [q0]; exact (axis_lt hy (by omega) hj).le) (by rw [qN]; exact axis_lt hy (by omega) le_rfl)
    refine key _ j j' c c' ?_
    rintro rfl
    exact absurd (c'.2.1) (not_le.2 h)
  · have c : InCell q Ny j (q j) := ⟨by omega, le_rfl, qm j (by omega)⟩
    obtain ⟨j', c'⟩ := find_cell (y := y) (n := Ny) (p := q j) (by rw [← q0]; exact (axis_lt qm (by omega) hj).le) (by rw [← qN]; exact axis_lt qm (by omega) le_rfl)
    refine key _ j' j c' c ?_
    rintro rfl
    exact absurd (c'.2.1) (not_le.2 h)
end
end Plot
end Wakis
