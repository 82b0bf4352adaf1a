import Verif.Py
import Mathlib.Algebra.Order.Floor.Ring
import Mathlib.Algebra.BigOperators.Group.Finset.Basic
import Mathlib.Algebra.BigOperators.Ring.Finset
import Mathlib.Data.List.Sort
import Mathlib.Tactic.Ring
import Mathlib.Tactic.FieldSimp
import Mathlib.Tactic.Linarith
import Mathlib.Algebra.Order.Floor.Semiring
import Mathlib.Data.Rat.Floor

/-!
# Model of the wake computation (`wakis/wakeSolver.py` and the recording part of `wakis/routines.py`)

Scalars are elements of an ordered field with a floor function; all arithmetic is exact.
-/

namespace Wakis
namespace Wake

/-! ### HDF5 files -/

/-- Names of datasets, as code points; compared lexicographically by `list(hf.keys())`. -/
abbrev Name := List ℕ

/-- Digits of a number, most significant first (`str(n)`). -/
def decimal (n : ℕ) : List ℕ := if n < 10 then [n] else decimal (n / 10) ++ [n % 10]
termination_by n
decreasing_by omega

/-- `str(n).zfill(w)` as digits. -/
def zfill (w n : ℕ) : List ℕ := List.replicate (w - (decimal n).length) 0 ++ decimal n

/-- routines.py:409, 411 and 165-167: `"#" + str(n).zfill(5)`; 35 is `#`, 48 is `0`. -/
def frameName (n : ℕ) : Name := 35 :: (zfill 5 n).map (48 + ·)

/-- A dataset: a vector, or a block `Ez[x, y, z]`. -/
inductive Dset (K : Type)
  | d1 (n : ℕ) (v : ℕ → K)
  | d3 (nx ny nz : ℕ) (v : ℕ → ℕ → ℕ → K)

variable {K : Type}

/-- A file: names and datasets in the order of `keys()`, that is sorted by name. -/
abbrev H5 (K : Type) := List (Name × Dset K)

/-- Storing datasets in some order and listing the file (h5py iterates names alphabetically). -/
def H5.ofWrites (w : List (Name × Dset K)) : H5 K := w.insertionSort fun a b => a.1 ≤ b.1

/-- `x y z dx dy dz t` -/
def metaNames : List Name := [[120], [121], [122], [100, 120], [100, 121], [100, 122], [116]]

/-- routines.py:366-399, 402-411, 425: what `wakesolve` stores: the metadata first, then one frame per step. -/
def wakeWrites (md : ℕ → Dset K) (Nt : ℕ) (frame : ℕ → Dset K) : List (Name × Dset K) :=
  (metaNames.zipIdx.map fun p => (p.1, md p.2)) ++ (List.range Nt).map fun n => (frameName n, frame n)

/-! ### Numbers -/

section
variable [Field K] [LinearOrder K] [FloorRing K]

/-- Python `int(x)`: truncation towards zero. -/
def pyInt (x : K) : ℤ := if 0 ≤ x then ⌊x⌋ else ⌈x⌉

/-- Length of `np.arange(a, b, d)`; its element `i` is `a + i * d`. -/
def arangeLen (a b d : K) : ℕ := ⌈(b - a) / d⌉.toNat

/-- The parameters of a `WakeSolver` used here (wakeSolver.py:132-197). -/
structure Par (K : Type) where
  q : K
  v : K
  ti : K
  wakelength : Option K
  skip : ℕ
  counterMoving : Bool
  nTrans : ℕ

/-- What `read_Ez` loads (wakeSolver.py:1295-1342): `t`, `zf`, `dz` and the open file. -/
structure Rec (K : Type) where
  nt : ℕ
  t : ℕ → K
  nzf : ℕ
  zf : ℕ → K
  ndz : ℕ
  dz : ℕ → K
  file : H5 K

/-- `np.min`, `np.max` of a vector. -/
def minOf (n : ℕ) (x : ℕ → K) : Py K :=
  if n = 0 then .error .valueError else .ok ((List.range (n - 1)).foldl (fun m i => min m (x (i + 1))) (x 0))
def maxOf (n : ℕ) (x : ℕ → K) : Py K :=
  if n = 0 then .error .valueError else .ok ((List.range (n - 1)).foldl (fun m i => max m (x (i + 1))) (x 0))

/-- wakeSolver.py:332-335, 451-454: the slice of cells left after skipping. -/
def zzSel (skip : ℕ) : Sel := if skip ≠ 0 then .slice (some (skip : ℤ)) (some (-(skip : ℤ))) else .all

/-- The positions selected by a slice (a slice never fails). -/
def zzPos (skip n : ℕ) : List ℕ := ((zzSel skip).resolve n).toOption.getD []

/-- Everything computed before the integration (wakeSolver.py:320-361, 438-475). -/
structure Setup (K : Type) where
  dt : K
  zmin : K
  zmax : K
  /-- selected z positions -/
  zz : List ℕ
  wakelength : K
  ns : ℕ
  nt : ℕ

/-- wakeSolver.py:359-361, 472-475: the guard against rounding errors. -/
def guardNt (nt nkeys : ℕ) : ℕ := if (nt : ℤ) > (nkeys : ℤ) - 4 then nkeys - 4 else nt

/-- wakeSolver.py:320-361 / 438-475. -/
def setup (w : Par K) (r : Rec K) : Py (Setup K) :=
  if r.nt < 3 then .error .indexError
  else do
    let dt := r.t 2 - r.t 1
    let zmax ← maxOf r.nzf r.zf
    let zmin ← minOf r.nzf r.zf
    let wl := w.wakelength.getD ((r.nt : K) * dt * w.v - (zmax - zmin) - w.ti * w.v)
    return ⟨dt, zmin, zmax, zzPos w.skip r.nzf, wl, arangeLen (-w.ti * w.v) wl (dt * w.v), guardNt r.nt r.file.length⟩

/-- Element `n` of the s axis (wakeSolver.py:346, 464). -/
def sAxis (w : Par K) (su : Setup K) (n : ℕ) : K := -w.ti * w.v + (n : K) * (su.dt * w.v)

/-- A row of one frame at transverse indices, restricted to the selected cells (h5py indexing). -/
def rowAt (d : Dset K) (fi fj : ℕ → ℤ) (skip nz : ℕ) : Py (ℕ → K) :=
  match d with
  | .d1 _ _ => .error .typeError
  | .d3 nx ny nzd v => do
    let a ← pyIndex nx (fi nx)
    let b ← pyIndex ny (fj ny)
    let zz := zzPos skip nzd
    if zz.length = nz then return fun k => v a b (zz.getD k 0) else throw .valueError

/-- wakeSolver.py:365-375 / 482-485: `Ezt[:, n]`.  A frame whose length differs from the number of selected cells is a shape error (numpy would also
accept frames with a single cell; not modelled). -/
def column1d (first d : Dset K) (skip nz : ℕ) : Py (ℕ → K) :=
  match first with
  | .d3 _ _ _ _ => rowAt d (fun nx => (nx / 2 : ℕ) + 1) (fun ny => (ny / 2 : ℕ) + 1) skip nz
  | .d1 _ _ =>
    match d with
    | .d1 n v => if n = nz then .ok v else .error .valueError
    | .d3 _ _ _ _ => .error .valueError

/-- The assembled matrix as columns. -/
def assemble (file : H5 K) (nt : ℕ) (col : Dset K → Py (ℕ → K)) : Py (List (ℕ → K)) :=
  (List.range nt).mapM fun n => match file[n]? with
    | none => .error .indexError
    | some e => col e.2

/-- The time index of a sample (wakeSolver.py:381-382, 503-509): `int(ts / dt)`. -/
def timeIndex (w : Par K) (su : Setup K) (t0 z s : K) : ℤ := pyInt (((z + s) / w.v - su.zmin / w.v - t0 + w.ti) / su.dt)

/-- wakeSolver.py:487-497: the time index for a counter-moving test particle. -/
def timeIndexBack (w : Par K) (su : Setup K) (t0 z s : K) : ℤ := pyInt (((z - s) / (-1 * w.v) - su.zmax / (-1 * w.v) - t0 + w.ti) / su.dt)

/-- wakeSolver.py:383-384: add one sample if it was recorded.  Numpy resolves a negative index from the end
(of the columns allocated; `calc_long_WP_3d` allocates them before the guard, which makes no difference for indices that are not negative, `C46_nonneg`). -/
def addSample (nt : ℕ) (Ezt : List (ℕ → K)) (row : ℕ) (it : ℤ) (ndz : ℕ) (dz : ℕ → K) (k : ℕ) (sign : K) (acc : K) : Py K :=
  if it < nt then do
    let a ← pyIndex nt it
    if k < ndz then return acc + (Ezt.getD a fun _ => 0) row * (sign * dz k) else throw .indexError
  else return acc

/-- wakeSolver.py:379-384: one entry of the wake potential before normalisation, starting from `acc`. -/
def integrate (w : Par K) (su : Setup K) (r : Rec K) (Ezt : List (ℕ → K)) (n : ℕ) (acc : K) : Py K :=
  (List.range su.zz.length).foldlM (fun acc k =>
    addSample su.nt Ezt k (timeIndex w su (r.t 0) (r.zf (su.zz.getD k 0)) (sAxis w su n)) r.ndz r.dz k 1 acc) acc

/-- wakeSolver.py:487-503: the same for a counter-moving test particle. -/
def integrateBack (w : Par K) (su : Setup K) (r : Rec K) (Ezt : List (ℕ → K)) (n : ℕ) (acc : K) : Py K :=
  (List.range su.zz.length).foldlM (fun acc k =>
    let row := su.zz.length - 1 - k
    addSample su.nt Ezt row (timeIndexBack w su (r.t 0) (r.zf (su.zz.getD row 0)) (sAxis w su n)) r.ndz r.dz k (-1) acc) acc

/-- wakeSolver.py:295-407 `calc_long_WP`: the s axis and the wake potential in V/pC. -/
def calcLongWP (w : Par K) (r : Rec K) : Py (List K × List K) := do
  let su ← setup w r
  match r.file with
  | [] => throw .indexError
  | first :: _ => do
    let Ezt ← assemble r.file su.nt fun d => column1d first.2 d w.skip su.zz.length
    let WP ← (List.range su.ns).mapM fun n => integrate w su r Ezt n 0
    return ((List.range su.ns).map (sAxis w su), WP.map (· / (w.q * 10 ^ 12)))

/-- Offsets `-n0 .. n0`. -/
def offsets (n0 : ℕ) : List ℤ := (List.range (2 * n0 + 1)).map fun a : ℕ => (a : ℤ) - n0

/-- wakeSolver.py:478-480: the transverse loops. -/
def transPairs (n0 : ℕ) : List (ℤ × ℤ) := (offsets n0).flatMap fun i => (offsets n0).map fun j => (i, j)

/-- wakeSolver.py:479-522: one transverse cell; `WP` is not reset between cells. -/
def cell3d (w : Par K) (su : Setup K) (r : Rec K) (WP : List K) (ij : ℤ × ℤ) : Py (List K) := do
  let Ezt ← assemble r.file su.nt fun d => rowAt d (fun nx => (nx / 2 : ℕ) + ij.1) (fun ny => (ny / 2 : ℕ) + ij.2) w.skip su.zz.length
  let WP ← (List.range su.ns).mapM fun n =>
    if w.counterMoving then integrateBack w su r Ezt n (WP.getD n 0) else integrate w su r Ezt n (WP.getD n 0)
  return WP.map (· / (w.q * 10 ^ 12))

/-- wakeSolver.py:478-522: all cells; the result lists the values in loop order. -/
def cells3d (w : Par K) (su : Setup K) (r : Rec K) : List K → List (ℤ × ℤ) → Py (List (List K))
  | _, [] => .ok []
  | WP, ij :: l => do
    let WP ← cell3d w su r WP ij
    let rest ← cells3d w su r WP l
    return WP :: rest

/-- wakeSolver.py:409-542 `calc_long_WP_3d`: the s axis and `WP_3d` in loop order (cell `(i, j)` at position `(i0+i)*(2*i0+1) + (j0+j)`). -/
def calcLongWP3d (w : Par K) (r : Rec K) : Py (List K × List (List K)) := do
  let su ← setup w r
  let WP ← cells3d w su r (List.replicate su.ns 0) (transPairs w.nTrans)
  return ((List.range su.ns).map (sAxis w su), WP)

end
end Wake
end Wakis
