import Verif.Plots
import Verif.GridIO

/-!
# C125: three-dimensional pictures

`wakis/plotting.py`: `plot3D` (14-277) and `plot3DonSTL` (279-604); `wakis/field.py`: the scalars of `inspect3D` (685-1021) with the PyVista backend.  A picture is the list of what was added to the scene when it is shown
or written.  Not modelled: camera, light, colours (one colour for all solids), titles in the picture, the widgets, which part of a mesh a box or plane clips away.  Of PyVista and VTK: `cell_data_to_point_data` and `sample`
are arbitrary functions, `select_enclosed_points` an arbitrary set of points for each solid, `add_mesh` raises `KeyError` for scalars that do not exist, a dictionary view has no `[0]` (`TypeError`), a local name not bound
raises `UnboundLocalError`.
-/

namespace Wakis
namespace Pic3
open Mpi
variable {K : Type} [Field K] [LinearOrder K] [FloorRing K]
set_option linter.unusedSectionVars false

/-! ### Model -/

/-- An argument naming solids: `None`, a string, a list, anything else. -/
inductive Keys
  | absent
  | one (k : String)
  | list (l : List String)
  | other
  deriving DecidableEq

/-- How a mesh is drawn: with a plane to clip it, clipped by a box, as it is. -/
inductive Shape
  | plane | box | full
  deriving DecidableEq

/-- What is added to the scene: an STL surface in one colour; the field at the points of the grid (`none` is nan); the field at the points of an STL surface. -/
inductive Actor (K : Type)
  | solid (key : String)
  | volume (pts : ℕ → Option K) (sh : Shape)
  | surface (key : String) (pts : ℕ → K) (sh : Shape)

/-- What the routines read: the solver at the time of the call, and the library. -/
structure World (K : Type) where
  useMpi : Bool
  E : Fld K
  H : Fld K
  J : Fld K
  norm3 : K → K → K → K
  /-- the keys of `grid.stl_solids` -/
  solids : List String
  /-- `select_enclosed_points` of the solid -/
  inside : String → ℕ → Bool
  /-- `cell_data_to_point_data` -/
  toPoints : (ℕ → K) → ℕ → K
  /-- `surf.sample(points)` for the surface of the solid -/
  sample : String → (ℕ → K) → ℕ → K

/-- A picture: the file (title and `n` of `title_00000n.png`; `none` is a window) and what is in the scene. -/
structure Shot (K : Type) where
  file : Option (String × Option ℕ)
  actors : List (Actor K)

/-- What the routines keep: `self.plotter_active`, `self.pl` (`none`: not set), the cell data of the PyVista grid by name (the masks of the solids are there too), and the pictures made so far. -/
structure Sess (K : Type) where
  active : Bool
  pl : Option (List (Actor K))
  data : String → Option (ℕ → K)
  shots : List (Shot K)

/-- solverFIT3D.py:118 and the cell data left by the grid. -/
def Sess.fresh (data : String → Option (ℕ → K)) : Sess K := ⟨false, none, data, []⟩

/-- gridFIT3D.py `read_stl`: `self.stl_solids[key]`. -/
def readStl (W : World K) (k : String) : Py Unit := if k ∈ W.solids then .ok () else .error .keyError

/-- plotting.py:119-148 (`strict`) and 393-417: the solids drawn when the scene is made, and the loop variable `i` after it. -/
def startActors (strict : Bool) (W : World K) : Keys → Py (List (Actor K) × Option ℕ)
  | .absent => .ok ([], none)
  | .one k => do
    readStl W k
    return ([.solid k], none)
  | .list l => do
    l.forM (readStl W)
    return (l.map .solid, if l = [] then none else some (l.length - 1))
  | .other => if strict then .error .typeError else .ok ([], none)

/-- plotting.py:117-166, 387-422: a new scene, or `self.pl`. -/
def scene (strict : Bool) (W : World K) (s : Sess K) (add : Keys) : Py (List (Actor K) × Option ℕ) :=
  if s.active then
    match s.pl with
    | some l => .ok (l, none)
    | none => .error .attributeError
  else startActors strict W add

/-- `np.reshape(A, N)` of an array of shape `(Nx, Ny, Nz)`: row-major. -/
def flatC (Ny Nz : ℕ) (A : ℕ → ℕ → ℕ → K) : ℕ → K := fun n => A (n / (Ny * Nz)) (n / Nz % Ny) (n % Nz)

/-- plotting.py:169-182, 425-440: the array written to the cell data; `none`: the name is not valid, only a printout. -/
def cells (W : World K) (field comp : String) : Py (Option (ℕ → K)) :=
  let get (f : Fld K) : Py (Option (ℕ → K)) := do
    let b ← f.getitem W.norm3 .all .all .all (.str comp)
    return some (flatC f.Ny f.Nz b.val)
  if field = "E" then get W.E else if field = "H" then get W.H else if field = "J" then get W.J else .ok none

/-- `mask += sel`. -/
def orMask (m : Option (ℕ → Bool)) (s : ℕ → Bool) : Py (ℕ → Bool) :=
  match m with
  | some m => .ok fun n => m n || s n
  | none => .error .unboundLocalError

/-- plotting.py:195-202: the loop over `enumerate(hide_solids)`. -/
def hideLoop (W : World K) : List String → ℕ → Option ℕ → Option (ℕ → Bool) → Py (Option ℕ × Option (ℕ → Bool))
  | [], _, i, m => .ok (i, m)
  | k :: l, n, _, m => do
    readStl W k
    let m ← if n = 0 then .ok (W.inside k) else orMask m (W.inside k)
    hideLoop W l (n + 1) (some n) (some m)

/-- plotting.py:187-202: the names `i` and `mask` after it. -/
def hideMask (W : World K) (i : Option ℕ) : Keys → Py (Option ℕ × Option (ℕ → Bool))
  | .absent => .ok (i, none)
  | .one k => do
    readStl W k
    return (i, some (W.inside k))
  | .list l => hideLoop W l 0 i none
  | .other => .ok (i, none)

/-- plotting.py:214-221: `for solid in show_solids`, with the `i` of an earlier loop. -/
def showLoop (W : World K) (i : Option ℕ) : List String → Option (ℕ → Bool) → Py (Option (ℕ → Bool))
  | [], m => .ok m
  | k :: l, m => do
    readStl W k
    let m ← match i with
      | none => .error .unboundLocalError
      | some 0 => .ok (W.inside k)
      | some _ => orMask m (W.inside k)
    showLoop W i l (some m)

/-- plotting.py:207-221. -/
def showMask (W : World K) (i : Option ℕ) (m : Option (ℕ → Bool)) : Keys → Py (Option (ℕ → Bool))
  | .absent => .ok m
  | .one k => do
    readStl W k
    return some (W.inside k)
  | .list l => showLoop W i l m
  | .other => .ok m

/-- `points[name][mask] = np.nan`. -/
def wipe (v : Option (ℕ → Option K)) (m : Option (ℕ → Bool)) : Py (Option (ℕ → Option K)) :=
  match v, m with
  | none, _ => .error .keyError
  | some _, none => .error .unboundLocalError
  | some v, some m => .ok (some fun p => if m p then none else v p)

/-- The arguments of `plot3D`. -/
structure Args where
  field : String
  component : String
  hide : Keys
  shown : Keys
  addStl : Keys
  clipInteractive : Bool
  clipBox : Bool
  offScreen : Bool
  title : Option String
  n : Option ℕ

/-- plotting.py:104-106, 377-379. -/
def split1 (field component : String) : String × String :=
  if field.toList.length = 2 then (String.ofList (field.toList.take 1), String.ofList (field.toList.drop 1)) else (field, component)

/-- plotting.py:184-262: points, masks, the mesh that is added. -/
def volume (W : World K) (data : String → Option (ℕ → K)) (name : String) (a : Args) (i : Option ℕ) : Py (Option (Actor K)) := do
  let v : Option (ℕ → Option K) := (data name).map fun c p => some (W.toPoints c p)
  let im ← hideMask W i a.hide
  let v ← if a.hide = .absent then .ok v else wipe v im.2
  let m ← showMask W im.1 im.2 a.shown
  let v ← if a.shown = .absent then .ok v else wipe v (m.map fun m p => !m p)
  if a.clipBox || a.clipInteractive then
    match v with
    | some v => return some (.volume v (if a.clipBox then .box else .plane))
    | none => throw .keyError
  else return none

/-- plotting.py:14-277. -/
def plot3D (W : World K) (s : Sess K) (a : Args) : Sess K × Py Unit :=
  if W.useMpi then (s, .ok ()) else
  let fc := split1 a.field a.component
  let name := fc.1 ++ fc.2
  let s1 := if s.active && !a.offScreen then { s with active := false } else s
  match scene true W s1 a.addStl with
  | .error e => (s1, .error e)
  | .ok (base, i) =>
    let s2 := { s1 with active := s1.active || a.offScreen }
    match cells W fc.1 fc.2 with
    | .error e => (s2, .error e)
    | .ok c =>
      let s3 := match c with
        | some v => { s2 with data := fun x => if x = name then some v else s2.data x }
        | none => s2
      match volume W s3.data name a i with
      | .error e => (s3, .error e)
      | .ok ac =>
        let shot : Shot K := ⟨if a.offScreen then some (a.title.getD (name ++ "3d"), a.n) else none, base ++ ac.toList⟩
        ({ s3 with pl := if a.offScreen then some base else s3.pl, shots := s3.shots ++ [shot] }, .ok ())

/-- The arguments of `plot3DonSTL`. -/
structure SurfArgs where
  field : String
  component : String
  withField : Keys
  transparent : Keys
  clipInteractive : Bool
  clipBox : Bool
  offScreen : Bool
  title : Option String
  n : Option ℕ

/-- plotting.py:444-577: one surface. -/
def surface (W : World K) (v : Option (ℕ → K)) (sh : Shape) (k : String) : Py (Actor K) := do
  readStl W k
  match v with
  | some c => return .surface k (W.sample k (W.toPoints c)) sh
  | none => throw .keyError

/-- plotting.py:480-560: the loop over the solids, with the surfaces added before an error. -/
def surfLoop (W : World K) (v : Option (ℕ → K)) (sh : Shape) : List String → List (Actor K) → List (Actor K) × Py Unit
  | [], acc => (acc, .ok ())
  | k :: l, acc =>
    match surface W v sh k with
    | .ok x => surfLoop W v sh l (acc ++ [x])
    | .error e => (acc, .error e)

/-- plotting.py:444-577; `ac1` is the last of them. -/
def surfaces (W : World K) (v : Option (ℕ → K)) (sh : Shape) : Keys → List (Actor K) × Py Unit
  | .one k => surfLoop W v sh [k] []
  | .list l => surfLoop W v sh l []
  | .absent => ([], .ok ())
  | .other => ([], .ok ())

/-- plotting.py:279-604. Unlike in `plot3D`, `remove_actor(ac1)` is not in a `try` block; in an active scene `pl` is `self.pl`, so surfaces added before an error stay. -/
def plot3DonSTL (W : World K) (s : Sess K) (a : SurfArgs) : Sess K × Py Unit :=
  if W.useMpi then (s, .ok ()) else
  let fc := split1 a.field a.component
  let name := fc.1 ++ fc.2
  let s1 := if s.active && !a.offScreen then { s with active := false } else s
  match scene false W s1 a.transparent with
  | .error e => (s1, .error e)
  | .ok (base, _) =>
    let s2 := { s1 with active := s1.active || a.offScreen }
    match cells W fc.1 fc.2 with
    | .error e => (s2, .error e)
    | .ok c =>
      let s3 := match c with
        | some v => { s2 with data := fun x => if x = name then some v else s2.data x }
        | none => s2
      match surfaces W (s3.data name) (if a.clipInteractive then .plane else if a.clipBox then .box else .full) a.withField with
      | (acts, .error e) => ({ s3 with pl := if s1.active then some (base ++ acts) else s3.pl }, .error e)
      | (acts, .ok _) =>
        let shot : Shot K := ⟨if a.offScreen then some (a.title.getD (name ++ "3d"), a.n) else none, base ++ acts⟩
        let s4 := { s3 with shots := s3.shots ++ [shot] }
        if a.offScreen then
          if acts = [] then (s4, .error .unboundLocalError) else ({ s4 with pl := some (base ++ acts.dropLast) }, .ok ())
        else (s4, .ok ())

/-- field.py:745, 888-899, 931-942: the name and the scalars given to the grid by `inspect3D`. -/
def inspectScalars (norm3 : K → K → K → K) (f : Fld K) (field : String) : String × (ℕ → K) :=
  let c := pyLower field
  match if c = "x" ∨ c = "y" ∨ c = "z" then f.toMatrix (.str c) else none with
  | some m => ("Field " ++ c, flatC f.Ny f.Nz m)
  | none => ("Field Abs", flatC f.Ny f.Nz (f.absWith norm3))

/-! ### Specification -/

/-- The cells of the PyVista grid in VTK's order: `_compute_grid` and `inspect3D` pass the transposed coordinate arrays (gridFIT3D.py:262-263, field.py:928-929), so z comes first, and the first dimension is numbered fastest. -/
def vtkOrder (Nx Ny Nz : ℕ) : List (ℕ × ℕ × ℕ) :=
  (List.range Nx).flatMap fun i => (List.range Ny).flatMap fun j => (List.range Nz).map fun k => (i, j, k)

/-- The array holds at each cell of the grid the value of the field there. -/
def Shows (norm3 : K → K → K → K) (f : Fld K) (c : String) (v : ℕ → K) : Prop :=
  ∀ n i j k, (vtkOrder f.Nx f.Ny f.Nz)[n]? = some (i, j, k) → Plot.Value norm3 f (.str c) i j k (v n)

/-- The field of that name. -/
def World.fieldOf (W : World K) (name : String) : Option (Fld K) :=
  if name = "E" then some W.E else if name = "H" then some W.H else if name = "J" then some W.J else none

def Keys.list' : Keys → List String
  | .one k => [k]
  | .list l => l
  | _ => []

/-- The picture of the call: nothing is blank but the points in a hidden solid and, if solids to show are given, those in none of them; elsewhere are the values interpolated from the field at the time of the call. -/
def Pictures (W : World K) (a : Args) (ac : Actor K) : Prop :=
  ∃ f v, W.fieldOf (split1 a.field a.component).1 = some f ∧ Shows W.norm3 f (split1 a.field a.component).2 v ∧
    ac = .volume (fun p => if (∃ k ∈ a.hide.list', W.inside k p = true) ∨ (a.shown ≠ .absent ∧ ∀ k ∈ a.shown.list', W.inside k p = false) then none
      else some (W.toPoints v p)) (if a.clipBox then .box else .plane)

/-- A component one can ask for. -/
def Component (c : String) : Prop := (∃ d, Fld.Names (.str c) d) ∨ Fld.isAbs (.str c) = true

/-- A call one expects to work: E, H or J, a component, solids of the model; the solids to show are not a list and something is to be clipped. -/
structure Good (W : World K) (a : Args) : Prop where
  serial : W.useMpi = false
  field : (W.fieldOf (split1 a.field a.component).1).isSome
  comp : Component (split1 a.field a.component).2
  hide : a.hide ≠ .other ∧ a.hide ≠ .list [] ∧ ∀ k ∈ a.hide.list', k ∈ W.solids
  shown : a.shown = .absent ∨ ∃ k ∈ W.solids, a.shown = .one k
  add : a.addStl ≠ .other ∧ ∀ k ∈ a.addStl.list', k ∈ W.solids
  clip : a.clipBox = true ∨ a.clipInteractive = true

/-- Several calls. -/
def plots (s : Sess K) : List (World K × Args) → Sess K × List (Py Unit)
  | [] => (s, [])
  | x :: l =>
    let r := plot3D x.1 s x.2
    let q := plots r.1 l
    (q.1, r.2 :: q.2)

/-! ### A concrete model -/

/-- A 2 x 1 x 3 grid with numbered values and three solids. -/
def exW (c : ℚ) : World ℚ where
  useMpi := false
  E := ⟨2, 1, 3, fun n => n + c⟩
  H := ⟨2, 1, 3, fun n => 2 * n + c⟩
  J := ⟨2, 1, 3, fun _ => c⟩
  norm3 := fun a b d => a + b + d
  solids := ["cavity", "pipe", "flange"]
  inside := fun k p => if k = "cavity" then p == 0 else if k = "pipe" then p == 1 else p == 2
  toPoints := fun v => v
  sample := fun _ v => v

/-- `plot3D('Ez', hide_solids=['cavity', 'pipe'], add_stl='cavity', off_screen=True)` and the like. -/
def exA (field : String) (hide shown : Keys) : Args := ⟨field, "z", hide, shown, .one "cavity", true, false, true, none, some 7⟩

theorem split1_E : split1 "E" "z" = ("E", "z") := by decide
theorem split1_H : split1 "H" "z" = ("H", "z") := by decide

theorem exA_good (c : ℚ) (field : String) (hf : field = "E" ∨ field = "H") (hide shown : Keys) (hh : hide = .absent ∨ hide = .list ["cavity"] ∨ hide = .list ["cavity", "pipe"]) (hs : shown = .absent ∨ shown = .one "flange") :
    Good (exW c) (exA field hide shown) where
  serial := rfl
  field := by rcases hf with rfl | rfl <;> simp [exA, split1_E, split1_H, World.fieldOf]
  comp := Or.inl ⟨2, by rcases hf with rfl | rfl <;> simp [exA, split1_E, split1_H, Fld.Names]⟩
  hide := by rcases hh with rfl | rfl | rfl <;> simp [exA, Keys.list', exW]
  shown := by rcases hs with rfl | rfl <;> simp [exA, exW]
  add := by simp [exA, Keys.list', exW]
  clip := Or.inr rfl

/-! ### Proofs -/

theorem vtk_index {Nx Ny Nz n i j k : ℕ} (h : (vtkOrder Nx Ny Nz)[n]? = some (i, j, k)) :
    i < Nx ∧ j < Ny ∧ k < Nz ∧ n = (i * Ny + j) * Nz + k := by
  obtain ⟨hn, he⟩ := List.getElem?_eq_some_iff.1 h
  have hlen : (vtkOrder Nx Ny Nz).length = Nx * (Ny * Nz) := by
    unfold vtkOrder; simp [List.length_flatMap]
  rw [hlen] at hn
  have hyz : 0 < Ny * Nz := by
    rcases Nat.eq_zero_or_pos (Ny * Nz) with h0 | h0
    · rw [h0] at hn; omega
    · exact h0
  have hz : 0 < Nz := Nat.pos_of_mul_pos_left hyz
  have hx : n / (Ny * Nz) < Nx := (Nat.div_lt_iff_lt_mul hyz).2 hn
  have hr : n % (Ny * Nz) < Ny * Nz := Nat.mod_lt _ hyz
  have hy : n % (Ny * Nz) / Nz < Ny := (Nat.div_lt_iff_lt_mul hz).2 hr
  have e1 : n = n / (Ny * Nz) * (Ny * Nz) + n % (Ny * Nz) := (Nat.div_add_mod' _ _).symm
  have e2 : n % (Ny * Nz) = n % (Ny * Nz) / Nz * Nz + n % (Ny * Nz) % Nz := (Nat.div_add_mod' _ _).symm
  have key : (vtkOrder Nx Ny Nz)[n]? = some (n / (Ny * Nz), n % (Ny * Nz) / Nz, n % (Ny * Nz) % Nz) := by
    conv_lhs => rw [e1]
    unfold vtkOrder
    rw [GridIO.getElem?_flatMap_range Nx (Ny * Nz) _ (fun a => by rw [List.length_flatMap]; simp) hx hr]
    conv_lhs => rw [e2]
    rw [GridIO.getElem?_flatMap_range Ny Nz _ (fun a => by rw [List.length_map, List.length_range]) hy (Nat.mod_lt _ hz), List.getElem?_map, List.getElem?_range (Nat.mod_lt _ hz)]
    rfl
  rw [key] at h
  simp only [Option.some.injEq, Prod.mk.injEq] at h
  obtain ⟨rfl, rfl, rfl⟩ := h
  refine ⟨hx, hy, Nat.mod_lt _ hz, ?_⟩
  rw [Nat.add_mul, Nat.mul_assoc, Nat.add_assoc, ← e2, ← e1]

theorem flatC_at {Ny Nz i j k : ℕ} (hj : j < Ny) (hk : k < Nz) (A : ℕ → ℕ → ℕ → K) : flatC Ny Nz A ((i * Ny + j) * Nz + k) = A i j k := by
  have hz : 0 < Nz := by omega
  have hy : 0 < Ny := by omega
  have e1 : ((i * Ny + j) * Nz + k) / Nz = i * Ny + j := by
    rw [Nat.mul_comm, Nat.mul_add_div hz, Nat.div_eq_of_lt hk, Nat.add_zero]
  have e2 : (i * Ny + j) / Ny = i := by
    rw [Nat.mul_comm, Nat.mul_add_div hy, Nat.div_eq_of_lt hj, Nat.add_zero]
  unfold flatC
  rw [Nat.mul_comm Ny Nz, ← Nat.div_div_eq_div_mul, e1, e2, Nat.mul_add_mod', Nat.mod_eq_of_lt hj, Nat.mul_add_mod', Nat.mod_eq_of_lt hk]

theorem shows_flat {norm3 : K → K → K → K} {f : Fld K} {c : String} {M : ℕ → ℕ → ℕ → K} (hM : matOf norm3 f (.str c) = some M) : Shows norm3 f c (flatC f.Ny f.Nz M) := by
  intro n i j k h
  obtain ⟨hi, hj, hk, rfl⟩ := vtk_index h
  rw [flatC_at hj hk]
  exact Plot.value_of_mat hM hi hj hk

theorem Shows.congr {norm3 : K → K → K → K} {f : Fld K} {c : String} {M M' : ℕ → ℕ → ℕ → K} (h : Shows norm3 f c (flatC f.Ny f.Nz M))
    (he : ∀ i < f.Nx, ∀ j < f.Ny, ∀ k < f.Nz, M' i j k = M i j k) : Shows norm3 f c (flatC f.Ny f.Nz M') := by
  intro n i j k hn
  obtain ⟨hi, hj, hk, e⟩ := vtk_index hn
  have := h n i j k hn
  rw [e, flatC_at hj hk] at this ⊢
  rw [he i hi j hj k hk]
  exact this

theorem cells_ok {W : World K} {field c : String} {f : Fld K} (hf : W.fieldOf field = some f) (hc : Component c) :
    ∃ v, cells W field c = .ok (some v) ∧ Shows W.norm3 f c v := by
  have key : ∀ g : Fld K, ∃ v, (do let b ← g.getitem W.norm3 .all .all .all (.str c); return some (flatC g.Ny g.Nz b.val) : Py (Option (ℕ → K))) = .ok (some v) ∧
      Shows W.norm3 g c v := by
    intro g
    obtain ⟨M, hM⟩ := Plot.matOf_some W.norm3 g hc
    refine ⟨_, ?_, (shows_flat hM).congr (M' := fun a b c => M ((List.range g.Nx).getD a 0) ((List.range g.Ny).getD b 0) ((List.range g.Nz).getD c 0)) ?_⟩
    · rw [Plot.get_of_mat hM (Sel.resolve_all _) (Sel.resolve_all _) (Sel.resolve_all _)]
      rfl
    · intro i hi j hj k hk
      rw [Plot.range_getD hi, Plot.range_getD hj, Plot.range_getD hk]
  unfold World.fieldOf at hf
  unfold cells
  split_ifs at hf with h1 h2 h3
  · obtain rfl := Option.some.inj hf
    rw [if_pos h1]; exact key _
  · obtain rfl := Option.some.inj hf
    rw [if_neg h1, if_pos h2]; exact key _
  · obtain rfl := Option.some.inj hf
    rw [if_neg h1, if_neg h2, if_pos h3]; exact key _

theorem readStl_ok {W : World K} {k : String} (h : k ∈ W.solids) : readStl W k = .ok () := if_pos h

theorem hideLoop_ok {W : World K} (l : List String) (hl : ∀ k ∈ l, k ∈ W.solids) (n : ℕ) (hn : 0 < n) (i : Option ℕ) (m : ℕ → Bool) :
    ∃ i' m', hideLoop W l n i (some m) = .ok (i', some m') ∧ ∀ p, m' p = true ↔ m p = true ∨ ∃ k ∈ l, W.inside k p = true := by
  induction l generalizing n i m with
  | nil => exact ⟨i, m, rfl, fun p => by simp⟩
  | cons k l ih =>
    obtain ⟨i', m', h1, h2⟩ := ih (fun x hx => hl x (List.mem_cons_of_mem _ hx)) (n + 1) (by omega) (some n) (fun p => m p || W.inside k p)
    refine ⟨i', m', ?_, fun p => ?_⟩
    · rw [hideLoop, readStl_ok (hl k (List.mem_cons_self ..)), if_neg (by omega)]
      exact h1
    · rw [h2, Bool.or_eq_true, or_assoc]
      simp only [List.mem_cons, exists_eq_or_imp]

theorem hideMask_ok {W : World K} {h : Keys} (hh : h ≠ .other ∧ h ≠ .list [] ∧ ∀ k ∈ h.list', k ∈ W.solids) (i : Option ℕ) (v : ℕ → Option K) :
    ∃ im, hideMask W i h = .ok im ∧ (if h = .absent then .ok (some v) else wipe (some v) im.2) =
      .ok (some fun p => if ∃ k ∈ h.list', W.inside k p = true then none else v p) := by
  obtain ⟨h1, h2, h3⟩ := hh
  cases h with
  | absent => exact ⟨_, rfl, by simp [Keys.list']⟩
  | one k =>
    refine ⟨(i, some (W.inside k)), ?_, ?_⟩
    · rw [hideMask, readStl_ok (h3 k (List.mem_singleton_self k))]; rfl
    · simp [Keys.list', wipe]
  | other => exact absurd rfl h1
  | list l =>
    cases l with
    | nil => exact absurd rfl h2
    | cons k l =>
      obtain ⟨i', m', e1, e2⟩ := hideLoop_ok l (fun x hx => h3 x (List.mem_cons_of_mem _ hx)) 1 (by decide) (some 0) (W.inside k)
      refine ⟨(i', some m'), ?_, ?_⟩
      · rw [hideMask, hideLoop, readStl_ok (h3 k (List.mem_cons_self ..)), if_pos rfl]
        exact e1
      · rw [if_neg (by simp)]
        simp only [wipe]
        congr 2
        funext p
        have : m' p = true ↔ ∃ x ∈ (Keys.list (k :: l)).list', W.inside x p = true := by
          rw [e2]; simp only [Keys.list', List.mem_cons, exists_eq_or_imp]
        exact if_congr this rfl rfl

theorem volume_ok {W : World K} {a : Args} (g : Good W a) {data : String → Option (ℕ → K)} {name : String} {v : ℕ → K} (hv : data name = some v) (i : Option ℕ) :
    volume W data name a i = .ok (some (.volume (fun p => if (∃ k ∈ a.hide.list', W.inside k p = true) ∨ (a.shown ≠ .absent ∧ ∀ k ∈ a.shown.list', W.inside k p = false) then none
      else some (W.toPoints v p)) (if a.clipBox then .box else .plane))) := by
  obtain ⟨im, e1, e2⟩ := hideMask_ok g.hide i (fun p => some (W.toPoints v p))
  have hcl : (a.clipBox || a.clipInteractive) = true := by rw [Bool.or_eq_true]; exact g.clip
  unfold volume
  simp only [hv, Option.map_some, e1, bind, Except.bind]
  by_cases ha : a.hide = .absent
  on_goal 1 =>
    rw [if_pos ha] at e2
    have e2' := Option.some.inj (Except.ok.inj e2)
    rw [if_pos ha, e2']
  on_goal 2 =>
    rw [if_neg ha] at e2
    rw [if_neg ha, e2]
  all_goals
    rcases g.shown with hs | ⟨k, hk, hs⟩
    · rw [hs]
      simp only [showMask, if_true, hcl, pure, Except.pure]
      congr 3
      funext p
      simp
    · rw [hs]
      simp only [showMask, readStl_ok hk, bind, Except.bind, pure, Except.pure, Option.map_some, wipe, hcl, if_true]
      rw [if_neg (by simp)]
      congr 3
      funext p
      have hsl : (Keys.one k).list' = [k] := rfl
      simp only [hsl, List.mem_singleton, forall_eq, ne_eq, reduceCtorEq, not_false_eq_true, true_and]
      by_cases h1 : ∃ k ∈ a.hide.list', W.inside k p = true <;> by_cases h2 : W.inside k p = true <;> simp [h1, h2]

theorem startActors_ok {W : World K} (strict : Bool) {ks : Keys} (h : ks ≠ .other ∧ ∀ k ∈ ks.list', k ∈ W.solids) :
    ∃ i, startActors strict W ks = .ok (ks.list'.map .solid, i) := by
  cases ks with
  | absent => exact ⟨_, rfl⟩
  | other => exact absurd rfl h.1
  | one k => exact ⟨none, by rw [startActors, readStl_ok (h.2 k (List.mem_singleton_self k))]; rfl⟩
  | list l =>
    have : l.forM (readStl W) = .ok () := by
      have hl := h.2
      simp only [Keys.list'] at hl
      induction l with
      | nil => rfl
      | cons k l ih =>
        show (readStl W k >>= fun _ => l.forM (readStl W)) = _
        rw [readStl_ok (hl k (List.mem_cons_self ..))]
        exact ih ⟨by simp, fun x hx => hl x (List.mem_cons_of_mem _ hx)⟩ fun x hx => hl x (List.mem_cons_of_mem _ hx)
    exact ⟨_, by rw [startActors, this]; rfl⟩

/-- A call that finds its scene makes one picture with one mesh of the field. -/
theorem plot3D_ok {W : World K} {s : Sess K} {a : Args} (g : Good W a) {base : List (Actor K)} {i : Option ℕ}
    (hb : scene true W (if s.active && !a.offScreen then { s with active := false } else s) a.addStl = .ok (base, i)) :
    ∃ ac data', Pictures W a ac ∧ (∀ x, x ≠ (split1 a.field a.component).1 ++ (split1 a.field a.component).2 → data' x = s.data x) ∧
      plot3D W s a = (⟨a.offScreen, if a.offScreen then some base else s.pl, data',
        s.shots ++ [⟨if a.offScreen then some (a.title.getD ((split1 a.field a.component).1 ++ (split1 a.field a.component).2 ++ "3d"), a.n) else none, base ++ [ac]⟩]⟩, .ok ()) := by
  obtain ⟨f, hf⟩ := Option.isSome_iff_exists.1 g.field
  obtain ⟨v, hv, hs⟩ := cells_ok hf g.comp
  refine ⟨_, fun x => if x = (split1 a.field a.component).1 ++ (split1 a.field a.component).2 then some v else s.data x, ⟨f, v, hf, hs, rfl⟩, fun x hx => if_neg hx, ?_⟩
  unfold plot3D
  rw [if_neg (by rw [g.serial]; decide)]
  simp only [hb, hv]
  rw [volume_ok g (v := v) (if_pos rfl)]
  simp only [Option.toList_some]
  cases s with
  | mk act pl data shots => cases act <;> cases h : a.offScreen <;> simp

/-- **C125, off-screen pictures.** For every sequence of off-screen calls with E, H or J and a component, solids to hide by name, at most one solid to show, and a clip: every call succeeds and makes one picture, under the
title and number of the call; it has the solids asked for in the first call and one mesh, which shows the field as it is at that call. -/
theorem C125_sequence_partial (data : String → Option (ℕ → K)) (first : World K × Args) (rest : List (World K × Args))
    (hg : ∀ x ∈ first :: rest, Good x.1 x.2 ∧ x.2.offScreen = true) :
    (∀ r ∈ (plots (Sess.fresh data) (first :: rest)).2, r = .ok ()) ∧
      List.Forall₂ (fun (x : World K × Args) (shot : Shot K) => shot.file = some (x.2.title.getD ((split1 x.2.field x.2.component).1 ++ (split1 x.2.field x.2.component).2 ++ "3d"), x.2.n) ∧
        ∃ ac, Pictures x.1 x.2 ac ∧ shot.actors = first.2.addStl.list'.map .solid ++ [ac]) (first :: rest) (plots (Sess.fresh data) (first :: rest)).1.shots := by
  have key : ∀ (l : List (World K × Args)) (s : Sess K) (base : List (Actor K)), (∀ x ∈ l, Good x.1 x.2 ∧ x.2.offScreen = true) → s.active = true → s.pl = some base →
      (∀ r ∈ (plots s l).2, r = .ok ()) ∧ ∃ new, (plots s l).1.shots = s.shots ++ new ∧
        List.Forall₂ (fun (x : World K × Args) (shot : Shot K) => shot.file = some (x.2.title.getD ((split1 x.2.field x.2.component).1 ++ (split1 x.2.field x.2.component).2 ++ "3d"), x.2.n) ∧
          ∃ ac, Pictures x.1 x.2 ac ∧ shot.actors = base ++ [ac]) l new := by
    intro l
    induction l with
    | nil => exact fun s base _ _ _ => ⟨by simp [plots], [], by simp [plots], .nil⟩
    | cons x l ih =>
      intro s base hl ha hp
      obtain ⟨g, ho⟩ := hl x (List.mem_cons_self ..)
      have hb : scene true x.1 (if s.active && !x.2.offScreen then { s with active := false } else s) x.2.addStl = .ok (base, none) := by
        rw [if_neg (by rw [ho]; simp), scene, if_pos ha, hp]
      obtain ⟨ac, d', hac, -, hr⟩ := plot3D_ok g hb
      rw [ho] at hr
      simp only [if_true] at hr
      obtain ⟨h1, new, h2, h3⟩ := ih (plot3D x.1 s x.2).1 base (fun y hy => hl y (List.mem_cons_of_mem _ hy)) (by rw [hr]) (by rw [hr])
      refine ⟨?_, ⟨some (x.2.title.getD ((split1 x.2.field x.2.component).1 ++ (split1 x.2.field x.2.component).2 ++ "3d"), x.2.n), base ++ [ac]⟩ :: new, ?_,
        .cons ⟨rfl, ac, hac, rfl⟩ h3⟩
      · intro r hr'
        simp only [plots, List.mem_cons] at hr'
        rcases hr' with rfl | hr'
        · rw [hr]
        · exact h1 r hr'
      · show (plots (plot3D x.1 s x.2).1 l).1.shots = _
        rw [h2, hr, List.append_assoc]
        rfl
  obtain ⟨g, ho⟩ := hg first (List.mem_cons_self ..)
  obtain ⟨i, hi⟩ := startActors_ok (W := first.1) true g.add
  have hb : scene true first.1 (if (Sess.fresh data).active && !first.2.offScreen then { Sess.fresh data with active := false } else Sess.fresh data) first.2.addStl =
      .ok (first.2.addStl.list'.map .solid, i) := by
    rw [if_neg (by simp [Sess.fresh]), scene, if_neg (by simp [Sess.fresh]), hi]
  obtain ⟨ac, d', hac, -, hr⟩ := plot3D_ok g hb
  rw [ho] at hr
  simp only [if_true] at hr
  obtain ⟨h1, new, h2, h3⟩ := key rest (plot3D first.1 (Sess.fresh data) first.2).1 _ (fun y hy => hg y (List.mem_cons_of_mem _ hy)) (by rw [hr]) (by rw [hr])
  constructor
  · intro r hr'
    simp only [plots, List.mem_cons] at hr'
    rcases hr' with rfl | hr'
    · rw [hr]
    · exact h1 r hr'
  · show List.Forall₂ _ _ (plots (plot3D first.1 (Sess.fresh data) first.2).1 rest).1.shots
    rw [h2, hr]
    exact .cons ⟨rfl, ac, hac, rfl⟩ h3

example : ∀ x ∈ [(exW 0, exA "E" .absent .absent), (exW 1, exA "H" (.list ["cavity", "pipe"]) .absent), (exW 2, exA "E" (.list ["cavity"]) (.one "flange"))], Good x.1 x.2 ∧ x.2.offScreen = true := by
  simp only [List.mem_cons, List.not_mem_nil, or_false, forall_eq_or_imp, forall_eq]
  exact ⟨⟨exA_good _ _ (by simp) _ _ (by simp) (by simp), rfl⟩, ⟨exA_good _ _ (by simp) _ _ (by simp) (by simp), rfl⟩, ⟨exA_good _ _ (by simp) _ _ (by simp) (by simp), rfl⟩⟩

/-- Cells of the same place in the array and in the grid: the order is not that of the columns of the state. -/
example : (vtkOrder 2 1 3)[4]? = some (1, 0, 1) := rfl

/-! ### Where the pictures are not what was asked for -/

/-- **C125 refuted for lists of solids to show.** For every model, field and session without a scene: a list of solids to show, with nothing to hide and no list of surfaces, raises `UnboundLocalError` and makes no
picture. -/
theorem C125_show_refuted (W : World K) (s : Sess K) (a : Args) (g : Good W { a with shown := .absent }) (hh : a.hide = .absent) (ha : a.addStl = .absent) (k : String) (l : List String)
    (hk : k ∈ W.solids) (hs : a.shown = .list (k :: l)) (hn : s.active = false) :
    (plot3D W s a).2 = .error .unboundLocalError ∧ (plot3D W s a).1.shots = s.shots := by
  obtain ⟨f, hf⟩ := Option.isSome_iff_exists.1 g.field
  obtain ⟨v, hv, -⟩ := cells_ok hf g.comp
  have hser : W.useMpi = false := g.serial
  have hvol : ∀ data, volume W data ((split1 a.field a.component).1 ++ (split1 a.field a.component).2) a none = .error .unboundLocalError := by
    intro data
    unfold volume
    simp only [hh, hs, hideMask, showMask, showLoop, readStl_ok hk, bind, Except.bind, if_true]
  unfold plot3D
  rw [if_neg (by rw [hser]; decide)]
  have hsc : scene true W (if s.active && !a.offScreen then { s with active := false } else s) a.addStl = .ok ([], none) := by
    rw [if_neg (by rw [hn]; simp), scene, if_neg (by rw [hn]; simp), ha]; rfl
  simp only at hv
  simp only [hsc, hv, hvol]
  rw [if_neg (by rw [hn]; simp)]
  exact ⟨trivial, rfl⟩

example : Good (exW 0) { { exA "E" .absent (.list ["cavity", "pipe"]) with addStl := .absent } with shown := .absent } :=
  { exA_good 0 "E" (by simp) .absent .absent (by simp) (by simp) with add := by simp [Keys.list'] }

theorem showLoop_last {W : World K} (l : List String) (k : String) (hl : ∀ x ∈ l ++ [k], x ∈ W.solids) (m : Option (ℕ → Bool)) :
    showLoop W (some 0) (l ++ [k]) m = .ok (some (W.inside k)) := by
  induction l generalizing m with
  | nil => simp only [List.nil_append, showLoop, readStl_ok (hl k (by simp)), bind, Except.bind]
  | cons x l ih =>
    simp only [List.cons_append, showLoop, readStl_ok (hl x (by simp)), bind, Except.bind]
    exact ih (fun y hy => hl y (List.mem_cons_of_mem _ hy)) _

/-- **C125 refuted for lists of solids to show, with one solid to hide in a list.** Then only the last of the solids to show is shown: every point outside it is blank. -/
theorem C125_show_last_refuted (W : World K) (data : String → Option (ℕ → K)) (a : Args) (h k : String) (l : List String) (hh : h ∈ W.solids) (hl : ∀ x ∈ l ++ [k], x ∈ W.solids)
    (g : Good W { a with shown := .absent }) (hhide : a.hide = .list [h]) (hs : a.shown = .list (l ++ [k])) (ha : a.addStl = .absent) :
    ∃ pts, (plot3D W (Sess.fresh data) a).2 = .ok () ∧ ((plot3D W (Sess.fresh data) a).1.shots.map Shot.actors) = [[.volume pts (if a.clipBox then .box else .plane)]] ∧
      ∀ p, (pts p).isSome ↔ W.inside k p = true ∧ W.inside h p = false := by
  obtain ⟨f, hf⟩ := Option.isSome_iff_exists.1 g.field
  obtain ⟨v, hv, -⟩ := cells_ok hf g.comp
  have hser : W.useMpi = false := g.serial
  have hcl : (a.clipBox || a.clipInteractive) = true := by rw [Bool.or_eq_true]; exact g.clip
  have hvol : ∀ data, data ((split1 a.field a.component).1 ++ (split1 a.field a.component).2) = some v →
      volume W data ((split1 a.field a.component).1 ++ (split1 a.field a.component).2) a none =
      .ok (some (.volume (fun p => if (!W.inside k p) = true then none else if W.inside h p = true then none else some (W.toPoints v p)) (if a.clipBox then .box else .plane))) := by
    intro data hd
    unfold volume
    simp only [hd, hhide, hs, hideMask, hideLoop, readStl_ok hh, bind, Except.bind, if_true, Option.map_some, reduceCtorEq, if_false, wipe, showMask, showLoop_last l k hl, hcl, pure, Except.pure]
  refine ⟨fun p => if (!W.inside k p) = true then none else if W.inside h p = true then none else some (W.toPoints v p), ?_, ?_, ?_⟩
  · unfold plot3D
    rw [if_neg (by rw [hser]; decide)]
    have hsc : scene true W (if (Sess.fresh data).active && !a.offScreen then { Sess.fresh data with active := false } else Sess.fresh data) a.addStl = .ok ([], none) := by
      rw [if_neg (by simp [Sess.fresh]), scene, if_neg (by simp [Sess.fresh]), ha]; rfl
    simp only at hv
    simp only [hsc, hv]
    rw [hvol _ (if_pos rfl)]
  · unfold plot3D
    rw [if_neg (by rw [hser]; decide)]
    have hsc : scene true W (if (Sess.fresh data).active && !a.offScreen then { Sess.fresh data with active := false } else Sess.fresh data) a.addStl = .ok ([], none) := by
      rw [if_neg (by simp [Sess.fresh]), scene, if_neg (by simp [Sess.fresh]), ha]; rfl
    simp only at hv
    simp only [hsc, hv]
    rw [hvol _ (if_pos rfl)]
    simp [Sess.fresh]
  · intro p
    cases h1 : W.inside k p <;> cases h2 : W.inside h p <;> simp [h1, h2]

example : Good (exW 0) { { exA "E" (.list ["cavity"]) (.list ["pipe", "flange"]) with addStl := .absent } with shown := .absent } :=
  { exA_good 0 "E" (by simp) (.list ["cavity"]) .absent (by simp) (by simp) with add := by simp [Keys.list'] }

/-- A point of the pipe is blank although the pipe is one of the solids to show. -/
example : (exW 0).inside "pipe" 1 = true ∧ ¬ ((exW 0).inside "flange" 1 = true ∧ (exW 0).inside "cavity" 1 = false) := by decide

/-- Several calls of both kinds. -/
inductive Call (K : Type)
  | plot3D (W : World K) (a : Args)
  | plot3DonSTL (W : World K) (a : SurfArgs)

def Call.run (s : Sess K) : Call K → Sess K × Py Unit
  | .plot3D W a => Pic3.plot3D W s a
  | .plot3DonSTL W a => Pic3.plot3DonSTL W s a

def Call.offScreen : Call K → Bool
  | .plot3D _ a => a.offScreen
  | .plot3DonSTL _ a => a.offScreen

def Call.serial : Call K → Bool
  | .plot3D W _ => !W.useMpi
  | .plot3DonSTL W _ => !W.useMpi

def runs (s : Sess K) : List (Call K) → Sess K × List (Py Unit)
  | [] => (s, [])
  | c :: l => ((runs (c.run s).1 l).1, (c.run s).2 :: (runs (c.run s).1 l).2)

/-- **C125 refuted after an error.** Whenever the first off-screen picture fails because of a wrong component, every later off-screen picture of that solver raises `AttributeError`, whatever is asked for. -/
theorem C125_stuck_refuted (W : World K) (data : String → Option (ℕ → K)) (a : Args) (hm : W.useMpi = false) (ho : a.offScreen = true) (hadd : a.addStl ≠ .other ∧ ∀ k ∈ a.addStl.list', k ∈ W.solids)
    (e : PyErr) (hbad : cells W (split1 a.field a.component).1 (split1 a.field a.component).2 = .error e) (later : List (Call K)) (hl : ∀ c ∈ later, c.offScreen = true ∧ c.serial = true) :
    (plot3D W (Sess.fresh data) a).2 = .error e ∧ ∀ r ∈ (runs (plot3D W (Sess.fresh data) a).1 later).2, r = .error .attributeError := by
  have hp : plot3D W (Sess.fresh data) a = (⟨true, none, data, []⟩, .error e) := by
    obtain ⟨i, hi⟩ := startActors_ok (W := W) true hadd
    unfold plot3D
    rw [if_neg (by rw [hm]; decide)]
    have hsc : scene true W (if (Sess.fresh data).active && !a.offScreen then { Sess.fresh data with active := false } else Sess.fresh data) a.addStl = .ok (a.addStl.list'.map .solid, i) := by
      rw [if_neg (by simp [Sess.fresh]), scene, if_neg (by simp [Sess.fresh]), hi]
    simp only [hsc, hbad]
    rw [if_neg (by simp [Sess.fresh])]
    simp [Sess.fresh, ho]
  have key : ∀ c : Call K, c.offScreen = true → c.serial = true → c.run ⟨true, none, data, []⟩ = (⟨true, none, data, []⟩, .error .attributeError) := by
    intro c h1 h2
    cases c with
    | plot3D W' a' =>
      have h1' : a'.offScreen = true := h1
      have h2' : W'.useMpi = false := by simpa [Call.serial] using h2
      simp [Call.run, plot3D, h1', h2', scene]
    | plot3DonSTL W' a' =>
      have h1' : a'.offScreen = true := h1
      have h2' : W'.useMpi = false := by simpa [Call.serial] using h2
      simp [Call.run, plot3DonSTL, h1', h2', scene]
  rw [hp]
  refine ⟨rfl, ?_⟩
  induction later with
  | nil => simp [runs]
  | cons c l ih =>
    intro r hr
    obtain ⟨h1, h2⟩ := hl c (List.mem_cons_self ..)
    simp only [runs, key c h1 h2, List.mem_cons] at hr
    rcases hr with rfl | hr
    · rfl
    · exact ih (fun x hx => hl x (List.mem_cons_of_mem _ hx)) r hr

/-- `plot3D('E', component='q', off_screen=True)`. -/
example : ∃ e, cells (exW 0) (split1 "E" "q").1 (split1 "E" "q").2 = .error e := ⟨_, rfl⟩

/-- **C125 refuted without clips.** With neither a box nor a plane (`clip_box=False, clip_interactive=False`) the call succeeds and the picture shows no field. -/
theorem C125_neither_refuted (W : World K) (data : String → Option (ℕ → K)) (a : Args) (g : Good W { a with clipBox := true }) (h1 : a.clipBox = false) (h2 : a.clipInteractive = false)
    (hh : a.hide = .absent) (hs : a.shown = .absent) :
    (plot3D W (Sess.fresh data) a).2 = .ok () ∧ (plot3D W (Sess.fresh data) a).1.shots.map Shot.actors = [a.addStl.list'.map .solid] := by
  obtain ⟨f, hf⟩ := Option.isSome_iff_exists.1 g.field
  obtain ⟨v, hv, -⟩ := cells_ok hf g.comp
  have hser : W.useMpi = false := g.serial
  obtain ⟨i, hi⟩ := startActors_ok (W := W) true g.add
  have hsc : scene true W (if (Sess.fresh data).active && !a.offScreen then { Sess.fresh data with active := false } else Sess.fresh data) a.addStl = .ok (a.addStl.list'.map .solid, i) := by
    rw [if_neg (by simp [Sess.fresh]), scene, if_neg (by simp [Sess.fresh])]; exact hi
  have hvol : ∀ data i, volume W data ((split1 a.field a.component).1 ++ (split1 a.field a.component).2) a i = .ok none := by
    intro data i
    simp [volume, hh, hs, hideMask, showMask, h1, h2, bind, Except.bind, pure, Except.pure]
  simp only at hv
  unfold plot3D
  rw [if_neg (by rw [hser]; decide)]
  simp only [hsc, hv, hvol]
  rw [if_neg (by simp [Sess.fresh])]
  simp [Sess.fresh]

example : Good (exW 0) { { exA "E" .absent .absent with clipInteractive := false } with clipBox := true } :=
  { exA_good 0 "E" (by simp) .absent .absent (by simp) (by simp) with clip := Or.inl rfl }

/-! ### The field on surfaces -/

/-- The picture of `plot3DonSTL` for one solid: the field at the time of the call, sampled at the surface. -/
def OnSurface (W : World K) (a : SurfArgs) (k : String) (ac : Actor K) : Prop :=
  ∃ f v, W.fieldOf (split1 a.field a.component).1 = some f ∧ Shows W.norm3 f (split1 a.field a.component).2 v ∧
    ac = .surface k (W.sample k (W.toPoints v)) (if a.clipInteractive then .plane else if a.clipBox then .box else .full)

structure GoodSurf (W : World K) (a : SurfArgs) : Prop where
  serial : W.useMpi = false
  field : (W.fieldOf (split1 a.field a.component).1).isSome
  comp : Component (split1 a.field a.component).2
  withField : a.withField ≠ .other ∧ a.withField.list' ≠ [] ∧ ∀ k ∈ a.withField.list', k ∈ W.solids
  add : a.transparent ≠ .other ∧ ∀ k ∈ a.transparent.list', k ∈ W.solids

/-- `plot3DonSTL('Ez', stl_with_field=..., off_screen=True)`. -/
def exB (withField : Keys) : SurfArgs := ⟨"E", "z", withField, .one "flange", false, false, true, none, none⟩

theorem exB_good (c : ℚ) (withField : Keys) (hw : withField = .one "cavity" ∨ withField = .list ["cavity", "pipe"]) : GoodSurf (exW c) (exB withField) where
  serial := rfl
  field := by simp [exB, split1_E, World.fieldOf]
  comp := Or.inl ⟨2, by simp [exB, split1_E, Fld.Names]⟩
  withField := by rcases hw with rfl | rfl <;> simp [exB, Keys.list', exW]
  add := by simp [exB, Keys.list', exW]

theorem surfLoop_ok {W : World K} (c : ℕ → K) (sh : Shape) (l : List String) (hl : ∀ k ∈ l, k ∈ W.solids) (acc : List (Actor K)) :
    surfLoop W (some c) sh l acc = (acc ++ l.map fun k => .surface k (W.sample k (W.toPoints c)) sh, .ok ()) := by
  induction l generalizing acc with
  | nil => simp [surfLoop]
  | cons k l ih =>
    simp only [surfLoop, surface, readStl_ok (hl k (List.mem_cons_self ..)), bind, Except.bind, pure, Except.pure]
    rw [ih (fun x hx => hl x (List.mem_cons_of_mem _ hx))]
    simp

theorem surfaces_ok {W : World K} (c : ℕ → K) (sh : Shape) {ks : Keys} (h : ks ≠ .other ∧ ks.list' ≠ [] ∧ ∀ k ∈ ks.list', k ∈ W.solids) :
    surfaces W (some c) sh ks = (ks.list'.map fun k => .surface k (W.sample k (W.toPoints c)) sh, .ok ()) := by
  obtain ⟨h1, h2, h3⟩ := h
  cases ks with
  | absent => exact absurd rfl h2
  | other => exact absurd rfl h1
  | one k => rw [surfaces, surfLoop_ok c sh [k] h3]; rfl
  | list l => rw [surfaces, surfLoop_ok c sh l h3]; rfl

theorem onSTL_ok {W : World K} {s : Sess K} {a : SurfArgs} (g : GoodSurf W a) (ho : a.offScreen = true) {base : List (Actor K)} {i : Option ℕ}
    (hb : scene false W s a.transparent = .ok (base, i)) :
    ∃ acts data', List.Forall₂ (OnSurface W a) a.withField.list' acts ∧
      plot3DonSTL W s a = (⟨true, some (base ++ acts.dropLast), data',
        s.shots ++ [⟨some (a.title.getD ((split1 a.field a.component).1 ++ (split1 a.field a.component).2 ++ "3d"), a.n), base ++ acts⟩]⟩, .ok ()) := by
  obtain ⟨f, hf⟩ := Option.isSome_iff_exists.1 g.field
  obtain ⟨v, hv, hs⟩ := cells_ok hf g.comp
  refine ⟨a.withField.list'.map fun k => .surface k (W.sample k (W.toPoints v)) (if a.clipInteractive then .plane else if a.clipBox then .box else .full),
    fun x => if x = (split1 a.field a.component).1 ++ (split1 a.field a.component).2 then some v else s.data x, ?_, ?_⟩
  · rw [List.forall₂_map_right_iff]
    exact List.forall₂_same.2 fun k _ => ⟨f, v, hf, hs, rfl⟩
  · unfold plot3DonSTL
    rw [if_neg (by rw [g.serial]; decide)]
    have e : (if (s.active && !a.offScreen) = true then { s with active := false } else s) = s := by rw [if_neg (by rw [ho]; simp)]
    rw [e]
    simp only [hb, hv]
    rw [if_pos trivial, surfaces_ok v _ g.withField]
    simp only [ho, if_true, Bool.or_true]
    rw [if_neg (by simpa using g.withField.2.1)]

/-- **C125, pictures of a surface.** For every sequence of off-screen calls with the field on one solid each: every call succeeds and makes one picture with the transparent solids of the first call and the field as it is
now on the solid asked for. -/
theorem C125_surface_partial (data : String → Option (ℕ → K)) (first : World K × SurfArgs) (rest : List (World K × SurfArgs))
    (hg : ∀ x ∈ first :: rest, GoodSurf x.1 x.2 ∧ x.2.offScreen = true ∧ x.2.withField.list'.length = 1) :
    (∀ r ∈ (runs (Sess.fresh data) ((first :: rest).map fun x => .plot3DonSTL x.1 x.2)).2, r = .ok ()) ∧
      List.Forall₂ (fun (x : World K × SurfArgs) (shot : Shot K) => shot.file = some (x.2.title.getD ((split1 x.2.field x.2.component).1 ++ (split1 x.2.field x.2.component).2 ++ "3d"), x.2.n) ∧
        ∃ k ac, x.2.withField.list' = [k] ∧ OnSurface x.1 x.2 k ac ∧ shot.actors = first.2.transparent.list'.map .solid ++ [ac]) (first :: rest)
        (runs (Sess.fresh data) ((first :: rest).map fun x => .plot3DonSTL x.1 x.2)).1.shots := by
  have one : ∀ (x : World K × SurfArgs) (s : Sess K) (base : List (Actor K)) (i : Option ℕ), GoodSurf x.1 x.2 → x.2.offScreen = true → x.2.withField.list'.length = 1 →
      scene false x.1 s x.2.transparent = .ok (base, i) → ∃ k ac data', x.2.withField.list' = [k] ∧ OnSurface x.1 x.2 k ac ∧
        Call.run s (.plot3DonSTL x.1 x.2) = (⟨true, some base, data', s.shots ++
          [⟨some (x.2.title.getD ((split1 x.2.field x.2.component).1 ++ (split1 x.2.field x.2.component).2 ++ "3d"), x.2.n), base ++ [ac]⟩]⟩, .ok ()) := by
    intro x s base i g ho h1 hb
    obtain ⟨acts, d, h2, h3⟩ := onSTL_ok g ho hb
    obtain ⟨k, hk⟩ := List.length_eq_one_iff.1 h1
    rw [hk] at h2
    obtain ⟨ac, acts', h4, h5, rfl⟩ := List.forall₂_cons_left_iff.1 h2
    obtain rfl := List.forall₂_nil_left_iff.1 h5
    exact ⟨k, ac, d, hk, h4, by rw [Call.run, h3]; simp⟩
  have key : ∀ (l : List (World K × SurfArgs)) (s : Sess K) (base : List (Actor K)), (∀ x ∈ l, GoodSurf x.1 x.2 ∧ x.2.offScreen = true ∧ x.2.withField.list'.length = 1) →
      s.active = true → s.pl = some base → (∀ r ∈ (runs s (l.map fun x => .plot3DonSTL x.1 x.2)).2, r = .ok ()) ∧ ∃ new, (runs s (l.map fun x => .plot3DonSTL x.1 x.2)).1.shots = s.shots ++ new ∧
        List.Forall₂ (fun (x : World K × SurfArgs) (shot : Shot K) => shot.file = some (x.2.title.getD ((split1 x.2.field x.2.component).1 ++ (split1 x.2.field x.2.component).2 ++ "3d"), x.2.n) ∧
          ∃ k ac, x.2.withField.list' = [k] ∧ OnSurface x.1 x.2 k ac ∧ shot.actors = base ++ [ac]) l new := by
    intro l
    induction l with
    | nil => exact fun s base _ _ _ => ⟨by simp [runs], [], by simp [runs], .nil⟩
    | cons x l ih =>
      intro s base hl ha hp
      obtain ⟨g, ho, h1⟩ := hl x (List.mem_cons_self ..)
      obtain ⟨k, ac, d, hk, hac, hr⟩ := one x s base none g ho h1 (by rw [scene, if_pos ha, hp])
      obtain ⟨i1, new, i2, i3⟩ := ih (Call.run s (.plot3DonSTL x.1 x.2)).1 base (fun y hy => hl y (List.mem_cons_of_mem _ hy)) (by rw [hr]) (by rw [hr])
      refine ⟨?_, ⟨some (x.2.title.getD ((split1 x.2.field x.2.component).1 ++ (split1 x.2.field x.2.component).2 ++ "3d"), x.2.n), base ++ [ac]⟩ :: new, ?_,
        .cons ⟨rfl, k, ac, hk, hac, rfl⟩ i3⟩
      · intro r hr'
        simp only [List.map_cons, runs, List.mem_cons] at hr'
        rcases hr' with rfl | hr'
        · rw [hr]
        · exact i1 r hr'
      · show (runs (Call.run s (.plot3DonSTL x.1 x.2)).1 _).1.shots = _
        rw [i2, hr, List.append_assoc]
        rfl
  obtain ⟨g, ho, h1⟩ := hg first (List.mem_cons_self ..)
  obtain ⟨i, hi⟩ := startActors_ok (W := first.1) false g.add
  obtain ⟨k, ac, d, hk, hac, hr⟩ := one first (Sess.fresh data) _ i g ho h1 (by rw [scene, if_neg (by simp [Sess.fresh]), hi])
  obtain ⟨i1, new, i2, i3⟩ := key rest (Call.run (Sess.fresh data) (.plot3DonSTL first.1 first.2)).1 _ (fun y hy => hg y (List.mem_cons_of_mem _ hy)) (by rw [hr]) (by rw [hr])
  constructor
  · intro r hr'
    simp only [List.map_cons, runs, List.mem_cons] at hr'
    rcases hr' with rfl | hr'
    · rw [hr]
    · exact i1 r hr'
  · show List.Forall₂ _ _ (runs (Call.run (Sess.fresh data) (.plot3DonSTL first.1 first.2)).1 _).1.shots
    rw [i2, hr]
    exact .cons ⟨rfl, k, ac, hk, hac, rfl⟩ i3

example : ∀ x ∈ [(exW 0, exB (.one "cavity")), (exW 1, exB (.one "cavity"))], GoodSurf x.1 x.2 ∧ x.2.offScreen = true ∧ x.2.withField.list'.length = 1 := by
  simp only [List.mem_cons, List.not_mem_nil, or_false, forall_eq_or_imp, forall_eq]
  exact ⟨⟨exB_good _ _ (by simp), rfl, rfl⟩, ⟨exB_good _ _ (by simp), rfl, rfl⟩⟩

/-- **C125 refuted for several surfaces.** With the field on two or more solids, off-screen: the second picture still has the surfaces of the first but the last, with the field of the first. -/
theorem C125_stale_refuted (W W' : World K) (data : String → Option (ℕ → K)) (a a' : SurfArgs) (g : GoodSurf W a) (g' : GoodSurf W' a') (ho : a.offScreen = true) (ho' : a'.offScreen = true)
    (h2 : 2 ≤ a.withField.list'.length) :
    ∃ old new shot1 shot2, List.Forall₂ (OnSurface W a) a.withField.list' old ∧ List.Forall₂ (OnSurface W' a') a'.withField.list' new ∧
      (runs (Sess.fresh data) [.plot3DonSTL W a, .plot3DonSTL W' a']).1.shots = [shot1, shot2] ∧ shot1.actors = a.transparent.list'.map .solid ++ old ∧
      shot2.actors = a.transparent.list'.map .solid ++ old.dropLast ++ new ∧ old.dropLast ≠ [] := by
  obtain ⟨i, hi⟩ := startActors_ok (W := W) false g.add
  obtain ⟨old, d, e1, e2⟩ := onSTL_ok (s := Sess.fresh data) g ho (i := i) (by rw [scene, if_neg (by simp [Sess.fresh]), hi])
  obtain ⟨new, d', f1, f2⟩ := onSTL_ok (s := (plot3DonSTL W (Sess.fresh data) a).1) (base := a.transparent.list'.map .solid ++ old.dropLast) (i := none) g' ho' (by rw [e2]; rfl)
  refine ⟨old, new, ⟨some (a.title.getD ((split1 a.field a.component).1 ++ (split1 a.field a.component).2 ++ "3d"), a.n), a.transparent.list'.map .solid ++ old⟩,
    ⟨some (a'.title.getD ((split1 a'.field a'.component).1 ++ (split1 a'.field a'.component).2 ++ "3d"), a'.n), a.transparent.list'.map .solid ++ old.dropLast ++ new⟩, e1, f1, ?_, rfl, rfl, ?_⟩
  · show (plot3DonSTL W' (plot3DonSTL W (Sess.fresh data) a).1 a').1.shots = _
    rw [f2, e2]
    rfl
  · intro h0
    have := congrArg List.length h0
    rw [List.length_dropLast, ← e1.length_eq, List.length_nil] at this
    omega

example : GoodSurf (exW 0) (exB (.list ["cavity", "pipe"])) ∧ GoodSurf (exW 1) (exB (.list ["cavity", "pipe"])) ∧ 2 ≤ (exB (.list ["cavity", "pipe"])).withField.list'.length :=
  ⟨exB_good _ _ (by simp), exB_good _ _ (by simp), le_refl 2⟩

/-- **C125 refuted without a surface.** Off-screen with no solid to carry the field (the default), the picture is written and then `UnboundLocalError` is raised. -/
theorem C125_no_surface_refuted (W : World K) (k : String) (data : String → Option (ℕ → K)) (a : SurfArgs) (g : GoodSurf W { a with withField := .one k }) (ha : a.withField = .absent) (ho : a.offScreen = true) :
    (plot3DonSTL W (Sess.fresh data) a).2 = .error .unboundLocalError ∧ (plot3DonSTL W (Sess.fresh data) a).1.shots.map Shot.actors = [a.transparent.list'.map .solid] := by
  obtain ⟨f, hf⟩ := Option.isSome_iff_exists.1 g.field
  obtain ⟨v, hv, -⟩ := cells_ok hf g.comp
  obtain ⟨i, hi⟩ := startActors_ok (W := W) false g.add
  have hser : W.useMpi = false := g.serial
  simp only at hv hi
  have e : (if ((Sess.fresh data).active && !a.offScreen) = true then { Sess.fresh data with active := false } else Sess.fresh data) = Sess.fresh data := by
    rw [if_neg (by simp [Sess.fresh])]
  have hsc : scene false W (Sess.fresh data) a.transparent = .ok (a.transparent.list'.map .solid, i) := by
    rw [scene, if_neg (by simp [Sess.fresh])]; exact hi
  unfold plot3DonSTL
  rw [if_neg (by rw [hser]; decide), e]
  simp only [hsc, hv, ha, surfaces, ho, if_true]
  simp [Sess.fresh]

example : GoodSurf (exW 0) { exB .absent with withField := .one "cavity" } := exB_good _ _ (by simp)

/-- **C125, `inspect3D`.** The scalars are the component asked for (in capitals or not) at each cell of the grid, and the magnitude for any other name. -/
theorem C125_inspect3D (norm3 : K → K → K → K) (f : Fld K) (field : String) :
    (∀ c, c = "x" ∨ c = "y" ∨ c = "z" → pyLower field = c → (inspectScalars norm3 f field).1 = "Field " ++ c ∧ Shows norm3 f c (inspectScalars norm3 f field).2) ∧
      ((∀ c, c = "x" ∨ c = "y" ∨ c = "z" → pyLower field ≠ c) → (inspectScalars norm3 f field).1 = "Field Abs" ∧ Shows norm3 f "abs" (inspectScalars norm3 f field).2) := by
  constructor
  · rintro c hc rfl
    have hM : ∃ M, f.toMatrix (.str (pyLower field)) = some M ∧ matOf norm3 f (.str (pyLower field)) = some M := by
      rcases hc with h | h | h <;> rw [h] <;> exact ⟨_, rfl, rfl⟩
    obtain ⟨M, h1, h2⟩ := hM
    unfold inspectScalars
    simp only [if_pos hc, h1]
    exact ⟨trivial, shows_flat h2⟩
  · intro h
    have hc : ¬ (pyLower field = "x" ∨ pyLower field = "y" ∨ pyLower field = "z") := fun hc => h _ hc rfl
    unfold inspectScalars
    simp only [if_neg hc]
    exact ⟨trivial, shows_flat rfl⟩

end Pic3
end Wakis
