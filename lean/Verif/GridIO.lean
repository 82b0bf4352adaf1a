import Verif.MaterialProps
import Mathlib.Data.List.Sort
import Mathlib.Data.Char
import Mathlib.Order.Lex

/-!
# C14, C15, C70: STL settings and grid files of `wakis/gridFIT3D.py`

Dictionaries are lists of pairs in insertion order with distinct keys. Masks are inputs (the STL import itself is not modelled).
-/

namespace Wakis
namespace GridIO
open Sol

/-! ### Dictionaries -/

variable {K V : Type}

/-- `d[k]`. -/
def lookup (d : List (String × V)) (k : String) : Option V := (d.find? fun p => p.1 = k).map Prod.snd

/-- The code points of a name; h5py lists the members of a group in the order of their names. -/
def codes (s : String) : List ℕ := s.toList.map Char.toNat

/-- The members of an h5 group as listed by `keys()`. -/
def group (d : List (String × V)) : List (String × V) := d.insertionSort fun a b => codes a.1 ≤ codes b.1

/-! ### Model of `save_to_h5` and `load_from_h5` -/

/-- A setting of a solid: text, or a number or list of numbers. -/
inductive Val (K : Type)
  | str (s : String)
  | nums (l : List K)

/-- The part of a `GridFIT3D` that is saved: axes, the `stl_` dictionaries, and the masks in `grid.cell_data`. -/
structure StlGrid (K : Type) where
  x : List K
  y : List K
  z : List K
  solids : List (String × String)
  materials : List (String × MatSpec K)
  colors : List (String × Val K)
  scale : List (String × Val K)
  rotate : List (String × Val K)
  translate : List (String × Val K)
  masks : List (String × (ℕ → ℕ → ℕ → Bool))

/-- The names of the cell masks in the file: `"grid_" + key`. -/
def maskName (k : String) : String := "grid_" ++ k

/-- One mask, by the name of its solid. -/
def withMask (f : String → Option V) (s : String × String) : Py (String × V) :=
  match f s.1 with
  | some m => .ok (s.1, m)
  | none => .error .keyError

/-- gridFIT3D.py:1320-1346: what is written. A grid without STL solids has no dictionaries, so that `dct.items()` fails. Text and lists of numbers read back as they are. -/
def saveH5 (g : StlGrid K) (hasStl : Bool) : Py (StlGrid K) :=
  if hasStl then
    (g.solids.mapM (withMask (lookup g.masks))).map fun masks =>
    ⟨g.x, g.y, g.z, group g.solids, group g.materials, group g.colors, group g.scale, group g.rotate, group g.translate, group (masks.map fun p => (maskName p.1, p.2))⟩
  else .error .attributeError

/-- A name that would be stored as a path. -/
def isPath (s : String) : Bool := s.toList.contains '/'

/-- gridFIT3D.py:1363-1407: reading back, in the order of the groups. Names containing `/` were stored as nested groups, which cannot be read with `[()]`. -/
def loadH5 (f : StlGrid K) : Py (StlGrid K) :=
  if (f.solids.any fun p => isPath p.1) then .error .typeError
  else
    (f.solids.mapM (withMask fun k => lookup f.masks (maskName k))).map fun masks => { f with masks := masks }

/-- The solids as the solver sees them (solverFIT3D.py:1172-1178): in the order of `stl_solids`, with their masks. -/
def solidsOf (g : StlGrid K) : List Solid := g.solids.map fun s => (s.1, (lookup g.masks s.1).getD fun _ _ _ => false)

/-! ### Lemmas -/

theorem group_perm (d : List (String × V)) : (group d).Perm d := List.perm_insertionSort _ _

theorem lookup_eq_some {d : List (String × V)} (h : (d.map Prod.fst).Nodup) {k : String} {v : V} : lookup d k = some v ↔ (k, v) ∈ d := by
  induction d with
  | nil => simp [lookup]
  | cons p d ih =>
    rw [List.map_cons, List.nodup_cons] at h
    unfold lookup at ih ⊢
    rw [List.find?_cons]
    by_cases hp : p.1 = k
    · simp only [hp, decide_true, Option.map_some, Option.some.injEq, List.mem_cons]
      constructor
      · rintro rfl
        left
        rw [← hp]
      · rintro (e | e)
        · rw [← e]
        · exact absurd (hp ▸ List.mem_map.2 ⟨_, e, rfl⟩) h.1
    · simp only [hp, decide_false, List.mem_cons]
      rw [ih h.2]
      constructor
      · exact Or.inr
      · rintro (e | e)
        · exact absurd (by rw [← e]) hp
        · exact e

/-- Lookups do not depend on the order. -/
theorem lookup_perm {d d' : List (String × V)} (hp : d.Perm d') (h : (d.map Prod.fst).Nodup) (k : String) : lookup d k = lookup d' k := by
  have h' : (d'.map Prod.fst).Nodup := (hp.map Prod.fst).nodup_iff.1 h
  ext v
  rw [lookup_eq_some h, lookup_eq_some h']
  exact hp.mem_iff

theorem mapM_masks (d : List (String × String)) (f : String → Option V) (h : ∀ s ∈ d, (f s.1).isSome) (v0 : V) :
    d.mapM (withMask f) = .ok (d.map fun s => (s.1, (f s.1).getD v0)) := by
  induction d with
  | nil => rfl
  | cons s d ih =>
    rw [List.mapM_cons, ih fun s' hs' => h s' (List.mem_cons_of_mem _ hs')]
    have := h s List.mem_cons_self
    cases hf : f s.1 with
    | none => rw [hf] at this; cases this
    | some v => simp only [withMask, bind, Except.bind, pure, Except.pure, List.map_cons, hf, Option.getD_some]

theorem maskName_inj {a b : String} (h : maskName a = maskName b) : a = b := by
  unfold maskName at h
  have := congrArg String.toList h
  rw [String.toList_append, String.toList_append] at this
  exact String.toList_injective (List.append_cancel_left this)

/-- A consistent grid: distinct names, and a mask for every solid (as after construction). -/
structure StlGrid.Wf (g : StlGrid K) : Prop where
  solids : (g.solids.map Prod.fst).Nodup
  materials : (g.materials.map Prod.fst).Nodup
  colors : (g.colors.map Prod.fst).Nodup
  scale : (g.scale.map Prod.fst).Nodup
  rotate : (g.rotate.map Prod.fst).Nodup
  translate : (g.translate.map Prod.fst).Nodup
  masks : ∀ s ∈ g.solids, (lookup g.masks s.1).isSome
  names : ∀ s ∈ g.solids, isPath s.1 = false

/-- The two steps, as one. -/
def roundtrip (g : StlGrid K) : Py (StlGrid K) := (saveH5 g true).bind loadH5

theorem lookup_map_key (d : List (String × String)) (f : String → V) (hd : (d.map Prod.fst).Nodup) {k : String} (hk : k ∈ d.map Prod.fst) :
    lookup (d.map fun s => (s.1, f s.1)) k = some (f k) := by
  obtain ⟨s, hs, rfl⟩ := List.mem_map.1 hk
  rw [lookup_eq_some (by rw [List.map_map]; exact hd)]
  exact List.mem_map.2 ⟨s, hs, rfl⟩

theorem roundtrip_eq {g : StlGrid K} (h : g.Wf) :
    roundtrip g = .ok ⟨g.x, g.y, g.z, group g.solids, group g.materials, group g.colors, group g.scale, group g.rotate, group g.translate,
      (group g.solids).map fun s => (s.1, (lookup g.masks s.1).getD fun _ _ _ => false)⟩ := by
  unfold roundtrip saveH5
  rw [if_pos rfl, mapM_masks g.solids (lookup g.masks) h.masks (fun _ _ _ => false)]
  simp only [Except.map, Except.bind]
  unfold loadH5
  have hp := group_perm g.solids
  have hnp : ((group g.solids).any fun p => isPath p.1) = false := by
    rw [List.any_eq_false]
    intro p hp'
    rw [h.names p (hp.subset hp')]
    simp
  simp only [hnp]
  have hk : (((g.solids.map fun s => (s.1, (lookup g.masks s.1).getD fun _ _ _ => false)).map fun p => (maskName p.1, p.2)).map Prod.fst).Nodup := by
    rw [List.map_map, List.map_map]
    have : (Prod.fst ∘ fun p : String × (ℕ → ℕ → ℕ → Bool) => (maskName p.1, p.2)) ∘ (fun s : String × String => (s.1, (lookup g.masks s.1).getD fun _ _ _ => false)) = maskName ∘ Prod.fst := rfl
    rw [this, ← List.map_map]
    exact h.solids.map fun a b e => maskName_inj e
  have hlook : ∀ s ∈ group g.solids, lookup (group ((g.solids.map fun s => (s.1, (lookup g.masks s.1).getD fun _ _ _ => false)).map fun p => (maskName p.1, p.2))) (maskName s.1) =
      some ((lookup g.masks s.1).getD fun _ _ _ => false) := fun s hs => by
    rw [← lookup_perm (group_perm _).symm hk, lookup_eq_some hk]
    exact List.mem_map.2 ⟨_, List.mem_map.2 ⟨s, hp.subset hs, rfl⟩, rfl⟩
  have := mapM_masks (group g.solids) (fun k => lookup (group ((g.solids.map fun s => (s.1, (lookup g.masks s.1).getD fun _ _ _ => false)).map fun p => (maskName p.1, p.2))) (maskName k))
    (fun s hs => by rw [hlook s hs]; rfl) (fun _ _ _ => false)
  rw [if_neg (by simp), this]
  show Except.ok _ = _
  congr 2
  refine List.map_congr_left fun s hs => ?_
  rw [hlook s hs]
  rfl

/-! ### C14 -/

/-- **C14 (contents).** Saving and loading any grid with STL solids (whose names contain no `/`) restores the axes, and for every solid its file, material, colour, scale, rotation, translation
and cell mask. -/
theorem C14_contents {g : StlGrid K} (h : g.Wf) :
    ∃ g', roundtrip g = .ok g' ∧ g'.x = g.x ∧ g'.y = g.y ∧ g'.z = g.z ∧ g'.solids.Perm g.solids ∧
      ∀ k, lookup g'.solids k = lookup g.solids k ∧ lookup g'.materials k = lookup g.materials k ∧ lookup g'.colors k = lookup g.colors k ∧
        lookup g'.scale k = lookup g.scale k ∧ lookup g'.rotate k = lookup g.rotate k ∧ lookup g'.translate k = lookup g.translate k ∧
        (k ∈ g.solids.map Prod.fst → lookup g'.masks k = lookup g.masks k) := by
  refine ⟨_, roundtrip_eq h, rfl, rfl, rfl, group_perm _, fun k => ⟨?_, ?_, ?_, ?_, ?_, ?_, fun hk => ?_⟩⟩
  · exact (lookup_perm (group_perm _).symm h.solids k).symm
  · exact (lookup_perm (group_perm _).symm h.materials k).symm
  · exact (lookup_perm (group_perm _).symm h.colors k).symm
  · exact (lookup_perm (group_perm _).symm h.scale k).symm
  · exact (lookup_perm (group_perm _).symm h.rotate k).symm
  · exact (lookup_perm (group_perm _).symm h.translate k).symm
  · have hp := (group_perm g.solids).map Prod.fst
    simp only
    rw [lookup_map_key (group g.solids) (fun k => (lookup g.masks k).getD fun _ _ _ => false) (hp.nodup_iff.2 h.solids) (hp.symm.subset hk)]
    obtain ⟨s, hs, rfl⟩ := List.mem_map.1 hk
    have := h.masks s hs
    cases hl : lookup g.masks s.1 with
    | none => rw [hl] at this; cases this
    | some m => rfl

/-- The solids the solver sees after reloading: the same ones, in the order of their names. -/
theorem solidsOf_roundtrip {g g' : StlGrid K} (h : g.Wf) (hr : roundtrip g = .ok g') : (solidsOf g).Perm (solidsOf g') ∧ solidsOf g' = (group g.solids).map fun s => (s.1, (lookup g.masks s.1).getD fun _ _ _ => false) := by
  rw [roundtrip_eq h] at hr
  cases hr
  have hp := (group_perm g.solids).map Prod.fst
  have : solidsOf (⟨g.x, g.y, g.z, group g.solids, group g.materials, group g.colors, group g.scale, group g.rotate, group g.translate,
      (group g.solids).map fun s => (s.1, (lookup g.masks s.1).getD fun _ _ _ => false)⟩ : StlGrid K) = (group g.solids).map fun s => (s.1, (lookup g.masks s.1).getD fun _ _ _ => false) := by
    unfold solidsOf
    simp only
    refine List.map_congr_left fun s hs => ?_
    rw [lookup_map_key (group g.solids) (fun k => (lookup g.masks k).getD fun _ _ _ => false) (hp.nodup_iff.2 h.solids) (List.mem_map.2 ⟨s, hs, rfl⟩)]
    rfl
  rw [this]
  exact ⟨(group_perm g.solids).symm.map _, rfl⟩

section
variable [Field K] [LinearOrder K]

/-- **C14 (partial: disjoint solids).** If no cell lies in two solids, a solver built on the reloaded grid has in every cell, in all components, the permittivity, permeability and conductivity
of one built on the original, and the same conductivity flag. Missing: overlapping solids (`C14_refuted`). -/
theorem C14_disjoint_partial {g g' : StlGrid K} (h : g.Wf) (hr : roundtrip g = .ok g') {Nx Ny Nz : ℕ} {eps0 mu0 : K} {use0 : Bool} {bg : MatSpec K} {t : Mats K}
    (ht : materials Nx Ny Nz eps0 mu0 use0 bg (lookup g.materials) (solidsOf g) = .ok t) (hd : DisjointSolids Nx Ny Nz (solidsOf g)) :
    ∃ t', materials Nx Ny Nz eps0 mu0 use0 bg (lookup g'.materials) (solidsOf g') = .ok t' ∧ t'.useCond = t.useCond ∧
      ∀ i < Nx, ∀ j < Ny, ∀ k < Nz, ∀ key c, Fld.Names key c →
        t'.ieps.get i j k key = t.ieps.get i j k key ∧ t'.imu.get i j k key = t.imu.get i j k key ∧ t'.sigma.get i j k key = t.sigma.get i j k key := by
  obtain ⟨hp, -⟩ := solidsOf_roundtrip h hr
  have hm : lookup g'.materials = lookup g.materials := by
    rw [roundtrip_eq h] at hr
    cases hr
    funext k
    exact (lookup_perm (group_perm _).symm h.materials k).symm
  rw [hm]
  exact C29_disjoint_order ht hp hd

/-- **C14 (partial: names in order).** If the solids are listed in the order of their names (as those of an imported STEP file with at most 1000 solids are, `C57_sorted_partial`), a solver built on the
reloaded grid is the same as one built on the original, overlapping solids included. -/
theorem C14_sorted_partial {g g' : StlGrid K} (h : g.Wf) (hr : roundtrip g = .ok g') (hs : g.solids.Pairwise fun a b => codes a.1 ≤ codes b.1) {Nx Ny Nz : ℕ} {eps0 mu0 : K} {use0 : Bool} {bg : MatSpec K} :
    materials Nx Ny Nz eps0 mu0 use0 bg (lookup g'.materials) (solidsOf g') = materials Nx Ny Nz eps0 mu0 use0 bg (lookup g.materials) (solidsOf g) := by
  obtain ⟨-, h2⟩ := solidsOf_roundtrip h hr
  have hm : lookup g'.materials = lookup g.materials := by
    rw [roundtrip_eq h] at hr
    cases hr
    funext k
    exact (lookup_perm (group_perm _).symm h.materials k).symm
  rw [hm, h2, show group g.solids = g.solids from List.Pairwise.insertionSort_eq hs]
  rfl

/-- **C14 (what happens).** On the reloaded grid, a cell gets the permittivity and permeability of the solid containing it whose name comes last, whatever the order in the original. -/
theorem C14_actual {g g' : StlGrid K} (h : g.Wf) (hr : roundtrip g = .ok g') {Nx Ny Nz : ℕ} {eps0 mu0 : K} {use0 : Bool} {bg : MatSpec K} {t : Mats K}
    (ht : materials Nx Ny Nz eps0 mu0 use0 bg (lookup g'.materials) (solidsOf g') = .ok t) {i j k : ℕ} (hi : i < Nx) (hj : j < Ny) (hk : k < Nz) {s : Solid}
    (hs : s ∈ solidsOf g) (hin : s.2 i j k = true) (hlast : ∀ s' ∈ solidsOf g, s'.2 i j k = true → s' ≠ s → codes s'.1 < codes s.1) :
    ∃ spec m, lookup g.materials s.1 = some spec ∧ MeansMaterial spec m ∧ CellHas eps0 mu0 t i j k m := by
  obtain ⟨hp, h2⟩ := solidsOf_roundtrip h hr
  have hm : lookup g'.materials = lookup g.materials := by
    rw [roundtrip_eq h] at hr
    cases hr
    funext k
    exact (lookup_perm (group_perm _).symm h.materials k).symm
  rw [hm] at ht
  obtain ⟨a, b, hab⟩ := List.append_of_mem (hp.subset hs)
  have hsort : (solidsOf g').Pairwise fun p q : Solid => codes p.1 ≤ codes q.1 := by
    rw [h2, List.pairwise_map]
    exact List.pairwise_insertionSort (fun a b : String × String => codes a.1 ≤ codes b.1) g.solids
  have hnd : (solidsOf g').Nodup := by
    refine List.Nodup.of_map Prod.fst ?_
    rw [h2, List.map_map]
    exact ((group_perm g.solids).map Prod.fst).nodup_iff.2 h.solids
  refine C29_last_solid_wins ht hi hj hk ⟨a, b, hab, hin, fun s' hs' => ?_⟩
  by_contra hc
  have hmem : s' ∈ solidsOf g := hp.symm.subset (by rw [hab]; simp [hs'])
  rw [hab] at hsort hnd
  have hne : s' ≠ s := by
    rintro rfl
    rw [List.nodup_append] at hnd
    exact (List.nodup_cons.1 hnd.2.1).1 hs'
  have hle : codes s.1 ≤ codes s'.1 := by
    rw [List.pairwise_append] at hsort
    exact (List.pairwise_cons.1 hsort.2.1).1 s' hs'
  exact absurd (hlast s' hmem (by simpa using hc) hne) (not_lt.2 hle)

end

/-- Two solids filling the domain, listed in the order `b`, `a`: the permittivity is that of `a`. -/
def overlapGrid : StlGrid ℚ where
  x := [0, 1]
  y := [0, 1]
  z := [0, 1]
  solids := [("b", "b.stl"), ("a", "a.stl")]
  materials := [("b", .vals ⟨.fin 2, .fin 1, none⟩), ("a", .vals ⟨.fin 4, .fin 1, none⟩)]
  colors := []
  scale := []
  rotate := []
  translate := []
  masks := [("b", fun _ _ _ => true), ("a", fun _ _ _ => true)]

theorem overlapGrid_wf : overlapGrid.Wf :=
  ⟨by decide, by decide, by decide, by decide, by decide, by decide, by decide, by decide⟩

/-- The hypotheses of the partial theorems are met: two solids side by side, listed out of order, and the overlapping ones listed in order. -/
example : ({ overlapGrid with masks := [("b", fun i _ _ => i == 0), ("a", fun i _ _ => i == 1)] } : StlGrid ℚ).Wf ∧
    DisjointSolids 2 1 1 (solidsOf ({ overlapGrid with masks := [("b", fun i _ _ => i == 0), ("a", fun i _ _ => i == 1)] } : StlGrid ℚ)) := by
  refine ⟨⟨by decide, by decide, by decide, by decide, by decide, by decide, by decide, by decide⟩, ?_⟩
  intro s hs s' hs' i hi j hj k hk h h'
  have e : solidsOf ({ overlapGrid with masks := [("b", fun i _ _ => i == 0), ("a", fun i _ _ => i == 1)] } : StlGrid ℚ) = [("b", fun i _ _ => i == 0), ("a", fun i _ _ => i == 1)] := rfl
  rw [e] at hs hs'
  simp only [List.mem_cons, List.not_mem_nil, or_false] at hs hs'
  rcases hs with rfl | rfl <;> rcases hs' with rfl | rfl <;> simp_all
example : ({ overlapGrid with solids := [("a", "a.stl"), ("b", "b.stl")] } : StlGrid ℚ).Wf ∧ ([("a", "a.stl"), ("b", "b.stl")] : List (String × String)).Pairwise fun a b => codes a.1 ≤ codes b.1 :=
  ⟨⟨by decide, by decide, by decide, by decide, by decide, by decide, by decide, by decide⟩, by decide⟩
example : ("a", fun _ _ _ => true) ∈ solidsOf overlapGrid := List.mem_cons_of_mem _ List.mem_cons_self

/-- The permittivity entry of the only cell. -/
def epsOf (g : StlGrid ℚ) : Option ℚ :=
  match materials 1 1 1 1 1 false (.name "vacuum") (lookup g.materials) (solidsOf g) with
  | .ok t => (t.ieps.get 0 0 0 (.str "x")).toOption
  | .error _ => none

/-- **C14 (refuted).** With overlapping solids not listed in the order of their names, the reloaded grid has another material. -/
theorem C14_refuted : ∃ g', roundtrip overlapGrid = .ok g' ∧ epsOf overlapGrid = some (1 / 4) ∧ epsOf g' = some (1 / 2) :=
  ⟨_, roundtrip_eq overlapGrid_wf, by decide +kernel, by decide +kernel⟩

/-- **C14 (refuted: no solids).** A grid without STL solids cannot be saved. -/
theorem C14_empty_refuted (g : StlGrid K) : (saveH5 g false).bind loadH5 = .error .attributeError := rfl

/-- **C14 (refuted: names).** A grid with a solid whose name contains `/` can be saved but not loaded. -/
theorem C14_path_refuted {g f : StlGrid K} (h : saveH5 g true = .ok f) {s : String × String} (hs : s ∈ g.solids) (hp : isPath s.1 = true) : loadH5 f = .error .typeError := by
  unfold saveH5 at h
  rw [if_pos rfl] at h
  cases hm : g.solids.mapM (withMask (lookup g.masks)) with
  | error e => rw [hm] at h; cases h
  | ok masks =>
    rw [hm] at h
    cases h
    unfold loadH5
    rw [if_pos]
    exact List.any_eq_true.2 ⟨s, (group_perm _).symm.subset hs, hp⟩

example : ∃ f, saveH5 ({ overlapGrid with solids := [("a/b", "a.stl")], masks := [("a/b", fun _ _ _ => true)] } : StlGrid ℚ) true = .ok f ∧ isPath "a/b" = true :=
  ⟨_, rfl, by decide⟩

/-! ### C70: masks and cells -/

/-- VTK numbers the cells of a structured grid with the first dimension fastest. `_compute_grid` (gridFIT3D.py:262-263) passes the transposed coordinate arrays, so the dimensions
are `(Nz, Ny, Nx)` and cell `(a, b, c)` of VTK is the cell with coordinates `x[c], y[b], z[a]`. `p` is a predicate on the cells `(i, j, k)` of the grid; the list is `grid.cell_data[key]`. -/
def vtkCells (Nx Ny Nz : ℕ) (p : ℕ → ℕ → ℕ → Bool) : List Bool :=
  (List.range Nx).flatMap fun c => (List.range Ny).flatMap fun b => (List.range Nz).map fun a => p c b a

/-- solverFIT3D.py:1178: `np.reshape(data, (Nx, Ny, Nz))[i, j, k]` (row-major). -/
def reshapeC (Ny Nz : ℕ) (data : List Bool) (i j k : ℕ) : Bool := data.getD ((i * Ny + j) * Nz + k) false

theorem getElem?_flatMap_range {α : Type} (N c : ℕ) (f : ℕ → List α) (hf : ∀ a, (f a).length = c) {a b : ℕ} (ha : a < N) (hb : b < c) :
    ((List.range N).flatMap f)[a * c + b]? = (f a)[b]? := by
  induction N with
  | zero => omega
  | succ N ih =>
    have hlen : ((List.range N).flatMap f).length = N * c := by
      rw [List.length_flatMap]
      simp [hf]
    rw [List.range_succ, List.flatMap_append]
    rcases Nat.lt_or_ge a N with h | h
    · rw [List.getElem?_append_left]
      · exact ih h
      · rw [hlen]
        calc a * c + b < a * c + c := by omega
          _ = (a + 1) * c := by ring
          _ ≤ N * c := Nat.mul_le_mul_right _ h
    · have : a = N := by omega
      subst this
      rw [List.getElem?_append_right (by rw [hlen]; omega), hlen, Nat.add_sub_cancel_left]
      simp

/-- **C70.** For every grid size, the mask entry the solver uses for cell `(i, j, k)` of the field arrays is the one computed for the cell with coordinates `x[i], y[j], z[k]`. -/
theorem C70_masks_aligned {Nx Ny Nz : ℕ} (p : ℕ → ℕ → ℕ → Bool) {i j k : ℕ} (hi : i < Nx) (hj : j < Ny) (hk : k < Nz) : reshapeC Ny Nz (vtkCells Nx Ny Nz p) i j k = p i j k := by
  unfold reshapeC vtkCells
  rw [List.getD_eq_getElem?_getD, show (i * Ny + j) * Nz + k = i * (Ny * Nz) + (j * Nz + k) by ring,
    getElem?_flatMap_range Nx (Ny * Nz) _ (fun a => by rw [List.length_flatMap]; simp) hi (by
      calc j * Nz + k < j * Nz + Nz := by omega
        _ = (j + 1) * Nz := by ring
        _ ≤ Ny * Nz := Nat.mul_le_mul_right _ hj),
    getElem?_flatMap_range Ny Nz _ (fun a => by rw [List.length_map, List.length_range]) hj hk, List.getElem?_map, List.getElem?_range hk]
  rfl

/-! ### C15: STL settings -/

/-- A setting given by the user: one value for all solids, or a dictionary. -/
inductive Arg (α : Type)
  | one (v : α)
  | dict (d : List (String × α))

/-- The argument `stl_solids`. -/
inductive SolidsArg
  | file (s : String)
  | dict (d : List (String × String))
  | other

/-- The argument `stl_colors`: nothing, one colour, a list, or a dictionary. -/
inductive ColorsArg (C : Type)
  | none
  | one (c : C)
  | list (l : List C)
  | dict (d : List (String × C))

/-- The argument `stl_materials`. -/
inductive MatsArg (M : Type)
  | one (m : M)
  | dict (d : List (String × M))

/-- gridFIT3D.py:398-404. Any other type raises an `Exception` (here `valueError`). -/
def prepareSolids : SolidsArg → Py (List (String × String))
  | .file s => .ok [("Solid 1", s)]
  | .dict d => .ok d
  | .other => .error .valueError

/-- gridFIT3D.py:406-425, the same for rotation, scale and translation. -/
def spread {α : Type} (keys : List String) : Arg α → List (String × α)
  | .dict d => d
  | .one v => keys.map fun k => (k, v)

/-- gridFIT3D.py:780-806 `_assign_colors`, with the choice of a colour for a material left open; `stl_materials[key]` of a single material fails with a `TypeError`. -/
def assignColors {M C : Type} (colorOf : M → C) (keys : List String) (mats : MatsArg M) : Py (List (String × C)) :=
  keys.mapM fun k => match mats with
    | .one _ => .error .typeError
    | .dict d => match lookup d k with
      | some m => .ok (k, colorOf m)
      | none => .error .keyError

/-- gridFIT3D.py:427-446. `self.stl_colors is str` is never true, so one colour stays as it is. A list that is too short is replaced by the colours of the materials. -/
def prepareColors {M C : Type} (colorOf : M → C) (keys : List String) (mats : MatsArg M) : ColorsArg C → Py (ColorsArg C)
  | .dict d => .ok (.dict d)
  | .none => (assignColors colorOf keys mats).map .dict
  | .one c => .ok (.one c)
  | .list l => if keys.length ≤ l.length then .ok (.dict (keys.zip l)) else (assignColors colorOf keys mats).map .dict

/-- The settings after `_prepare_stl_dicts`. -/
structure Stl (R C : Type) where
  solids : List (String × String)
  rotate : List (String × R)
  scale : List (String × R)
  translate : List (String × R)
  colors : ColorsArg C

/-- gridFIT3D.py:391-446 `_prepare_stl_dicts`. -/
def prepare {R M C : Type} (colorOf : M → C) (solids : SolidsArg) (rotate scale translate : Arg R) (mats : MatsArg M) (colors : ColorsArg C) : Py (Stl R C) := do
  let s ← prepareSolids solids
  let keys := s.map Prod.fst
  let c ← prepareColors colorOf keys mats colors
  return ⟨s, spread keys rotate, spread keys scale, spread keys translate, c⟩

/-- gridFIT3D.py:512-523: the settings `read_stl(key)` uses. -/
def settingsOf {R C : Type} (s : Stl R C) (key : String) : Py (R × R × R) :=
  match lookup s.rotate key, lookup s.translate key, lookup s.scale key with
  | some r, some t, some c => .ok (r, t, c)
  | _, _, _ => .error .keyError

/-- The value an argument gives to a solid. -/
def Arg.gives {α : Type} (a : Arg α) (k : String) (v : α) : Prop :=
  match a with
  | .one w => v = w
  | .dict d => lookup d k = some v

theorem lookup_spread {α : Type} {keys : List String} (hn : keys.Nodup) {k : String} (hk : k ∈ keys) (v : α) : lookup (keys.map fun k => (k, v)) k = some v := by
  rw [lookup_eq_some (by rw [List.map_map]; exact (List.map_id' keys).symm ▸ hn)]
  exact List.mem_map.2 ⟨k, hk, rfl⟩

/-- **C15 (rotation, scale, translation).** For every set of solids and all settings, each given once for all solids or per solid: a solid for which every setting gives a value is read with
exactly those values; a setting given once ends up with exactly one entry per solid, in the order of the solids. -/
theorem C15_settings {R M C : Type} {colorOf : M → C} {solids : SolidsArg} {rotate scale translate : Arg R} {mats : MatsArg M} {colors : ColorsArg C} {s : Stl R C}
    (h : prepare colorOf solids rotate scale translate mats colors = .ok s) (hn : (s.solids.map Prod.fst).Nodup) :
    (∀ k ∈ s.solids.map Prod.fst, ∀ r t c, rotate.gives k r → translate.gives k t → scale.gives k c → settingsOf s k = .ok (r, t, c)) ∧
      (∀ v, rotate = .one v → s.rotate = s.solids.map fun p => (p.1, v)) ∧ (∀ v, scale = .one v → s.scale = s.solids.map fun p => (p.1, v)) ∧
      (∀ v, translate = .one v → s.translate = s.solids.map fun p => (p.1, v)) := by
  unfold prepare at h
  cases hs : prepareSolids solids with
  | error e => rw [hs] at h; cases h
  | ok d =>
    rw [hs] at h
    simp only [bind, Except.bind] at h
    cases hc : prepareColors colorOf (d.map Prod.fst) mats colors with
    | error e => rw [hc] at h; cases h
    | ok c' =>
      rw [hc] at h
      cases h
      simp only at hn ⊢
      have key : ∀ (a : Arg R) k, k ∈ d.map Prod.fst → ∀ v, a.gives k v → lookup (spread (d.map Prod.fst) a) k = some v := by
        intro a k hk v hv
        cases a with
        | one w => cases hv; exact lookup_spread hn hk v
        | dict l => exact hv
      refine ⟨fun k hk r t c hr ht hc => ?_, ?_, ?_, ?_⟩
      · unfold settingsOf
        simp only [key rotate k hk r hr, key translate k hk t ht, key scale k hk c hc]
      all_goals
        rintro v rfl
        simp only [spread, List.map_map]
        rfl

/-- **C15 (single file).** One file name is one solid. -/
theorem C15_file {R M C : Type} {colorOf : M → C} {f : String} {rotate scale translate : Arg R} {mats : MatsArg M} {colors : ColorsArg C} {s : Stl R C}
    (h : prepare colorOf (.file f) rotate scale translate mats colors = .ok s) : s.solids = [("Solid 1", f)] := by
  unfold prepare at h
  simp only [prepareSolids, bind, Except.bind] at h
  cases hc : prepareColors colorOf (([("Solid 1", f)] : List (String × String)).map Prod.fst) mats colors with
  | error e => rw [hc] at h; cases h
  | ok c' => rw [hc] at h; cases h; rfl

/-- **C15 (list of colours).** A list with at least as many colours as solids is paired with the solids in order; a shorter one is ignored. -/
theorem C15_colour_list {M C : Type} (colorOf : M → C) (keys : List String) (mats : MatsArg M) (l : List C) :
    (keys.length ≤ l.length → prepareColors colorOf keys mats (.list l) = .ok (.dict (keys.zip l)) ∧ (keys.zip l).map Prod.fst = keys) ∧
      (l.length < keys.length → prepareColors colorOf keys mats (.list l) = prepareColors colorOf keys mats .none) := by
  refine ⟨fun h => ⟨if_pos h, List.map_fst_zip h⟩, fun h => ?_⟩
  show (if _ then _ else _) = _
  rw [if_neg (by omega)]
  rfl

/-- **C15 (default colours).** Without colours, every solid with a material gets the colour of that material. -/
theorem C15_default_colours {M C : Type} (colorOf : M → C) (keys : List String) (d : List (String × M)) (h : ∀ k ∈ keys, ∃ m, lookup d k = some m) :
    ∃ c, prepareColors colorOf keys (.dict d) .none = .ok (.dict c) ∧ c.map Prod.fst = keys ∧ ∀ k v, (k, v) ∈ c → ∃ m, lookup d k = some m ∧ v = colorOf m := by
  show ∃ c, (assignColors colorOf keys (.dict d)).map _ = _ ∧ _
  suffices ∃ c, assignColors colorOf keys (.dict d) = .ok c ∧ c.map Prod.fst = keys ∧ ∀ k v, (k, v) ∈ c → ∃ m, lookup d k = some m ∧ v = colorOf m by
    obtain ⟨c, h1, h2, h3⟩ := this
    exact ⟨c, by rw [h1]; rfl, h2, h3⟩
  unfold assignColors
  induction keys with
  | nil => exact ⟨[], rfl, rfl, fun k v h => absurd h List.not_mem_nil⟩
  | cons a keys ih =>
    obtain ⟨c, h1, h2, h3⟩ := ih fun k hk => h k (List.mem_cons_of_mem _ hk)
    obtain ⟨m, hm⟩ := h a List.mem_cons_self
    refine ⟨(a, colorOf m) :: c, ?_, by rw [List.map_cons, h2], fun k v hkv => ?_⟩
    · rw [List.mapM_cons, h1]
      simp only [hm, bind, Except.bind, pure, Except.pure]
    · rcases List.mem_cons.1 hkv with e | e
      · cases e
        exact ⟨m, hm, rfl⟩
      · exact h3 k v e

/-- **C15 (refuted: one colour).** One colour for all solids is accepted but not turned into an entry per solid. -/
theorem C15_colour_refuted {R M C : Type} (colorOf : M → C) (d : List (String × String)) (rotate scale translate : Arg R) (mats : MatsArg M) (c : C) :
    ∃ s, prepare colorOf (.dict d) rotate scale translate mats (.one c) = .ok s ∧ s.colors = .one c := ⟨_, rfl, rfl⟩

/-- **C15 (refuted: one material).** One material for all solids fails as soon as the colours are chosen from it. -/
theorem C15_material_refuted {R M C : Type} (colorOf : M → C) (a : String × String) (d : List (String × String)) (rotate scale translate : Arg R) (m : M) :
    prepare colorOf (.dict (a :: d)) rotate scale translate (.one m) .none = .error .typeError := by
  unfold prepare
  simp only [prepareSolids, bind, Except.bind]
  have : prepareColors colorOf ((a :: d).map Prod.fst) (.one m) .none = .error .typeError := by
    show (assignColors colorOf (a.1 :: d.map Prod.fst) (.one m)).map ColorsArg.dict = _
    unfold assignColors
    rw [List.mapM_cons]
    rfl
  rw [this]

/-- **C15 (refuted: incomplete dictionary).** A dictionary that lacks a solid is accepted; the solid cannot be read. -/
theorem C15_missing_refuted {R M C : Type} {colorOf : M → C} {solids : SolidsArg} {d : List (String × R)} {scale translate : Arg R} {mats : MatsArg M} {colors : ColorsArg C} {s : Stl R C}
    (h : prepare colorOf solids (.dict d) scale translate mats colors = .ok s) {k : String} (hk : lookup d k = none) : settingsOf s k = .error .keyError := by
  unfold prepare at h
  cases hs : prepareSolids solids with
  | error e => rw [hs] at h; cases h
  | ok d' =>
    rw [hs] at h
    simp only [bind, Except.bind] at h
    cases hc : prepareColors colorOf (d'.map Prod.fst) mats colors with
    | error e => rw [hc] at h; cases h
    | ok c' =>
      rw [hc] at h
      cases h
      unfold settingsOf
      simp only [spread, hk]

example : ∃ s : Stl ℕ String, prepare (fun m : String => m) (.dict [("a", "a.stl"), ("b", "b.stl")]) (.one 3) (.dict [("b", 5), ("a", 4)]) (.one 0) (.dict [("a", "pec"), ("b", "vacuum")]) .none = .ok s ∧
    settingsOf s "b" = .ok (3, 0, 5) := ⟨_, rfl, rfl⟩

end GridIO
end Wakis
