import Verif.Plots5

/-!
# C129-C132: interactive pictures of the grid and the solids

`wakis/gridFIT3D.py`: `plot_solids` (832-910), `plot_stl_mask` (912-1122), `inspect` (1124-1299); `wakis/plotting.py`: `inspect` (1143-1380).  A scene maps names to what is drawn; what happens in the window is a list of events.
Of PyVista: `add_mesh` with a name replaces what had that name, without a name nothing is replaced; a slider or box widget calls its function when it is made and whenever it is moved, and an exception in that function is
a warning only; a check box changes its state when clicked and then calls its function with the new state, and `SetState` changes the state without calling the function.  A dictionary has no entry: `KeyError`; a string or a list
subscripted by a string: `TypeError`; a list too short: `IndexError`; a string has no `get`: `AttributeError`.  Not modelled: camera, light, outlines of clipped surfaces, the logo, positions of the widgets; `clip_box` and `slice` of
a mesh are recorded as such.
-/

namespace Wakis
namespace View3
open Pic3 GridIO
variable {K C : Type}
set_option linter.unusedSectionVars false

/-! ### Model -/

inductive Ax
  | x | y | z
  deriving DecidableEq

/-- A box: the low and the high bound along each axis. -/
structure Bounds (K : Type) where
  lo : Ax → K
  hi : Ax → K

/-- What is drawn under a name: an STL surface in one colour, whole or clipped by a box; the mask of a solid within a box; a slice of the grid; the wire frame of the domain; all of the grid; a grid of nodes. -/
inductive Item (K C : Type)
  | solid (key : String) (color : C) (opacity : ℚ) (clip : Option (Bounds K))
  | mask (key : String) (b : Bounds K)
  | slice (axis : Ax) (pos : K)
  | domain (b : Bounds K)
  | wholeGrid
  | nodes (x y z : List K)

/-- The named actors of a plotter. -/
abbrev Scene (K C : Type) := String → Option (Item K C)

/-- `pl.add_mesh(..., name=name)`. -/
def put (sc : Scene K C) (name : String) (i : Item K C) : Scene K C := fun n => if n = name then some i else sc n

/-- What the routines read from the grid. -/
structure Grd3 (K C : Type) where
  nodes : Ax → List K
  box : Bounds K
  /-- the keys of `stl_solids` -/
  solids : List String
  /-- the names of the cell data -/
  data : List String
  colors : ColorsArg C
  white : C

/-- `stl_colors[key]`. -/
def byKey : ColorsArg C → String → Py C
  | .dict d, k => match lookup d k with
    | some c => .ok c
    | none => .error .keyError
  | _, _ => .error .typeError

/-- `stl_colors[i]` of a list. -/
def byPos (l : List C) (i : ℕ) : Py C :=
  match l[i]? with
  | some c => .ok c
  | none => .error .indexError

/-- gridFIT3D.py:1017-1044, 1220-1247, 1249-1279: the colour by the type of `stl_colors`. -/
def anyColor (white : C) (cs : ColorsArg C) (i : ℕ) (k : String) : Py C :=
  match cs with
  | .dict _ => byKey cs k
  | .list l => byPos l i
  | _ => .ok white

/-- gridFIT3D.py:1056-1083: the test is `type(stl_colors[key]) is dict`, which a colour never is. -/
def listColor (white : C) (cs : ColorsArg C) (i : ℕ) (k : String) : Py C := do
  let _ ← byKey cs k
  match cs with
  | .list l => byPos l i
  | _ => return white

/-- `for i, key in enumerate(keys)`: read the surface, find its colour, add it under its key; the scene reached and the exception, if any. -/
def addSolids (G : Grd3 K C) (color : ℕ → String → Py C) (op : ℚ) (clip : Option (Bounds K)) : List String → ℕ → Scene K C → Scene K C × Option PyErr
  | [], _, sc => (sc, none)
  | k :: l, i, sc =>
    if k ∉ G.solids then (sc, some .keyError) else
    match color i k with
    | .error e => (sc, some e)
    | .ok c => addSolids G color op clip l (i + 1) (put sc k (.solid k c op clip))

/-- The arguments of `plot_stl_mask`. -/
structure MaskArgs (K C : Type) where
  stlSolid : String
  boundingBox : Bool := true
  showGrid : Bool := true
  addStl : Keys := .one "all"
  opacity : ℚ := 0
  colors : Option (ColorsArg C) := none
  top : Ax → Option K := fun _ => none

/-- gridFIT3D.py:1013-1083: the surfaces. -/
def maskSolids (G : Grd3 K C) (a : MaskArgs K C) (sc : Scene K C) : Scene K C × Option PyErr :=
  let cs := a.colors.getD G.colors
  match a.addStl with
  | .absent => (sc, none)
  | .one k => if pyLower k = "all" then addSolids G (anyColor G.white cs) a.opacity none G.solids 0 sc else addSolids G (fun _ k => byKey cs k) a.opacity none [k] 0 sc
  | .list l => addSolids G (listColor G.white cs) a.opacity none l 0 sc
  | .other => (sc, none)

/-- gridFIT3D.py:985-1010 `update_clip`: the slider of an axis is at `val`; scalars that do not exist raise `KeyError` after `vals` was changed. -/
def updateClip (G : Grd3 K C) (a : MaskArgs K C) (st : (Ax → K) × Scene K C) (e : Ax × K) : (Ax → K) × Scene K C :=
  let vals := fun ax => if ax = e.1 then e.2 else st.1 ax
  if a.stlSolid ∉ G.data then (vals, st.2) else
  let sc := put st.2 "clip" (.mask a.stlSolid ⟨G.box.lo, vals⟩)
  (vals, if a.showGrid then put sc "slice" (.slice e.1 e.2) else sc)

/-- gridFIT3D.py:972-1122 `plot_stl_mask` and then the sliders moved by the user. -/
def plotStlMask (G : Grd3 K C) (a : MaskArgs K C) (events : List (Ax × K)) : Py (Scene K C) :=
  let top := fun ax => (a.top ax).getD (G.box.hi ax)
  match maskSolids G a fun _ => none with
  | (_, some e) => .error e
  | (sc, none) =>
    let st := [(Ax.x, top .x), (.y, top .y), (.z, top .z)].foldl (updateClip G a) (top, sc)
    let st := (st.1, if a.boundingBox then put st.2 "domain_box" (.domain G.box) else st.2)
    .ok (events.foldl (updateClip G a) st).2

/-- The arguments of `GridFIT3D.inspect`. -/
structure InsArgs (C : Type) where
  addStl : Keys := .absent
  opacity : ℚ := 1 / 2
  colors : Option (ColorsArg C) := none

/-- gridFIT3D.py:1167-1279 `clip`: the box widget has the bounds `b`. -/
def clipTo [LinearOrder K] (G : Grd3 K C) (a : InsArgs C) (sc : Scene K C) (b : Bounds K) : Scene K C :=
  let within := fun ax => (G.nodes ax).filter fun v => decide (b.lo ax ≤ v) && decide (v ≤ b.hi ax)
  let sc := put sc "grid" (.nodes (within .x) (within .y) (within .z))
  let cs := a.colors.getD G.colors
  match a.addStl with
  | .absent => sc
  | .one k => (addSolids G (fun _ k => byKey cs k) a.opacity (some b) [k] 0 sc).1
  | .list l => (addSolids G (anyColor G.white cs) a.opacity (some b) l 0 sc).1
  | .other => (addSolids G (anyColor G.white cs) a.opacity (some b) G.solids 0 sc).1

/-- gridFIT3D.py:1159-1299 `inspect`: the bounds of the box widget when it is made and after each move. -/
def inspectGrid [LinearOrder K] (G : Grd3 K C) (a : InsArgs C) (events : List (Bounds K)) : Scene K C :=
  events.foldl (clipTo G a) (put (fun _ => none) "grid" .wholeGrid)

/-- gridFIT3D.py:871-888 `plot_solids`: the solids drawn (without names), key, colour and opacity. -/
def plotSolids (G : Grd3 K C) (mats : String → Option String) (opacity : ℚ) : Py (List (String × C × ℚ)) :=
  G.solids.mapM fun k => do
    let c ← byKey G.colors k
    return (k, c, if mats k = some "vacuum" then 3 / 10 else opacity)

/-! ### The window of `PlotMixin.inspect` -/

/-- plotting.py:1231-1239: what is kept for a solid, with the opacity of its actor, the visibility of its outline and the state of its check box. -/
structure SolidUI where
  checked : Bool
  highlight : Bool
  button : Bool
  opacity : ℚ
  outline : Bool

/-- The window: the master box, the solids, the boxes and actors of beam and path. -/
structure UI where
  master : Bool
  solid : String → SolidUI
  beamBox : Bool
  beam : Bool
  pathBox : Bool
  path : Bool

/-- What a user can click. -/
inductive Click
  | master
  | solid (k : String)
  | beam
  | path
  deriving DecidableEq

/-- The arguments of `inspect`. -/
structure UIArgs where
  opacity : ℚ := 1
  inactive : ℚ := 1 / 10
  outline : Bool := false

/-- plotting.py:1256-1264 `apply`. -/
def apply (a : UIArgs) (s : SolidUI) : SolidUI :=
  { s with opacity := if s.highlight then a.opacity else a.inactive, outline := if a.outline then s.highlight else s.outline }

/-- plotting.py:1266-1295 and 1345-1349: a click; boxes exist for the solids in `keys` and, with a wake, for beam and path. -/
def click (a : UIArgs) (keys : List String) (wake : Bool) (u : UI) : Click → UI
  | .master =>
    let v := !u.master
    { u with master := v, solid := fun k => if k ∈ keys then apply a { u.solid k with checked := v, highlight := v, button := v } else u.solid k }
  | .solid k =>
    if k ∈ keys then
      let v := !(u.solid k).button
      { u with solid := fun n => if n = k then apply a { u.solid k with checked := v, highlight := v, button := v } else u.solid n }
    else u
  | .beam => if wake then { u with beamBox := !u.beamBox, beam := !u.beamBox } else u
  | .path => if wake then { u with pathBox := !u.pathBox, path := !u.pathBox } else u

/-- plotting.py:1210-1239, 1286-1372: the window when it opens. -/
def opened (a : UIArgs) : UI := ⟨false, fun _ => ⟨false, false, false, a.inactive, false⟩, true, true, true, true⟩

/-- The window after some clicks. -/
def window (a : UIArgs) (keys : List String) (wake : Bool) (h : List Click) : UI := h.foldl (click a keys wake) (opened a)

/-- What is drawn by `PlotMixin.inspect` under a name. -/
inductive Drawn (K C : Type)
  | solid (key : String) (color : C)
  | beam (x y zlo zhi : K)
  | path (x y zlo zhi : K)
  deriving DecidableEq

/-- The attributes of the wake object used. -/
structure WakeXY (K : Type) where
  xsource : K
  ysource : K
  xtest : K
  ytest : K

/-- The solver: `use_mpi`, `stl_solids` (`none`: the attribute does not exist, solverFIT3D.py:1172 is the only place that sets it), `stl_colors`, the grid in z, and `self.wake`. -/
structure Viewer (K C : Type) where
  useMpi : Bool
  solids : Option (List String)
  colors : ColorsArg C
  gray : C
  zmin : K
  zmax : K
  wake : Option (WakeXY K)

/-- plotting.py:1210-1223: the surfaces. -/
def uiSolids (V : Viewer K C) : Py (List (String × Drawn K C)) :=
  match V.solids with
  | none => .error .attributeError
  | some ks => ks.mapM fun k => match V.colors with
    | .dict d => .ok (k, .solid k ((lookup d k).getD V.gray))
    | _ => .error .attributeError

/-- plotting.py:1203-1336 `inspect`: the solver after the call and the names drawn (`none`: nothing, under MPI).  The cylinders: centre `0.5 (zmin + zmax)`, height `zmax - zmin`. -/
def inspectUI [Field K] (V : Viewer K C) (wake : Option (WakeXY K)) : Viewer K C × Py (Option (String → Option (Drawn K C))) :=
  if V.useMpi then (V, .ok none) else
  let V := { V with wake := wake.orElse fun _ => V.wake }
  (V, do
    let l ← uiSolids V
    let sc : String → Option (Drawn K C) := fun n => lookup l n
    match V.wake with
    | none => return some sc
    | some w =>
      let c := 1 / 2 * (V.zmin + V.zmax)
      let h := V.zmax - V.zmin
      return some fun n => if n = "integration_path" then some (.path w.xtest w.ytest (c - h / 2) (c + h / 2)) else
        if n = "beam" then some (.beam w.xsource w.ysource (c - h / 2) (c + h / 2)) else sc n)

/-! ### Specification -/

/-- The position of a slider after some moves that started from `init`: where it was moved last. -/
def slider (init : K) (moves : List (Ax × K)) (ax : Ax) : K := ((moves.reverse.find? fun e => e.1 = ax).map Prod.snd).getD init

/-- The colours give a solid the colour `c`. -/
def ColorsArg.gives (cs : ColorsArg C) (k : String) (c : C) : Prop := ∃ d, cs = .dict d ∧ lookup d k = some c

/-- The colours give the `j`-th of the solids asked for, `k`, the colour `c`: by its key, or by its place in the list. -/
def ColorsArg.shade (cs : ColorsArg C) (j : ℕ) (k : String) (c : C) : Prop :=
  match cs with
  | .dict d => lookup d k = some c
  | .list l => l[j]? = some c
  | _ => False

/-! ### C129 -/

lemma put_same (sc : Scene K C) (n : String) (i : Item K C) : put sc n i n = some i := if_pos rfl

lemma put_ne (sc : Scene K C) {n m : String} (i : Item K C) (h : m ≠ n) : put sc n i m = sc m := if_neg h

/-- Adding solids succeeds when all can be read and have a colour; names not in the list keep what they had. -/
lemma addSolids_ok (G : Grd3 K C) (color : ℕ → String → Py C) (op : ℚ) (clip : Option (Bounds K)) (l : List String) (i : ℕ) (sc : Scene K C) (c : String → C)
    (hl : ∀ k ∈ l, k ∈ G.solids) (hc : ∀ j k, l[j]? = some k → color (i + j) k = .ok (c k)) :
    addSolids G color op clip l i sc = (fun n => if n ∈ l then some (.solid n (c n) op clip) else sc n, none) := by
  induction l generalizing i sc with
  | nil => simp [addSolids]
  | cons k l ih =>
    rw [addSolids, if_neg (not_not.2 (hl k (by simp))), show color i k = .ok (c k) from hc 0 k rfl]
    simp only
    rw [ih _ _ (fun k' h => hl k' (by simp [h])) fun j k' h => by rw [show i + 1 + j = i + (j + 1) by omega]; exact hc (j + 1) k' (by simpa using h)]
    congr 1
    funext n
    by_cases h1 : n ∈ l
    · simp [h1]
    · by_cases h2 : n = k
      · subst h2; simp [h1, put]
      · simp [h1, h2, put]

/-- A list of colours, in the order of the solids. -/
lemma addSolids_err (G : Grd3 K C) (color : ℕ → String → Py C) (op : ℚ) (clip : Option (Bounds K)) (k : String) (l : List String) (i : ℕ) (sc : Scene K C) {e : PyErr} (hk : k ∈ G.solids) (he : color i k = .error e) :
    addSolids G color op clip (k :: l) i sc = (sc, some e) := by
  rw [addSolids, if_neg (not_not.2 hk), he]

lemma anyColor_shade {white : C} {cs : ColorsArg C} {j : ℕ} {k : String} {c : C} (h : ColorsArg.shade cs j k c) : anyColor white cs j k = .ok c := by
  cases cs with
  | dict d => simp only [ColorsArg.shade] at h; simp [anyColor, byKey, h]
  | list l => simp only [ColorsArg.shade] at h; simp [anyColor, byPos, h]
  | none => cases h
  | one c => cases h

lemma slider_append (init : K) (m : List (Ax × K)) (e : Ax × K) (ax : Ax) : slider init (m ++ [e]) ax = if ax = e.1 then e.2 else slider init m ax := by
  unfold slider
  rw [List.reverse_append, List.reverse_singleton, List.singleton_append, List.find?_cons]
  by_cases h : ax = e.1
  · simp [h]
  · have : ¬ e.1 = ax := fun h' => h h'.symm
    simp [h, this]

lemma slider_nil (init : K) (ax : Ax) : slider init [] ax = init := rfl

/-- The state of the sliders and the scene after any number of moves. -/
lemma moves_state (G : Grd3 K C) (a : MaskArgs K C) (hd : a.stlSolid ∈ G.data) (st : (Ax → K) × Scene K C) (m : List (Ax × K)) :
    (m.foldl (updateClip G a) st).1 = (fun ax => slider (st.1 ax) m ax) ∧
      (∀ n, n ≠ "clip" → n ≠ "slice" → (m.foldl (updateClip G a) st).2 n = st.2 n) ∧
      (∀ m' e, m = m' ++ [e] → (m.foldl (updateClip G a) st).2 "clip" = some (.mask a.stlSolid ⟨G.box.lo, fun ax => slider (st.1 ax) m ax⟩) ∧
        (m.foldl (updateClip G a) st).2 "slice" = if a.showGrid then some (.slice e.1 e.2) else st.2 "slice") := by
  induction m using List.reverseRecOn with
  | nil => exact ⟨rfl, fun _ _ _ => rfl, fun m' e h => by simp at h⟩
  | append_singleton m e ih =>
    obtain ⟨i1, i2, i3⟩ := ih
    rw [List.foldl_append, List.foldl_cons, List.foldl_nil]
    generalize hs : m.foldl (updateClip G a) st = s at i1 i2 i3
    have hv : (fun ax => if ax = e.1 then e.2 else s.1 ax) = fun ax => slider (st.1 ax) (m ++ [e]) ax := by
      funext ax; rw [slider_append, i1]
    have hu : updateClip G a s e = (fun ax => slider (st.1 ax) (m ++ [e]) ax,
        if a.showGrid then put (put s.2 "clip" (.mask a.stlSolid ⟨G.box.lo, fun ax => slider (st.1 ax) (m ++ [e]) ax⟩)) "slice" (.slice e.1 e.2)
        else put s.2 "clip" (.mask a.stlSolid ⟨G.box.lo, fun ax => slider (st.1 ax) (m ++ [e]) ax⟩)) := by
      unfold updateClip
      rw [if_neg (not_not.2 hd)]
      simp only [hv]
    rw [hu]
    refine ⟨rfl, fun n h1 h2 => ?_, fun m' e' h => ?_⟩
    · simp only
      split
      · rw [put_ne _ _ h2, put_ne _ _ h1, i2 n h1 h2]
      · rw [put_ne _ _ h1, i2 n h1 h2]
    · obtain ⟨rfl, rfl⟩ : m = m' ∧ e = e' := by simpa using List.append_inj' h rfl
      have hsl : s.2 "slice" = if a.showGrid then s.2 "slice" else st.2 "slice" := by
        by_cases hg : a.showGrid
        · rw [if_pos hg]
        · rw [if_neg hg]
          rcases List.eq_nil_or_concat m with rfl | ⟨m', e', rfl⟩
          · rw [← hs]; rfl
          · rw [(i3 m' e' (by simp)).2, if_neg hg]
      constructor
      · simp only
        split
        · rw [put_ne _ _ (by decide), put_same]
        · rw [put_same]
      · simp only
        split
        · rw [put_same]
        · rename_i hg
          rw [put_ne _ _ (by decide), hsl, if_neg hg]

/-- The names the routine uses itself. -/
def maskNames : List String := ["clip", "slice", "domain_box"]

/-- **C129 (partial).** With a dictionary or a list of colours for all solids, a dictionary for one of them, and no solid with one of the names the routine uses: after any moves of the sliders the window shows the mask of
the solid within the box from the low corner of the domain to where each slider is now; the slice of the grid at the slider moved last; each solid asked for in its colour; the frame of the domain if wanted; and nothing else.
Missing: lists of solids, other forms of the colours and solids of these names (refuted below). -/
theorem C129_mask_partial (G : Grd3 K C) (a : MaskArgs K C) (c : String → C) (sel : List String) (hd : a.stlSolid ∈ G.data)
    (hsel : (∃ k, a.addStl = .one k ∧ pyLower k = "all" ∧ sel = G.solids ∧ ∀ j k, sel[j]? = some k → ColorsArg.shade (a.colors.getD G.colors) j k (c k)) ∨
      (∃ k, a.addStl = .one k ∧ pyLower k ≠ "all" ∧ k ∈ G.solids ∧ sel = [k] ∧ ColorsArg.gives (a.colors.getD G.colors) k (c k)) ∨ (a.addStl = .absent ∧ sel = []))
    (hn : ∀ k ∈ sel, k ∉ maskNames) (moves : List (Ax × K)) :
    ∃ sc, plotStlMask G a moves = .ok sc ∧
      sc "clip" = some (.mask a.stlSolid ⟨G.box.lo, fun ax => slider ((a.top ax).getD (G.box.hi ax)) moves ax⟩) ∧
      sc "slice" = (if a.showGrid then some (match moves.getLast? with
        | some e => .slice e.1 e.2
        | none => .slice .z ((a.top .z).getD (G.box.hi .z))) else none) ∧
      sc "domain_box" = (if a.boundingBox then some (.domain G.box) else none) ∧
      ∀ n, n ∉ maskNames → sc n = if n ∈ sel then some (.solid n (c n) a.opacity none) else none := by
  have hm : maskSolids G a (fun _ => none) = (fun n => if n ∈ sel then some (.solid n (c n) a.opacity none) else none, none) := by
    unfold maskSolids
    rcases hsel with ⟨k, h1, h2, rfl, hc⟩ | ⟨k, h1, h2, h3, rfl, hc⟩ | ⟨h1, rfl⟩
    · simp only [h1, if_pos h2]
      refine addSolids_ok G _ _ _ _ _ _ c (fun _ h => h) fun j k hk => ?_
      rw [Nat.zero_add]
      exact anyColor_shade (hc j k hk)
    · simp only [h1, if_neg h2]
      refine addSolids_ok G _ _ _ _ _ _ c (by simpa using h3) fun j k' hk => ?_
      obtain rfl : k' = k := by simpa using List.mem_of_getElem? hk
      obtain ⟨d, e1, e2⟩ := hc
      rw [e1]; simp [byKey, e2]
    · simp [h1]
  unfold plotStlMask
  rw [hm]
  simp only
  generalize htop : (fun ax => (a.top ax).getD (G.box.hi ax)) = top
  have htop' : ∀ ax, (a.top ax).getD (G.box.hi ax) = top ax := fun ax => by rw [← htop]
  simp only [htop']
  generalize hsc0 : (fun n => if n ∈ sel then some (Item.solid n (c n) a.opacity none) else none : Scene K C) = sc0
  obtain ⟨p1, p2, p3⟩ := moves_state G a hd (top, sc0) [(Ax.x, top .x), (.y, top .y), (.z, top .z)]
  obtain ⟨p4, p5⟩ := p3 [(Ax.x, top .x), (.y, top .y)] (.z, top .z) rfl
  generalize [(Ax.x, top .x), (.y, top .y), (.z, top .z)].foldl (updateClip G a) (top, sc0) = s1 at p1 p2 p4 p5 ⊢
  have q1 : s1.1 = top := by
    rw [p1]; funext ax; cases ax <;> rfl
  have q4 : (fun ax => slider ((top, sc0).1 ax) [(Ax.x, top .x), (.y, top .y), (.z, top .z)] ax) = top := by
    funext ax; cases ax <;> rfl
  rw [q4] at p4
  have hnone : ∀ n ∈ maskNames, sc0 n = none := fun n hn' => by
    rw [← hsc0]; exact if_neg fun h => hn n h hn'
  generalize hs2 : (if a.boundingBox then put s1.2 "domain_box" (.domain G.box) else s1.2 : Scene K C) = sc2
  have hbox : sc2 "domain_box" = if a.boundingBox then some (.domain G.box) else none := by
    rw [← hs2]
    split
    · rw [put_same]
    · rw [p2 _ (by decide) (by decide)]; exact hnone _ (by decide)
  have hoth : ∀ n, n ≠ "domain_box" → sc2 n = s1.2 n := fun n h => by
    rw [← hs2]; split
    · rw [put_ne _ _ h]
    · rfl
  obtain ⟨r1, r2, r3⟩ := moves_state G a hd (s1.1, sc2) moves
  refine ⟨_, rfl, ?_, ?_, ?_, fun n h => ?_⟩
  · rcases List.eq_nil_or_concat moves with rfl | ⟨m', e', rfl⟩
    · show sc2 "clip" = _
      rw [hoth _ (by decide), p4]
      rfl
    · have := (r3 m' e' (by simp)).1
      rw [this, q1]
  · rcases List.eq_nil_or_concat moves with rfl | ⟨m', e', rfl⟩
    · show sc2 "slice" = _
      rw [hoth _ (by decide), p5]
      split
      · rfl
      · exact hnone _ (by decide)
    · have := (r3 m' e' (by simp)).2
      rw [this]
      split
      · simp
      · show sc2 "slice" = _
        rename_i hg
        rw [hoth _ (by decide), p5, if_neg hg]; exact hnone _ (by decide)
  · rw [r2 _ (by decide) (by decide)]; exact hbox
  · simp only [maskNames, List.mem_cons, List.not_mem_nil, or_false, not_or] at h
    rw [r2 n h.1 h.2.1]
    show sc2 n = _
    rw [hoth n h.2.2, p2 n h.1 h.2.1, ← hsc0]

def exG : Grd3 ℚ String :=
  ⟨fun _ => [0, 1, 2], ⟨fun _ => 0, fun _ => 2⟩, ["cavity", "pipe"], ["cavity", "pipe"], .dict [("cavity", "silver"), ("pipe", "red")], "white"⟩

example : ∃ sc, plotStlMask exG { stlSolid := "pipe" } [(.x, 1), (.y, 1), (.x, 2)] = .ok sc ∧ sc "slice" = some (.slice .x 2) ∧ sc "pipe" = some (.solid "pipe" "red" 0 none) := by
  obtain ⟨sc, h1, -, h3, -, h5⟩ := C129_mask_partial exG { stlSolid := "pipe" } (fun k => if k = "pipe" then "red" else "silver") ["cavity", "pipe"] (by decide) (.inl ⟨_, rfl, by decide, rfl, by
      intro j k hk
      have := List.mem_of_getElem? hk
      simp only [List.mem_cons, List.not_mem_nil, or_false] at this
      show lookup _ k = _
      rcases this with rfl | rfl <;> decide⟩) (by decide) [(.x, 1), (.y, 1), (.x, 2)]
  refine ⟨sc, h1, by rw [h3]; rfl, ?_⟩
  rw [h5 "pipe" (by decide)]
  rfl

/-- **C129 refuted for lists of solids.** Solids given as a list are white, whatever colours they have. -/
theorem C129_list_refuted (G : Grd3 K C) (a : MaskArgs K C) (l : List String) (c : String → C) (hl : a.addStl = .list l) (hs : ∀ k ∈ l, k ∈ G.solids ∧ k ∉ maskNames ∧ ColorsArg.gives (a.colors.getD G.colors) k (c k))
    (hd : a.stlSolid ∈ G.data) (moves : List (Ax × K)) : ∃ sc, plotStlMask G a moves = .ok sc ∧ ∀ k ∈ l, sc k = some (.solid k G.white a.opacity none) := by
  have hm : maskSolids G a (fun _ => none) = (fun n => if n ∈ l then some (.solid n G.white a.opacity none) else none, none) := by
    unfold maskSolids
    simp only [hl]
    refine addSolids_ok G _ _ _ _ _ _ (fun _ => G.white) (fun k h => (hs k h).1) fun j k hk => ?_
    obtain ⟨d, e1, e2⟩ := (hs k (List.mem_of_getElem? hk)).2.2
    rw [e1]; simp [listColor, byKey, e2, bind, Except.bind, pure, Except.pure]
  unfold plotStlMask
  rw [hm]
  refine ⟨_, rfl, fun k hk => ?_⟩
  have hk' := (hs k hk).2.1
  simp only [maskNames, List.mem_cons, List.not_mem_nil, or_false, not_or] at hk'
  rw [(moves_state G a hd _ moves).2.1 k hk'.1 hk'.2.1]
  simp only
  have e : ∀ sc : Scene K C, (if a.boundingBox then put sc "domain_box" (.domain G.box) else sc) k = sc k := fun sc => by
    split
    · exact put_ne _ _ hk'.2.2
    · rfl
  rw [e, (moves_state G a hd _ _).2.1 k hk'.1 hk'.2.1]
  exact if_pos hk

example : ∃ sc, plotStlMask exG { stlSolid := "pipe", addStl := .list ["pipe"] } [] = .ok sc ∧ ∀ k ∈ ["pipe"], sc k = some (.solid k "white" 0 none) :=
  C129_list_refuted exG { stlSolid := "pipe", addStl := .list ["pipe"] } ["pipe"] (fun _ => "red") rfl
    (by
      intro k hk
      obtain rfl : k = "pipe" := by simpa using hk
      exact ⟨by decide, by decide, _, rfl, by decide⟩) (by decide) []

/-- **C129 refuted for other forms of the colours.** One colour for all solids (documented) is not used: they are white; for one solid, or a list of solids, one colour or a list of colours raises `TypeError`. -/
theorem C129_colors_refuted (G : Grd3 K C) (a : MaskArgs K C) (k : String) (hk : k ∈ G.solids) (moves : List (Ax × K)) :
    (∀ x, a.colors = some (.one x) → pyLower k ≠ "all" → a.addStl = .one k → plotStlMask G a moves = .error .typeError) ∧
    (∀ l, a.colors = some (.list l) → pyLower k ≠ "all" → a.addStl = .one k → plotStlMask G a moves = .error .typeError) ∧
    (∀ l ks, a.colors = some (.list l) → a.addStl = .list (k :: ks) → plotStlMask G a moves = .error .typeError) ∧
    (∀ x, a.colors = some (.one x) → a.addStl = .one "all" → a.stlSolid ∈ G.data → k ∉ maskNames → ∃ sc, plotStlMask G a moves = .ok sc ∧ sc k = some (.solid k G.white a.opacity none)) := by
  have err : ∀ e, (maskSolids G a fun _ => none).2 = some e → plotStlMask G a moves = .error e := by
    intro e he
    unfold plotStlMask
    generalize maskSolids G a (fun _ => none) = r at he
    obtain ⟨r1, r2⟩ := r
    cases he
    rfl
  refine ⟨fun x h1 h2 h3 => err _ ?_, fun l h1 h2 h3 => err _ ?_, fun l ks h1 h2 => err _ ?_, fun x h1 h2 hd hk' => ?_⟩
  · unfold maskSolids; simp only [h3, if_neg h2]; rw [addSolids_err (e := .typeError) _ _ _ _ _ _ _ _ hk (by simp [h1, byKey])]
  · unfold maskSolids; simp only [h3, if_neg h2]; rw [addSolids_err (e := .typeError) _ _ _ _ _ _ _ _ hk (by simp [h1, byKey])]
  · unfold maskSolids; simp only [h2]; rw [addSolids_err (e := .typeError) _ _ _ _ _ _ _ _ hk (by simp [h1, listColor, byKey, bind, Except.bind])]
  · have hm : maskSolids G a (fun _ => none) = (fun n => if n ∈ G.solids then some (.solid n G.white a.opacity none) else none, none) := by
      unfold maskSolids
      simp only [h2, if_pos (show pyLower "all" = "all" by decide)]
      exact addSolids_ok G _ _ _ _ _ _ (fun _ => G.white) (fun k h => h) fun j k hk => by simp [h1, anyColor]
    unfold plotStlMask
    rw [hm]
    refine ⟨_, rfl, ?_⟩
    simp only [maskNames, List.mem_cons, List.not_mem_nil, or_false, not_or] at hk'
    rw [(moves_state G a hd _ moves).2.1 k hk'.1 hk'.2.1]
    simp only
    have e : ∀ sc : Scene K C, (if a.boundingBox then put sc "domain_box" (.domain G.box) else sc) k = sc k := fun sc => by
      split
      · exact put_ne _ _ hk'.2.2
      · rfl
    rw [e, (moves_state G a hd _ _).2.1 k hk'.1 hk'.2.1]
    exact if_pos hk

example : "pipe" ∈ exG.solids ∧ pyLower "pipe" ≠ "all" ∧ "pipe" ∉ maskNames := by decide

/-- **C129 refuted for solids with a name of the routine.** A solid called `clip` is not in the picture. -/
theorem C129_name_refuted (G : Grd3 K C) (a : MaskArgs K C) (hd : a.stlSolid ∈ G.data) (moves : List (Ax × K)) {sc : Scene K C} (h : plotStlMask G a moves = .ok sc) :
    ∃ b, sc "clip" = some (.mask a.stlSolid b) := by
  unfold plotStlMask at h
  cases hm : maskSolids G a (fun _ => none) with
  | mk sc0 e =>
    rw [hm] at h
    cases e with
    | some e => cases h
    | none =>
      cases h
      simp only
      rcases List.eq_nil_or_concat moves with rfl | ⟨m', e', rfl⟩
      · simp only [List.foldl_nil]
        have := ((moves_state G a hd ((fun ax => (a.top ax).getD (G.box.hi ax)), sc0)
          [(Ax.x, (a.top .x).getD (G.box.hi .x)), (.y, (a.top .y).getD (G.box.hi .y)), (.z, (a.top .z).getD (G.box.hi .z))]).2.2 [_, _] _ rfl).1
        by_cases hb : a.boundingBox
        · exact ⟨_, by rw [if_pos hb, put_ne _ _ (by decide)]; exact this⟩
        · exact ⟨_, by rw [if_neg hb]; exact this⟩
      · exact ⟨_, ((moves_state G a hd _ (m'.concat e')).2.2 m' e' (by simp)).1⟩

example : ∃ sc, plotStlMask { exG with solids := ["clip"], data := ["clip"], colors := .dict [("clip", "red")] } { stlSolid := "clip", addStl := .one "clip" } [] = .ok sc := ⟨_, rfl⟩

/-! ### C130 -/

section ins
variable [LinearOrder K]

/-- The solids `GridFIT3D.inspect` is asked for, with colours in a form that works. -/
inductive Asked (G : Grd3 K C) (cs : ColorsArg C) (c : String → C) : Keys → List String → Prop
  | one {k} (h : k ∈ G.solids) (hc : ColorsArg.gives cs k (c k)) : Asked G cs c (.one k) [k]
  | list {l} (h : ∀ k ∈ l, k ∈ G.solids) (hc : ∀ j k, l[j]? = some k → ColorsArg.shade cs j k (c k)) : Asked G cs c (.list l) l
  | other (hc : ∀ j k, G.solids[j]? = some k → ColorsArg.shade cs j k (c k)) : Asked G cs c .other G.solids

lemma inspect_append (G : Grd3 K C) (a : InsArgs C) (l : List (Bounds K)) (b : Bounds K) : inspectGrid G a (l ++ [b]) = clipTo G a (inspectGrid G a l) b := by
  unfold inspectGrid
  rw [List.foldl_append, List.foldl_cons, List.foldl_nil]

lemma clipTo_ok (G : Grd3 K C) (a : InsArgs C) {sel : List String} {c : String → C} (hs : Asked G (a.colors.getD G.colors) c a.addStl sel) (sc : Scene K C) (b : Bounds K) (n : String) :
    clipTo G a sc b n = if n ∈ sel then some (.solid n (c n) a.opacity (some b)) else
      if n = "grid" then some (.nodes ((G.nodes .x).filter fun v => decide (b.lo .x ≤ v) && decide (v ≤ b.hi .x)) ((G.nodes .y).filter fun v => decide (b.lo .y ≤ v) && decide (v ≤ b.hi .y))
        ((G.nodes .z).filter fun v => decide (b.lo .z ≤ v) && decide (v ≤ b.hi .z))) else sc n := by
  unfold clipTo
  generalize hadd : a.addStl = add at hs
  cases hs with
  | one h hc =>
    simp only
    rw [addSolids_ok G _ _ _ _ _ _ c (by simpa using h) fun j k' hk => by
      obtain rfl : k' = _ := by simpa using List.mem_of_getElem? hk
      obtain ⟨d, e1, e2⟩ := hc
      rw [e1]; simp [byKey, e2]]
    rfl
  | list h hc =>
    simp only
    rw [addSolids_ok G _ _ _ _ _ _ c h fun j k h => by rw [Nat.zero_add]; exact anyColor_shade (hc j k h)]
    rfl
  | other hc =>
    simp only
    rw [addSolids_ok G _ _ _ _ _ _ c (fun _ h => h) fun j k h => by rw [Nat.zero_add]; exact anyColor_shade (hc j k h)]
    rfl

/-- **C130 (partial).** With solids asked for by key or list and a dictionary of colours (or, for lists, a list), none called `grid`: after any moves of the box the window shows exactly the nodes of the grid within the box where it is now, and each solid asked
for, in its colour, clipped by that box; and nothing else.  Missing: no solids given (`C130_default_refuted`) and other colours (`C130_colors_refuted`). -/
theorem C130_inspect_partial (G : Grd3 K C) (a : InsArgs C) {sel : List String} {c : String → C} (hs : Asked G (a.colors.getD G.colors) c a.addStl sel) (hn : "grid" ∉ sel)
    (earlier : List (Bounds K)) (b : Bounds K) :
    (∃ x y z, inspectGrid G a (earlier ++ [b]) "grid" = some (.nodes x y z) ∧ (∀ v, v ∈ x ↔ v ∈ G.nodes .x ∧ b.lo .x ≤ v ∧ v ≤ b.hi .x) ∧ (∀ v, v ∈ y ↔ v ∈ G.nodes .y ∧ b.lo .y ≤ v ∧ v ≤ b.hi .y) ∧
      (∀ v, v ∈ z ↔ v ∈ G.nodes .z ∧ b.lo .z ≤ v ∧ v ≤ b.hi .z) ∧ x.Sublist (G.nodes .x) ∧ y.Sublist (G.nodes .y) ∧ z.Sublist (G.nodes .z)) ∧
    (∀ k ∈ sel, inspectGrid G a (earlier ++ [b]) k = some (.solid k (c k) a.opacity (some b))) ∧ ∀ n, n ∉ sel → n ≠ "grid" → inspectGrid G a (earlier ++ [b]) n = none := by
  have other : ∀ n, n ∉ sel → n ≠ "grid" → ∀ l : List (Bounds K), inspectGrid G a l n = none := by
    intro n h1 h2 l
    induction l using List.reverseRecOn with
    | nil => exact if_neg h2
    | append_singleton l b ih =>
      rw [inspect_append, clipTo_ok G a hs, if_neg h1, if_neg h2]
      exact ih
  have e : ∀ n, inspectGrid G a (earlier ++ [b]) n = clipTo G a (inspectGrid G a earlier) b n := fun n => by rw [inspect_append]
  refine ⟨⟨_, _, _, by rw [e, clipTo_ok G a hs, if_neg hn, if_pos rfl], ?_, ?_, ?_, List.filter_sublist, List.filter_sublist, List.filter_sublist⟩, fun k hk => ?_, fun n h1 h2 => other n h1 h2 _⟩
  · intro v; simp
  · intro v; simp
  · intro v; simp
  · rw [e, clipTo_ok G a hs, if_pos hk]

example : inspectGrid exG { addStl := .one "pipe" } ([⟨fun _ => 0, fun _ => 2⟩] ++ [⟨fun _ => 1, fun _ => 2⟩]) "pipe" = some (.solid "pipe" "red" (1 / 2) (some ⟨fun _ => 1, fun _ => 2⟩)) :=
  (C130_inspect_partial exG { addStl := .one "pipe" } (c := fun _ => "red") (.one (by decide) ⟨_, rfl, by decide⟩) (by decide) _ _).2.1 "pipe" (by simp)

example : Asked exG (.list ["blue", "green"]) (fun k => if k = "pipe" then "blue" else "green") (.list ["pipe", "cavity"]) ["pipe", "cavity"] :=
  .list (by decide) fun j k h => by
    match j, h with
    | 0, h => cases h; rfl
    | 1, h => cases h; rfl

/-- **C130 refuted by default.** Documented: "If None, all solids are shown".  Without `add_stl` no solid is ever shown. -/
theorem C130_default_refuted (G : Grd3 K C) (a : InsArgs C) (ha : a.addStl = .absent) (events : List (Bounds K)) (n : String) (hn : n ≠ "grid") : inspectGrid G a events n = none := by
  induction events using List.reverseRecOn with
  | nil => exact if_neg hn
  | append_singleton l b ih =>
    rw [inspect_append]
    unfold clipTo
    simp only [ha]
    rw [put_ne _ _ hn]
    exact ih

example : inspectGrid exG {} [⟨fun _ => 0, fun _ => 2⟩] "pipe" = none := C130_default_refuted _ _ rfl _ _ (by decide)

/-- **C130 refuted for other colours.** One colour for all solids (documented): a list of solids is white; a single solid is not shown at all (the callback fails), whether one colour or a list of colours is given. -/
theorem C130_colors_refuted (G : Grd3 K C) (a : InsArgs C) (k : String) (hk : k ∈ G.solids) (hg : k ≠ "grid") (earlier : List (Bounds K)) (b : Bounds K) :
    (∀ x, a.colors = some (.one x) → a.addStl = .list [k] → inspectGrid G a (earlier ++ [b]) k = some (.solid k G.white a.opacity (some b))) ∧
    (∀ x, a.colors = some (.one x) ∨ a.colors = some (.list [x]) → a.addStl = .one k → inspectGrid G a (earlier ++ [b]) k = none) := by
  have e : ∀ l (b : Bounds K) n, inspectGrid G a (l ++ [b]) n = clipTo G a (inspectGrid G a l) b n := fun l b n => by rw [inspect_append]
  constructor
  · intro x h1 h2
    rw [e]
    unfold clipTo
    simp only [h2]
    rw [addSolids_ok G _ _ _ _ _ _ (fun _ => G.white) (by simpa using hk) fun j k hk => by simp [h1, anyColor]]
    simp
  · intro x h1 h2
    generalize earlier ++ [b] = l
    induction l using List.reverseRecOn with
    | nil => exact if_neg hg
    | append_singleton l b ih =>
      rw [e]
      unfold clipTo
      simp only [h2]
      rw [addSolids_err (e := .typeError) _ _ _ _ _ _ _ _ hk (by rcases h1 with h | h <;> simp [h, byKey])]
      show put _ _ _ _ = none
      rw [put_ne _ _ hg]
      exact ih

example : "pipe" ∈ exG.solids ∧ "pipe" ≠ "grid" := by decide

end ins

/-! ### C131 -/

/-- What the user sees of a solid agrees with its box. -/
def Agrees (a : UIArgs) (s : SolidUI) : Prop := s.opacity = (if s.button then a.opacity else a.inactive) ∧ s.checked = s.button ∧ s.highlight = s.button ∧ (a.outline = true → s.outline = s.button)

lemma window_append (a : UIArgs) (keys : List String) (wake : Bool) (h : List Click) (e : Click) : window a keys wake (h ++ [e]) = click a keys wake (window a keys wake h) e := by
  unfold window
  rw [List.foldl_append, List.foldl_cons, List.foldl_nil]

lemma agrees_apply (a : UIArgs) (s : SolidUI) (v : Bool) : Agrees a (apply a { s with checked := v, highlight := v, button := v }) := by
  refine ⟨rfl, rfl, rfl, fun h => ?_⟩
  simp [apply, h]

/-- **C131 (boxes and solids).** After any clicks each solid has the opacity (and the outline) that its own box shows. -/
theorem C131_boxes (a : UIArgs) (keys : List String) (wake : Bool) (h : List Click) (k : String) : Agrees a ((window a keys wake h).solid k) := by
  induction h using List.reverseRecOn with
  | nil => exact ⟨rfl, rfl, rfl, fun _ => rfl⟩
  | append_singleton h e ih =>
    rw [window_append]
    cases e with
    | master =>
      show Agrees a (if k ∈ keys then _ else _)
      split
      · exact agrees_apply a _ _
      · exact ih
    | solid k' =>
      unfold click
      simp only
      split
      · show Agrees a (if k = k' then _ else _)
        split
        · exact agrees_apply a _ _
        · exact ih
      · exact ih
    | beam => unfold click; simp only; split <;> exact ih
    | path => unfold click; simp only; split <;> exact ih

lemma master_parity (a : UIArgs) (keys : List String) (wake : Bool) (h : List Click) : (window a keys wake h).master = decide (h.count .master % 2 = 1) := by
  induction h using List.reverseRecOn with
  | nil => rfl
  | append_singleton h e ih =>
    rw [window_append, List.count_append]
    cases e with
    | master =>
      show (!(window a keys wake h).master) = _
      rw [ih, List.count_singleton_self]
      rcases Nat.mod_two_eq_zero_or_one (h.count .master) with h' | h' <;> simp [h', Nat.add_mod]
    | solid k' =>
      rw [show List.count Click.master [Click.solid k'] = 0 by simp, Nat.add_zero, ← ih]
      unfold click; simp only; split <;> rfl
    | beam => rw [show List.count Click.master [Click.beam] = 0 by decide, Nat.add_zero, ← ih]; unfold click; simp only; split <;> rfl
    | path => rw [show List.count Click.master [Click.path] = 0 by decide, Nat.add_zero, ← ih]; unfold click; simp only; split <;> rfl

lemma solid_parity (a : UIArgs) (keys : List String) (wake : Bool) (u : UI) (h : List Click) (hm : Click.master ∉ h) {k : String} (hk : k ∈ keys) :
    ((h.foldl (click a keys wake) u).solid k).button = xor (u.solid k).button (decide (h.count (.solid k) % 2 = 1)) := by
  induction h using List.reverseRecOn with
  | nil => simp
  | append_singleton h e ih =>
    rw [List.foldl_append, List.foldl_cons, List.foldl_nil, List.count_append]
    have ih := ih fun hh => hm (by simp [hh])
    generalize h.foldl (click a keys wake) u = w at ih ⊢
    cases e with
    | master => simp at hm
    | solid k' =>
      unfold click
      simp only
      by_cases hkk : k' = k
      · subst hkk
        rw [if_pos hk, List.count_singleton_self]
        simp only [if_true, apply]
        rw [ih]
        rcases Nat.mod_two_eq_zero_or_one (h.count (.solid k')) with h' | h' <;> simp [h', Nat.add_mod]
      · rw [show List.count (Click.solid k) [Click.solid k'] = 0 by simp [hkk], Nat.add_zero, ← ih]
        split
        · show (if k = k' then _ else _ : SolidUI).button = _
          rw [if_neg (Ne.symm hkk)]
        · rfl
    | beam => rw [show List.count (Click.solid k) [Click.beam] = 0 by simp, Nat.add_zero, ← ih]; unfold click; simp only; split <;> rfl
    | path => rw [show List.count (Click.solid k) [Click.path] = 0 by simp, Nat.add_zero, ← ih]; unfold click; simp only; split <;> rfl

/-- **C131 (highlighted solids).** Until the master box is clicked, a solid is highlighted exactly when its box was clicked an odd number of times; after the last click on the master box, it has what the master box showed then, changed by
every later click on its own box. -/
theorem C131_history (a : UIArgs) (keys : List String) (wake : Bool) {k : String} (hk : k ∈ keys) (h1 h2 : List Click) (hm : Click.master ∉ h2) :
    ((window a keys wake h2).solid k).button = decide (h2.count (.solid k) % 2 = 1) ∧
    ((window a keys wake (h1 ++ [.master] ++ h2)).solid k).button = xor (decide ((h1.count .master + 1) % 2 = 1)) (decide (h2.count (.solid k) % 2 = 1)) := by
  constructor
  · unfold window
    rw [solid_parity a keys wake _ h2 hm hk]
    simp [opened]
  · have e : window a keys wake (h1 ++ [.master] ++ h2) = h2.foldl (click a keys wake) (window a keys wake (h1 ++ [.master])) := by
      unfold window; rw [List.foldl_append]
    rw [e, solid_parity a keys wake _ h2 hm hk]
    congr 1
    have := master_parity a keys wake (h1 ++ [.master])
    rw [List.count_append, List.count_singleton_self] at this
    rw [← this, window_append]
    show (if k ∈ keys then _ else _ : SolidUI).button = _
    rw [if_pos hk]
    rfl

example : ((window {} ["cavity", "pipe"] false [.solid "pipe", .master, .solid "pipe"]).solid "pipe").opacity = 1 / 10 ∧ ((window {} ["cavity", "pipe"] false [.solid "pipe", .master, .solid "pipe"]).solid "cavity").opacity = 1 := by
  constructor <;> rfl

/-- **C131 (beam and path).** With a wake, the beam and the path are visible exactly when their boxes are ticked, which is after an even number of clicks on each. -/
theorem C131_beam (a : UIArgs) (keys : List String) (h : List Click) :
    (window a keys true h).beam = (window a keys true h).beamBox ∧ (window a keys true h).beam = decide (h.count .beam % 2 = 0) ∧
      (window a keys true h).path = (window a keys true h).pathBox ∧ (window a keys true h).path = decide (h.count .path % 2 = 0) := by
  induction h using List.reverseRecOn with
  | nil => exact ⟨rfl, rfl, rfl, rfl⟩
  | append_singleton h e ih =>
    obtain ⟨i1, i2, i3, i4⟩ := ih
    rw [window_append, List.count_append, List.count_append]
    cases e with
    | master => simpa [click] using ⟨i1, i2, i3, i4⟩
    | solid k' =>
      have e1 : List.count Click.beam [Click.solid k'] = 0 := by simp
      have e2 : List.count Click.path [Click.solid k'] = 0 := by simp
      rw [e1, e2]
      unfold click; simp only
      split <;> exact ⟨i1, i2, i3, i4⟩
    | beam =>
      rw [show List.count Click.beam [Click.beam] = 1 by decide, show List.count Click.path [Click.beam] = 0 by decide]
      refine ⟨rfl, ?_, i3, i4⟩
      show (!(window a keys true h).beamBox) = _
      rw [← i1, i2]
      rcases Nat.mod_two_eq_zero_or_one (h.count .beam) with h' | h' <;> simp [h', Nat.add_mod]
    | path =>
      rw [show List.count Click.beam [Click.path] = 0 by decide, show List.count Click.path [Click.path] = 1 by decide]
      refine ⟨i1, i2, rfl, ?_⟩
      show (!(window a keys true h).pathBox) = _
      rw [← i3, i4]
      rcases Nat.mod_two_eq_zero_or_one (h.count .path) with h' | h' <;> simp [h', Nat.add_mod]

example : (window {} ["pipe"] true [.beam, .master, .path, .beam]).beam = true ∧ (window {} ["pipe"] true [.beam, .master, .path, .beam]).path = false := ⟨rfl, rfl⟩

/-- **C131 refuted for the master box.** The box labelled "All on" does not show whether all are on: it stays ticked when a solid is switched off, it stays empty when every solid is on, and then the click that ticks it changes nothing. -/
theorem C131_master_refuted (a : UIArgs) (keys : List String) (wake : Bool) {k : String} (hk : k ∈ keys) (hn : keys.Nodup) :
    ((window a keys wake [.master, .solid k]).master = true ∧ ((window a keys wake [.master, .solid k]).solid k).button = false) ∧
    ((window a keys wake (keys.map .solid)).master = false ∧ ∀ n ∈ keys, ((window a keys wake (keys.map .solid)).solid n).button = true ∧ ((window a keys wake (keys.map .solid ++ [.master])).solid n).button = true) := by
  have hmem : Click.master ∉ keys.map Click.solid := by simp
  refine ⟨⟨by rw [master_parity]; rfl, ?_⟩, by rw [master_parity, List.count_eq_zero_of_not_mem hmem]; rfl, fun n hn' => ⟨?_, ?_⟩⟩
  · have := (C131_history a keys wake hk [] [.solid k] (by simp)).2
    simpa using this
  · rw [(C131_history a keys wake hn' [] _ hmem).1]
    have : (keys.map Click.solid).count (.solid n) = 1 := List.count_eq_one_of_mem (hn.map fun _ _ h => by injection h) (List.mem_map.2 ⟨n, hn', rfl⟩)
    rw [this]; rfl
  · have := (C131_history a keys wake hn' (keys.map .solid) [] (by simp)).2
    rw [List.append_nil, List.count_eq_zero_of_not_mem hmem] at this
    simpa using this

example : "pipe" ∈ ["cavity", "pipe"] ∧ ["cavity", "pipe"].Nodup := by decide

section ui
variable [Field K] [CharZero K]

lemma mapM_ok {α β : Type} (l : List α) (f : α → Py β) (g : α → β) (h : ∀ x ∈ l, f x = .ok (g x)) : l.mapM f = .ok (l.map g) := by
  induction l with
  | nil => rfl
  | cons x l ih =>
    rw [List.mapM_cons, h x (by simp), ih fun y hy => h y (by simp [hy])]
    rfl

lemma lookup_map {V : Type} (l : List String) (f : String → V) (n : String) : lookup (l.map fun k => (k, f k)) n = if n ∈ l then some (f n) else none := by
  induction l with
  | nil => rfl
  | cons k l ih =>
    unfold lookup at ih ⊢
    rw [List.map_cons, List.find?_cons]
    by_cases h : k = n
    · subst h; simp
    · have h' : ¬ n = k := fun e => h e.symm
      simp only [decide_eq_false h, List.mem_cons, h', false_or]
      exact ih

/-- **C131 (what is drawn, partial).** In a serial run with a dictionary of colours, solids not called `beam` or `integration_path`: every solid is drawn in its colour (light gray if it has none); with a wake, given in this call or before,
the beam and the path run from the low to the high end of the domain at the source and test position of the wake given last; without, they are not drawn.  Missing: solids with these names (`C131_name_refuted`). -/
theorem C131_drawn_partial (V : Viewer K C) (wake : Option (WakeXY K)) (ks : List String) (d : List (String × C)) (hs : V.solids = some ks) (hc : V.colors = .dict d) (hm : V.useMpi = false)
    (hn : ∀ k ∈ ks, k ≠ "beam" ∧ k ≠ "integration_path") :
    (inspectUI V wake).1 = { V with wake := wake.orElse fun _ => V.wake } ∧
    ∃ sc, (inspectUI V wake).2 = .ok (some sc) ∧ (∀ k ∈ ks, sc k = some (.solid k ((lookup d k).getD V.gray))) ∧
      (∀ w, (wake.orElse fun _ => V.wake) = some w → sc "beam" = some (.beam w.xsource w.ysource V.zmin V.zmax) ∧ sc "integration_path" = some (.path w.xtest w.ytest V.zmin V.zmax)) ∧
      ((wake.orElse fun _ => V.wake) = none → sc "beam" = none ∧ sc "integration_path" = none) ∧ ∀ n, n ∉ ks → n ≠ "beam" → n ≠ "integration_path" → sc n = none := by
  have hl : uiSolids { V with wake := wake.orElse fun _ => V.wake } = .ok (ks.map fun k => (k, Drawn.solid k ((lookup d k).getD V.gray))) := by
    unfold uiSolids
    simp only [hs]
    exact mapM_ok ks _ (fun k => (k, Drawn.solid k ((lookup d k).getD V.gray))) fun k _ => by simp only [hc]
  have hb : "beam" ∉ ks := fun h => (hn _ h).1 rfl
  have hp : "integration_path" ∉ ks := fun h => (hn _ h).2 rfl
  unfold inspectUI
  rw [if_neg (by rw [hm]; decide)]
  simp only [hl]
  refine ⟨trivial, ?_⟩
  cases hw : wake.orElse fun _ => V.wake with
  | none =>
    refine ⟨_, rfl, fun k hk => ?_, fun w h => (Option.some_ne_none w h.symm).elim, fun _ => ⟨?_, ?_⟩, fun n h _ _ => ?_⟩
    · rw [lookup_map, if_pos hk]
    · rw [lookup_map, if_neg hb]
    · rw [lookup_map, if_neg hp]
    · rw [lookup_map, if_neg h]
  | some w =>
    have e1 : (1 / 2 * (V.zmin + V.zmax) - (V.zmax - V.zmin) / 2 : K) = V.zmin := by ring
    have e2 : (1 / 2 * (V.zmin + V.zmax) + (V.zmax - V.zmin) / 2 : K) = V.zmax := by ring
    refine ⟨_, rfl, fun k hk => ?_, fun w' h => ?_, fun h => (by cases h), fun n h h1 h2 => ?_⟩
    · rw [if_neg (hn k hk).2, if_neg (hn k hk).1, lookup_map, if_pos hk]
    · cases h
      simp only [e1, e2]
      exact ⟨rfl, rfl⟩
    · rw [if_neg h2, if_neg h1, lookup_map, if_neg h]

def exV : Viewer ℚ String := ⟨false, some ["pipe"], .dict [("pipe", "red")], "lightgray", 0, 3, none⟩

example : ∃ sc, (inspectUI (inspectUI exV (some ⟨1, 2, 3, 4⟩)).1 none).2 = .ok (some sc) ∧ sc "beam" = some (.beam 1 2 0 3) := by
  obtain ⟨sc, h1, -, h2, -⟩ := (C131_drawn_partial (inspectUI exV (some ⟨1, 2, 3, 4⟩)).1 none ["pipe"] [("pipe", "red")] rfl rfl rfl (by decide)).2
  exact ⟨sc, h1, (h2 _ rfl).1⟩

/-- **C131 refuted for solids called like the beam.** With a wake, a solid called `beam` is not drawn. -/
theorem C131_name_refuted (V : Viewer K C) (w : WakeXY K) (d : List (String × C)) (hs : V.solids = some ["beam"]) (hc : V.colors = .dict d) (hm : V.useMpi = false) :
    ∃ sc, (inspectUI V (some w)).2 = .ok (some sc) ∧ ∀ n k c, sc n ≠ some (.solid k c) := by
  unfold inspectUI
  rw [if_neg (by rw [hm]; decide)]
  have hl : uiSolids { V with wake := some w } = .ok [("beam", Drawn.solid "beam" ((lookup d "beam").getD V.gray))] := by
    unfold uiSolids
    simp only [hs]
    exact mapM_ok ["beam"] _ (fun k => (k, Drawn.solid k ((lookup d k).getD V.gray))) fun k _ => by simp only [hc]
  simp only [Option.orElse, hl]
  refine ⟨_, rfl, fun n k c => ?_⟩
  by_cases h1 : n = "integration_path"
  · rw [if_pos h1]; simp
  · by_cases h2 : n = "beam"
    · rw [if_neg h1, if_pos h2]; simp
    · rw [if_neg h1, if_neg h2]
      have : lookup [("beam", (Drawn.solid "beam" ((lookup d "beam").getD V.gray) : Drawn K C))] n = none := by
        unfold lookup
        rw [List.find?_cons, decide_eq_false (fun e => h2 e.symm)]
        rfl
      rw [this]; simp

/-- **C131 refuted without solids and with one colour.** Without STL solids `inspect` raises `AttributeError`, so beam and path cannot be seen; with one colour for all solids (documented, and left a string by the grid) it raises
`AttributeError` too. -/
theorem C131_setup_refuted (V : Viewer K C) (wake : Option (WakeXY K)) (hm : V.useMpi = false) :
    (V.solids = none → (inspectUI V wake).2 = .error .attributeError) ∧
    (∀ k ks c, V.solids = some (k :: ks) → V.colors = .one c → (inspectUI V wake).2 = .error .attributeError) := by
  unfold inspectUI
  rw [if_neg (by rw [hm]; decide)]
  constructor
  · intro h
    simp [uiSolids, h, bind, Except.bind]
  · intro k ks c h1 h2
    simp [uiSolids, h1, h2, bind, Except.bind, List.mapM_cons]

example : exV.useMpi = false := rfl

/-- **C131 under MPI.** Nothing is drawn and the solver is left as it was. -/
theorem C131_mpi (V : Viewer K C) (wake : Option (WakeXY K)) (hm : V.useMpi = true) : inspectUI V wake = (V, .ok none) := by
  unfold inspectUI
  rw [if_pos hm]

example : inspectUI { exV with useMpi := true } (some ⟨1, 2, 3, 4⟩) = ({ exV with useMpi := true }, .ok none) := C131_mpi _ _ rfl

end ui

/-! ### C132 -/

/-- **C132 (partial).** If every solid has a colour, the picture has each solid once, in order, in its colour, with the opacity asked for, and 0.3 if its material is `vacuum`. Missing: `C132_missing_refuted`, `C132_vacuum_refuted`. -/
theorem C132_solids_partial (G : Grd3 K C) (mats : String → Option String) (opacity : ℚ) (c : String → C) (hc : ∀ k ∈ G.solids, ColorsArg.gives G.colors k (c k)) :
    ∃ l, plotSolids G mats opacity = .ok l ∧ l.map Prod.fst = G.solids ∧ (∀ p ∈ l, p.2.1 = c p.1) ∧ (∀ p ∈ l, mats p.1 = some "vacuum" → p.2.2 = 3 / 10) ∧ ∀ p ∈ l, mats p.1 ≠ some "vacuum" → p.2.2 = opacity := by
  refine ⟨G.solids.map fun k => (k, c k, if mats k = some "vacuum" then 3 / 10 else opacity), ?_, ?_, ?_, ?_, ?_⟩
  · refine mapM_ok _ _ _ fun k hk => ?_
    obtain ⟨d, e1, e2⟩ := hc k hk
    simp [e1, byKey, e2, bind, Except.bind, pure, Except.pure]
  · rw [List.map_map]; exact List.map_id' _
  · rintro p hp; obtain ⟨k, -, rfl⟩ := List.mem_map.1 hp; rfl
  · rintro p hp h; obtain ⟨k, -, rfl⟩ := List.mem_map.1 hp; exact if_pos h
  · rintro p hp h; obtain ⟨k, -, rfl⟩ := List.mem_map.1 hp; exact if_neg h

example : plotSolids exG (fun k => if k = "cavity" then some "vacuum" else some "pec") 1 = .ok [("cavity", "silver", 3 / 10), ("pipe", "red", 1)] := rfl

/-- **C132 refuted for solids without colour.** Documented: colours "when available".  A solid without a colour in the dictionary raises `KeyError`; and a grid made with one colour for all its solids (documented) cannot be drawn: `TypeError`. -/
theorem C132_missing_refuted {M : Type} (colorOf : M → C) (mm : MatsArg M) (G : Grd3 K C) (mats : String → Option String) (opacity : ℚ) (k : String) (ks : List String) (hs : G.solids = k :: ks) :
    (∀ d, G.colors = .dict d → lookup d k = none → plotSolids G mats opacity = .error .keyError) ∧
    (∀ c, prepareColors colorOf G.solids mm (.one c) = .ok G.colors → plotSolids G mats opacity = .error .typeError) := by
  unfold plotSolids
  rw [hs, List.mapM_cons]
  constructor
  · intro d h1 h2
    simp [h1, byKey, h2, bind, Except.bind]
  · intro c h
    have : G.colors = .one c := by
      unfold prepareColors at h
      injection h with h
      exact h.symm
    simp [this, byKey, bind, Except.bind]

example : ∃ G : Grd3 ℚ String, G.solids = "pipe" :: [] ∧ prepareColors (fun m : String => m) G.solids (.dict [("pipe", "pec")]) (.one "red") = .ok G.colors := ⟨{ exG with solids := ["pipe"], colors := .one "red" }, rfl, rfl⟩

/-- **C132 refuted for vacuum.** Documented: solids of vacuum have "reduced opacity".  With an opacity below 0.3 they are the least transparent of all. -/
theorem C132_vacuum_refuted (G : Grd3 K C) (mats : String → Option String) (opacity : ℚ) (ho : opacity < 3 / 10) {l : List (String × C × ℚ)} (h : plotSolids G mats opacity = .ok l) (c : String → C)
    (hc : ∀ k ∈ G.solids, ColorsArg.gives G.colors k (c k)) : ∀ p ∈ l, mats p.1 = some "vacuum" → ∀ q ∈ l, mats q.1 ≠ some "vacuum" → q.2.2 < p.2.2 := by
  obtain ⟨l', h1, -, -, h2, h3⟩ := C132_solids_partial G mats opacity c hc
  rw [h] at h1
  cases h1
  intro p hp hv q hq hv'
  rw [h2 p hp hv, h3 q hq hv']
  exact ho

example : ∃ l, plotSolids exG (fun k => if k = "cavity" then some "vacuum" else some "pec") (1 / 10) = .ok l ∧ l = [("cavity", "silver", 3 / 10), ("pipe", "red", 1 / 10)] := ⟨_, rfl, rfl⟩

end View3
end Wakis
