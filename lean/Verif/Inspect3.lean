import Verif.Views3

/-!
# C138, C139: the window and the voxel pictures of a field

`wakis/field.py`: `inspect3D` (685-1036).  `C138`: the PyVista window with its three sliders; a session is a list of windows opened and sliders moved.  `C139`: the Matplotlib branch.
Of PyVista as in `Views3.lean`; moreover a slider keeps its value within its range (VTK), and `grid[name] = values` on a grid object is seen by everyone who holds that object: with `grid=` a `GridFIT3D` all windows share its
`grid.grid` (885), without it each call makes its own (929).  The values are a copy of the field at the time of the call (`reshape` of a Fortran-ordered array into C order, `get_abs`).
Of numpy and Matplotlib: `mgrid[0:m+1]` has `ceil(m+1)` points (`ValueError` if negative), the maximum of an empty array is a `ValueError`, `voxels` broadcasts the coordinates to one more than the cells along each axis
(`ValueError` if a length is neither that nor 1), `Normalize(vmin, vmax)` maps `v` to `(v - vmin)/(vmax - vmin)`, and to 0 if `vmin = vmax`.
Not modelled: camera, light, the logo, colour maps (a colour is its position on the colour bar), the GPU.
-/

namespace Wakis
namespace View3
open Pic3 Mpi
variable {K : Type} [Field K] [LinearOrder K] [FloorRing K]
set_option linter.unusedSectionVars false

/-! ### Model of the window -/

/-- One window: the name of its scalars, its own grid's values (`none`: the grid passed, shared), its domain, and what it shows. -/
structure Win (K : Type) where
  name : String
  own : Option (ℕ → K)
  box : Bounds K
  showGrid : Bool
  vals : Ax → K
  clip : Option ((ℕ → K) × Bounds K) := none
  slice : Option (Ax × K) := none
  domain : Option (Bounds K) := none

/-- The arguments of `inspect3D` that matter here; `grid`: a `GridFIT3D` is passed. -/
structure WinArgs (K : Type) where
  field : String := "all"
  grid : Bool := false
  top : Ax → Option K := fun _ => none
  boundingBox : Bool := true
  showGrid : Bool := true

/-- The cell data of the grid passed, and the windows. -/
structure Desk (K : Type) where
  data : String → Option (ℕ → K)
  wins : List (Win K)

/-- What happens: a field is inspected; the slider of an axis of a window is moved. -/
inductive Ev (K : Type)
  | inspect (f : Fld K) (a : WinArgs K)
  | move (w : ℕ) (ax : Ax) (v : K)

/-- The value a slider takes. -/
def inRange (b : Bounds K) (ax : Ax) (v : K) : K := max (b.lo ax) (min (b.hi ax) v)

/-- field.py:949-974 `update_clip` of one window: the clipped volume with its scalars, the slice. -/
def Win.update (data : String → Option (ℕ → K)) (w : Win K) (e : Ax × K) : Win K :=
  let v := inRange w.box e.1 e.2
  let vals := fun ax => if ax = e.1 then v else w.vals ax
  match w.own.orElse fun _ => data w.name with
  | none => { w with vals := vals }
  | some s => { w with vals := vals, clip := some (s, ⟨w.box.lo, vals⟩), slice := if w.showGrid then some (e.1, v) else w.slice }

/-- The number of cells along an axis. -/
def cellsOf (f : Fld K) : Ax → ℕ
  | .x => f.Nx
  | .y => f.Ny
  | .z => f.Nz

/-- field.py:877-1026: the cell data of the passed grid after the call, and the window; `gb`: the domain of the passed grid. -/
def openWin (norm3 : K → K → K → K) (gb : Bounds K) (data : String → Option (ℕ → K)) (f : Fld K) (a : WinArgs K) : (String → Option (ℕ → K)) × Win K :=
  let s := inspectScalars norm3 f a.field
  let data := if a.grid then fun n => if n = s.1 then some s.2 else data n else data
  let box := if a.grid then gb else ⟨fun _ => 0, fun ax => (cellsOf f ax : K)⟩
  let top := fun ax => (a.top ax).getD (box.hi ax)
  let w := [(Ax.x, top .x), (.y, top .y), (.z, top .z)].foldl (Win.update data) { name := s.1, own := if a.grid then none else some s.2, box := box, showGrid := a.showGrid, vals := top }
  (data, { w with domain := if a.boundingBox then some box else none })

/-- One event. -/
def Desk.step (norm3 : K → K → K → K) (gb : Bounds K) (d : Desk K) : Ev K → Desk K
  | .inspect f a => let r := openWin norm3 gb d.data f a; ⟨r.1, d.wins ++ [r.2]⟩
  | .move n ax v => { d with wins := d.wins.modify n fun w => w.update d.data (ax, v) }

def Desk.run (norm3 : K → K → K → K) (gb : Bounds K) (d : Desk K) (h : List (Ev K)) : Desk K := h.foldl (Desk.step norm3 gb) d

/-! ### Specification -/

/-- The component a user means: x, y or z in capitals or not, otherwise the magnitude. -/
def compName (field : String) : String := if pyLower field = "x" ∨ pyLower field = "y" ∨ pyLower field = "z" then pyLower field else "abs"

/-- The domain of a call. -/
def domainOf (gb : Bounds K) (f : Fld K) (a : WinArgs K) : Bounds K := if a.grid then gb else ⟨fun _ => 0, fun ax => (cellsOf f ax : K)⟩

/-- The moves of the sliders of window `n`. -/
def movesOf (n : ℕ) : List (Ev K) → List (Ax × K)
  | [] => []
  | .move m ax v :: h => if m = n then (ax, v) :: movesOf n h else movesOf n h
  | _ :: h => movesOf n h

/-- What the window of a call should show after its sliders were moved: the values of the component of the field, from the low corner of the domain to where each slider is; the slice at the slider moved last; the domain. -/
def WinShows (norm3 : K → K → K → K) (gb : Bounds K) (f : Fld K) (a : WinArgs K) (moves : List (Ax × K)) (w : Win K) : Prop :=
  let b := domainOf gb f a
  let start := fun ax => inRange b ax ((a.top ax).getD (b.hi ax))
  (∃ v, Pic3.Shows norm3 f (compName a.field) v ∧ w.clip = some (v, ⟨b.lo, fun ax => slider (start ax) moves ax⟩)) ∧
    w.slice = (if a.showGrid then some (moves.getLast?.getD (.z, start .z)) else none) ∧
    w.domain = if a.boundingBox then some b else none

/-! ### C138 -/

lemma inspectScalars_shows (norm3 : K → K → K → K) (f : Fld K) (field : String) : Pic3.Shows norm3 f (compName field) (inspectScalars norm3 f field).2 := by
  unfold compName
  split
  · rename_i h
    exact ((C125_inspect3D norm3 f field).1 (pyLower field) h rfl).2
  · rename_i h
    exact ((C125_inspect3D norm3 f field).2 fun c hc e => h (e ▸ hc)).2

/-- The values seen by `update_clip`. -/
lemma update_some {data : String → Option (ℕ → K)} {w : Win K} {s : ℕ → K} (h : (w.own.orElse fun _ => data w.name) = some s) (e : Ax × K) :
    w.update data e = { w with vals := fun ax => if ax = e.1 then inRange w.box e.1 e.2 else w.vals ax, clip := some (s, ⟨w.box.lo, fun ax => if ax = e.1 then inRange w.box e.1 e.2 else w.vals ax⟩), slice := if w.showGrid then some (e.1, inRange w.box e.1 e.2) else w.slice } := by
  unfold Win.update
  simp only [h]

lemma inRange_self {b : Bounds K} {ax : Ax} {v : K} (h1 : b.lo ax ≤ v) (h2 : v ≤ b.hi ax) : inRange b ax v = v := by
  unfold inRange
  rw [min_eq_right h2, max_eq_right h1]

/-- The three first calls of `update_clip`. -/
lemma update_three {data : String → Option (ℕ → K)} {w : Win K} {s : ℕ → K} (h : (w.own.orElse fun _ => data w.name) = some s) (a b c : K) :
    [(Ax.x, a), (.y, b), (.z, c)].foldl (Win.update data) w = { w with
      vals := fun ax => if ax = Ax.z then inRange w.box .z c else if ax = .y then inRange w.box .y b else if ax = .x then inRange w.box .x a else w.vals ax
      clip := some (s, ⟨w.box.lo, fun ax => if ax = Ax.z then inRange w.box .z c else if ax = .y then inRange w.box .y b else if ax = .x then inRange w.box .x a else w.vals ax⟩)
      slice := if w.showGrid then some (.z, inRange w.box .z c) else w.slice } := by
  rw [List.foldl_cons, update_some h, List.foldl_cons, update_some (s := s), List.foldl_cons, update_some (s := s), List.foldl_nil]
  · by_cases hg : w.showGrid <;> simp [hg]
  · exact h
  · exact h

/-- The window when it opens. -/
lemma openWin_eq (norm3 : K → K → K → K) (gb : Bounds K) (data : String → Option (ℕ → K)) (f : Fld K) (a : WinArgs K) :
    openWin norm3 gb data f a =
      (if a.grid then fun n => if n = (inspectScalars norm3 f a.field).1 then some (inspectScalars norm3 f a.field).2 else data n else data,
        { name := (inspectScalars norm3 f a.field).1, own := if a.grid then none else some (inspectScalars norm3 f a.field).2, box := domainOf gb f a, showGrid := a.showGrid
          vals := fun ax => inRange (domainOf gb f a) ax ((a.top ax).getD ((domainOf gb f a).hi ax))
          clip := some ((inspectScalars norm3 f a.field).2, ⟨(domainOf gb f a).lo, fun ax => inRange (domainOf gb f a) ax ((a.top ax).getD ((domainOf gb f a).hi ax))⟩)
          slice := if a.showGrid then some (.z, inRange (domainOf gb f a) .z ((a.top .z).getD ((domainOf gb f a).hi .z))) else none
          domain := if a.boundingBox then some (domainOf gb f a) else none }) := by
  unfold openWin domainOf
  generalize inspectScalars norm3 f a.field = s
  generalize (if a.grid then gb else ⟨fun _ => 0, fun ax => (cellsOf f ax : K)⟩ : Bounds K) = b
  generalize hd : (if a.grid then fun n => if n = s.1 then some s.2 else data n else data : String → Option (ℕ → K)) = D
  have hs : ((if a.grid then none else some s.2 : Option (ℕ → K)).orElse fun _ => D s.1) = some s.2 := by
    rw [← hd]
    by_cases h : a.grid <;> simp [h]
  simp only [hd]
  rw [update_three (s := s.2) (w := { name := s.1, own := if a.grid then none else some s.2, box := b, showGrid := a.showGrid, vals := fun ax => (a.top ax).getD (b.hi ax) }) hs]
  have hv : (fun ax => if ax = Ax.z then inRange b .z ((a.top .z).getD (b.hi .z)) else if ax = .y then inRange b .y ((a.top .y).getD (b.hi .y)) else if ax = .x then inRange b .x ((a.top .x).getD (b.hi .x)) else (a.top ax).getD (b.hi ax)) =
      fun ax => inRange b ax ((a.top ax).getD (b.hi ax)) := by
    funext ax; cases ax <;> rfl
  simp only [hv]

lemma movesOf_append (n : ℕ) (h1 h2 : List (Ev K)) : movesOf n (h1 ++ h2) = movesOf n h1 ++ movesOf n h2 := by
  induction h1 with
  | nil => rfl
  | cons e h ih =>
    cases e with
    | inspect f a => simpa [movesOf] using ih
    | move m ax v =>
      by_cases hm : m = n
      · simp [movesOf, hm, ih]
      · simp [movesOf, hm, ih]

/-- A call that gives the passed grid other values under the name used by an earlier call. -/
def Overwrites (a : WinArgs K) : Ev K → Prop
  | .inspect _ a' => a.grid = true ∧ a'.grid = true ∧ compName a'.field = compName a.field
  | .move .. => False

lemma scalars_name (norm3 : K → K → K → K) (f f' : Fld K) (s s' : String) (h : (inspectScalars norm3 f s).1 = (inspectScalars norm3 f' s').1) : compName s = compName s' := by
  have key : ∀ (f : Fld K) (s : String), (inspectScalars norm3 f s).1 = if compName s = "abs" then "Field Abs" else "Field " ++ compName s := fun f s => by
    unfold compName
    split
    · rename_i hc
      rw [((C125_inspect3D norm3 f s).1 _ hc rfl).1]
      rcases hc with e | e | e <;> rw [e] <;> decide
    · rename_i hc
      rw [((C125_inspect3D norm3 f s).2 fun c hc' e => hc (e ▸ hc')).1, if_pos rfl]
  rw [key, key] at h
  have vals : ∀ s, compName s = "x" ∨ compName s = "y" ∨ compName s = "z" ∨ compName s = "abs" := fun s => by
    unfold compName
    split
    · rename_i hc; rcases hc with e | e | e <;> simp [e]
    · simp
  rcases vals s with e | e | e | e <;> rcases vals s' with e' | e' | e' | e' <;> rw [e, e'] at h ⊢ <;> revert h <;> decide

/-- **C138 (partial).** Whatever was done before and whatever is done afterwards with this and other windows (sliders moved within their range, fields inspected): the window opened by a call shows the component asked for of the
field as it was at the call, at each cell, from the low corner of the domain up to where its three sliders are now; the slice of the grid at the slider moved last; and the frame of the domain.
Missing: a later call with the same grid and the same component (refuted below). -/
theorem C138_window_partial (norm3 : K → K → K → K) (gb : Bounds K) (d : Desk K) (f : Fld K) (a : WinArgs K) (h : List (Ev K)) (ho : ∀ e ∈ h, ¬ Overwrites a e)
    (hr : ∀ e ∈ movesOf d.wins.length h, (domainOf gb f a).lo e.1 ≤ e.2 ∧ e.2 ≤ (domainOf gb f a).hi e.1) :
    ∃ w, (Desk.run norm3 gb d (.inspect f a :: h)).wins[d.wins.length]? = some w ∧ WinShows norm3 gb f a (movesOf d.wins.length h) w := by
  -- what is kept by every later event
  suffices H : ∃ w, (Desk.run norm3 gb d (.inspect f a :: h)).wins[d.wins.length]? = some w ∧ w.name = (inspectScalars norm3 f a.field).1 ∧ w.box = domainOf gb f a ∧ w.showGrid = a.showGrid ∧
      w.own = (if a.grid then none else some (inspectScalars norm3 f a.field).2) ∧
      (a.grid = true → (Desk.run norm3 gb d (.inspect f a :: h)).data w.name = some (inspectScalars norm3 f a.field).2) ∧
      w.vals = (fun ax => slider (inRange (domainOf gb f a) ax ((a.top ax).getD ((domainOf gb f a).hi ax))) (movesOf d.wins.length h) ax) ∧
      w.clip = some ((inspectScalars norm3 f a.field).2, ⟨(domainOf gb f a).lo, w.vals⟩) ∧
      w.slice = (if a.showGrid then some ((movesOf d.wins.length h).getLast?.getD (.z, inRange (domainOf gb f a) .z ((a.top .z).getD ((domainOf gb f a).hi .z)))) else none) ∧
      w.domain = (if a.boundingBox then some (domainOf gb f a) else none) by
    obtain ⟨w, h1, -, -, -, -, -, h6, h7, h8, h9⟩ := H
    exact ⟨w, h1, ⟨_, inspectScalars_shows norm3 f a.field, by rw [h7, h6]⟩, h8, h9⟩
  induction h using List.reverseRecOn with
  | nil =>
    refine ⟨(openWin norm3 gb d.data f a).2, ?_, ?_⟩
    · show (d.wins ++ [(openWin norm3 gb d.data f a).2])[d.wins.length]? = _
      simp
    · rw [openWin_eq]
      refine ⟨rfl, rfl, rfl, rfl, fun hg => ?_, rfl, rfl, rfl, rfl⟩
      show (openWin norm3 gb d.data f a).1 _ = _
      rw [openWin_eq]
      simp [hg]
  | append_singleton h e ih =>
    obtain ⟨w, h1, h2, h3, h4, h5, h6, h7, h8, h9, h10⟩ := ih (fun e he => ho e (by simp [he])) fun e he => hr e (by rw [movesOf_append]; simp [he])
    have hrun : Desk.run norm3 gb d (.inspect f a :: (h ++ [e])) = Desk.step norm3 gb (Desk.run norm3 gb d (.inspect f a :: h)) e := by
      unfold Desk.run
      rw [← List.cons_append, List.foldl_append]
      rfl
    rw [hrun]
    generalize Desk.run norm3 gb d (.inspect f a :: h) = D at h1 h6
    have hlt : d.wins.length < D.wins.length := (List.getElem?_eq_some_iff.1 h1).1
    cases e with
    | inspect f' a' =>
      have hm : movesOf d.wins.length (h ++ [Ev.inspect f' a']) = movesOf d.wins.length h := by rw [movesOf_append]; simp [movesOf]
      rw [hm]
      refine ⟨w, ?_, h2, h3, h4, h5, fun hg => ?_, h7, h8, h9, h10⟩
      · show (D.wins ++ [_])[d.wins.length]? = _
        rw [List.getElem?_append_left hlt]; exact h1
      · show (openWin norm3 gb D.data f' a').1 w.name = _
        rw [openWin_eq]
        by_cases hg' : a'.grid
        · simp only [hg', if_true]
          rw [if_neg, h6 hg]
          rw [h2]
          intro hh
          exact ho (.inspect f' a') (by simp) ⟨hg, hg', (scalars_name norm3 _ _ _ _ hh).symm⟩
        · simp only [hg']
          exact h6 hg
    | move m ax v =>
      by_cases hm : m = d.wins.length
      · subst hm
        have hmv : movesOf d.wins.length (h ++ [Ev.move d.wins.length ax v]) = movesOf d.wins.length h ++ [(ax, v)] := by rw [movesOf_append]; simp [movesOf]
        have hv := hr (ax, v) (by rw [hmv]; simp)
        have hs : (w.own.orElse fun _ => D.data w.name) = some (inspectScalars norm3 f a.field).2 := by
          rw [h5]
          by_cases hg : a.grid
          · simp [hg, h6 hg]
          · simp [hg]
        have hu := update_some hs (ax, v)
        rw [hmv]
        refine ⟨w.update D.data (ax, v), ?_, ?_⟩
        · show (D.wins.modify _ _)[d.wins.length]? = _
          rw [List.getElem?_modify_eq, h1]; rfl
        · rw [hu]
          have hin : inRange w.box ax v = v := by rw [h3]; exact inRange_self hv.1 hv.2
          refine ⟨h2, h3, h4, h5, h6, ?_, ?_, ?_, h10⟩
          · funext b
            simp only [hin]
            rw [slider_append, h7]
          · simp only [h3]
          · simp only [hin, h4]
            split
            · simp
            · rename_i hg
              rw [h9, if_neg hg]
      · have hmv : movesOf d.wins.length (h ++ [Ev.move m ax v]) = movesOf d.wins.length h := by rw [movesOf_append]; simp [movesOf, hm]
        rw [hmv]
        refine ⟨w, ?_, h2, h3, h4, h5, h6, h7, h8, h9, h10⟩
        show (D.wins.modify _ _)[d.wins.length]? = _
        rw [List.getElem?_modify, h1]; simp [hm]

/-- **C138 refuted for two fields on one grid.** E is inspected with the grid of the solver, then H with the same grid and component: once a slider of the first window is moved it shows the values of H. -/
theorem C138_shared_refuted (norm3 : K → K → K → K) (gb : Bounds K) (d : Desk K) (E H : Fld K) (a : WinArgs K) (hg : a.grid = true) (ax : Ax) (v : K) :
    ∃ w b s, (Desk.run norm3 gb d [.inspect E a, .inspect H a, .move d.wins.length ax v]).wins[d.wins.length]? = some w ∧ w.clip = some (s, b) ∧ Pic3.Shows norm3 H (compName a.field) s := by
  have hname : (inspectScalars norm3 H a.field).1 = (inspectScalars norm3 E a.field).1 := by
    unfold inspectScalars
    by_cases hc : pyLower a.field = "x" ∨ pyLower a.field = "y" ∨ pyLower a.field = "z"
    · have : ∀ f : Fld K, ∃ M, f.toMatrix (.str (pyLower a.field)) = some M := fun f => by
        rcases hc with h | h | h <;> rw [h] <;> exact ⟨_, rfl⟩
      obtain ⟨M, hM⟩ := this E
      obtain ⟨M', hM'⟩ := this H
      simp only [if_pos hc, hM, hM']
    · simp only [if_neg hc]
  generalize hD : Desk.run norm3 gb d [.inspect E a, .inspect H a] = D
  have hrun : Desk.run norm3 gb d [.inspect E a, .inspect H a, .move d.wins.length ax v] = Desk.step norm3 gb D (.move d.wins.length ax v) := by rw [← hD]; rfl
  have hw : D.wins[d.wins.length]? = some (openWin norm3 gb d.data E a).2 := by
    rw [← hD]
    show ((d.wins ++ [_]) ++ [_])[d.wins.length]? = _
    simp
  have hd : D.data (inspectScalars norm3 E a.field).1 = some (inspectScalars norm3 H a.field).2 := by
    rw [← hD]
    show (openWin norm3 gb _ H a).1 _ = _
    rw [openWin_eq]
    simp [hg, hname]
  have hs : ((openWin norm3 gb d.data E a).2.own.orElse fun _ => D.data (openWin norm3 gb d.data E a).2.name) = some (inspectScalars norm3 H a.field).2 := by
    rw [openWin_eq]
    simp [hg, hd]
  refine ⟨(openWin norm3 gb d.data E a).2.update D.data (ax, v), ⟨(openWin norm3 gb d.data E a).2.box.lo, fun b => if b = ax then inRange (openWin norm3 gb d.data E a).2.box ax v else (openWin norm3 gb d.data E a).2.vals b⟩, _, ?_, ?_, inspectScalars_shows norm3 H a.field⟩
  · rw [hrun]
    show (D.wins.modify _ _)[d.wins.length]? = _
    rw [List.getElem?_modify_eq, hw]; rfl
  · rw [update_some hs]

/-- Two windows of different components on one grid; a slider of the first is moved twice. -/
example (norm3 : ℚ → ℚ → ℚ → ℚ) (E : Fld ℚ) : ∃ w, (Desk.run norm3 ⟨fun _ => 0, fun _ => 4⟩ ⟨fun _ => none, []⟩ [.inspect E { field := "X", grid := true }, .inspect E { field := "y", grid := true }, .move 0 .y 3, .move 0 .x 1]).wins[0]? = some w ∧
    w.slice = some (.x, 1) := by
  obtain ⟨w, h1, -, h3, -⟩ := C138_window_partial norm3 ⟨fun _ => 0, fun _ => (4 : ℚ)⟩ ⟨fun _ => none, []⟩ E { field := "X", grid := true } [.inspect E { field := "y", grid := true }, .move 0 .y 3, .move 0 .x 1]
    (by
      intro e he
      simp only [List.mem_cons, List.not_mem_nil, or_false] at he
      rcases he with rfl | rfl | rfl
      · rintro ⟨-, -, h⟩; revert h; decide
      · exact id
      · exact id)
    (by
      intro e he
      have : e = (.y, 3) ∨ e = (.x, 1) := by simpa [movesOf] using he
      rcases this with rfl | rfl <;> simp [domainOf] <;> norm_num)
  refine ⟨w, h1, ?_⟩
  rw [h3]
  simp [movesOf]

/-! ### The voxel pictures (Matplotlib) -/

/-- One panel: its place in the figure, its title, the cells drawn along each axis, the node coordinates along each axis, the value at a cell, the largest magnitude and the position of a value on the colour bar. -/
structure Panel (K : Type) where
  place : ℕ × ℕ × ℕ
  title : String
  cells : Ax → ℕ
  node : ℕ → K
  value : ℕ → ℕ → ℕ → K
  scale : K
  pos : K → K

/-- `int(m)`: towards zero. -/
def pyInt (m : ℚ) : ℤ := if m < 0 then ⌈m⌉ else ⌊m⌋

/-- field.py:787 `mgrid[0 : m + 1]`: the number of points. -/
def mgridLen (m : ℚ) : Py ℕ := if ⌈m + 1⌉ < 0 then .error .valueError else .ok ⌈m + 1⌉.toNat

/-- The length of `a[0:s]` for an array of length `N`. -/
def cutLen (N : ℕ) (s : ℤ) : ℕ := if s < 0 then (N + s).toNat else min s.toNat N

/-- `max(abs(arr))` over the cells drawn. -/
def largest (nx ny nz : ℕ) (v : ℕ → ℕ → ℕ → K) : K := ((vtkOrder nx ny nz).map fun c => |v c.1 c.2.1 c.2.2|).foldr max 0

/-- `Normalize(-M, M)`. -/
def normalize (M v : K) : K := if -M = M then 0 else (v - -M) / (M - -M)

/-- `broadcast_to` along one axis: from `n` points to one more than the cells. -/
def fits (n cells : ℕ) : Bool := n == cells + 1 || n == 1

/-- field.py:790-854: one panel; `single`: the only one. -/
def panel (f : Fld K) (lim : Ax → ℚ) (pts : Ax → ℕ) (single : Bool) (ci : ℕ × String) : Py (Panel K) :=
  match f.toMatrix (.str ci.2) with
  | none => .error .typeError
  | some v =>
    let cells := fun ax => cutLen (cellsOf f ax) (pyInt (lim ax))
    if cells .x = 0 ∨ cells .y = 0 ∨ cells .z = 0 then .error .valueError else
    let M := largest (cells .x) (cells .y) (cells .z) v
    if fits (pts .x) (cells .x) && fits (pts .y) (cells .y) && fits (pts .z) (cells .z) then
      .ok ⟨if single then (1, 1, 1) else (1, 3, ci.1), "Field " ++ ci.2, cells, fun i => (i : K), v, M, normalize M⟩
    else .error .valueError

/-- field.py:745-871 `inspect3D(field, backend="matplotlib", xmax, ymax, zmax)`: the panels of the figure. -/
def voxels (f : Fld K) (field : String) (limits : Ax → Option ℚ) : Py (List (Panel K)) :=
  let c := pyLower field
  let lim := fun ax => (limits ax).getD (cellsOf f ax : ℚ)
  match mgridLen (lim .x), mgridLen (lim .y), mgridLen (lim .z) with
  | .ok px, .ok py, .ok pz =>
    let pts : Ax → ℕ := fun | .x => px | .y => py | .z => pz
    let todo := if c = "all" then [(1, "x"), (2, "y"), (3, "z")] else if c = "x" then [(1, "x")] else if c = "y" then [(2, "y")] else if c = "z" then [(3, "z")] else []
    todo.mapM (panel f lim pts (decide (c ≠ "all")))
  | _, _, _ => .error .valueError

/-! ### Specification -/

/-- The components a name asks for. -/
def asked (field : String) : List String := if pyLower field = "all" then ["x", "y", "z"] else [pyLower field]

/-- A region of whole cells of the field: the limits are whole numbers from 1 to the number of cells, or not given. -/
def Whole (f : Fld K) (limits : Ax → Option ℚ) (n : Ax → ℕ) : Prop :=
  ∀ ax, 1 ≤ n ax ∧ n ax ≤ cellsOf f ax ∧ (limits ax).getD (cellsOf f ax : ℚ) = n ax

/-- The panel shows component `c`: its cells are those below the limits, cell `i` lies from `i` to `i + 1`, each has the value of the field, and the colour bar runs linearly from minus to plus the largest magnitude shown. -/
def PanelShows (f : Fld K) (norm3 : K → K → K → K) (n : Ax → ℕ) (c : String) (P : Panel K) : Prop :=
  P.title = "Field " ++ c ∧ P.cells = n ∧ (∀ i, P.node i = i) ∧
    (∀ i < n .x, ∀ j < n .y, ∀ k < n .z, Plot.Value norm3 f (.str c) i j k (P.value i j k)) ∧
    (∀ i < n .x, ∀ j < n .y, ∀ k < n .z, |P.value i j k| ≤ P.scale) ∧
    ((∃ i < n .x, ∃ j < n .y, ∃ k < n .z, |P.value i j k| = P.scale)) ∧
    (P.scale ≠ 0 → P.pos (-P.scale) = 0 ∧ P.pos 0 = 1 / 2 ∧ P.pos P.scale = 1 ∧ ∀ u v, P.pos u ≤ P.pos v ↔ u ≤ v)

/-! ### C139 -/

lemma mem_cells {nx ny nz i j k : ℕ} : (i, j, k) ∈ vtkOrder nx ny nz ↔ i < nx ∧ j < ny ∧ k < nz := by
  unfold vtkOrder
  simp only [List.mem_flatMap, List.mem_map, List.mem_range, Prod.mk.injEq]
  constructor
  · rintro ⟨a, ha, b, hb, c, hc, rfl, rfl, rfl⟩; exact ⟨ha, hb, hc⟩
  · rintro ⟨ha, hb, hc⟩; exact ⟨i, ha, j, hb, k, hc, rfl, rfl, rfl⟩

lemma le_foldr_max (l : List K) {x : K} (h : x ∈ l) : x ≤ l.foldr max 0 := by
  induction l with
  | nil => cases h
  | cons y l ih =>
    rcases List.mem_cons.1 h with rfl | h
    · exact le_max_left _ _
    · exact (ih h).trans (le_max_right _ _)

lemma foldr_max_mem (l : List K) (hl : l ≠ []) (h0 : ∀ x ∈ l, 0 ≤ x) : l.foldr max 0 ∈ l := by
  induction l with
  | nil => exact absurd rfl hl
  | cons y l ih =>
    rw [List.foldr_cons]
    by_cases h : l = []
    · subst h; simp [max_eq_left (h0 y (by simp))]
    · rcases max_choice y (l.foldr max 0) with e | e
      · rw [e]; simp
      · rw [e]; exact List.mem_cons_of_mem _ (ih h fun x hx => h0 x (by simp [hx]))

variable [IsStrictOrderedRing K]

/-- A limit that is not a whole number of cells from 1 on: no cells, or the coordinates do not fit. -/
lemma limit_bad {N : ℕ} {m : ℚ} {p : ℕ} (hp : mgridLen m = .ok p) (hf : fits p (cutLen N (pyInt m)) = true) (hc : cutLen N (pyInt m) ≠ 0) : ∃ n : ℕ, 1 ≤ n ∧ n ≤ N ∧ m = n ∧ cutLen N (pyInt m) = n := by
  unfold mgridLen at hp
  split at hp
  · cases hp
  · rename_i h0
    obtain rfl : ⌈m + 1⌉.toNat = p := by simpa using hp
    have hceil : ⌈m + 1⌉ = ⌈m⌉ + 1 := Int.ceil_add_one m
    rw [hceil] at hf h0
    simp only [fits, Bool.or_eq_true, beq_iff_eq] at hf
    unfold cutLen pyInt at hf hc ⊢
    by_cases hm : m < 0
    · rw [if_pos hm] at hf hc ⊢
      have hle : ⌈m⌉ ≤ 0 := Int.ceil_le.2 (by simpa using hm.le)
      exfalso
      by_cases hn : ⌈m⌉ < 0
      · rw [if_pos hn] at hf hc
        omega
      · rw [if_neg hn] at hc
        have : ⌈m⌉ = 0 := by omega
        rw [this] at hc; simp at hc
    · rw [if_neg hm] at hf hc ⊢
      have hfl : 0 ≤ ⌊m⌋ := Int.floor_nonneg.2 (not_lt.1 hm)
      rw [if_neg (not_lt.2 hfl)] at hf hc ⊢
      have h1 : ⌊m⌋ ≤ ⌈m⌉ := Int.floor_le_ceil m
      have hce : ⌈m⌉ = min ⌊m⌋ (N : ℤ) := by omega
      have h2 : ⌈m⌉ = ⌊m⌋ := by omega
      have h3 : (⌊m⌋ : ℚ) = m := le_antisymm (Int.floor_le m) (by rw [← h2]; exact Int.le_ceil m)
      refine ⟨⌊m⌋.toNat, by omega, by omega, ?_, by omega⟩
      rw [← h3]
      have : ((⌊m⌋.toNat : ℤ) : ℚ) = (⌊m⌋ : ℚ) := by rw [Int.toNat_of_nonneg hfl]
      rw [Int.floor_intCast]
      exact_mod_cast this.symm

lemma limit_good {N n : ℕ} (h : n ≤ N) : mgridLen (n : ℚ) = .ok (n + 1) ∧ cutLen N (pyInt (n : ℚ)) = n := by
  constructor
  · unfold mgridLen
    have : ⌈(n : ℚ) + 1⌉ = (n : ℤ) + 1 := by rw [Int.ceil_add_one]; simp
    rw [this, if_neg (by omega)]
    congr 1
  · unfold cutLen pyInt
    rw [if_neg (by simp)]
    simp [h]

lemma normalize_spec {M : K} (hM : 0 < M) : normalize M (-M) = 0 ∧ normalize M 0 = 1 / 2 ∧ normalize M M = 1 ∧ ∀ u v, normalize M u ≤ normalize M v ↔ u ≤ v := by
  have hne : ¬ -M = M := fun h => by linarith
  have h2 : M - -M ≠ 0 := by
    have : M - -M = 2 * M := by ring
    rw [this]; positivity
  unfold normalize
  simp only [if_neg hne]
  refine ⟨by simp, ?_, div_self h2, fun u v => ?_⟩
  · field_simp; ring
  · rw [div_le_div_iff_of_pos_right (by linarith)]
    constructor <;> intro h <;> linarith

/-- What a panel holds when the region is of whole cells. -/
lemma panel_good (norm3 : K → K → K → K) (f : Fld K) {n : Ax → ℕ} (h1 : ∀ ax, 1 ≤ n ax) (hN : ∀ ax, n ax ≤ cellsOf f ax) (single : Bool) (ci : ℕ × String) (hc : ci.2 = "x" ∨ ci.2 = "y" ∨ ci.2 = "z") :
    ∃ P, panel f (fun ax => (n ax : ℚ)) (fun ax => n ax + 1) single ci = .ok P ∧ P.place = (if single then (1, 1, 1) else (1, 3, ci.1)) ∧ PanelShows f norm3 n ci.2 P := by
  obtain ⟨M, hM, hM'⟩ : ∃ M, f.toMatrix (.str ci.2) = some M ∧ matOf norm3 f (.str ci.2) = some M := by
    rcases hc with h | h | h <;> rw [h] <;> exact ⟨_, rfl, rfl⟩
  have hcut : (fun ax => cutLen (cellsOf f ax) (pyInt (n ax : ℚ))) = n := funext fun ax => (limit_good (hN ax)).2
  have hz : ¬ (n .x = 0 ∨ n .y = 0 ∨ n .z = 0) := by
    have := h1 .x; have := h1 .y; have := h1 .z; omega
  unfold panel
  simp only [hM]
  have hcx := fun ax => congrFun hcut ax
  simp only [hcx] at *
  rw [if_neg hz]
  simp only [fits, beq_self_eq_true, Bool.true_or, Bool.and_self, if_true]
  refine ⟨_, rfl, rfl, rfl, rfl, fun _ => rfl, fun i hi j hj k hk => ?_, fun i hi j hj k hk => ?_, ?_, fun hs => ?_⟩
  · exact Plot.value_of_mat hM' (hi.trans_le (hN .x)) (hj.trans_le (hN .y)) (hk.trans_le (hN .z))
  · exact le_foldr_max _ (List.mem_map.2 ⟨(i, j, k), mem_cells.2 ⟨hi, hj, hk⟩, rfl⟩)
  · have hmem := foldr_max_mem ((vtkOrder (n .x) (n .y) (n .z)).map fun c => |M c.1 c.2.1 c.2.2|) (by
        have : (0, 0, 0) ∈ vtkOrder (n .x) (n .y) (n .z) := mem_cells.2 ⟨h1 .x, h1 .y, h1 .z⟩
        intro h
        rw [List.map_eq_nil_iff] at h
        rw [h] at this; cases this) (by
        intro x hx
        obtain ⟨c, -, rfl⟩ := List.mem_map.1 hx
        exact abs_nonneg _)
    obtain ⟨⟨i, j, k⟩, hc, e⟩ := List.mem_map.1 hmem
    obtain ⟨hi, hj, hk⟩ := mem_cells.1 hc
    exact ⟨i, hi, j, hj, k, hk, e⟩
  · have h0 : 0 ≤ largest (n .x) (n .y) (n .z) M := by
      unfold largest
      generalize (vtkOrder (n .x) (n .y) (n .z)).map (fun c => |M c.1 c.2.1 c.2.2|) = l
      induction l with
      | nil => exact le_refl _
      | cons y l ih => exact ih.trans (le_max_right _ _)
    exact normalize_spec (lt_of_le_of_ne h0 (Ne.symm hs))

/-- **C139 (partial).** With x, y, z or all (in capitals or not): the figure is drawn exactly if along each axis the limit is a whole number from 1 to the number of cells or not given; it then has one panel for each component asked for,
in this order and side by side, with the cells below the limits, each with the value of the field there, and colours that run linearly from minus to plus the largest magnitude shown.
Missing: other limits, though documented "int or float"; other names; a region where the field is zero (refuted below). -/
theorem C139_voxels_partial (norm3 : K → K → K → K) (f : Fld K) (field : String) (limits : Ax → Option ℚ) (hfield : pyLower field = "all" ∨ pyLower field = "x" ∨ pyLower field = "y" ∨ pyLower field = "z") :
    ((∃ Ps, voxels f field limits = .ok Ps) ↔ ∃ n, Whole f limits n) ∧
      ((¬ ∃ n, Whole f limits n) → voxels f field limits = .error .valueError) ∧
      ∀ n, Whole f limits n → ∃ Ps, voxels f field limits = .ok Ps ∧ List.Forall₂ (PanelShows f norm3 n) (asked field) Ps ∧
        Ps.map Panel.place = if pyLower field = "all" then [(1, 3, 1), (1, 3, 2), (1, 3, 3)] else [(1, 1, 1)] := by
  have good : ∀ n, Whole f limits n → ∃ Ps, voxels f field limits = .ok Ps ∧ List.Forall₂ (PanelShows f norm3 n) (asked field) Ps ∧
        Ps.map Panel.place = if pyLower field = "all" then [(1, 3, 1), (1, 3, 2), (1, 3, 3)] else [(1, 1, 1)] := by
    intro n hn
    have hl : (fun ax => (limits ax).getD (cellsOf f ax : ℚ)) = fun ax => (n ax : ℚ) := funext fun ax => (hn ax).2.2
    have hp := fun ax => (limit_good (hn ax).2.1).1
    have hpts : (fun | Ax.x => n .x + 1 | .y => n .y + 1 | .z => n .z + 1 : Ax → ℕ) = fun ax => n ax + 1 := by
      funext ax; cases ax <;> rfl
    have hlx := fun ax => congrFun hl ax
    unfold voxels asked
    simp only [hlx, hp, hpts]
    have P := fun single ci hc => panel_good norm3 f (fun ax => (hn ax).1) (fun ax => (hn ax).2.1) single ci hc
    rcases hfield with h | h | h | h
    · simp only [h]
      obtain ⟨P1, a1, b1, c1⟩ := P false (1, "x") (by simp)
      obtain ⟨P2, a2, b2, c2⟩ := P false (2, "y") (by simp)
      obtain ⟨P3, a3, b3, c3⟩ := P false (3, "z") (by simp)
      refine ⟨[P1, P2, P3], ?_, ?_, ?_⟩
      · simp [List.mapM_cons, a1, a2, a3, bind, Except.bind, pure, Except.pure]
      · simpa using ⟨c1, c2, c3⟩
      · simp [b1, b2, b3]
    · simp only [h]
      obtain ⟨P1, a1, b1, c1⟩ := P true (1, "x") (by simp)
      refine ⟨[P1], ?_, ?_, ?_⟩
      · simp [List.mapM_cons, a1, bind, Except.bind, pure, Except.pure]
      · simpa using c1
      · simp [b1]
    · simp only [h]
      obtain ⟨P1, a1, b1, c1⟩ := P true (2, "y") (by simp)
      refine ⟨[P1], ?_, ?_, ?_⟩
      · simp [List.mapM_cons, a1, bind, Except.bind, pure, Except.pure]
      · simpa using c1
      · simp [b1]
    · simp only [h]
      obtain ⟨P1, a1, b1, c1⟩ := P true (3, "z") (by simp)
      refine ⟨[P1], ?_, ?_, ?_⟩
      · simp [List.mapM_cons, a1, bind, Except.bind, pure, Except.pure]
      · simpa using c1
      · simp [b1]
  have bad : (¬ ∃ n, Whole f limits n) → voxels f field limits = .error .valueError := by
    intro hno
    unfold voxels
    generalize hl : (fun ax => (limits ax).getD (cellsOf f ax : ℚ)) = lim
    have hlx : ∀ ax, (limits ax).getD (cellsOf f ax : ℚ) = lim ax := fun ax => by rw [← hl]
    simp only [hlx]
    have herr : ∀ m e, mgridLen m = .error e → e = PyErr.valueError := fun m e h => by
      unfold mgridLen at h
      split at h <;> simp at h
      exact h.symm
    cases hx : mgridLen (lim .x) with
    | error e => rfl
    | ok px =>
    cases hy : mgridLen (lim .y) with
    | error e => rfl
    | ok py =>
    cases hz : mgridLen (lim .z) with
    | error e => rfl
    | ok pz =>
    simp only
    have hpan : ∀ single ci, (ci.2 = "x" ∨ ci.2 = "y" ∨ ci.2 = "z") → panel f lim (fun | Ax.x => px | .y => py | .z => pz) single ci = .error .valueError := by
      intro single ci hc
      obtain ⟨M, hM⟩ : ∃ M, f.toMatrix (.str ci.2) = some M := by
        rcases hc with h | h | h <;> rw [h] <;> exact ⟨_, rfl⟩
      unfold panel
      simp only [hM]
      split
      · rfl
      · rename_i h0
        split
        · rename_i hfit
          exfalso
          simp only [Bool.and_eq_true] at hfit
          push Not at h0
          obtain ⟨nx, x1, x2, x3, -⟩ := limit_bad hx hfit.1.1 h0.1
          obtain ⟨ny, y1, y2, y3, -⟩ := limit_bad hy hfit.1.2 h0.2.1
          obtain ⟨nz, z1, z2, z3, -⟩ := limit_bad hz hfit.2 h0.2.2
          refine hno ⟨fun | .x => nx | .y => ny | .z => nz, fun ax => ?_⟩
          rw [hlx]
          cases ax
          · exact ⟨x1, x2, x3⟩
          · exact ⟨y1, y2, y3⟩
          · exact ⟨z1, z2, z3⟩
        · rfl
    rcases hfield with h | h | h | h <;> simp [h, List.mapM_cons, hpan, bind, Except.bind]
  refine ⟨⟨fun ⟨Ps, hP⟩ => ?_, fun ⟨n, hn⟩ => ?_⟩, bad, good⟩
  · by_contra hno
    rw [bad hno] at hP; cases hP
  · obtain ⟨Ps, hP, -⟩ := good n hn
    exact ⟨Ps, hP⟩

/-- **C139 refuted for limits between nodes.** `xmax = 2.5` of a field of four cells along each axis raises `ValueError`. -/
theorem C139_limit_refuted (array : ℕ → K) : voxels (⟨4, 4, 4, array⟩ : Fld K) "x" (fun ax => if ax = .x then some (5 / 2) else none) = .error .valueError := by
  refine (C139_voxels_partial (fun a _ _ => a) _ "x" _ (.inr (.inl (by decide)))).2.1 ?_
  rintro ⟨n, hn⟩
  have h := (hn .x).2.2
  simp only [if_true, Option.getD_some] at h
  have h2 : (5 : ℚ) = 2 * n .x := by linarith
  have h3 : (5 : ℕ) = 2 * n .x := by exact_mod_cast h2
  omega

/-- **C139 refuted for the magnitude.** With this backend any other name, "abs" included, gives a figure without panels, where the PyVista window shows the magnitude. -/
theorem C139_abs_refuted (norm3 : K → K → K → K) (f : Fld K) (field : String) (hfield : compName field = "abs") (hall : pyLower field ≠ "all") (limits : Ax → Option ℚ) (hl : ∀ ax, 0 ≤ (limits ax).getD (cellsOf f ax : ℚ)) :
    voxels f field limits = .ok [] ∧ Pic3.Shows norm3 f "abs" (inspectScalars norm3 f field).2 := by
  constructor
  · have hc : ¬ (pyLower field = "x" ∨ pyLower field = "y" ∨ pyLower field = "z") := fun h => by
      unfold compName at hfield
      rw [if_pos h] at hfield
      rcases h with h | h | h <;> rw [h] at hfield <;> revert hfield <;> decide
    push Not at hc
    have hm : ∀ ax, ∃ p, mgridLen ((limits ax).getD (cellsOf f ax : ℚ)) = .ok p := fun ax => by
      unfold mgridLen
      rw [if_neg]
      · exact ⟨_, rfl⟩
      · rw [Int.ceil_add_one]
        have := Int.ceil_nonneg (hl ax)
        omega
    obtain ⟨px, hx⟩ := hm .x
    obtain ⟨py, hy⟩ := hm .y
    obtain ⟨pz, hz⟩ := hm .z
    unfold voxels
    simp only [hx, hy, hz, hall, hc.1, hc.2.1, hc.2.2, if_false]
    rfl
  · have := inspectScalars_shows norm3 f field
    rwa [hfield] at this

/-- **C139 refuted where the field is zero.** A region in which a component vanishes is drawn in the colour of the lowest value of the bar, not in that of zero: the position of zero is 0, and 1/2 in every other picture. -/
theorem C139_zero_refuted (norm3 : K → K → K → K) (f : Fld K) (field : String) (hfield : pyLower field = "x" ∨ pyLower field = "y" ∨ pyLower field = "z") (limits : Ax → Option ℚ) (n : Ax → ℕ) (hn : Whole f limits n)
    (h0 : ∀ i < n .x, ∀ j < n .y, ∀ k < n .z, ∀ a, Plot.Value norm3 f (.str (pyLower field)) i j k a → a = 0) :
    ∃ P, voxels f field limits = .ok [P] ∧ P.pos 0 = 0 ∧ ∀ i < n .x, ∀ j < n .y, ∀ k < n .z, P.value i j k = 0 := by
  have hna : pyLower field ≠ "all" := by
    rcases hfield with h | h | h <;> rw [h] <;> decide
  obtain ⟨Ps, hP, hF, -⟩ := (C139_voxels_partial norm3 f field limits (.inr hfield)).2.2 n hn
  unfold asked at hF
  rw [if_neg hna] at hF
  obtain ⟨P, hPs, hnil⟩ : ∃ P, PanelShows f norm3 n (pyLower field) P ∧ Ps = [P] := by
    cases hF with
    | cons h t => cases t; exact ⟨_, h, rfl⟩
  subst hnil
  have hval : ∀ i < n .x, ∀ j < n .y, ∀ k < n .z, P.value i j k = 0 := fun i hi j hj k hk => h0 i hi j hj k hk _ (hPs.2.2.2.1 i hi j hj k hk)
  refine ⟨P, hP, ?_, hval⟩
  obtain ⟨i, hi, j, hj, k, hk, e⟩ := hPs.2.2.2.2.2.1
  rw [hval i hi j hj k hk, abs_zero] at e
  -- the position is that of `Normalize` with equal bounds
  have hpos : P.pos = normalize P.scale := by
    have : ∀ (lim pts single ci) (Q : Panel K), panel f lim pts single ci = .ok Q → Q.pos = normalize Q.scale := by
      intro lim pts single ci Q hQ
      unfold panel at hQ
      split at hQ
      · cases hQ
      · simp only at hQ
        split at hQ
        · cases hQ
        · split at hQ
          · cases hQ; rfl
          · cases hQ
    unfold voxels at hP
    simp only at hP
    split at hP
    · have hone : ∀ (l : List (ℕ × String)) (g : ℕ × String → Py (Panel K)), l.mapM g = .ok [P] → ∃ ci, g ci = .ok P := by
        intro l g h
        cases l with
        | nil => simp [pure, Except.pure] at h
        | cons c l =>
          rw [List.mapM_cons] at h
          cases hc : g c with
          | error e => simp [hc, bind, Except.bind] at h
          | ok Q =>
            simp only [hc, bind, Except.bind, pure, Except.pure] at h
            cases hm : l.mapM g with
            | error e => simp [hm] at h
            | ok Qs =>
              simp only [hm, Except.ok.injEq, List.cons.injEq] at h
              exact ⟨c, by rw [hc, h.1]⟩
      obtain ⟨ci, hci⟩ := hone _ _ hP
      exact this _ _ _ _ _ hci
    · cases hP
  rw [hpos, ← e]
  simp [normalize]

/-- A field of two by two by three cells, of which two by one by three are drawn. -/
example (array : ℕ → ℚ) : ∃ Ps, voxels (⟨2, 2, 3, array⟩ : Fld ℚ) "ALL" (fun ax => if ax = .y then some 1 else none) = .ok Ps ∧ Ps.length = 3 := by
  obtain ⟨Ps, h1, h2, -⟩ := (C139_voxels_partial (fun a _ _ => a) (⟨2, 2, 3, array⟩ : Fld ℚ) "ALL" (fun ax => if ax = .y then some 1 else none) (.inl (by decide))).2.2
    (fun | .x => 2 | .y => 1 | .z => 3) (by intro ax; cases ax <;> simp [cellsOf])
  exact ⟨Ps, h1, h2.length_eq.symm⟩

example (array : ℕ → ℚ) : voxels (⟨2, 2, 3, array⟩ : Fld ℚ) "Abs" (fun _ => none) = .ok [] :=
  (C139_abs_refuted (fun a _ _ => a) _ "Abs" (by decide) (by decide) _ fun ax => by simp).1

example : ∃ P, voxels (⟨2, 2, 3, fun _ => 0⟩ : Fld ℚ) "z" (fun _ => none) = .ok [P] ∧ P.pos 0 = 0 := by
  obtain ⟨P, h1, h2, -⟩ := C139_zero_refuted (fun a _ _ => a) (⟨2, 2, 3, fun _ => 0⟩ : Fld ℚ) "z" (.inr (.inr (by decide))) (fun _ => none) (fun | .x => 2 | .y => 2 | .z => 3) (by intro ax; cases ax <;> simp [cellsOf])
    (by
      rintro i hi j hj k hk a ⟨b, hb, rfl⟩
      have : pyLower "z" = "z" := by decide
      rw [this, Plot.get_of_mat (M := fun _ _ _ => 0) rfl (Plot.resolve_int hi) (Plot.resolve_int hj) (Plot.resolve_int hk)] at hb
      cases hb; rfl)
  exact ⟨P, h1, h2⟩

end View3
end Wakis
