import Verif.WakeRun

/-!
# C142: copies of a wake solver

`wakis/wakeSolver.py:1492-1503` `copy`: a new object with the same attributes.  Attributes that are replaced later (parameters, `s`, `WP`) are then those of one object; the open file of a recording is one file for both.
-/

namespace Wakis
namespace Wake
noncomputable section

/-! ### Model -/

/-- A file opened by `read_Ez` (wakeSolver.py:1315-1324): what it holds and whether it is still open. -/
structure OpenFile where
  content : Rec ℝ
  isOpen : Bool

/-- Attributes of a wake solver: parameters, the result of the last calculation, and `Ez_hf` as a number in the table of files. -/
structure Obj where
  par : Par ℝ
  out : Option (List ℝ × List ℝ)
  hf : Option ℕ

structure World where
  files : List OpenFile
  objs : List Obj

inductive WOp
  /-- `wakes.append(wakes[o].copy())` -/
  | copy (o : ℕ)
  /-- assign parameters of one object -/
  | setPar (o : ℕ) (p : Par ℝ)
  /-- `calc_long_WP()` of one object while the file that its `Ez_file` names holds `file` -/
  | solve (o : ℕ) (file : Rec ℝ)

/-- wakeSolver.py:321-407 for one object: the file is opened only if `Ez_hf` is None; reading a closed file raises ValueError; at the end the file is closed and forgotten by this object.
(The file is opened even if the calculation fails later, which also leaves it open; a file that cannot be opened is not modelled.) -/
def calcObj (w : World) (o : ℕ) (ob : Obj) (file : Rec ℝ) : World × Py (List ℝ × List ℝ) :=
  let opened : List OpenFile × ℕ := match ob.hf with
    | some h => (w.files, h)
    | none => (w.files ++ [⟨file, true⟩], w.files.length)
  match opened.1[opened.2]? with
  | none => (w, .error .valueError)
  | some f =>
    if f.isOpen then
      match calcLongWP ob.par f.content with
      | .ok x => (⟨opened.1.set opened.2 { f with isOpen := false }, w.objs.set o { ob with out := some x, hf := none }⟩, .ok x)
      | .error e => (⟨opened.1, w.objs.set o { ob with hf := some opened.2 }⟩, .error e)
    else (w, .error .valueError)

/-- wakeSolver.py:1492-1503 and the calls of the user; a call on an object that does not exist does nothing. -/
def wstep (w : World) : WOp → World × Option (Py (List ℝ × List ℝ))
  | .copy o => (match w.objs[o]? with | some ob => { w with objs := w.objs ++ [ob] } | none => w, none)
  | .setPar o p => ({ w with objs := w.objs.modify o fun ob => { ob with par := p } }, none)
  | .solve o file => match w.objs[o]? with
    | none => (w, none)
    | some ob => ((calcObj w o ob file).1, some (calcObj w o ob file).2)

/-- The results of the calculations, in order, and the world at the end. -/
def wrun (w : World) : List WOp → World × List (Py (List ℝ × List ℝ))
  | [] => (w, [])
  | op :: l => ((wrun (wstep w op).1 l).1, (wstep w op).2.toList ++ (wrun (wstep w op).1 l).2)

/-! ### Specification: independent objects -/

/-- An object as the user thinks of it: parameters and last result. -/
abbrev Ideal := Par ℝ × Option (List ℝ × List ℝ)

/-- A calculation evaluates the current recording with the object's own parameters; only this object gets the result. -/
def istep (w : List Ideal) : WOp → List Ideal × Option (Py (List ℝ × List ℝ))
  | .copy o => (w ++ (w[o]?).toList, none)
  | .setPar o p => (w.modify o fun ob => (p, ob.2), none)
  | .solve o file => match w[o]? with
    | none => (w, none)
    | some ob => (match calcLongWP ob.1 file with | .ok x => w.set o (ob.1, some x) | .error _ => w, some (calcLongWP ob.1 file))

def irun (w : List Ideal) : List WOp → List Ideal × List (Py (List ℝ × List ℝ))
  | [] => (w, [])
  | op :: l => ((irun (istep w op).1 l).1, (istep w op).2.toList ++ (irun (istep w op).1 l).2)

/-! ### Theorems -/

def Closed (w : World) : Prop := ∀ ob ∈ w.objs, ob.hf = none

def ideal (w : World) : List Ideal := w.objs.map fun ob => (ob.par, ob.out)

lemma wstep_ideal {w : World} (hw : Closed w) (op : WOp) (hok : ∀ r ∈ (istep (ideal w) op).2, ∃ x, r = .ok x) :
    Closed (wstep w op).1 ∧ ideal (wstep w op).1 = (istep (ideal w) op).1 ∧ (wstep w op).2 = (istep (ideal w) op).2 := by
  cases op with
  | copy o =>
    cases h : w.objs[o]? with
    | none => exact ⟨by simp only [wstep, h]; exact hw, by simp [wstep, istep, ideal, h], rfl⟩
    | some ob =>
      refine ⟨?_, by simp [wstep, istep, ideal, h], rfl⟩
      intro b hb
      simp only [wstep, h] at hb
      rcases List.mem_append.1 hb with hb | hb
      · exact hw b hb
      · rw [List.mem_singleton.1 hb]
        exact hw ob (List.mem_of_getElem? h)
  | setPar o p =>
    refine ⟨?_, ?_, rfl⟩
    · intro b hb
      obtain ⟨i, hi⟩ := List.mem_iff_getElem?.1 hb
      have hi' : (w.objs.modify o fun ob => { ob with par := p })[i]? = some b := hi
      rw [List.getElem?_modify] at hi'
      cases h : w.objs[i]? with
      | none => rw [h] at hi'; cases hi'
      | some a =>
        rw [h] at hi'
        have ha := hw a (List.mem_of_getElem? h)
        obtain rfl := Option.some.inj hi'
        split <;> exact ha
    · unfold wstep istep ideal
      refine List.ext_getElem? fun i => ?_
      simp only [List.getElem?_map, List.getElem?_modify]
      cases h : w.objs[i]? with
      | none => simp [h]
      | some a => by_cases e : o = i <;> simp [h, e]
  | solve o file =>
    unfold istep at hok ⊢
    unfold wstep
    have hi : (ideal w)[o]? = (w.objs[o]?).map fun ob => (ob.par, ob.out) := by unfold ideal; rw [List.getElem?_map]
    cases h : w.objs[o]? with
    | none => rw [h] at hi; simp only [hi, Option.map_none, h]; simpa using hw
    | some ob =>
      rw [h] at hi
      simp only [hi, Option.map_some, h] at hok ⊢
      obtain ⟨x, hx⟩ := hok _ rfl
      have hn := hw ob (List.mem_of_getElem? h)
      have e : calcObj w o ob file = (⟨(w.files ++ [(⟨file, true⟩ : OpenFile)]).set w.files.length ⟨file, false⟩, w.objs.set o { ob with out := some x, hf := none }⟩, .ok x) := by
        unfold calcObj
        simp only [hn, List.getElem?_concat_length, if_true, hx]
      rw [e, hx]
      refine ⟨?_, ?_, rfl⟩
      · intro b hb
        rcases List.mem_or_eq_of_mem_set hb with hb | rfl
        · exact hw b hb
        · rfl
      · unfold ideal
        rw [List.map_set]

/-- **C142 (partial).** For every set of wake solvers without an open file and every history of copying, assigning parameters and calculating in which no calculation fails: each calculation gives the wake of the recording named at that time with
the parameters of its own object, and every object ends with its own parameters and its own last result, as if nothing were shared.  Missing: `C142_refuted`. -/
theorem C142_partial (w : World) (hw : Closed w) (ops : List WOp) (hok : ∀ r ∈ (irun (ideal w) ops).2, ∃ x, r = .ok x) :
    (wrun w ops).2 = (irun (ideal w) ops).2 ∧ ideal (wrun w ops).1 = (irun (ideal w) ops).1 := by
  induction ops generalizing w with
  | nil => exact ⟨rfl, rfl⟩
  | cons op l ih =>
    simp only [irun, List.mem_append, Option.mem_toList] at hok
    obtain ⟨h1, h2, h3⟩ := wstep_ideal hw op fun r hr => hok r (.inl hr)
    obtain ⟨i1, i2⟩ := ih _ h1 fun r hr => hok r (.inr (by rw [← h2]; exact hr))
    simp only [wrun, irun]
    rw [i1, h3, h2]
    exact ⟨rfl, by rw [i2, h2]⟩

/-- **C142 (refuted).** After a calculation that failed, a copy shares the open file: for every calculation of the original that fails and every parameters with which the copy then succeeds, the original can no longer calculate at all — it raises ValueError
whatever its parameters and its recording are — although without the copy it would evaluate the recording of the failed calculation. -/
theorem C142_refuted (p : Par ℝ) (file : Rec ℝ) {e : PyErr} (he : calcLongWP p file = .error e) (pc : Par ℝ) {x : List ℝ × List ℝ} (hx : calcLongWP pc file = .ok x) (p' : Par ℝ) (file' file'' : Rec ℝ) :
    (wrun ⟨[], [⟨p, none, none⟩]⟩ [.solve 0 file, .copy 0, .setPar 1 pc, .solve 1 file', .setPar 0 p', .solve 0 file'']).2 = [.error e, .ok x, .error .valueError] ∧
      (wrun ⟨[], [⟨p, none, none⟩]⟩ [.solve 0 file, .setPar 0 p', .solve 0 file'']).2 = [.error e, calcLongWP p' file] := by
  constructor
  · simp [wrun, wstep, calcObj, he, hx, List.modify]
  · cases h : calcLongWP p' file <;> simp [wrun, wstep, calcObj, he, h, List.modify]

example : (∃ e, calcLongWP (flatPar 1) (flatRec 0) = .error e) ∧ ∃ x, calcLongWP (flatPar 0) (flatRec 0) = .ok x :=
  ⟨⟨_, C47_skip_refuted (flatRec_recorded 0) (flatPar 1) (by norm_num) (by norm_num) one_pos (by norm_num [flatPar])⟩, ⟨_, flatRec_wake 0⟩⟩

example : Closed ⟨[], [⟨flatPar 0, none, none⟩]⟩ ∧ ∀ r ∈ (irun (ideal ⟨[], [⟨flatPar 0, none, none⟩]⟩) [.solve 0 (flatRec 0), .copy 0, .solve 1 (flatRec 1)]).2, ∃ x, r = .ok x := by
  constructor
  · intro ob hob
    rw [List.mem_singleton.1 hob]
  · intro r hr
    simp [irun, istep, ideal, flatRec_wake] at hr
    rcases hr with rfl | rfl <;> exact ⟨_, rfl⟩

end
end Wake
end Wakis
