import Verif.Py

/-!
# C60: the run log (`wakis/logger.py`)
-/

namespace Wakis
namespace Log

/-- A key of a dictionary: text; a number, boolean or `None` (which `json` writes as text); anything else (a tuple, say). -/
inductive Key
  | str (s : String)
  | scalar (text : String)
  | other

/-- A Python value in a log. `atom` is a value `json` writes as it is (text, number, boolean, `None`), with its JSON text; `other` is any object `json` cannot write, with its `str`;
`seq` is a list or tuple; `arr` is a NumPy array, given by its `tolist()`. -/
inductive Val
  | atom (text : String)
  | other (repr : String)
  | seq (l : List Val)
  | dict (d : List (Key × Val))
  | arr (tolist : Val)

/-- A JSON document. -/
inductive Json
  | atom (text : String)
  | list (l : List Json)
  | obj (d : List (String × Json))

mutual
/-- logger.py:82-93 `_convert`. -/
def convert : Val → Val
  | .dict d => .dict (convertDict d)
  | .seq l => .seq (convertList l)
  | .arr t => t
  | .atom s => .atom s
  | .other r => .atom r
/-- `[_convert(v) for v in obj]` -/
def convertList : List Val → List Val
  | [] => []
  | v :: l => convert v :: convertList l
/-- `{k: _convert(v) for k, v in obj.items()}` -/
def convertDict : List (Key × Val) → List (Key × Val)
  | [] => []
  | (k, v) :: d => (k, convert v) :: convertDict d
end

/-- The text of a key in `json.dumps`. -/
def keyText : Key → Py String
  | .str s => .ok s
  | .scalar s => .ok s
  | .other => .error .typeError

mutual
/-- `json.dumps`. -/
def dumps : Val → Py Json
  | .atom s => .ok (.atom s)
  | .other _ => .error .typeError
  | .arr _ => .error .typeError
  | .seq l => (dumpsList l).map .list
  | .dict d => (dumpsDict d).map .obj
def dumpsList : List Val → Py (List Json)
  | [] => .ok []
  | v :: l => (dumps v).bind fun j => (dumpsList l).map (j :: ·)
def dumpsDict : List (Key × Val) → Py (List (String × Json))
  | [] => .ok []
  | (k, v) :: d => (keyText k).bind fun s => (dumps v).bind fun j => (dumpsDict d).map ((s, j) :: ·)
end

/-- The logger: three dictionaries. -/
structure Logger where
  wake : List (Key × Val)
  solver : List (Key × Val)
  grid : List (Key × Val)

/-- The log file: titles and contents, `none` for `(empty)`. -/
abbrev File := List (String × Option Json)

/-- `d["results_folder"] = v` -/
def setFolder (d : List (Key × Val)) (folder : String) : List (Key × Val) :=
  match d with
  | [] => [(.str "results_folder", .atom folder)]
  | (k, v) :: d =>
    match k with
    | .str "results_folder" => (k, .atom folder) :: d
    | _ => (k, v) :: setFolder d folder

/-- `d["results_folder"]`, a text. -/
def getFolder (d : List (Key × Val)) : Option Val :=
  match d with
  | [] => none
  | (k, v) :: d =>
    match k with
    | .str "results_folder" => some v
    | _ => getFolder d

/-- logger.py:75-97: one section. -/
def section_ (title : String) (d : List (Key × Val)) : Py (String × Option Json) :=
  if d.isEmpty then .ok (title, none) else (dumps (convert (.dict d))).map fun j => (title, some j)

/-- logger.py:45-97 `save_logs`; `canMake` says that the folder exists or can be created by `os.mkdir` (its parent exists). -/
def saveLogs (lg : Logger) (folder : Option String) (canMake : Bool) : Py (Logger × File) :=
  let lg := match folder with
    | some f => { lg with wake := setFolder lg.wake f }
    | none => lg
  match getFolder lg.wake with
  | none => .error .keyError
  | some _ =>
    if canMake then do
      let a ← section_ "WakeSolver Logs" lg.wake
      let b ← section_ "Solver Logs" lg.solver
      let c ← section_ "Grid Logs" lg.grid
      return (lg, [a, b, c])
    else .error .fileNotFoundError

/-! ### Specification -/

mutual
/-- **Specification.** `j` is the JSON form of `v`: atoms as they are, other objects as their text, sequences, dictionaries and arrays entry by entry. -/
inductive Form : Val → Json → Prop
  | atom (s) : Form (.atom s) (.atom s)
  | other (r) : Form (.other r) (.atom r)
  | seq {l js} : FormList l js → Form (.seq l) (.list js)
  | dict {d js} : FormDict d js → Form (.dict d) (.obj js)
  | arr {t j} : Form t j → Form (.arr t) j
inductive FormList : List Val → List Json → Prop
  | nil : FormList [] []
  | cons {v j l js} : Form v j → FormList l js → FormList (v :: l) (j :: js)
inductive FormDict : List (Key × Val) → List (String × Json) → Prop
  | nil : FormDict [] []
  | cons {k s v j d js} : (k = .str s ∨ k = .scalar s) → Form v j → FormDict d js → FormDict ((k, v) :: d) ((s, j) :: js)
end

mutual
/-- A value made of text, numbers, booleans, `None`, lists and dictionaries with such keys only. -/
inductive Plain : Val → Prop
  | atom (s) : Plain (.atom s)
  | seq {l} : PlainList l → Plain (.seq l)
  | dict {d} : PlainDict d → Plain (.dict d)
inductive PlainList : List Val → Prop
  | nil : PlainList []
  | cons {v l} : Plain v → PlainList l → PlainList (v :: l)
inductive PlainDict : List (Key × Val) → Prop
  | nil : PlainDict []
  | cons {k v d} : k ≠ .other → Plain v → PlainDict d → PlainDict ((k, v) :: d)
end

mutual
/-- Log content that can be written: keys are text, numbers, booleans or `None`; arrays hold plain values (numbers, text); anything else at the leaves. -/
inductive Good : Val → Prop
  | atom (s) : Good (.atom s)
  | other (r) : Good (.other r)
  | seq {l} : GoodList l → Good (.seq l)
  | dict {d} : GoodDict d → Good (.dict d)
  | arr {t} : Plain t → Good (.arr t)
inductive GoodList : List Val → Prop
  | nil : GoodList []
  | cons {v l} : Good v → GoodList l → GoodList (v :: l)
inductive GoodDict : List (Key × Val) → Prop
  | nil : GoodDict []
  | cons {k v d} : k ≠ .other → Good v → GoodDict d → GoodDict ((k, v) :: d)
end

theorem keyText_ok {k : Key} (h : k ≠ .other) : ∃ s, keyText k = .ok s ∧ (k = .str s ∨ k = .scalar s) := by
  cases k with
  | str s => exact ⟨s, rfl, .inl rfl⟩
  | scalar s => exact ⟨s, rfl, .inr rfl⟩
  | other => exact absurd rfl h

mutual
theorem dumps_plain : ∀ {v}, Plain v → ∃ j, dumps v = .ok j ∧ Form v j
  | _, .atom s => ⟨_, rfl, .atom s⟩
  | _, .seq h => by
    obtain ⟨js, h1, h2⟩ := dumps_plainList h
    exact ⟨_, by rw [dumps, h1]; rfl, .seq h2⟩
  | _, .dict h => by
    obtain ⟨js, h1, h2⟩ := dumps_plainDict h
    exact ⟨_, by rw [dumps, h1]; rfl, .dict h2⟩
theorem dumps_plainList : ∀ {l}, PlainList l → ∃ js, dumpsList l = .ok js ∧ FormList l js
  | _, .nil => ⟨_, rfl, .nil⟩
  | _, .cons hv hl => by
    obtain ⟨j, h1, h2⟩ := dumps_plain hv
    obtain ⟨js, h3, h4⟩ := dumps_plainList hl
    exact ⟨_, by rw [dumpsList, h1, h3]; rfl, .cons h2 h4⟩
theorem dumps_plainDict : ∀ {d}, PlainDict d → ∃ js, dumpsDict d = .ok js ∧ FormDict d js
  | _, .nil => ⟨_, rfl, .nil⟩
  | _, .cons hk hv hd => by
    obtain ⟨s, hs, hks⟩ := keyText_ok hk
    obtain ⟨j, h1, h2⟩ := dumps_plain hv
    obtain ⟨js, h3, h4⟩ := dumps_plainDict hd
    exact ⟨_, by rw [dumpsDict, hs, h1, h3]; rfl, .cons hks h2 h4⟩
end

mutual
theorem dumps_good : ∀ {v}, Good v → ∃ j, dumps (convert v) = .ok j ∧ Form v j
  | _, .atom s => ⟨_, rfl, .atom s⟩
  | _, .other r => ⟨_, rfl, .other r⟩
  | _, .seq h => by
    obtain ⟨js, h1, h2⟩ := dumps_goodList h
    exact ⟨_, by rw [convert, dumps, h1]; rfl, .seq h2⟩
  | _, .dict h => by
    obtain ⟨js, h1, h2⟩ := dumps_goodDict h
    exact ⟨_, by rw [convert, dumps, h1]; rfl, .dict h2⟩
  | _, .arr h => by
    obtain ⟨j, h1, h2⟩ := dumps_plain h
    exact ⟨j, by rw [convert, h1], .arr h2⟩
theorem dumps_goodList : ∀ {l}, GoodList l → ∃ js, dumpsList (convertList l) = .ok js ∧ FormList l js
  | _, .nil => ⟨_, rfl, .nil⟩
  | _, .cons hv hl => by
    obtain ⟨j, h1, h2⟩ := dumps_good hv
    obtain ⟨js, h3, h4⟩ := dumps_goodList hl
    exact ⟨_, by rw [convertList, dumpsList, h1, h3]; rfl, .cons h2 h4⟩
theorem dumps_goodDict : ∀ {d}, GoodDict d → ∃ js, dumpsDict (convertDict d) = .ok js ∧ FormDict d js
  | _, .nil => ⟨_, rfl, .nil⟩
  | _, .cons hk hv hd => by
    obtain ⟨s, hs, hks⟩ := keyText_ok hk
    obtain ⟨j, h1, h2⟩ := dumps_good hv
    obtain ⟨js, h3, h4⟩ := dumps_goodDict hd
    exact ⟨_, by rw [convertDict, dumpsDict, hs, h1, h3]; rfl, .cons hks h2 h4⟩
end

theorem bind_eq_ok {α β : Type} {x : Py α} {f : α → Py β} {b : β} (h : x.bind f = .ok b) : ∃ a, x = .ok a ∧ f a = .ok b := by
  cases x with
  | error e => cases h
  | ok a => exact ⟨a, rfl, h⟩

theorem map_eq_ok {α β : Type} {x : Py α} {f : α → β} {b : β} (h : x.map f = .ok b) : ∃ a, x = .ok a ∧ f a = b := by
  cases x with
  | error e => cases h
  | ok a => exact ⟨a, rfl, by cases h; rfl⟩

mutual
theorem plain_of_dumps : ∀ (v : Val) {j}, dumps v = .ok j → Plain v
  | .atom s, _, _ => .atom s
  | .other _, _, h => by cases h
  | .arr _, _, h => by cases h
  | .seq l, _, h => by
    rw [dumps] at h
    obtain ⟨js, h1, -⟩ := map_eq_ok h
    exact .seq (plain_of_dumpsList l h1)
  | .dict d, _, h => by
    rw [dumps] at h
    obtain ⟨js, h1, -⟩ := map_eq_ok h
    exact .dict (plain_of_dumpsDict d h1)
theorem plain_of_dumpsList : ∀ (l : List Val) {js}, dumpsList l = .ok js → PlainList l
  | [], _, _ => .nil
  | v :: l, _, h => by
    rw [dumpsList] at h
    obtain ⟨j, h1, h2⟩ := bind_eq_ok h
    obtain ⟨js, h3, -⟩ := map_eq_ok h2
    exact .cons (plain_of_dumps v h1) (plain_of_dumpsList l h3)
theorem plain_of_dumpsDict : ∀ (d : List (Key × Val)) {js}, dumpsDict d = .ok js → PlainDict d
  | [], _, _ => .nil
  | (k, v) :: d, _, h => by
    rw [dumpsDict] at h
    obtain ⟨s, h0, h⟩ := bind_eq_ok h
    obtain ⟨j, h1, h2⟩ := bind_eq_ok h
    obtain ⟨js, h3, -⟩ := map_eq_ok h2
    exact .cons (by rintro rfl; cases h0) (plain_of_dumps v h1) (plain_of_dumpsDict d h3)
end

mutual
theorem good_of_dumps : ∀ (v : Val) {j}, dumps (convert v) = .ok j → Good v
  | .atom s, _, _ => .atom s
  | .other r, _, _ => .other r
  | .arr t, _, h => by
    rw [convert] at h
    exact .arr (plain_of_dumps t h)
  | .seq l, _, h => by
    rw [convert, dumps] at h
    obtain ⟨js, h1, -⟩ := map_eq_ok h
    exact .seq (good_of_dumpsList l h1)
  | .dict d, _, h => by
    rw [convert, dumps] at h
    obtain ⟨js, h1, -⟩ := map_eq_ok h
    exact .dict (good_of_dumpsDict d h1)
theorem good_of_dumpsList : ∀ (l : List Val) {js}, dumpsList (convertList l) = .ok js → GoodList l
  | [], _, _ => .nil
  | v :: l, _, h => by
    rw [convertList, dumpsList] at h
    obtain ⟨j, h1, h2⟩ := bind_eq_ok h
    obtain ⟨js, h3, -⟩ := map_eq_ok h2
    exact .cons (good_of_dumps v h1) (good_of_dumpsList l h3)
theorem good_of_dumpsDict : ∀ (d : List (Key × Val)) {js}, dumpsDict (convertDict d) = .ok js → GoodDict d
  | [], _, _ => .nil
  | (k, v) :: d, _, h => by
    rw [convertDict, dumpsDict] at h
    obtain ⟨s, h0, h⟩ := bind_eq_ok h
    obtain ⟨j, h1, h2⟩ := bind_eq_ok h
    obtain ⟨js, h3, -⟩ := map_eq_ok h2
    exact .cons (by rintro rfl; cases h0) (good_of_dumps v h1) (good_of_dumpsDict d h3)
end

/-! ### C60 -/

/-- A section shows a dictionary: `(empty)` if there is nothing in it, its JSON form otherwise. -/
def Shows (d : List (Key × Val)) (c : Option Json) : Prop := (d = [] ∧ c = none) ∨ ∃ js, c = some (.obj js) ∧ d ≠ [] ∧ FormDict d js

theorem section_good (title : String) {d : List (Key × Val)} (h : GoodDict d) : ∃ c, section_ title d = .ok (title, c) ∧ Shows d c := by
  unfold section_
  cases d with
  | nil => exact ⟨none, rfl, .inl ⟨rfl, rfl⟩⟩
  | cons p d =>
    obtain ⟨js, h1, h2⟩ := dumps_goodDict h
    refine ⟨some (.obj js), ?_, .inr ⟨js, rfl, List.cons_ne_nil _ _, h2⟩⟩
    rw [if_neg (by simp), convert, dumps, h1]
    rfl

theorem getFolder_setFolder (d : List (Key × Val)) (f : String) : getFolder (setFolder d f) = some (.atom f) := by
  induction d with
  | nil => simp only [setFolder, getFolder]
  | cons p d ih =>
    obtain ⟨k, v⟩ := p
    unfold setFolder
    split
    · simp only [getFolder]
    · rename_i hk
      unfold getFolder
      split
      · exact absurd rfl (hk)
      · exact ih

theorem setFolder_good {d : List (Key × Val)} (h : GoodDict d) (f : String) : GoodDict (setFolder d f) := by
  induction d with
  | nil => exact .cons (by simp) (.atom f) .nil
  | cons p d ih =>
    obtain ⟨k, v⟩ := p
    cases h with
    | cons hk hv hd =>
      unfold setFolder
      split
      · exact .cons (by simp) (.atom f) hd
      · exact .cons hk hv (ih hd)

/-- **C60 (partial).** For every log whose keys are text, numbers, booleans or `None` and whose arrays hold plain values, saving into a given folder writes the wake solver, solver and grid sections in this
order, each with the JSON form of its content at any nesting, and records the folder. -/
theorem C60_partial (lg : Logger) (folder : String) (h1 : GoodDict lg.wake) (h2 : GoodDict lg.solver) (h3 : GoodDict lg.grid) :
    ∃ lg' a b c, saveLogs lg (some folder) true = .ok (lg', [("WakeSolver Logs", a), ("Solver Logs", b), ("Grid Logs", c)]) ∧
      Shows lg'.wake a ∧ Shows lg.solver b ∧ Shows lg.grid c ∧ getFolder lg'.wake = some (.atom folder) ∧ lg'.solver = lg.solver ∧ lg'.grid = lg.grid := by
  obtain ⟨a, ha, ha'⟩ := section_good "WakeSolver Logs" (setFolder_good h1 folder)
  obtain ⟨b, hb, hb'⟩ := section_good "Solver Logs" h2
  obtain ⟨c, hc, hc'⟩ := section_good "Grid Logs" h3
  refine ⟨{ lg with wake := setFolder lg.wake folder }, a, b, c, ?_, ha', hb', hc', getFolder_setFolder _ _, rfl, rfl⟩
  unfold saveLogs
  simp only [getFolder_setFolder, if_true, ha, hb, hc, bind, Except.bind]
  rfl

/-- **C60 (what happens).** Saving succeeds exactly for such logs. -/
theorem C60_actual (lg : Logger) (hf : ∃ v, getFolder lg.wake = some v) : (∃ r, saveLogs lg none true = .ok r) ↔ GoodDict lg.wake ∧ GoodDict lg.solver ∧ GoodDict lg.grid := by
  obtain ⟨v, hv⟩ := hf
  have sec : ∀ title d r, section_ title d = .ok r → GoodDict d := by
    intro title d r h
    unfold section_ at h
    cases d with
    | nil => exact .nil
    | cons p d =>
      rw [if_neg (by simp), convert, dumps] at h
      obtain ⟨j, h, -⟩ := map_eq_ok h
      obtain ⟨js, h, -⟩ := map_eq_ok h
      exact good_of_dumpsDict _ h
  constructor
  · rintro ⟨r, hr⟩
    unfold saveLogs at hr
    simp only [hv, if_true] at hr
    obtain ⟨a, ha, hr⟩ := bind_eq_ok hr
    obtain ⟨b, hb, hr⟩ := bind_eq_ok hr
    obtain ⟨c, hc, hr⟩ := bind_eq_ok hr
    exact ⟨sec _ _ _ ha, sec _ _ _ hb, sec _ _ _ hc⟩
  · rintro ⟨h1, h2, h3⟩
    obtain ⟨a, ha, -⟩ := section_good "WakeSolver Logs" h1
    obtain ⟨b, hb, -⟩ := section_good "Solver Logs" h2
    obtain ⟨c, hc, -⟩ := section_good "Grid Logs" h3
    refine ⟨(lg, [("WakeSolver Logs", a), ("Solver Logs", b), ("Grid Logs", c)]), ?_⟩
    unfold saveLogs
    simp only [hv, if_true, ha, hb, hc, bind, Except.bind]
    rfl

/-- **C60 (refuted: complex arrays).** A complex NumPy array anywhere in a section makes saving fail. -/
theorem C60_complex_refuted (lg : Logger) (k : Key) (r : String) (l : List Val) : ∀ x, saveLogs { lg with solver := [(k, .arr (.seq (.other r :: l)))] } (some "results") true ≠ .ok x := by
  intro x h
  unfold saveLogs at h
  simp only [getFolder_setFolder, if_true] at h
  obtain ⟨a, ha, h⟩ := bind_eq_ok h
  obtain ⟨b, hb, h⟩ := bind_eq_ok h
  unfold section_ at hb
  rw [if_neg (by simp), convert, dumps] at hb
  obtain ⟨j, hb, -⟩ := map_eq_ok hb
  obtain ⟨js, hb, -⟩ := map_eq_ok hb
  cases good_of_dumpsDict _ hb with
  | cons _ hv _ =>
    cases hv with
    | arr hp =>
      cases hp with
      | seq hl =>
        cases hl with
        | cons hv _ => cases hv

/-- **C60 (refuted: keys).** A dictionary with a tuple as a key makes saving fail. -/
theorem C60_key_refuted (lg : Logger) (v : Val) : ∀ x, saveLogs { lg with grid := [(.other, v)] } (some "results") true ≠ .ok x := by
  intro x h
  unfold saveLogs at h
  simp only [getFolder_setFolder, if_true] at h
  obtain ⟨a, ha, h⟩ := bind_eq_ok h
  obtain ⟨b, hb, h⟩ := bind_eq_ok h
  obtain ⟨c, hc, h⟩ := bind_eq_ok h
  unfold section_ at hc
  rw [if_neg (by simp), convert, dumps] at hc
  obtain ⟨j, hc, -⟩ := map_eq_ok hc
  obtain ⟨js, hc, -⟩ := map_eq_ok hc
  cases good_of_dumpsDict _ hc with
  | cons hk _ _ => exact hk rfl

/-- **C60 (no folder).** Without a folder, given now or before, saving fails. -/
theorem C60_folder (lg : Logger) (m : Bool) (h : getFolder lg.wake = none) : saveLogs lg none m = .error .keyError := by
  unfold saveLogs
  simp only [h]

example : GoodDict [(.str "wake_length", .atom "10.0"), (.str "grid", .dict [(.scalar "1", .arr (.seq [.atom "0.0", .atom "1.0"])), (.str "mpi", .other "<MPI>")])] :=
  .cons (by simp) (.atom _) (.cons (by simp) (.dict (.cons (by simp) (.arr (.seq (.cons (.atom _) (.cons (.atom _) .nil)))) (.cons (by simp) (.other _) .nil))) .nil)

end Log
end Wakis
