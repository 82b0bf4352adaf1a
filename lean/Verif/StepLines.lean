import Verif.Geometry
import Mathlib.Data.List.SplitOn

/-!
# C140: the statements of a STEP file

`wakis/geometry.py`: the regular expressions of `extract_names_from_stp` (137-142) and `extract_colors_from_stp` (23) on characters, line by line; the result is the list of lines that `Geometry.lean` starts from.
In each pattern a repeated class excludes the character that must follow it, so there is at most one way to match at a position and no backtracking.  `\d` and the blanks are those of ASCII; `int` of a text that is not a row of digits is
`ValueError` (signs and underscores, which `int` also reads, are not modelled); the colour is kept as the three texts, the `float` of which is not modelled.
-/

namespace Wakis
namespace Geo
open Wake (Name decimal)

/-! ### Model -/

/-- `\d` -/
def isDig (c : Char) : Bool := 48 ≤ c.toNat && c.toNat ≤ 57

/-- A literal of a pattern: what follows it. -/
def exact : List Char → List Char → Option (List Char)
  | [], s => some s
  | _ :: _, [] => none
  | c :: p, d :: s => if d = c then exact p s else none

/-- A repeated class, once or more: the group and what follows. -/
def plus (p : Char → Bool) (s : List Char) : Option (List Char × List Char) :=
  if s.takeWhile p = [] then none else some (s.takeWhile p, s.dropWhile p)

/-- `#\d+=KEYWORD` -/
def head (kw : List Char) (s : List Char) : Option (List Char) := do
  let s ← exact ['#'] s
  let g ← plus isDig s
  exact ('=' :: kw) g.2

def notQuote (c : Char) : Bool := c != '\''

/-- geometry.py:137-139 `#(\d+)=ADVANCED_BREP_SHAPE_REPRESENTATION\('([^']*)',\(([^)]*)\),#\d+\);` at one position: groups 2 and 3. -/
def shapeAt (s : List Char) : Option (List Char × List Char) := do
  let s ← head "ADVANCED_BREP_SHAPE_REPRESENTATION('".toList s
  let name := s.takeWhile notQuote
  let s ← exact "',(".toList (s.dropWhile notQuote)
  let items := s.takeWhile (· != ')')
  let s ← exact "),#".toList (s.dropWhile (· != ')'))
  let g ← plus isDig s
  let _ ← exact ");".toList g.2
  return (name, items)

/-- geometry.py:140-142 `#(\d+)=PRESENTATION_LAYER_ASSIGNMENT\('([^']+)','[^']+',\(#([\d#,]+)\)\);`: groups 2 and 3. -/
def layerAt (s : List Char) : Option (List Char × List Char) := do
  let s ← head "PRESENTATION_LAYER_ASSIGNMENT('".toList s
  let name ← plus notQuote s
  let s ← exact "','".toList name.2
  let g ← plus notQuote s
  let s ← exact "',(#".toList g.2
  let ids ← plus (fun c => isDig c || c == '#' || c == ',') s
  let _ ← exact "));".toList ids.2
  return (name.1, ids.1)

/-- The texts of red, green and blue. -/
abbrev RGB := List Char × List Char × List Char

def isNum (c : Char) : Bool := isDig c || c == '.'

/-- geometry.py:23 `#\d+=COLOUR_RGB\('?',([\d.]+),([\d.]+),([\d.]+)\);`; the first quote is optional. -/
def colourAt (s : List Char) : Option RGB := do
  let s ← head "COLOUR_RGB(".toList s
  let s ← (exact "'',".toList s).orElse fun _ => exact "',".toList s
  let r ← plus isNum s
  let s ← exact [','] r.2
  let g ← plus isNum s
  let s ← exact [','] g.2
  let b ← plus isNum s
  let _ ← exact ");".toList b.2
  return (r.1, g.1, b.1)

/-- `pattern.search(line)`. -/
def searchBy {α : Type} (m : List Char → Option α) (s : List Char) : Option α :=
  match m s with
  | some g => some g
  | none => match s with
    | [] => none
    | _ :: s => searchBy m s

/-- `int(text)`. -/
def numOf (s : List Char) : Py ℕ := if s ≠ [] ∧ s.all isDig then .ok (numeral (s.map Char.toNat)) else .error .valueError

def codes (s : List Char) : Name := s.map Char.toNat

/-- `text.strip(chars)` and `text.lstrip(chars)`. -/
def stripBy (p : Char → Bool) (s : List Char) : List Char := ((s.dropWhile p).reverse.dropWhile p).reverse

/-- geometry.py:145-166 and 26-32: what one line of the file says. -/
def lineOf (s : List Char) : Py (List (Line RGB)) := do
  let a : List (Line RGB) ← match searchBy shapeAt s with
    | none => pure []
    | some g => do
      let n ← numOf ((stripBy isWs (g.2.takeWhile (· != ','))).dropWhile (· == '#'))
      pure [.brep n (codes g.1)]
  let b : List (Line RGB) ← match searchBy layerAt s with
    | none => pure []
    | some g => do
      let ids ← (g.2.splitOn ',').mapM fun t => numOf (stripBy (· == '#') t)
      pure [.layer (codes g.1) ids]
  let c : List (Line RGB) := match searchBy colourAt s with
    | none => []
    | some g => [.colour g]
  pure (a ++ b ++ c)

/-- The file, line by line. -/
def readStep (lines : List (List Char)) : Py (List (Line RGB)) := do
  let l ← lines.mapM lineOf
  pure l.flatten

/-! ### Specification -/

/-- A number as it is written. -/
def dec (n : ℕ) : List Char := (decimal n).map fun d => Char.ofNat (48 + d)

/-- References `#a,#b,...`. -/
def refs (first : ℕ) (rest : List ℕ) : List Char := '#' :: dec first ++ rest.flatMap fun n => ',' :: '#' :: dec n

/-- The statements that matter, with their numbers, and others. -/
inductive Stmt
  | shape (n : ℕ) (name : List Char) (first : ℕ) (rest : List ℕ) (ctx : ℕ)
  | layer (n : ℕ) (name descr : List Char) (first : ℕ) (rest : List ℕ)
  | colour (n : ℕ) (r g b : List Char)
  | other (text : List Char)

/-- A statement written without blanks on one line, as CST writes it. -/
def Stmt.text : Stmt → List Char
  | .shape n name first rest ctx => '#' :: dec n ++ "=ADVANCED_BREP_SHAPE_REPRESENTATION('".toList ++ name ++ "',(".toList ++ refs first rest ++ "),#".toList ++ dec ctx ++ ");".toList
  | .layer n name descr first rest => '#' :: dec n ++ "=PRESENTATION_LAYER_ASSIGNMENT('".toList ++ name ++ "','".toList ++ descr ++ "',(".toList ++ refs first rest ++ "));".toList
  | .colour n r g b => '#' :: dec n ++ "=COLOUR_RGB('',".toList ++ r ++ ",".toList ++ g ++ ",".toList ++ b ++ ");".toList
  | .other t => t

/-- What it says: the shape's first item is the solid, with the shape's name; a layer gives its name to its members; a colour. -/
def Stmt.says : Stmt → List (Line RGB)
  | .shape _ name first _ _ => [.brep first (codes name)]
  | .layer _ name _ first rest => [.layer (codes name) (first :: rest)]
  | .colour _ r g b => [.colour (r, g, b)]
  | .other _ => []

/-- A text that can be between quotes here: no quote, no `=`. -/
def PlainName (s : List Char) : Prop := '\'' ∉ s ∧ '=' ∉ s

/-- Names are plain, those of layers not empty, colours are digits and dots, other statements do not have one of the three keywords after `=`. -/
def Stmt.Ok : Stmt → Prop
  | .shape _ name _ _ _ => PlainName name
  | .layer _ name descr _ _ => PlainName name ∧ name ≠ [] ∧ PlainName descr ∧ descr ≠ []
  | .colour _ r g b => (r ≠ [] ∧ ∀ c ∈ r, isNum c = true) ∧ (g ≠ [] ∧ ∀ c ∈ g, isNum c = true) ∧ (b ≠ [] ∧ ∀ c ∈ b, isNum c = true)
  | .other t => ∀ kw ∈ ["ADVANCED_BREP_SHAPE_REPRESENTATION", "PRESENTATION_LAYER_ASSIGNMENT", "COLOUR_RGB"], ¬ ('=' :: kw.toList) <:+: t

/-! ### Lemmas -/

lemma exact_iff {p s r : List Char} : exact p s = some r ↔ s = p ++ r := by
  induction p generalizing s with
  | nil => simp [exact, eq_comm]
  | cons c p ih =>
    cases s with
    | nil => simp [exact]
    | cons d s =>
      rw [exact]
      by_cases h : d = c
      · rw [if_pos h, ih]; simp [h]
      · rw [if_neg h]; simp [h]

lemma exact_app (p r : List Char) : exact p (p ++ r) = some r := exact_iff.2 rfl

lemma span_app {p : Char → Bool} {a : List Char} {c : Char} {r : List Char} (ha : ∀ x ∈ a, p x = true) (hc : p c = false) : (a ++ c :: r).takeWhile p = a ∧ (a ++ c :: r).dropWhile p = c :: r := by
  induction a with
  | nil => simp [hc]
  | cons x a ih =>
    obtain ⟨h1, h2⟩ := ih fun y hy => ha y (by simp [hy])
    simp [ha x (by simp), h1, h2]

lemma plus_app {p : Char → Bool} {a : List Char} {c : Char} {r : List Char} (h0 : a ≠ []) (ha : ∀ x ∈ a, p x = true) (hc : p c = false) : plus p (a ++ c :: r) = some (a, c :: r) := by
  unfold plus
  rw [(span_app ha hc).1, (span_app ha hc).2, if_neg h0]

lemma plus_some {p : Char → Bool} {s : List Char} {g : List Char × List Char} (h : plus p s = some g) : s = g.1 ++ g.2 ∧ g.1 ≠ [] ∧ ∀ x ∈ g.1, p x = true := by
  unfold plus at h
  split at h
  · cases h
  · rename_i h0
    obtain rfl := Option.some.inj h
    exact ⟨List.takeWhile_append_dropWhile.symm, h0, fun x hx => by simpa using List.all_eq_true.1 (List.all_takeWhile (p := p) (l := s)) x hx⟩

lemma head_some {kw s r : List Char} (h : head kw s = some r) : ∃ ds, (∀ d ∈ ds, isDig d = true) ∧ s = '#' :: ds ++ '=' :: kw ++ r := by
  unfold head at h
  simp only [Option.bind_eq_bind, Option.bind_eq_some_iff] at h
  obtain ⟨s1, h1, g, h2, h3⟩ := h
  rw [exact_iff] at h1 h3
  obtain ⟨e, -, hd⟩ := plus_some h2
  exact ⟨g.1, hd, by rw [h1, e, h3]; simp⟩

lemma head_app {kw ds : List Char} (r : List Char) (h0 : ds ≠ []) (hd : ∀ d ∈ ds, isDig d = true) : head kw ('#' :: ds ++ '=' :: kw ++ r) = some r := by
  unfold head
  have e : '#' :: ds ++ '=' :: kw ++ r = ['#'] ++ (ds ++ '=' :: (kw ++ r)) := by simp
  rw [e, exact_app]
  simp only [Option.bind_eq_bind, Option.bind_some]
  rw [plus_app h0 hd (by decide)]
  simp only [Option.bind_some]
  rw [← List.cons_append, exact_app]

lemma dig_ne {d : Char} (h : isDig d = true) : d ≠ '#' ∧ d ≠ '=' ∧ d ≠ ',' ∧ d ≠ ')' ∧ d ≠ ';' ∧ d ≠ '\'' ∧ isWs d = false := by
  have key : ∀ c : Char, isDig c = false → d ≠ c := fun c hc e => by rw [e, hc] at h; cases h
  refine ⟨key _ (by decide), key _ (by decide), key _ (by decide), key _ (by decide), key _ (by decide), key _ (by decide), ?_⟩
  unfold isWs
  have h' := h
  simp only [isDig, Bool.and_eq_true, decide_eq_true_eq] at h'
  have h1 : d ≠ ' ' := key _ (by decide)
  simp [h1]
  omega

/-- In a text with one `=`, after a number at its start, a pattern can only match at the start. -/
lemma head_start {kw ds tail a b : List Char} {r : List Char} (hd : ∀ d ∈ ds, isDig d = true) (ht : '=' ∉ tail) (h : '#' :: ds ++ '=' :: tail = a ++ b) (hh : head kw b = some r) : a = [] ∧ kw <+: tail := by
  obtain ⟨ds', hd', rfl⟩ := head_some hh
  cases a with
  | nil =>
    refine ⟨rfl, ?_⟩
    simp only [List.nil_append, List.cons_append, List.append_assoc, List.cons.injEq, true_and] at h
    rcases List.append_eq_append_iff.1 h with ⟨x, hx, hx'⟩ | ⟨x, hx, hx'⟩
    · cases x with
      | nil => simp at hx'; exact ⟨r, hx'.symm⟩
      | cons y x =>
        obtain rfl : '=' = y := by simpa using congrArg List.head? hx'
        exact absurd (hd' '=' (by rw [hx]; simp)) (by decide)
    · cases x with
      | nil => simp at hx'; exact ⟨r, hx'⟩
      | cons y x =>
        simp only [List.cons_append, List.cons.injEq] at hx'
        exact absurd (hd '=' (by rw [hx, ← hx'.1]; simp)) (by decide)
  | cons y a =>
    exfalso
    simp only [List.cons_append, List.append_assoc, List.cons.injEq] at h
    rcases List.append_eq_append_iff.1 h.2 with ⟨x, hx, hx'⟩ | ⟨x, hx, hx'⟩
    · cases x with
      | nil => simp at hx'
      | cons z x =>
        simp only [List.cons_append, List.cons.injEq] at hx'
        exact ht (by rw [hx'.2]; simp)
    · cases x with
      | nil => simp at hx'
      | cons z x =>
        simp only [List.cons_append, List.cons.injEq] at hx'
        exact absurd (hd '#' (by rw [hx, ← hx'.1]; simp)) (by decide)

lemma searchBy_none {α : Type} {m : List Char → Option α} {s : List Char} (h : ∀ a b, s = a ++ b → m b = none) : searchBy m s = none := by
  induction s with
  | nil => rw [searchBy, h [] [] rfl]
  | cons c s ih =>
    rw [searchBy, h [] (c :: s) rfl]
    exact ih fun a b e => h (c :: a) b (by rw [e]; rfl)

lemma searchBy_hit {α : Type} {m : List Char → Option α} {s : List Char} {g : α} (h : m s = some g) : searchBy m s = some g := by
  unfold searchBy
  rw [h]

/-- A match of any of the three patterns starts with a number, `=` and the keyword. -/
lemma shapeAt_head {s : List Char} {g} (h : shapeAt s = some g) : ∃ r, head "ADVANCED_BREP_SHAPE_REPRESENTATION('".toList s = some r := by
  unfold shapeAt at h
  simp only [Option.bind_eq_bind, Option.bind_eq_some_iff] at h
  obtain ⟨r, h1, -⟩ := h
  exact ⟨r, h1⟩

lemma layerAt_head {s : List Char} {g} (h : layerAt s = some g) : ∃ r, head "PRESENTATION_LAYER_ASSIGNMENT('".toList s = some r := by
  unfold layerAt at h
  simp only [Option.bind_eq_bind, Option.bind_eq_some_iff] at h
  obtain ⟨r, h1, -⟩ := h
  exact ⟨r, h1⟩

lemma colourAt_head {s : List Char} {g} (h : colourAt s = some g) : ∃ r, head "COLOUR_RGB(".toList s = some r := by
  unfold colourAt at h
  simp only [Option.bind_eq_bind, Option.bind_eq_some_iff] at h
  obtain ⟨r, h1, -⟩ := h
  exact ⟨r, h1⟩

/-- No keyword after `=`: nothing is found. -/
lemma lineOf_none {s : List Char} (h : ∀ kw ∈ ["ADVANCED_BREP_SHAPE_REPRESENTATION('", "PRESENTATION_LAYER_ASSIGNMENT('", "COLOUR_RGB("], ∀ a b r, s = a ++ b → head kw.toList b ≠ some r) : lineOf s = .ok [] := by
  have h1 : searchBy shapeAt s = none := searchBy_none fun a b e => by
    cases hm : shapeAt b with
    | none => rfl
    | some g =>
      obtain ⟨r, hr⟩ := shapeAt_head hm
      exact absurd hr (h _ (by simp) a b r e)
  have h2 : searchBy layerAt s = none := searchBy_none fun a b e => by
    cases hm : layerAt b with
    | none => rfl
    | some g =>
      obtain ⟨r, hr⟩ := layerAt_head hm
      exact absurd hr (h _ (by simp) a b r e)
  have h3 : searchBy colourAt s = none := searchBy_none fun a b e => by
    cases hm : colourAt b with
    | none => rfl
    | some g =>
      obtain ⟨r, hr⟩ := colourAt_head hm
      exact absurd hr (h _ (by simp) a b r e)
  unfold lineOf
  rw [h1, h2, h3]
  rfl

/-- In a text with one `=`, after a number at its start, only the pattern of its keyword can match, at the start. -/
lemma only_start {α : Type} {m : List Char → Option α} {kw ds tail : List Char} (hm : ∀ b g, m b = some g → ∃ r, head kw b = some r) (hd : ∀ d ∈ ds, isDig d = true) (ht : '=' ∉ tail) :
    searchBy m ('#' :: ds ++ '=' :: tail) = m ('#' :: ds ++ '=' :: tail) ∧ (¬ kw <+: tail → searchBy m ('#' :: ds ++ '=' :: tail) = none) := by
  have key : ∀ a b, '#' :: ds ++ '=' :: tail = a ++ b → ∀ g, m b = some g → a = [] ∧ kw <+: tail := fun a b e g hg => by
    obtain ⟨r, hr⟩ := hm b g hg
    exact head_start hd ht e hr
  constructor
  · cases h : m ('#' :: ds ++ '=' :: tail) with
    | some g => exact searchBy_hit h
    | none =>
      refine searchBy_none fun a b e => ?_
      cases hb : m b with
      | none => rfl
      | some g =>
        obtain ⟨rfl, -⟩ := key a b e g hb
        rw [List.nil_append] at e
        rw [e, hb] at h; cases h
  · intro hk
    refine searchBy_none fun a b e => ?_
    cases hb : m b with
    | none => rfl
    | some g => exact absurd (key a b e g hb).2 hk

/-! Numbers. -/

lemma dec_dig (n : ℕ) : ∀ c ∈ dec n, isDig c = true := by
  intro c hc
  obtain ⟨d, hd, rfl⟩ := List.mem_map.1 hc
  have := decimal_lt n d hd
  interval_cases d <;> decide

lemma dec_ne (n : ℕ) : dec n ≠ [] := by
  unfold dec
  rw [decimal]
  split <;> simp

lemma dec_codes (n : ℕ) : (dec n).map Char.toNat = (decimal n).map (48 + ·) := by
  unfold dec
  rw [List.map_map]
  refine List.map_congr_left fun d hd => ?_
  have := decimal_lt n d hd
  interval_cases d <;> decide

lemma numOf_dec (n : ℕ) : numOf (dec n) = .ok n := by
  unfold numOf
  rw [if_pos ⟨dec_ne n, List.all_eq_true.2 (dec_dig n)⟩, dec_codes, numeral_decimal]

lemma takeWhile_all {p : Char → Bool} {l : List Char} (h : ∀ c ∈ l, p c = true) : l.takeWhile p = l := by
  induction l with
  | nil => rfl
  | cons c l ih => rw [List.takeWhile_cons_of_pos (h c (by simp)), ih fun x hx => h x (by simp [hx])]

lemma dropWhile_all_false {p : Char → Bool} {l : List Char} (h : ∀ c ∈ l, p c = false) : l.dropWhile p = l := by
  cases l with
  | nil => rfl
  | cons c l => rw [List.dropWhile_cons_of_neg]; simp [h c (by simp)]

lemma stripBy_none {p : Char → Bool} {l : List Char} (h : ∀ c ∈ l, p c = false) : stripBy p l = l := by
  unfold stripBy
  rw [dropWhile_all_false h, dropWhile_all_false (fun c hc => h c (by simpa using hc)), List.reverse_reverse]

lemma dec_hash (n : ℕ) : ∀ c ∈ dec n, (c == '#') = false := fun c hc => by simpa using (dig_ne (dec_dig n c hc)).1

/-- The first reference. -/
lemma first_ref (first : ℕ) (rest : List ℕ) : numOf ((stripBy isWs ((refs first rest).takeWhile (· != ','))).dropWhile (· == '#')) = .ok first := by
  have hall : ∀ c ∈ '#' :: dec first, (c != ',') = true := by
    intro c hc
    rcases List.mem_cons.1 hc with rfl | hc
    · decide
    · simpa using (dig_ne (dec_dig first c hc)).2.2.1
  have h1 : (refs first rest).takeWhile (· != ',') = '#' :: dec first := by
    unfold refs
    cases rest with
    | nil => simpa using takeWhile_all hall
    | cons n rest => simpa using (span_app (c := ',') (r := ('#' :: dec n) ++ rest.flatMap fun n => ',' :: '#' :: dec n) hall (by decide)).1
  have h2 : stripBy isWs ('#' :: dec first) = '#' :: dec first := stripBy_none fun c hc => by
    rcases List.mem_cons.1 hc with rfl | hc
    · decide
    · exact (dig_ne (dec_dig first c hc)).2.2.2.2.2.2
  rw [h1, h2, List.dropWhile_cons_of_pos (by decide), dropWhile_all_false (dec_hash first), numOf_dec]

/-- All references, without the first `#`. -/
lemma all_refs (first : ℕ) (rest : List ℕ) : ((dec first ++ rest.flatMap fun n => ',' :: '#' :: dec n).splitOn ',').mapM (fun t => numOf (stripBy (· == '#') t)) = .ok (first :: rest) := by
  have hi : dec first ++ (rest.flatMap fun n => ',' :: '#' :: dec n) = [','].intercalate (dec first :: rest.map fun n => '#' :: dec n) := by
    induction rest generalizing first with
    | nil => simp [List.intercalate]
    | cons n rest ih =>
      have : ∀ (a b : List Char) (l : List (List Char)), [','].intercalate (a :: b :: l) = a ++ ',' :: [','].intercalate (b :: l) := by
        intro a b l; simp [List.intercalate, List.intersperse]
      have hc : ∀ (c : Char) (b : List Char) (l : List (List Char)), [','].intercalate ((c :: b) :: l) = c :: [','].intercalate (b :: l) := by
        intro c b l; cases l <;> simp [List.intercalate, List.intersperse]
      rw [List.map_cons, this, hc, ← ih n]
      simp
  rw [hi, List.splitOn_intercalate ',' _ (by simp)]
  · have hs : ∀ n, numOf (stripBy (· == '#') (dec n)) = .ok n := fun n => by rw [stripBy_none (dec_hash n), numOf_dec]
    have hs' : ∀ n, numOf (stripBy (· == '#') ('#' :: dec n)) = .ok n := fun n => by
      have : stripBy (· == '#') ('#' :: dec n) = stripBy (· == '#') (dec n) := by
        unfold stripBy
        rw [List.dropWhile_cons_of_pos (by decide)]
      rw [this, hs]
    have hr : ∀ l : List ℕ, (l.map fun n => '#' :: dec n).mapM (fun t => numOf (stripBy (· == '#') t)) = .ok l := by
      intro l
      induction l with
      | nil => rfl
      | cons n l ih => rw [List.map_cons, List.mapM_cons, hs', ih]; rfl
    rw [List.mapM_cons, hs, hr]; rfl
  · intro l hl hc
    rcases List.mem_cons.1 hl with rfl | hl
    · exact (dig_ne (dec_dig _ _ hc)).2.2.1 rfl
    · obtain ⟨n, -, rfl⟩ := List.mem_map.1 hl
      rcases List.mem_cons.1 hc with h | hc
      · revert h; decide
      · exact (dig_ne (dec_dig _ _ hc)).2.2.1 rfl

lemma refs_chars (first : ℕ) (rest : List ℕ) : ∀ c ∈ refs first rest, isDig c = true ∨ c = '#' ∨ c = ',' := by
  intro c hc
  unfold refs at hc
  simp only [List.cons_append, List.mem_cons, List.mem_append, List.mem_flatMap] at hc
  rcases hc with h | h | ⟨n, -, h | h | h⟩
  · exact .inr (.inl h)
  · exact .inl (dec_dig _ _ h)
  · exact .inr (.inr h)
  · exact .inr (.inl h)
  · exact .inl (dec_dig _ _ h)

lemma refs_ne {c : Char} (h1 : isDig c = false) (h2 : c ≠ '#') (h3 : c ≠ ',') (first : ℕ) (rest : List ℕ) : c ∉ refs first rest := fun h => by
  rcases refs_chars first rest c h with h | h | h
  · rw [h1] at h; cases h
  · exact h2 h
  · exact h3 h

lemma dec_notin {c : Char} (h1 : isDig c = false) (n : ℕ) : c ∉ dec n := fun h => by rw [dec_dig n c h] at h1; cases h1

/-! ### C140 -/

lemma notQuote_of {s : List Char} (h : '\'' ∉ s) : ∀ c ∈ s, notQuote c = true := fun c hc => by
  unfold notQuote
  simp only [bne_iff_ne]
  rintro rfl
  exact h hc

/-- The pattern of shapes at a shape statement. -/
lemma shapeAt_text (n : ℕ) {name : List Char} (hn : '\'' ∉ name) (first : ℕ) (rest : List ℕ) (ctx : ℕ) (eol : List Char) : shapeAt ((Stmt.shape n name first rest ctx).text ++ eol) = some (name, refs first rest) := by
  have e : (Stmt.shape n name first rest ctx).text ++ eol = '#' :: dec n ++ '=' :: "ADVANCED_BREP_SHAPE_REPRESENTATION('".toList ++ (name ++ '\'' :: (",(".toList ++ (refs first rest ++ ')' :: (",#".toList ++ (dec ctx ++ ')' :: (";".toList ++ eol)))))) := by
    simp [Stmt.text]
  rw [e]
  unfold shapeAt
  rw [head_app _ (dec_ne n) (dec_dig n)]
  simp only [Option.bind_eq_bind, Option.bind_some]
  rw [(span_app (notQuote_of hn) (by decide)).1, (span_app (notQuote_of hn) (by decide)).2]
  rw [show '\'' :: (",(".toList ++ (refs first rest ++ ')' :: (",#".toList ++ (dec ctx ++ ')' :: (";".toList ++ eol))))) = "',(".toList ++ (refs first rest ++ ')' :: (",#".toList ++ (dec ctx ++ ')' :: (";".toList ++ eol)))) from rfl, exact_app]
  simp only [Option.bind_some]
  have hp : ∀ c ∈ refs first rest, (c != ')') = true := fun c hc => by
    simp only [bne_iff_ne]
    rintro rfl
    exact refs_ne (by decide) (by decide) (by decide) first rest hc
  rw [(span_app hp (by decide)).1, (span_app hp (by decide)).2]
  rw [show ')' :: (",#".toList ++ (dec ctx ++ ')' :: (";".toList ++ eol))) = "),#".toList ++ (dec ctx ++ ')' :: (";".toList ++ eol)) from rfl, exact_app]
  simp only [Option.bind_some]
  rw [plus_app (dec_ne ctx) (dec_dig ctx) (by decide)]
  simp only [Option.bind_some]
  rw [show ')' :: (";".toList ++ eol) = ");".toList ++ eol from rfl, exact_app]
  rfl

lemma layerAt_text (n : ℕ) {name descr : List Char} (hn : '\'' ∉ name) (h0 : name ≠ []) (hd : '\'' ∉ descr) (h0' : descr ≠ []) (first : ℕ) (rest : List ℕ) (eol : List Char) :
    layerAt ((Stmt.layer n name descr first rest).text ++ eol) = some (name, dec first ++ rest.flatMap fun n => ',' :: '#' :: dec n) := by
  have e : (Stmt.layer n name descr first rest).text ++ eol = '#' :: dec n ++ '=' :: "PRESENTATION_LAYER_ASSIGNMENT('".toList ++ (name ++ '\'' :: (",'".toList ++ (descr ++ '\'' :: (",(#".toList ++ ((dec first ++ rest.flatMap fun n => ',' :: '#' :: dec n) ++ ')' :: (");".toList ++ eol)))))) := by
    simp [Stmt.text, refs]
  rw [e]
  unfold layerAt
  rw [head_app _ (dec_ne n) (dec_dig n)]
  simp only [Option.bind_eq_bind, Option.bind_some]
  rw [plus_app h0 (notQuote_of hn) (by decide)]
  simp only [Option.bind_some]
  generalize hids : (dec first ++ rest.flatMap fun n => ',' :: '#' :: dec n) = ids
  have hc : ∀ c ∈ ids, (isDig c || c == '#' || c == ',') = true := fun c hc => by
    have : c ∈ refs first rest := by
      rw [← hids] at hc
      unfold refs
      simpa using Or.inr hc
    rcases refs_chars first rest c this with h | h | h <;> simp [h]
  have hne : ids ≠ [] := by rw [← hids]; simp [dec_ne]
  rw [show '\'' :: (",'".toList ++ (descr ++ '\'' :: (",(#".toList ++ (ids ++ ')' :: (");".toList ++ eol))))) = "','".toList ++ (descr ++ '\'' :: (",(#".toList ++ (ids ++ ')' :: (");".toList ++ eol)))) from rfl, exact_app]
  simp only [Option.bind_some]
  rw [plus_app h0' (notQuote_of hd) (by decide)]
  simp only [Option.bind_some]
  rw [show '\'' :: (",(#".toList ++ (ids ++ ')' :: (");".toList ++ eol))) = "',(#".toList ++ (ids ++ ')' :: (");".toList ++ eol)) from rfl, exact_app]
  simp only [Option.bind_some]
  rw [plus_app hne hc (by decide)]
  simp only [Option.bind_some]
  rw [show ')' :: (");".toList ++ eol) = "));".toList ++ eol from rfl, exact_app]
  rfl

lemma colourAt_text (n : ℕ) {r g b : List Char} (hr : r ≠ [] ∧ ∀ c ∈ r, isNum c = true) (hg : g ≠ [] ∧ ∀ c ∈ g, isNum c = true) (hb : b ≠ [] ∧ ∀ c ∈ b, isNum c = true) (eol : List Char) :
    colourAt ((Stmt.colour n r g b).text ++ eol) = some (r, g, b) := by
  have e : (Stmt.colour n r g b).text ++ eol = '#' :: dec n ++ '=' :: "COLOUR_RGB(".toList ++ ("'',".toList ++ (r ++ ',' :: (g ++ ',' :: (b ++ ')' :: (";".toList ++ eol))))) := by
    simp [Stmt.text]
  rw [e]
  unfold colourAt
  rw [head_app _ (dec_ne n) (dec_dig n)]
  simp only [Option.bind_eq_bind, Option.bind_some]
  rw [exact_app]
  simp only [Option.orElse_some, Option.bind_some]
  rw [plus_app hr.1 hr.2 (by decide)]
  simp only [Option.bind_some]
  rw [show ',' :: (g ++ ',' :: (b ++ ')' :: (";".toList ++ eol))) = [','] ++ (g ++ ',' :: (b ++ ')' :: (";".toList ++ eol))) from rfl, exact_app]
  simp only [Option.bind_some]
  rw [plus_app hg.1 hg.2 (by decide)]
  simp only [Option.bind_some]
  rw [show ',' :: (b ++ ')' :: (";".toList ++ eol)) = [','] ++ (b ++ ')' :: (";".toList ++ eol)) from rfl, exact_app]
  simp only [Option.bind_some]
  rw [plus_app hb.1 hb.2 (by decide)]
  simp only [Option.bind_some]
  rw [show ')' :: (";".toList ++ eol) = ");".toList ++ eol from rfl, exact_app]
  rfl

lemma num_ne {c : Char} (h : isNum c = false) {s : List Char} (hs : ∀ x ∈ s, isNum x = true) : c ∉ s := fun hc => by rw [hs c hc] at h; cases h

/-- One statement on one line. -/
lemma lineOf_text (st : Stmt) (h : st.Ok) (eol : List Char) (hw : ∀ c ∈ eol, isWs c = true) : lineOf (st.text ++ eol) = .ok st.says := by
  have he : '=' ∉ eol := fun h => absurd (hw _ h) (by decide)
  cases st with
  | shape n name first rest ctx =>
    obtain ⟨hq, heq⟩ := h
    have e : (Stmt.shape n name first rest ctx).text ++ eol = '#' :: dec n ++ '=' :: ("ADVANCED_BREP_SHAPE_REPRESENTATION('".toList ++ name ++ "',(".toList ++ refs first rest ++ "),#".toList ++ dec ctx ++ ");".toList ++ eol) := by simp [Stmt.text]
    have ht : '=' ∉ ("ADVANCED_BREP_SHAPE_REPRESENTATION('".toList ++ name ++ "',(".toList ++ refs first rest ++ "),#".toList ++ dec ctx ++ ");".toList ++ eol) := by
      simp only [List.mem_append, not_or]
      exact ⟨⟨⟨⟨⟨⟨⟨by decide, heq⟩, by decide⟩, refs_ne (by decide) (by decide) (by decide) _ _⟩, by decide⟩, dec_notin (by decide) _⟩, by decide⟩, he⟩
    have s1 := (only_start (fun b g => shapeAt_head) (dec_dig n) ht).1
    have s2 := (only_start (fun b g => layerAt_head) (dec_dig n) ht).2 (by rintro ⟨r, hr⟩; simp at hr)
    have s3 := (only_start (fun b g => colourAt_head) (dec_dig n) ht).2 (by rintro ⟨r, hr⟩; simp at hr)
    rw [← e] at s1 s2 s3
    unfold lineOf
    rw [s1, s2, s3, shapeAt_text n hq]
    simp only [first_ref]
    rfl
  | layer n name descr first rest =>
    obtain ⟨⟨hq, heq⟩, h0, ⟨hq', heq'⟩, h0'⟩ := h
    have e : (Stmt.layer n name descr first rest).text ++ eol = '#' :: dec n ++ '=' :: ("PRESENTATION_LAYER_ASSIGNMENT('".toList ++ name ++ "','".toList ++ descr ++ "',(".toList ++ refs first rest ++ "));".toList ++ eol) := by simp [Stmt.text]
    have ht : '=' ∉ ("PRESENTATION_LAYER_ASSIGNMENT('".toList ++ name ++ "','".toList ++ descr ++ "',(".toList ++ refs first rest ++ "));".toList ++ eol) := by
      simp only [List.mem_append, not_or]
      exact ⟨⟨⟨⟨⟨⟨⟨by decide, heq⟩, by decide⟩, heq'⟩, by decide⟩, refs_ne (by decide) (by decide) (by decide) _ _⟩, by decide⟩, he⟩
    have s1 := (only_start (fun b g => shapeAt_head) (dec_dig n) ht).2 (by rintro ⟨r, hr⟩; simp at hr)
    have s2 := (only_start (fun b g => layerAt_head) (dec_dig n) ht).1
    have s3 := (only_start (fun b g => colourAt_head) (dec_dig n) ht).2 (by rintro ⟨r, hr⟩; simp at hr)
    rw [← e] at s1 s2 s3
    unfold lineOf
    rw [s1, s2, s3, layerAt_text n hq h0 hq' h0']
    simp only [all_refs]
    rfl
  | colour n r g b =>
    obtain ⟨hr, hg, hb⟩ := h
    have e : (Stmt.colour n r g b).text ++ eol = '#' :: dec n ++ '=' :: ("COLOUR_RGB('',".toList ++ r ++ ",".toList ++ g ++ ",".toList ++ b ++ ");".toList ++ eol) := by simp [Stmt.text]
    have ht : '=' ∉ ("COLOUR_RGB('',".toList ++ r ++ ",".toList ++ g ++ ",".toList ++ b ++ ");".toList ++ eol) := by
      simp only [List.mem_append, not_or]
      exact ⟨⟨⟨⟨⟨⟨⟨by decide, num_ne (by decide) hr.2⟩, by decide⟩, num_ne (by decide) hg.2⟩, by decide⟩, num_ne (by decide) hb.2⟩, by decide⟩, he⟩
    have s1 := (only_start (fun b g => shapeAt_head) (dec_dig n) ht).2 (by rintro ⟨r, hr⟩; simp at hr)
    have s2 := (only_start (fun b g => layerAt_head) (dec_dig n) ht).2 (by rintro ⟨r, hr⟩; simp at hr)
    have s3 := (only_start (fun b g => colourAt_head) (dec_dig n) ht).1
    rw [← e] at s1 s2 s3
    unfold lineOf
    rw [s1, s2, s3, colourAt_text n hr hg hb]
    rfl
  | other t =>
    refine lineOf_none fun kw hkw a b r e hh => ?_
    obtain ⟨ds, -, hb⟩ := head_some hh
    obtain ⟨kw0, q, l, hkw0, hsplit, hl, hlw⟩ : ∃ kw0 q, ∃ l, kw0 ∈ ["ADVANCED_BREP_SHAPE_REPRESENTATION", "PRESENTATION_LAYER_ASSIGNMENT", "COLOUR_RGB"] ∧ kw.toList = kw0.toList ++ q ∧ kw0.toList.getLast? = some l ∧ isWs l = false := by
      simp only [List.mem_cons, List.not_mem_nil, or_false] at hkw
      rcases hkw with rfl | rfl | rfl
      · exact ⟨"ADVANCED_BREP_SHAPE_REPRESENTATION", "('".toList, 'N', by simp, by decide, by decide, by decide⟩
      · exact ⟨"PRESENTATION_LAYER_ASSIGNMENT", "('".toList, 'T', by simp, by decide, by decide, by decide⟩
      · exact ⟨"COLOUR_RGB", "(".toList, 'B', by simp, by decide, by decide, by decide⟩
    have e2 : t ++ eol = ((a ++ '#' :: ds) ++ '=' :: kw0.toList) ++ (q ++ r) := by
      rw [show t ++ eol = a ++ b from e, hb, hsplit]; simp
    rcases List.append_eq_append_iff.1 e2 with ⟨x, hx, hx'⟩ | ⟨x, hx, hx'⟩
    · cases x using List.reverseRecOn with
      | nil => exact h kw0 hkw0 ⟨a ++ '#' :: ds, [], by rw [List.append_nil] at hx; rw [List.append_nil]; exact hx⟩
      | append_singleton x y _ =>
        have hlast := congrArg List.getLast? hx
        have hc : ('=' :: kw0.toList).getLast? = some l := by rw [List.getLast?_cons, hl]; rfl
        rw [List.getLast?_append, hc, ← List.append_assoc, List.getLast?_concat] at hlast
        have : y = l := by simpa using hlast.symm
        have hy := hw y (by rw [hx']; simp)
        rw [this, hlw] at hy; cases hy
    · exact h kw0 hkw0 ⟨a ++ '#' :: ds, x, hx.symm⟩

/-- **C140 (partial).** In every file whose lines each hold one statement, written without blanks and ending in blanks or a line end, with plain names: exactly the shapes, layers and colours of the file are found, in order; with distinct
numbers of solids, the solids are the first items of the shapes under their names. -/
theorem C140_partial (f : List (Stmt × List Char)) (hf : ∀ p ∈ f, p.1.Ok ∧ ∀ c ∈ p.2, isWs c = true) :
    readStep (f.map fun p => p.1.text ++ p.2) = .ok (f.flatMap fun p => p.1.says) ∧
      (((f.flatMap fun p => match p.1 with | .shape _ _ first _ _ => [first] | _ => []).Nodup) →
        solidDict (f.flatMap fun p => p.1.says) = f.flatMap fun p => match p.1 with | .shape _ name first _ _ => [(first, codes name)] | _ => []) := by
  constructor
  · have : ∀ f : List (Stmt × List Char), (∀ p ∈ f, p.1.Ok ∧ ∀ c ∈ p.2, isWs c = true) → (f.map fun p => p.1.text ++ p.2).mapM lineOf = .ok (f.map fun p => p.1.says) := by
      intro f
      induction f with
      | nil => intro _; rfl
      | cons p f ih =>
        intro h
        rw [List.map_cons, List.mapM_cons, lineOf_text p.1 (h p (by simp)).1 p.2 (h p (by simp)).2, ih fun q hq => h q (by simp [hq])]
        rfl
    unfold readStep
    rw [this f hf]
    simp only [bind, Except.bind, pure, Except.pure, List.flatMap_def]
  · intro hn
    have hb : ∀ f : List (Stmt × List Char), breps (f.flatMap fun p => p.1.says) = f.flatMap fun p => match p.1 with | .shape _ name first _ _ => [(first, codes name)] | _ => [] := by
      intro f
      induction f with
      | nil => rfl
      | cons p f ih =>
        rw [List.flatMap_cons, List.flatMap_cons, ← ih]
        unfold breps
        rw [List.filterMap_append]
        congr 1
        rcases p with ⟨p, _⟩
        cases p <;> rfl
    rw [← hb]
    refine C57_all_solids _ ?_
    rw [hb]
    convert hn using 1
    induction f with
    | nil => rfl
    | cons p f ih =>
      rw [List.flatMap_cons, List.flatMap_cons, List.map_append]
      congr 1
      · rcases p with ⟨p, _⟩
        cases p <;> rfl
      · refine ih (fun q hq => hf q (by simp [hq])) ?_
        rw [List.flatMap_cons] at hn
        exact (List.nodup_append.1 hn).2.1

/-- **C140 (blanks, refuted).** In a file with a blank after every `=` (as several CAD programs write it) nothing is found: no shape, no layer, no colour, so no solids to export. -/
theorem C140_blank_refuted (lines : List (List Char)) (h : ∀ s ∈ lines, ∀ a c b, s = a ++ '=' :: c :: b → isWs c = true) (path : Name) :
    readStep lines = .ok [] ∧ extractSolids ([] : List (Line RGB)) path = [] := by
  refine ⟨?_, rfl⟩
  have hl : ∀ s ∈ lines, lineOf s = .ok [] := fun s hs => lineOf_none fun kw hkw a b r e hh => by
    obtain ⟨ds, -, hb⟩ := head_some hh
    obtain ⟨k, kw0, hk, hw⟩ : ∃ k kw0, kw.toList = k :: kw0 ∧ isWs k = false := by
      simp only [List.mem_cons, List.not_mem_nil, or_false] at hkw
      rcases hkw with rfl | rfl | rfl
      · exact ⟨_, _, rfl, by decide⟩
      · exact ⟨_, _, rfl, by decide⟩
      · exact ⟨_, _, rfl, by decide⟩
    have := h s hs (a ++ '#' :: ds) k (kw0 ++ r) (by rw [e, hb, hk]; simp)
    rw [hw] at this; cases this
  unfold readStep
  have : lines.mapM lineOf = .ok (lines.map fun _ => []) := by
    clear h
    induction lines with
    | nil => rfl
    | cons s l ih => rw [List.mapM_cons, hl s (by simp), ih fun q hq => hl q (by simp [hq])]; rfl
  rw [this]
  simp [bind, Except.bind, pure, Except.pure]

lemma exact_mem {p s r : List Char} (h : exact p s = some r) : ∀ c ∈ p, c ∈ s := fun c hc => by rw [exact_iff.1 h]; simp [hc]

lemma plus_mem {p : Char → Bool} {s : List Char} {g : List Char × List Char} (h : plus p s = some g) : ∀ c ∈ g.2, c ∈ s := fun c hc => by rw [(plus_some h).1]; simp [hc]

lemma exact_mem' {p s r : List Char} (h : exact p s = some r) : ∀ c ∈ r, c ∈ s := fun c hc => by rw [exact_iff.1 h]; simp [hc]

lemma head_mem {kw s r : List Char} (h : head kw s = some r) : ∀ c ∈ r, c ∈ s := fun c hc => by
  obtain ⟨ds, -, e⟩ := head_some h
  rw [e]; simp [hc]

lemma drop_mem {p : Char → Bool} {s : List Char} : ∀ c ∈ s.dropWhile p, c ∈ s := fun _ hc => (List.dropWhile_sublist p).subset hc

/-- Every match has a semicolon. -/
lemma shapeAt_semi {s : List Char} {g} (h : shapeAt s = some g) : ';' ∈ s := by
  unfold shapeAt at h
  simp only [Option.bind_eq_bind, Option.bind_eq_some_iff] at h
  obtain ⟨s1, h1, s2, h2, s3, h3, g4, h4, s5, h5, -⟩ := h
  exact head_mem h1 _ (drop_mem _ (exact_mem' h2 _ (drop_mem _ (exact_mem' h3 _ (plus_mem h4 _ (exact_mem h5 ';' (by decide)))))))

lemma layerAt_semi {s : List Char} {g} (h : layerAt s = some g) : ';' ∈ s := by
  unfold layerAt at h
  simp only [Option.bind_eq_bind, Option.bind_eq_some_iff] at h
  obtain ⟨s1, h1, g2, h2, s3, h3, g4, h4, s5, h5, g6, h6, s7, h7, -⟩ := h
  exact head_mem h1 _ (plus_mem h2 _ (exact_mem' h3 _ (plus_mem h4 _ (exact_mem' h5 _ (plus_mem h6 _ (exact_mem h7 ';' (by decide)))))))

lemma colourAt_semi {s : List Char} {g} (h : colourAt s = some g) : ';' ∈ s := by
  unfold colourAt at h
  simp only [Option.bind_eq_bind, Option.bind_eq_some_iff] at h
  obtain ⟨s1, h1, s2, h2, g3, h3, s4, h4, g5, h5, s6, h6, g7, h7, s8, h8, -⟩ := h
  have h2' : ∀ c ∈ s2, c ∈ s1 := by
    cases hx : exact "'',".toList s1 with
    | some x =>
      rw [hx] at h2
      obtain rfl : x = s2 := by simpa using h2
      exact exact_mem' hx
    | none =>
      rw [hx] at h2
      exact exact_mem' (by simpa using h2)
  exact head_mem h1 _ (h2' _ (plus_mem h3 _ (exact_mem' h4 _ (plus_mem h5 _ (exact_mem' h6 _ (plus_mem h7 _ (exact_mem h8 ';' (by decide))))))))

lemma lineOf_semi {s : List Char} (h : ';' ∉ s) : lineOf s = .ok [] := by
  have key : ∀ {α : Type} (m : List Char → Option α), (∀ b g, m b = some g → ';' ∈ b) → searchBy m s = none := fun m hm => searchBy_none fun a b e => by
    cases hb : m b with
    | none => rfl
    | some g => exact absurd (hm b g hb) fun hc => h (by rw [e]; simp [hc])
  unfold lineOf
  rw [key _ fun _ _ => shapeAt_semi, key _ fun _ _ => layerAt_semi, key _ fun _ _ => colourAt_semi]
  rfl

/-- The text of a statement that matters, up to its `=` and after it. -/
lemma text_form (st : Stmt) (h : st.Ok) (hn : ∀ t, st ≠ .other t) : ∃ n tail, st.text = '#' :: dec n ++ '=' :: tail ∧ '=' ∉ tail := by
  cases st with
  | shape n name first rest ctx =>
    refine ⟨n, "ADVANCED_BREP_SHAPE_REPRESENTATION('".toList ++ name ++ "',(".toList ++ refs first rest ++ "),#".toList ++ dec ctx ++ ");".toList, by simp [Stmt.text], ?_⟩
    simp only [List.mem_append, not_or]
    exact ⟨⟨⟨⟨⟨⟨by decide, h.2⟩, by decide⟩, refs_ne (by decide) (by decide) (by decide) _ _⟩, by decide⟩, dec_notin (by decide) _⟩, by decide⟩
  | layer n name descr first rest =>
    refine ⟨n, "PRESENTATION_LAYER_ASSIGNMENT('".toList ++ name ++ "','".toList ++ descr ++ "',(".toList ++ refs first rest ++ "));".toList, by simp [Stmt.text], ?_⟩
    simp only [List.mem_append, not_or]
    exact ⟨⟨⟨⟨⟨⟨by decide, h.1.2⟩, by decide⟩, h.2.2.1.2⟩, by decide⟩, refs_ne (by decide) (by decide) (by decide) _ _⟩, by decide⟩
  | colour n r g b =>
    refine ⟨n, "COLOUR_RGB('',".toList ++ r ++ ",".toList ++ g ++ ",".toList ++ b ++ ");".toList, by simp [Stmt.text], ?_⟩
    simp only [List.mem_append, not_or]
    exact ⟨⟨⟨⟨⟨⟨by decide, num_ne (by decide) h.1.2⟩, by decide⟩, num_ne (by decide) h.2.1.2⟩, by decide⟩, num_ne (by decide) h.2.2.2⟩, by decide⟩
  | other t => exact absurd rfl (hn t)

/-- **C140 (two lines, refuted).** A statement that goes on on a second line, wherever it is broken, is not found: neither line says anything. -/
theorem C140_wrapped_refuted (st : Stmt) (h : st.Ok) (hn : ∀ t, st ≠ .other t) {a b : List Char} (e : st.text = a ++ b) (ha : a ≠ []) (hs : ';' ∉ a) (eol eol' : List Char)
    (hw : ∀ c ∈ eol, isWs c = true) (hw' : ∀ c ∈ eol', isWs c = true) : lineOf (a ++ eol) = .ok [] ∧ lineOf (b ++ eol') = .ok [] := by
  constructor
  · refine lineOf_semi ?_
    rw [List.mem_append, not_or]
    exact ⟨hs, fun hc => absurd (hw _ hc) (by decide)⟩
  · obtain ⟨n, tail, hf, ht⟩ := text_form st h hn
    refine lineOf_none fun kw _ a' b' r e' hh => ?_
    have ht' : '=' ∉ tail ++ eol' := by
      rw [List.mem_append, not_or]
      exact ⟨ht, fun hc => absurd (hw' _ hc) (by decide)⟩
    have := (head_start (a := a ++ a') (b := b') (dec_dig n) ht' (by rw [← List.cons_append, ← List.append_assoc, ← hf, e, List.append_assoc, e', List.append_assoc]) hh).1
    exact ha (List.append_eq_nil_iff.1 this).1

/-- **C140 (apostrophe, refuted).** A shape whose name has an apostrophe (written twice in the file) is not found. -/
theorem C140_quote_refuted (n : ℕ) {x y : List Char} (hx : PlainName x) (hy : '=' ∉ y) (first : ℕ) (rest : List ℕ) (ctx : ℕ) (eol : List Char) (hw : ∀ c ∈ eol, isWs c = true) :
    lineOf ((Stmt.shape n (x ++ '\'' :: '\'' :: y) first rest ctx).text ++ eol) = .ok [] := by
  have he : '=' ∉ eol := fun h => absurd (hw _ h) (by decide)
  set nm := x ++ '\'' :: '\'' :: y with hnm
  have e : (Stmt.shape n nm first rest ctx).text ++ eol = '#' :: dec n ++ '=' :: ("ADVANCED_BREP_SHAPE_REPRESENTATION('".toList ++ nm ++ "',(".toList ++ refs first rest ++ "),#".toList ++ dec ctx ++ ");".toList ++ eol) := by simp [Stmt.text]
  have ht : '=' ∉ ("ADVANCED_BREP_SHAPE_REPRESENTATION('".toList ++ nm ++ "',(".toList ++ refs first rest ++ "),#".toList ++ dec ctx ++ ");".toList ++ eol) := by
    simp only [List.mem_append, not_or]
    refine ⟨⟨⟨⟨⟨⟨⟨by decide, ?_⟩, by decide⟩, refs_ne (by decide) (by decide) (by decide) _ _⟩, by decide⟩, dec_notin (by decide) _⟩, by decide⟩, he⟩
    rw [hnm]
    simp [hx.2, hy]
  have s1 := (only_start (fun b g => shapeAt_head) (dec_dig n) ht).1
  have s2 := (only_start (fun b g => layerAt_head) (dec_dig n) ht).2 (by rintro ⟨r, hr⟩; simp at hr)
  have s3 := (only_start (fun b g => colourAt_head) (dec_dig n) ht).2 (by rintro ⟨r, hr⟩; simp at hr)
  have s0 : shapeAt ((Stmt.shape n nm first rest ctx).text ++ eol) = none := by
    have e' : (Stmt.shape n nm first rest ctx).text ++ eol = '#' :: dec n ++ '=' :: "ADVANCED_BREP_SHAPE_REPRESENTATION('".toList ++ (x ++ '\'' :: ('\'' :: y ++ ("',(".toList ++ refs first rest ++ "),#".toList ++ dec ctx ++ ");".toList ++ eol))) := by
      rw [hnm]; simp [Stmt.text]
    rw [e']
    unfold shapeAt
    rw [head_app _ (dec_ne n) (dec_dig n)]
    simp only [Option.bind_eq_bind, Option.bind_some]
    rw [(span_app (notQuote_of hx.1) (by decide)).2]
    rfl
  rw [← e] at s1 s2 s3
  unfold lineOf
  rw [s1, s2, s3, s0]
  rfl

/-- The text of a colour statement with a name and any three texts. -/
def colourText (n : ℕ) (name r g b : List Char) : List Char := '#' :: dec n ++ "=COLOUR_RGB('".toList ++ name ++ "',".toList ++ r ++ ",".toList ++ g ++ ",".toList ++ b ++ ");".toList

/-- **C140 (colours, refuted).** A colour that has a name, or one whose red is written with an exponent, is not found. -/
theorem C140_colour_refuted (n : ℕ) {name r g b : List Char} (hname : PlainName name) (hcomma : ',' ∉ name) (hr : '=' ∉ r) (hg : '=' ∉ g) (hb : '=' ∉ b) (eol : List Char) (hw : ∀ c ∈ eol, isWs c = true)
    (h : name ≠ [] ∨ ∃ d e, r = d ++ 'E' :: e ∧ ∀ c ∈ d, isNum c = true) : lineOf (colourText n name r g b ++ eol) = .ok [] := by
  have he : '=' ∉ eol := fun h => absurd (hw _ h) (by decide)
  have e : colourText n name r g b ++ eol = '#' :: dec n ++ '=' :: ("COLOUR_RGB('".toList ++ name ++ "',".toList ++ r ++ ",".toList ++ g ++ ",".toList ++ b ++ ");".toList ++ eol) := by simp [colourText]
  have ht : '=' ∉ ("COLOUR_RGB('".toList ++ name ++ "',".toList ++ r ++ ",".toList ++ g ++ ",".toList ++ b ++ ");".toList ++ eol) := by
    simp only [List.mem_append, not_or]
    exact ⟨⟨⟨⟨⟨⟨⟨⟨⟨by decide, hname.2⟩, by decide⟩, hr⟩, by decide⟩, hg⟩, by decide⟩, hb⟩, by decide⟩, he⟩
  have s1 := (only_start (fun b g => shapeAt_head) (dec_dig n) ht).2 (by rintro ⟨r, hr⟩; simp at hr)
  have s2 := (only_start (fun b g => layerAt_head) (dec_dig n) ht).2 (by rintro ⟨r, hr⟩; simp at hr)
  have s3 := (only_start (fun b g => colourAt_head) (dec_dig n) ht).1
  have s0 : colourAt (colourText n name r g b ++ eol) = none := by
    generalize hT : ",".toList ++ g ++ ",".toList ++ b ++ ");".toList ++ eol = T
    have e' : colourText n name r g b ++ eol = '#' :: dec n ++ '=' :: "COLOUR_RGB(".toList ++ ('\'' :: (name ++ '\'' :: ',' :: (r ++ T))) := by
      rw [← hT]; simp [colourText]
    rw [e']
    unfold colourAt
    rw [head_app _ (dec_ne n) (dec_dig n)]
    simp only [Option.bind_eq_bind, Option.bind_some]
    cases name with
    | cons c name =>
      have hc1 : c ≠ '\'' := fun h => hname.1 (by simp [h])
      have hc2 : c ≠ ',' := fun h => hcomma (by simp [h])
      have x1 : exact "'',".toList ('\'' :: (c :: name ++ '\'' :: ',' :: (r ++ T))) = none := by
        simp [exact, hc1]
      have x2 : exact "',".toList ('\'' :: (c :: name ++ '\'' :: ',' :: (r ++ T))) = none := by
        simp [exact, hc2]
      rw [x1, x2]
      rfl
    | nil =>
      obtain h | ⟨d, e2, hd, hnum⟩ := h
      · exact absurd rfl h
      · rw [show '\'' :: ([] ++ '\'' :: ',' :: (r ++ T)) = "'',".toList ++ (r ++ T) from rfl, exact_app]
        simp only [Option.orElse_some, Option.bind_some]
        by_cases h0 : d = []
        · have : plus isNum (r ++ T) = none := by
            unfold plus
            rw [hd, h0]
            rfl
          rw [this]; rfl
        · rw [hd, List.append_assoc, List.cons_append, plus_app h0 hnum (by decide)]
          rfl
  rw [← e] at s1 s2 s3
  unfold lineOf
  rw [s1, s2, s3, s0]
  rfl

/-- A file of four statements. -/
def demoStmts : List (Stmt × List Char) :=
  [(.shape 12 "Be window".toList 37 [40] 9, ['\n']), (.layer 13 "Berillium".toList "x".toList 37 [38], [' ', '\n']), (.colour 14 "0.5".toList "1".toList "0.".toList, ['\n']), (.other "#15=CARTESIAN_POINT('',(0.,0.,0.));".toList, ['\n'])]

example : ∀ p ∈ demoStmts, p.1.Ok ∧ ∀ c ∈ p.2, isWs c = true := by
  intro p hp
  simp only [demoStmts, List.mem_cons, List.not_mem_nil, or_false] at hp
  rcases hp with rfl | rfl | rfl | rfl
  · exact ⟨⟨by decide, by decide⟩, by decide⟩
  · exact ⟨⟨⟨by decide, by decide⟩, by decide, ⟨by decide, by decide⟩, by decide⟩, by decide⟩
  · exact ⟨⟨⟨by decide, by decide⟩, ⟨by decide, by decide⟩, ⟨by decide, by decide⟩⟩, by decide⟩
  · exact ⟨by simp only [Stmt.Ok]; decide, by decide⟩

example : (demoStmts.flatMap fun p => match p.1 with | .shape _ _ first _ _ => [first] | _ => []).Nodup := by decide

example : ∀ s ∈ ["#12 = ADVANCED_BREP_SHAPE_REPRESENTATION('box',(#37),#9);".toList], ∀ a c b, s = a ++ '=' :: c :: b → isWs c = true := by
  intro s hs a c b h
  obtain rfl := List.mem_singleton.1 hs
  have h1 := congrArg (fun l => (l.dropWhile (· != '=')).tail.head?) h
  have h2 : '=' ∉ a := fun ha => by
    have := congrArg (List.count '=') h
    rw [List.count_append, List.count_cons_self] at this
    have h3 := List.count_pos_iff.2 ha
    have h4 : List.count '=' "#12 = ADVANCED_BREP_SHAPE_REPRESENTATION('box',(#37),#9);".toList = 1 := by decide
    omega
  have h3 : ∀ x ∈ a, (x != '=') = true := fun x hx => by
    simp only [bne_iff_ne]; rintro rfl; exact h2 hx
  simp only [(span_app (p := (· != '=')) (c := '=') (r := c :: b) h3 (by decide)).2] at h1
  have h5 : some ' ' = some c := h1
  obtain rfl := Option.some.inj h5
  decide

lemma dec_small : dec 9 = ['9'] ∧ dec 12 = ['1', '2'] ∧ dec 14 = ['1', '4'] ∧ dec 37 = ['3', '7'] ∧ dec 40 = ['4', '0'] := by
  refine ⟨?_, ?_, ?_, ?_, ?_⟩ <;> (unfold dec; repeat (rw [decimal]; simp)) <;> decide

example : lineOf "#12=ADVANCED_BREP_SHAPE_REPRESENTATION('Be\n".toList = .ok [] ∧ lineOf " window',(#37,#40),#9);\n".toList = .ok [] :=
  C140_wrapped_refuted (.shape 12 "Be window".toList 37 [40] 9) ⟨by decide, by decide⟩ (by simp) (a := "#12=ADVANCED_BREP_SHAPE_REPRESENTATION('Be".toList) (b := " window',(#37,#40),#9);".toList) (by simp only [Stmt.text, refs, List.flatMap_cons, List.flatMap_nil, dec_small]; decide) (by decide) (by decide)
    ['\n'] ['\n'] (by decide) (by decide)

example : lineOf "#12=ADVANCED_BREP_SHAPE_REPRESENTATION('Anna''s box',(#37),#9);".toList = .ok [] := by
  have := C140_quote_refuted 12 (x := "Anna".toList) (y := "s box".toList) ⟨by decide, by decide⟩ (by decide) 37 [] 9 [] (by decide)
  rwa [show (Stmt.shape 12 ("Anna".toList ++ '\'' :: '\'' :: "s box".toList) 37 [] 9).text ++ [] = "#12=ADVANCED_BREP_SHAPE_REPRESENTATION('Anna''s box',(#37),#9);".toList from by simp only [Stmt.text, refs, List.flatMap_nil, dec_small]; decide] at this

example : lineOf "#14=COLOUR_RGB('',1.E-2,0.5,0.);".toList = .ok [] := by
  have := C140_colour_refuted 14 (name := []) (r := "1.E-2".toList) (g := "0.5".toList) (b := "0.".toList) ⟨by decide, by decide⟩ (by decide) (by decide) (by decide) (by decide) [] (by decide)
    (.inr ⟨"1.".toList, "-2".toList, by decide, by decide⟩)
  rwa [show colourText 14 [] "1.E-2".toList "0.5".toList "0.".toList ++ [] = "#14=COLOUR_RGB('',1.E-2,0.5,0.);".toList from by simp only [colourText, dec_small]; decide] at this

end Geo
end Wakis
