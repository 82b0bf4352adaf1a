import Verif.WakeRun
import Verif.WakeProps3d
import Verif.WakeProps4

/-!
# C53, C69: result files (`save_txt`, `read_txt`, the files written by a wake calculation, `load_results`)

A text file is its first line and its rows of two numbers. `np.savetxt` writes 18 digits after the point, which read back as the same double; here numbers are exact.
A file of real numbers reads back as real numbers; here all columns are complex.
-/

namespace Wakis
namespace Wake

open Complex

/-! ### Model -/

/-- A text file with two columns of numbers. -/
structure Txt where
  line : List Char
  rows : List (ℂ × ℂ)

/-- The keys of the dictionary returned by `read_txt`. -/
inductive TKey
  | name (s : List Char)
  | idx (i : ℕ)
  deriving DecidableEq

/-- wakeSolver.py:1379-1381: spaces, `#` and the newline are removed from the header. -/
def squeeze (h : List Char) : List Char := h.filter fun c => c ≠ ' ' ∧ c ≠ '#' ∧ c ≠ '\n'

/-- Python `s.split("]")`. -/
def splitBr : List Char → List (List Char)
  | [] => [[]]
  | c :: l => if c = ']' then [] :: splitBr l else
    match splitBr l with
    | [] => [[c]]
    | h :: t => (c :: h) :: t

/-- `d[k] = v` for a Python dictionary (ordered by first insertion). -/
def dput {α β : Type} [DecidableEq α] : List (α × β) → α → β → List (α × β)
  | [], k, v => [(k, v)]
  | (a, b) :: l, k, v => if a = k then (a, v) :: l else (a, b) :: dput l k v

/-- wakeSolver.py:1344-1399 `read_txt` of a file of two columns. `np.loadtxt` returns a vector instead of a matrix for fewer than two rows, so that `load[0, :]` fails in both branches. A
header with fewer than two brackets gives integer keys. -/
def readTxt (f : Option Txt) : Py (List (TKey × List ℂ)) :=
  match f with
  | none => .error .fileNotFoundError
  | some t =>
    if t.rows.length < 2 then .error .indexError
    else match splitBr (squeeze t.line) with
      | a :: b :: _ => .ok (dput (dput [] (.name (a ++ [']'])) (t.rows.map Prod.fst)) (.name (b ++ [']'])) (t.rows.map Prod.snd))
      | _ => .ok [(.idx 0, t.rows.map Prod.fst), (.idx 1, t.rows.map Prod.snd)]

/-- wakeSolver.py:1444-1449 and every other `np.savetxt` of the class: `np.c_` needs columns of equal length, `np.savetxt` puts `# ` before the header; the first line ends at the first newline. -/
def savetxt (x y : List Char) (xs ys : List ℂ) : Py Txt :=
  if xs.length = ys.length then
    .ok ⟨("# ".toList ++ ("   ".toList ++ x ++ List.replicate 20 ' ' ++ y)).takeWhile (· ≠ '\n'), xs.zip ys⟩
  else .error .valueError

/-- A folder. -/
abbrev Files := String → Option Txt

def Files.write (fs : Files) (n : String) (t : Txt) : Files := fun m => if m = n then some t else fs m

/-- The arrays of a `WakeSolver` after `solve`. -/
structure Out where
  s : List ℝ
  WP : List ℝ
  WPx : List ℝ
  WPy : List ℝ
  lambdas : List ℝ
  f : List ℝ
  Z : List ℂ
  lambdaf : List ℂ
  fx : List ℝ
  Zx : List ℂ
  fy : List ℝ
  Zy : List ℂ

/-- Real columns. -/
def cx (l : List ℝ) : List ℂ := l.map fun x : ℝ => (x : ℂ)

noncomputable section

/-- wakeSolver.py:199-243 `solve("both")`: the arrays computed. The cells of `WP_3d` in loop order, `WP` is its centre (529). -/
def solveBoth (p : Par ℝ) (fmax sigmaz : ℝ) (lam : Option (List ℝ)) (nx : ℕ) (dx : ℕ → ℝ) (ny : ℕ) (dy : ℕ → ℝ) (r : Rec ℝ) : Py Out := do
  let w3 ← calcLongWP3d p r
  let side := 2 * p.nTrans + 1
  let tr ← calcTransWP p.nTrans w3.1 (fun i j m => (w3.2.getD (i * side + j) []).getD m 0) nx dx ny dy
  let lambdas := lam.getD (gaussLambda sigmaz w3.1)
  let long ← impedance (-1) p.v fmax 1001 w3.1 (w3.2.getD (p.nTrans * side + p.nTrans) []) lambdas
  let zx ← impedance I p.v fmax 1001 w3.1 tr.1 lambdas
  let zy ← impedance I p.v fmax 1001 w3.1 tr.2 lambdas
  return ⟨w3.1, w3.2.getD (p.nTrans * side + p.nTrans) [], tr.1, tr.2, lambdas, long.f, long.Z, long.lambdaf, zx.f, zx.Z, zy.f, zy.Z⟩

/-- wakeSolver.py:199-243 `solve("longitudinal")`: `s`, `WP`, λ and the longitudinal impedance. -/
def solveOnlyLong (p : Par ℝ) (fmax sigmaz : ℝ) (lam : Option (List ℝ)) (r : Rec ℝ) : Py Out := do
  let w ← calcLongWP p r
  let lambdas := lam.getD (gaussLambda sigmaz w.1)
  let long ← impedance (-1) p.v fmax 1001 w.1 w.2 lambdas
  return ⟨w.1, w.2, [], [], lambdas, long.f, long.Z, long.lambdaf, [], [], [], []⟩

/-- The header names (wakeSolver.py:398, 610, 616, 699, 705, 763, 768, 852). -/
def hS : List Char := "s [m]".toList
def hWP : List Char := "WP [V/pC]".toList
def hF : List Char := "f [Hz]".toList
def hZ : List Char := "Z [Ohm]".toList
def hZx : List Char := "Zx [Ohm]".toList
def hZy : List Char := "Zy [Ohm]".toList
def hSpec : List Char := "Charge distribution spectrum [C/s]".toList
def hSl : List Char := "s [Hz]".toList
def hLam : List Char := "Charge distribution [C/m]".toList

/-- wakeSolver.py:694-707 and, if λ was computed in this call, 850-856. -/
def saveLongZ (o : Out) (freshLambda : Bool) (fs : Files) : Py Files := do
  let lam ← savetxt hSl hLam (cx o.s) (cx o.lambdas)
  let fs := if freshLambda then fs.write "lambda.txt" lam else fs
  let z ← savetxt hF hZ (cx o.f) o.Z
  let sp ← savetxt hF hSpec (cx o.f) o.lambdaf
  return (fs.write "Z.txt" z).write "spectrum.txt" sp

/-- The files written by `solve("both")` with `save=True`, in order (wakeSolver.py:531-537, 606-617, 694-707, 759-769). -/
def saveBoth (o : Out) (freshLambda : Bool) (fs : Files) : Py Files := do
  let wp ← savetxt hS hWP (cx o.s) (cx o.WP)
  let wpx ← savetxt hS hWP (cx o.s) (cx o.WPx)
  let wpy ← savetxt hS hWP (cx o.s) (cx o.WPx)
  let fs ← saveLongZ o freshLambda (((fs.write "WP.txt" wp).write "WPx.txt" wpx).write "WPy.txt" wpy)
  let zx ← savetxt hF hZx (cx o.fx) o.Zx
  let zy ← savetxt hF hZy (cx o.fy) o.Zy
  return (fs.write "Zx.txt" zx).write "Zy.txt" zy

/-- The files written by `solve("longitudinal")` with `save=True` (wakeSolver.py:393-398, 694-707). -/
def saveOnlyLong (o : Out) (freshLambda : Bool) (fs : Files) : Py Files := do
  let wp ← savetxt hS hWP (cx o.s) (cx o.WP)
  saveLongZ o freshLambda (fs.write "WP.txt" wp)

/-- `a, b = d.values()`. -/
def unpack2 (d : List (TKey × List ℂ)) : Py (List ℂ × List ℂ) :=
  match d with
  | [a, b] => .ok (a.2, b.2)
  | _ => .error .valueError

/-- What `load_results` sets. -/
structure Loaded where
  lambdas : List ℂ
  WPx : List ℂ
  WPy : List ℂ
  s : List ℂ
  WP : List ℂ
  lambdaf : List ℂ
  Zx : List ℂ
  Zy : List ℂ
  f : List ℂ
  Z : List ℂ
  wakelength : ℂ

def readPair (fs : Files) (n : String) : Py (List ℂ × List ℂ) := (readTxt (fs n)).bind unpack2

/-- wakeSolver.py:1456-1490 `load_results`. -/
def loadResults (fs : Files) : Py Loaded := do
  let lam ← readPair fs "lambda.txt"
  let wpx ← readPair fs "WPx.txt"
  let wpy ← readPair fs "WPy.txt"
  let wp ← readPair fs "WP.txt"
  let sp ← readPair fs "spectrum.txt"
  let zx ← readPair fs "Zx.txt"
  let zy ← readPair fs "Zy.txt"
  let z ← readPair fs "Z.txt"
  return ⟨lam.2, wpx.2, wpy.2, wp.1, wp.2, sp.2, zx.2, zy.2, z.1.map fun x => ((‖x‖ : ℝ) : ℂ), z.2, wp.1.getLastD 0⟩

/-! ### C69: save_txt and read_txt -/

theorem splitBr_bracket {a : List Char} (ha : ']' ∉ a) (l : List Char) : splitBr (a ++ ']' :: l) = a :: splitBr l := by
  induction a with
  | nil => simp [splitBr]
  | cons c a ih =>
    rw [List.mem_cons, not_or] at ha
    rw [List.cons_append, splitBr, if_neg (Ne.symm ha.1), ih ha.2]

theorem squeeze_append (a b : List Char) : squeeze (a ++ b) = squeeze a ++ squeeze b := List.filter_append ..

theorem not_mem_squeeze {a : List Char} (ha : ']' ∉ a) : ']' ∉ squeeze a := fun h => ha (List.mem_of_mem_filter h)

theorem squeeze_bracket : squeeze [']'] = [']'] := by decide

theorem squeeze_prefix : squeeze ("# ".toList ++ "   ".toList) = [] := by decide

theorem squeeze_pad : squeeze (List.replicate 20 ' ') = [] := by decide

theorem takeWhile_self {p : Char → Bool} : ∀ {l : List Char}, (∀ c ∈ l, p c = true) → l.takeWhile p = l
  | [], _ => rfl
  | c :: l, h => by
    rw [List.takeWhile_cons, h c List.mem_cons_self, if_pos rfl, takeWhile_self fun c' hc' => h c' (List.mem_cons_of_mem _ hc')]

/-- The first line of a file whose names contain no newline. -/
theorem savetxt_eq {x y : List Char} (hx : '\n' ∉ x) (hy : '\n' ∉ y) {xs ys : List ℂ} (h : xs.length = ys.length) :
    savetxt x y xs ys = .ok ⟨"# ".toList ++ ("   ".toList ++ x ++ List.replicate 20 ' ' ++ y), xs.zip ys⟩ := by
  unfold savetxt
  rw [if_pos h]
  congr 2
  refine takeWhile_self fun c hc => ?_
  have : c ≠ '\n' := by
    intro e
    subst e
    simp only [List.mem_append] at hc
    rcases hc with h | ((h | h) | h) | h
    · exact absurd h (by decide)
    · exact absurd h (by decide)
    · exact hx h
    · exact absurd h (by decide)
    · exact hy h
  simpa using this

theorem squeeze_line (x y : List Char) : squeeze ("# ".toList ++ ("   ".toList ++ x ++ List.replicate 20 ' ' ++ y)) = squeeze x ++ squeeze y := by
  have : "# ".toList ++ ("   ".toList ++ x ++ List.replicate 20 ' ' ++ y) = ("# ".toList ++ "   ".toList) ++ (x ++ (List.replicate 20 ' ' ++ y)) := by simp only [List.append_assoc]
  rw [this, squeeze_append, squeeze_prefix, squeeze_append, squeeze_append, squeeze_pad]
  rfl

theorem map_fst_zip {xs ys : List ℂ} (h : xs.length = ys.length) : (xs.zip ys).map Prod.fst = xs := List.map_fst_zip (le_of_eq h)

theorem map_snd_zip {xs ys : List ℂ} (h : xs.length = ys.length) : (xs.zip ys).map Prod.snd = ys := List.map_snd_zip (le_of_eq h.symm)

/-- Reading back a file whose column names end with a unit in brackets. -/
theorem readTxt_savetxt {x y : List Char} (hx : ']' ∉ x) (hx' : '\n' ∉ x) (hy : ']' ∉ y) (hy' : '\n' ∉ y) {xs ys : List ℂ} (h : xs.length = ys.length) (h2 : 2 ≤ xs.length) {t : Txt}
    (ht : savetxt (x ++ [']']) (y ++ [']']) xs ys = .ok t) : readTxt (some t) = .ok (dput [(.name (squeeze x ++ [']']), xs)] (.name (squeeze y ++ [']'])) ys) := by
  have nl : ∀ {a : List Char}, '\n' ∉ a → '\n' ∉ a ++ [']'] := fun {a} ha hm => by
    rcases List.mem_append.1 hm with h | h
    · exact ha h
    · exact absurd h (by decide)
  rw [savetxt_eq (nl hx') (nl hy') h] at ht
  cases ht
  unfold readTxt
  simp only [List.length_zip, ← h, min_self]
  rw [if_neg (by omega), squeeze_line, squeeze_append, squeeze_append, squeeze_bracket]
  rw [show squeeze x ++ [']'] ++ (squeeze y ++ [']']) = squeeze x ++ ']' :: (squeeze y ++ ']' :: []) by simp, splitBr_bracket (not_mem_squeeze hx), splitBr_bracket (not_mem_squeeze hy)]
  simp only [map_fst_zip h, map_snd_zip h, dput]

/-- **C69 (partial).** For all columns of equal length, with at least two entries, and all column names that end in their only closing bracket, contain no newline and differ, `read_txt` of what
`save_txt` wrote returns the two columns in order, under their names without spaces and `#`. Missing: names without brackets (`C69_plain_refuted`), single entries (`C69_single_refuted`), equal names
(`C69_equal_refuted`). -/
theorem C69_roundtrip_partial {x y : List Char} (hx : ']' ∉ x) (hx' : '\n' ∉ x) (hy : ']' ∉ y) (hy' : '\n' ∉ y) (hne : squeeze x ≠ squeeze y) {xs ys : List ℂ} (h : xs.length = ys.length)
    (h2 : 2 ≤ xs.length) :
    (savetxt (x ++ [']']) (y ++ [']']) xs ys).bind (fun t => readTxt (some t)) = .ok [(.name (squeeze (x ++ [']'])), xs), (.name (squeeze (y ++ [']'])), ys)] := by
  cases ht : savetxt (x ++ [']']) (y ++ [']']) xs ys with
  | error e =>
    unfold savetxt at ht
    rw [if_pos h] at ht
    cases ht
  | ok t =>
    show readTxt (some t) = _
    rw [readTxt_savetxt hx hx' hy hy' h h2 ht, squeeze_append, squeeze_append, squeeze_bracket]
    unfold dput
    rw [if_neg fun e => hne (List.append_cancel_right (TKey.name.inj e))]
    rfl

example : (savetxt "Time [s]".toList "WP [V]".toList [1, 2] [3, 4]).bind (fun t => readTxt (some t)) = .ok [(.name "Time[s]".toList, [1, 2]), (.name "WP[V]".toList, [3, 4])] :=
  C69_roundtrip_partial (x := "Time [s".toList) (y := "WP [V".toList) (by decide) (by decide) (by decide) (by decide) (by decide) rfl (by norm_num)

/-- **C69 (refuted: a name without brackets).** The example in the documentation of `save_txt` reads back under the key `Amplitude]`. -/
theorem C69_plain_refuted (a b c d : ℂ) : (savetxt "Time [s]".toList "Amplitude".toList [a, b] [c, d]).bind (fun t => readTxt (some t)) =
    .ok [(.name "Time[s]".toList, [a, b]), (.name "Amplitude]".toList, [c, d])] := by
  rw [savetxt_eq (x := "Time [s]".toList) (y := "Amplitude".toList) (xs := [a, b]) (ys := [c, d]) (by decide) (by decide) rfl]
  simp only [Except.bind]
  unfold readTxt
  simp only
  rw [if_neg (by simp), squeeze_line, show splitBr (squeeze "Time [s]".toList ++ squeeze "Amplitude".toList) = ["Time[s".toList, "Amplitude".toList] by decide]
  simp only [dput]
  rw [if_neg (by decide)]
  rfl

/-- **C69 (refuted: equal names).** Two columns with the same name read back as one. -/
theorem C69_equal_refuted {x : List Char} (hx : ']' ∉ x) (hx' : '\n' ∉ x) {xs ys : List ℂ} (h : xs.length = ys.length) (h2 : 2 ≤ xs.length) :
    (savetxt (x ++ [']']) (x ++ [']']) xs ys).bind (fun t => readTxt (some t)) = .ok [(.name (squeeze (x ++ [']'])), ys)] := by
  cases ht : savetxt (x ++ [']']) (x ++ [']']) xs ys with
  | error e =>
    unfold savetxt at ht
    rw [if_pos h] at ht
    cases ht
  | ok t =>
    show readTxt (some t) = _
    rw [readTxt_savetxt hx hx' hx hx' h h2 ht, squeeze_append, squeeze_bracket]
    unfold dput
    rw [if_pos rfl]

/-- **C69 (refuted: a single entry).** A file with one row cannot be read, whatever its names. -/
theorem C69_single_refuted (x y : List Char) (a b : ℂ) : (savetxt x y [a] [b]).bind (fun t => readTxt (some t)) = .error .indexError := by
  unfold savetxt
  rw [if_pos (show [a].length = [b].length from rfl)]
  simp only [Except.bind]
  unfold readTxt
  simp

/-! ### C53 -/

theorem Files.write_same (fs : Files) (n : String) (t : Txt) : fs.write n t n = some t := if_pos rfl

theorem Files.write_other (fs : Files) {n m : String} (t : Txt) (h : m ≠ n) : fs.write n t m = fs m := if_neg h

/-- A saved file reads back as its two columns. -/
theorem readPair_saved {fs : Files} {n : String} {x y : List Char} (hx : ']' ∉ x) (hx' : '\n' ∉ x) (hy : ']' ∉ y) (hy' : '\n' ∉ y) (hne : squeeze x ≠ squeeze y) {xs ys : List ℂ}
    (h2 : 2 ≤ xs.length) {t : Txt} (ht : savetxt (x ++ [']']) (y ++ [']']) xs ys = .ok t) (hf : fs n = some t) : readPair fs n = .ok (xs, ys) := by
  have h : xs.length = ys.length := by
    by_contra hn
    unfold savetxt at ht
    rw [if_neg hn] at ht
    cases ht
  unfold readPair
  rw [hf, readTxt_savetxt hx hx' hy hy' h h2 ht]
  unfold dput
  rw [if_neg fun e => hne (List.append_cancel_right (TKey.name.inj e))]
  rfl

theorem cx_length (l : List ℝ) : (cx l).length = l.length := List.length_map ..

theorem cx_abs {l : List ℝ} (h : ∀ x ∈ l, 0 ≤ x) : (cx l).map (fun x => ((‖x‖ : ℝ) : ℂ)) = cx l := by
  unfold cx
  rw [List.map_map]
  refine List.map_congr_left fun x hx => ?_
  show ((‖(x : ℂ)‖ : ℝ) : ℂ) = x
  rw [Complex.norm_real, Real.norm_of_nonneg (h x hx)]

/-- Success of a monadic step. -/
theorem bind_ok {α β : Type} {x : Py α} {f : α → Py β} {b : β} (h : x.bind f = .ok b) : ∃ a, x = .ok a ∧ f a = .ok b := by
  cases x with
  | error e => cases h
  | ok a => exact ⟨a, rfl, h⟩

/-- What a saved `both` run loads as. -/
def Out.loaded (o : Out) : Loaded :=
  ⟨cx o.lambdas, cx o.WPx, cx o.WPy, cx o.s, cx o.WP, o.lambdaf, o.Zx, o.Zy, cx o.f, o.Z, (cx o.s).getLastD 0⟩

/-- **C53 (what `load_results` returns).** After a saved calculation of both planes (with a charge distribution computed in it, at least two samples along `s` and two frequencies, none negative), in
a folder with any content, `load_results` returns every computed array, except that `WPy` is the computed `WPx`. -/
theorem C53_actual {o : Out} {fs fs' : Files} (hs : 2 ≤ o.s.length) (hf : 2 ≤ o.f.length) (hx : 2 ≤ o.fx.length) (hy : 2 ≤ o.fy.length) (hf0 : ∀ f ∈ o.f, 0 ≤ f)
    (h : saveBoth o true fs = .ok fs') : loadResults fs' = .ok { o.loaded with WPy := cx o.WPx } := by
  unfold saveBoth at h
  obtain ⟨wp, hwp, h⟩ := bind_ok h
  obtain ⟨wpx, hwpx, h⟩ := bind_ok h
  obtain ⟨wpy, hwpy, h⟩ := bind_ok h
  obtain ⟨fs1, hl, h⟩ := bind_ok h
  obtain ⟨zx, hzx, h⟩ := bind_ok h
  obtain ⟨zy, hzy, h⟩ := bind_ok h
  unfold saveLongZ at hl
  obtain ⟨lam, hlam, hl⟩ := bind_ok hl
  simp only [if_true] at hl
  obtain ⟨z, hz, hl⟩ := bind_ok hl
  obtain ⟨sp, hsp, hl⟩ := bind_ok hl
  cases hl
  cases h
  have s2 : 2 ≤ (cx o.s).length := by rwa [cx_length]
  have f2 : 2 ≤ (cx o.f).length := by rwa [cx_length]
  have fx2 : 2 ≤ (cx o.fx).length := by rwa [cx_length]
  have fy2 : 2 ≤ (cx o.fy).length := by rwa [cx_length]
  unfold loadResults
  rw [readPair_saved (n := "lambda.txt") (x := "s [Hz".toList) (y := "Charge distribution [C/m".toList) (by decide) (by decide) (by decide) (by decide) (by decide) s2 hlam rfl,
    readPair_saved (n := "WPx.txt") (x := "s [m".toList) (y := "WP [V/pC".toList) (by decide) (by decide) (by decide) (by decide) (by decide) s2 hwpx rfl,
    readPair_saved (n := "WPy.txt") (x := "s [m".toList) (y := "WP [V/pC".toList) (by decide) (by decide) (by decide) (by decide) (by decide) s2 hwpy rfl,
    readPair_saved (n := "WP.txt") (x := "s [m".toList) (y := "WP [V/pC".toList) (by decide) (by decide) (by decide) (by decide) (by decide) s2 hwp rfl,
    readPair_saved (n := "spectrum.txt") (x := "f [Hz".toList) (y := "Charge distribution spectrum [C/s".toList) (by decide) (by decide) (by decide) (by decide) (by decide) f2 hsp rfl,
    readPair_saved (n := "Zx.txt") (x := "f [Hz".toList) (y := "Zx [Ohm".toList) (by decide) (by decide) (by decide) (by decide) (by decide) fx2 hzx rfl,
    readPair_saved (n := "Zy.txt") (x := "f [Hz".toList) (y := "Zy [Ohm".toList) (by decide) (by decide) (by decide) (by decide) (by decide) fy2 hzy rfl,
    readPair_saved (n := "Z.txt") (x := "f [Hz".toList) (y := "Z [Ohm".toList) (by decide) (by decide) (by decide) (by decide) (by decide) f2 hz rfl]
  show Except.ok _ = _
  unfold Out.loaded
  simp only [cx_abs hf0]

/-! #### The calculation produces columns that can be saved -/

theorem mapM_length {α β : Type} {f : α → Py β} : ∀ {l : List α} {r : List β}, l.mapM f = .ok r → r.length = l.length
  | [], r, h => by
    rw [List.mapM_nil] at h
    cases h
    rfl
  | a :: l, r, h => by
    rw [List.mapM_cons] at h
    obtain ⟨b, -, h⟩ := bind_ok h
    obtain ⟨t, ht, h⟩ := bind_ok h
    cases h
    rw [List.length_cons, List.length_cons, mapM_length ht]

theorem cells3d_lengths {w : Par ℝ} {su : Setup ℝ} {r : Rec ℝ} : ∀ {l : List (ℤ × ℤ)} {WP : List ℝ} {W : List (List ℝ)}, cells3d w su r WP l = .ok W →
    W.length = l.length ∧ ∀ x ∈ W, x.length = su.ns
  | [], _, _, h => by
    cases h
    exact ⟨rfl, fun x hx => absurd hx List.not_mem_nil⟩
  | ij :: l, WP, W, h => by
    rw [cells3d] at h
    obtain ⟨a, ha, h⟩ := bind_ok h
    obtain ⟨t, ht, h⟩ := bind_ok h
    cases h
    obtain ⟨h1, h2⟩ := cells3d_lengths ht
    refine ⟨by rw [List.length_cons, List.length_cons, h1], fun x hx => ?_⟩
    rcases List.mem_cons.1 hx with rfl | hx
    · unfold cell3d at ha
      obtain ⟨E, -, ha⟩ := bind_ok ha
      obtain ⟨q, hq, ha⟩ := bind_ok ha
      cases ha
      rw [List.length_map, mapM_length hq, List.length_range]
    · exact h2 x hx

theorem transPairs_length (n0 : ℕ) : (transPairs n0).length = (2 * n0 + 1) * (2 * n0 + 1) := by
  unfold transPairs
  rw [List.length_flatMap]
  simp [offsets, Function.comp_def]

theorem calcLongWP3d_lengths {w : Par ℝ} {r : Rec ℝ} {x : List ℝ × List (List ℝ)} (h : calcLongWP3d w r = .ok x) :
    x.2.length = (2 * w.nTrans + 1) * (2 * w.nTrans + 1) ∧ ∀ c ∈ x.2, c.length = x.1.length := by
  unfold calcLongWP3d at h
  obtain ⟨su, -, h⟩ := bind_ok h
  obtain ⟨W, hW, h⟩ := bind_ok h
  cases h
  obtain ⟨h1, h2⟩ := cells3d_lengths hW
  refine ⟨h1.trans (transPairs_length _), fun c hc => ?_⟩
  rw [h2 c hc, List.length_map, List.length_range]

theorem calcTransWP_lengths {n0 : ℕ} {s : List ℝ} {W : ℕ → ℕ → ℕ → ℝ} {nx : ℕ} {dx : ℕ → ℝ} {ny : ℕ} {dy : ℕ → ℝ} {x : List ℝ × List ℝ} (h : calcTransWP n0 s W nx dx ny dy = .ok x) :
    x.1.length = s.length ∧ x.2.length = s.length := by
  unfold calcTransWP at h
  split at h
  · obtain ⟨_, -, h⟩ := bind_ok h
    obtain ⟨_, -, h⟩ := bind_ok h
    obtain ⟨_, -, h⟩ := bind_ok h
    obtain ⟨_, -, h⟩ := bind_ok h
    obtain ⟨_, -, h⟩ := bind_ok h
    obtain ⟨_, -, h⟩ := bind_ok h
    obtain ⟨_, -, h⟩ := bind_ok h
    obtain ⟨_, -, h⟩ := bind_ok h
    cases h
    exact ⟨by rw [List.length_map, List.length_range], by rw [List.length_map, List.length_range]⟩
  · cases h

/-- The frequencies of an impedance depend on the s axis only, are not negative, and come with one value each. -/
theorem impedance_shape {fac : ℂ} {v fmax : ℝ} {samples : ℕ} {s WP lam : List ℝ} {i : Imp} (h : impedance fac v fmax samples s WP lam = .ok i) :
    2 ≤ s.length ∧ i.f = (keptBins (nfft v (meanStep s) fmax samples).toNat (meanStep s / v) fmax).map (fftFreq (nfft v (meanStep s) fmax samples).toNat (meanStep s / v)) ∧
      (∀ f ∈ i.f, 0 ≤ f) ∧ i.Z.length = i.f.length ∧ i.lambdaf.length = i.f.length := by
  unfold impedance at h
  split at h
  · cases h
  · next hs =>
    simp only at h
    split at h
    · cases h
    · cases h
      refine ⟨by omega, rfl, fun f hf => ?_, by simp only [List.length_map], by simp only [List.length_map]⟩
      obtain ⟨m, hm, rfl⟩ := List.mem_map.1 hf
      unfold keptBins at hm
      exact (of_decide_eq_true (List.mem_filter.1 hm).2).1

theorem savetxt_ok {x y : List Char} {xs ys : List ℂ} (h : xs.length = ys.length) : ∃ t, savetxt x y xs ys = .ok t := by
  unfold savetxt
  rw [if_pos h]
  exact ⟨_, rfl⟩

theorem saveLongZ_ok {o : Out} (b : Bool) (fs : Files) (h1 : o.lambdas.length = o.s.length) (h2 : o.Z.length = o.f.length) (h3 : o.lambdaf.length = o.f.length) : ∃ fs', saveLongZ o b fs = .ok fs' := by
  unfold saveLongZ
  obtain ⟨t1, e1⟩ := savetxt_ok (x := hSl) (y := hLam) (xs := cx o.s) (ys := cx o.lambdas) (by rw [cx_length, cx_length, h1])
  obtain ⟨t2, e2⟩ := savetxt_ok (x := hF) (y := hZ) (xs := cx o.f) (ys := o.Z) (by rw [cx_length, h2])
  obtain ⟨t3, e3⟩ := savetxt_ok (x := hF) (y := hSpec) (xs := cx o.f) (ys := o.lambdaf) (by rw [cx_length, h3])
  rw [e1, e2, e3]
  exact ⟨_, rfl⟩

theorem gaussLambda_length (sigmaz : ℝ) (s : List ℝ) : (gaussLambda sigmaz s).length = s.length := List.length_map ..

/-- **C53 (partial).** For every recording and all parameters: if `solve("both")` of a new solver with `save=True` succeeds with at least two frequencies, all files are written and `load_results`
from that folder, whatever it contained, returns every computed array (`s`, `WP`, `WPx`, `Z`, `Zx`, `Zy`, `f`, λ and its spectrum), except `WPy`. Missing: `WPy` (`C53_wpy_refuted`), longitudinal
calculations (`C53_longitudinal_refuted`). -/
theorem C53_partial {p : Par ℝ} {fmax sigmaz : ℝ} {nx : ℕ} {dx : ℕ → ℝ} {ny : ℕ} {dy : ℕ → ℝ} {r : Rec ℝ} {o : Out} (h : solveBoth p fmax sigmaz none nx dx ny dy r = .ok o) (hf : 2 ≤ o.f.length)
    (fs : Files) : ∃ fs', saveBoth o true fs = .ok fs' ∧ ∃ l, loadResults fs' = .ok l ∧ l.s = cx o.s ∧ l.WP = cx o.WP ∧ l.WPx = cx o.WPx ∧ l.lambdas = cx o.lambdas ∧ l.f = cx o.f ∧ l.Z = o.Z ∧
      l.lambdaf = o.lambdaf ∧ l.Zx = o.Zx ∧ l.Zy = o.Zy ∧ l.WPy = cx o.WPx := by
  unfold solveBoth at h
  obtain ⟨w3, h3, h⟩ := bind_ok h
  obtain ⟨tr, htr, h⟩ := bind_ok h
  obtain ⟨long, hlong, h⟩ := bind_ok h
  obtain ⟨zx, hzx, h⟩ := bind_ok h
  obtain ⟨zy, hzy, h⟩ := bind_ok h
  cases h
  obtain ⟨hW, hc⟩ := calcLongWP3d_lengths h3
  obtain ⟨t1, t2⟩ := calcTransWP_lengths htr
  obtain ⟨i1, i2, i3, i4, i5⟩ := impedance_shape hlong
  obtain ⟨-, x2, -, x4, -⟩ := impedance_shape hzx
  obtain ⟨-, y2, -, y4, -⟩ := impedance_shape hzy
  have hcent : (w3.2.getD (p.nTrans * (2 * p.nTrans + 1) + p.nTrans) []).length = w3.1.length := by
    have hlt : p.nTrans * (2 * p.nTrans + 1) + p.nTrans < w3.2.length := by
      rw [hW]
      nlinarith
    rw [List.getD_eq_getElem?_getD, List.getElem?_eq_getElem hlt]
    exact hc _ (List.getElem_mem hlt)
  generalize ho : (⟨w3.1, w3.2.getD (p.nTrans * (2 * p.nTrans + 1) + p.nTrans) [], tr.1, tr.2, (none : Option (List ℝ)).getD (gaussLambda sigmaz w3.1), long.f, long.Z, long.lambdaf, zx.f, zx.Z, zy.f, zy.Z⟩ : Out) = o at hf ⊢
  have hsave : ∃ fs', saveBoth o true fs = .ok fs' := by
    unfold saveBoth
    subst ho
    obtain ⟨a1, e1⟩ := savetxt_ok (x := hS) (y := hWP) (xs := cx w3.1) (ys := cx (w3.2.getD (p.nTrans * (2 * p.nTrans + 1) + p.nTrans) [])) (by rw [cx_length, cx_length, hcent])
    obtain ⟨a2, e2⟩ := savetxt_ok (x := hS) (y := hWP) (xs := cx w3.1) (ys := cx tr.1) (by rw [cx_length, cx_length, t1])
    obtain ⟨a3, e3⟩ := savetxt_ok (x := hF) (y := hZx) (xs := cx zx.f) (ys := zx.Z) (by rw [cx_length, x4])
    obtain ⟨a4, e4⟩ := savetxt_ok (x := hF) (y := hZy) (xs := cx zy.f) (ys := zy.Z) (by rw [cx_length, y4])
    simp only [e1, e2, e3, e4]
    obtain ⟨b, eb⟩ := saveLongZ_ok (o := ⟨w3.1, w3.2.getD (p.nTrans * (2 * p.nTrans + 1) + p.nTrans) [], tr.1, tr.2, (none : Option (List ℝ)).getD (gaussLambda sigmaz w3.1), long.f, long.Z, long.lambdaf, zx.f, zx.Z, zy.f, zy.Z⟩) true
      (((fs.write "WP.txt" a1).write "WPx.txt" a2).write "WPy.txt" a2) (gaussLambda_length _ _) i4 i5
    refine ⟨(b.write "Zx.txt" a3).write "Zy.txt" a4, ?_⟩
    show (saveLongZ _ true _).bind _ = _
    rw [eb]
    rfl
  obtain ⟨fs', hfs⟩ := hsave
  refine ⟨fs', hfs, _, C53_actual (o := o) ?_ hf ?_ ?_ ?_ hfs, rfl, rfl, rfl, rfl, rfl, rfl, rfl, rfl, rfl, rfl⟩
  · subst ho; exact i1
  · subst ho; simp only at hf ⊢; rwa [x2, ← i2]
  · subst ho; simp only at hf ⊢; rwa [y2, ← i2]
  · subst ho; exact i3

theorem cx_inj {a b : List ℝ} (h : cx a = cx b) : a = b := List.map_injective_iff.2 Complex.ofReal_injective h

/-- **C53 (refuted: vertical wake).** Whenever the two transverse wakes differ, the vertical wake does not reload: the file for it contains the horizontal one. -/
theorem C53_wpy_refuted {o : Out} {fs fs' : Files} (hs : 2 ≤ o.s.length) (hf : 2 ≤ o.f.length) (hx : 2 ≤ o.fx.length) (hy : 2 ≤ o.fy.length) (hf0 : ∀ f ∈ o.f, 0 ≤ f)
    (h : saveBoth o true fs = .ok fs') (hne : o.WPx ≠ o.WPy) : ∃ l, loadResults fs' = .ok l ∧ l.WPy ≠ cx o.WPy :=
  ⟨_, C53_actual hs hf hx hy hf0 h, fun e => hne (cx_inj e)⟩

/-- **C53 (refuted: longitudinal plane).** After a saved longitudinal calculation in a folder without earlier results, `load_results` fails. -/
theorem C53_longitudinal_refuted {o : Out} {fs fs' : Files} (hs : 2 ≤ o.s.length) (h : saveOnlyLong o true fs = .ok fs') (h0 : fs "WPx.txt" = none) : loadResults fs' = .error .fileNotFoundError := by
  unfold saveOnlyLong at h
  obtain ⟨wp, hwp, h⟩ := bind_ok h
  unfold saveLongZ at h
  obtain ⟨lam, hlam, h⟩ := bind_ok h
  simp only [if_true] at h
  obtain ⟨z, hz, h⟩ := bind_ok h
  obtain ⟨sp, hsp, h⟩ := bind_ok h
  cases h
  have s2 : 2 ≤ (cx o.s).length := by rwa [cx_length]
  unfold loadResults
  rw [readPair_saved (n := "lambda.txt") (x := "s [Hz".toList) (y := "Charge distribution [C/m".toList) (by decide) (by decide) (by decide) (by decide) (by decide) s2 hlam rfl]
  have : readPair ((((fs.write "WP.txt" wp).write "lambda.txt" lam).write "Z.txt" z).write "spectrum.txt" sp) "WPx.txt" = .error .fileNotFoundError := by
    unfold readPair
    rw [Files.write_other _ _ (by decide), Files.write_other _ _ (by decide), Files.write_other _ _ (by decide), Files.write_other _ _ (by decide), h0]
    rfl
  simp only [this]
  rfl

/-- **C53 (refuted: mixed results).** In a folder with the results of an earlier run, a longitudinal calculation reloads with the transverse wakes and impedances of the earlier run. -/
theorem C53_mixed {o o' : Out} {fs fs1 fs2 : Files} (hs : 2 ≤ o.s.length) (hx : 2 ≤ o.fx.length) (hy : 2 ≤ o.fy.length)
    (hs' : 2 ≤ o'.s.length) (hf' : 2 ≤ o'.f.length) (h : saveBoth o true fs = .ok fs1) (h' : saveOnlyLong o' true fs1 = .ok fs2) :
    ∃ l, loadResults fs2 = .ok l ∧ l.s = cx o'.s ∧ l.WP = cx o'.WP ∧ l.Z = o'.Z ∧ l.WPx = cx o.WPx ∧ l.WPy = cx o.WPx ∧ l.Zx = o.Zx ∧ l.Zy = o.Zy := by
  unfold saveBoth at h
  obtain ⟨wp, hwp, h⟩ := bind_ok h
  obtain ⟨wpx, hwpx, h⟩ := bind_ok h
  obtain ⟨wpy, hwpy, h⟩ := bind_ok h
  obtain ⟨fs3, hl, h⟩ := bind_ok h
  obtain ⟨zx, hzx, h⟩ := bind_ok h
  obtain ⟨zy, hzy, h⟩ := bind_ok h
  unfold saveLongZ at hl
  obtain ⟨lam, hlam, hl⟩ := bind_ok hl
  simp only [if_true] at hl
  obtain ⟨z, hz, hl⟩ := bind_ok hl
  obtain ⟨sp, hsp, hl⟩ := bind_ok hl
  cases hl
  cases h
  unfold saveOnlyLong at h'
  obtain ⟨wp', hwp', h'⟩ := bind_ok h'
  unfold saveLongZ at h'
  obtain ⟨lam', hlam', h'⟩ := bind_ok h'
  simp only [if_true] at h'
  obtain ⟨z', hz', h'⟩ := bind_ok h'
  obtain ⟨sp', hsp', h'⟩ := bind_ok h'
  cases h'
  have s2 : 2 ≤ (cx o.s).length := by rwa [cx_length]
  have s2' : 2 ≤ (cx o'.s).length := by rwa [cx_length]
  have f2' : 2 ≤ (cx o'.f).length := by rwa [cx_length]
  have fx2 : 2 ≤ (cx o.fx).length := by rwa [cx_length]
  have fy2 : 2 ≤ (cx o.fy).length := by rwa [cx_length]
  unfold loadResults
  rw [readPair_saved (n := "lambda.txt") (x := "s [Hz".toList) (y := "Charge distribution [C/m".toList) (by decide) (by decide) (by decide) (by decide) (by decide) s2' hlam' rfl,
    readPair_saved (n := "WPx.txt") (x := "s [m".toList) (y := "WP [V/pC".toList) (by decide) (by decide) (by decide) (by decide) (by decide) s2 hwpx rfl,
    readPair_saved (n := "WPy.txt") (x := "s [m".toList) (y := "WP [V/pC".toList) (by decide) (by decide) (by decide) (by decide) (by decide) s2 hwpy rfl,
    readPair_saved (n := "WP.txt") (x := "s [m".toList) (y := "WP [V/pC".toList) (by decide) (by decide) (by decide) (by decide) (by decide) s2' hwp' rfl,
    readPair_saved (n := "spectrum.txt") (x := "f [Hz".toList) (y := "Charge distribution spectrum [C/s".toList) (by decide) (by decide) (by decide) (by decide) (by decide) f2' hsp' rfl,
    readPair_saved (n := "Zx.txt") (x := "f [Hz".toList) (y := "Zx [Ohm".toList) (by decide) (by decide) (by decide) (by decide) (by decide) fx2 hzx rfl,
    readPair_saved (n := "Zy.txt") (x := "f [Hz".toList) (y := "Zy [Ohm".toList) (by decide) (by decide) (by decide) (by decide) (by decide) fy2 hzy rfl,
    readPair_saved (n := "Z.txt") (x := "f [Hz".toList) (y := "Z [Ohm".toList) (by decide) (by decide) (by decide) (by decide) (by decide) f2' hz' rfl]
  exact ⟨_, rfl, rfl, rfl, rfl, rfl, rfl, rfl, rfl⟩

/-! #### A calculation of both planes succeeds -/

/-- For every recording of a complete run, with at least one transverse cell, three samples along `s` and an `fmax` resolved twice by them, `solve("both")` succeeds and yields at least two frequencies. -/
theorem solveBoth_ok (p : Par ℝ) {r : Rec ℝ} {Nt Nz : ℕ} {dt zmin zmax : ℝ} {md : ℕ → Dset ℝ} {E : ℕ → ℕ → ℕ → ℕ → ℝ}
    (h : Recorded r Nt Nz dt zmin zmax md (fun n => .d3 (2 * p.nTrans + 1) (2 * p.nTrans + 1) Nz (E n))) (hv : 0 < p.v) (hdt : 0 < dt)
    (hN : 3 ≤ Nt) (hN' : Nt ≤ 100000) (hdz : (zzPos p.skip Nz).length ≤ r.ndz) (hcm : p.counterMoving = false) (hq : p.q ≠ 0) (hn : 0 < p.nTrans) (hns : 3 ≤ nsOf p Nt dt zmin zmax)
    {fmax : ℝ} (hf : 0 < fmax) (hres : 2 * fmax ≤ 1 / dt) (sigmaz : ℝ) (lam : Option (List ℝ)) {nx ny : ℕ} (dx dy : ℕ → ℝ) (hx : p.nTrans < nx) (hy : p.nTrans < ny) :
    ∃ o, solveBoth p fmax sigmaz lam nx dx ny dy r = .ok o ∧ 2 ≤ o.f.length := by
  have h3 := C48_actual p h hv hdt hN hN' hdz hcm hq
  have hax : ((List.range (nsOf p Nt dt zmin zmax)).map fun n : ℕ => -p.ti * p.v + (n : ℝ) * (dt * p.v)) = axis (-p.ti * p.v) (dt * p.v) (nsOf p Nt dt zmin zmax) := rfl
  rw [hax] at h3
  have hds : 0 < dt * p.v := mul_pos hdt hv
  have hR : p.v / (dt * p.v) = 1 / dt := by field_simp
  have hle : fmax ≤ p.v / (dt * p.v) := by rw [hR]; linarith
  unfold solveBoth
  rw [h3]
  generalize hW3 : ((List.range ((2 * p.nTrans + 1) * (2 * p.nTrans + 1))).map fun m => (List.range (nsOf p Nt dt zmin zmax)).map fun n =>
          ∑ l ∈ Finset.range (m + 1), cellIntegral p r Nt Nz dt zmin E l n / (p.q * 10 ^ 12) ^ (m + 1 - l)) = W3
  have htr := C50_panofsky hn (s0 := -p.ti * p.v) (ds := dt * p.v) hns (fun i j m => (W3.getD (i * (2 * p.nTrans + 1) + j) []).getD m 0) dx dy hx hy
  generalize hX : ((List.range (nsOf p Nt dt zmin zmax)).map fun n => -(∑ m ∈ Finset.range n, dt * p.v * ((W3.getD ((p.nTrans + 1) * (2 * p.nTrans + 1) + p.nTrans) []).getD m 0 -
    (W3.getD ((p.nTrans - 1) * (2 * p.nTrans + 1) + p.nTrans) []).getD m 0)) / (dx (p.nTrans - 1) + dx p.nTrans)) = X at htr
  generalize hY : ((List.range (nsOf p Nt dt zmin zmax)).map fun n => -(∑ m ∈ Finset.range n, dt * p.v * ((W3.getD (p.nTrans * (2 * p.nTrans + 1) + (p.nTrans + 1)) []).getD m 0 -
    (W3.getD (p.nTrans * (2 * p.nTrans + 1) + (p.nTrans - 1)) []).getD m 0)) / (dy (p.nTrans - 1) + dy p.nTrans)) = Y at htr
  generalize hL : lam.getD (gaussLambda sigmaz (axis (-p.ti * p.v) (dt * p.v) (nsOf p Nt dt zmin zmax))) = L
  obtain ⟨M, i1, e1, hM1, -, hδ, hi1, -, hM, -⟩ := C51_axis (s0 := -p.ti * p.v) (samples := 1001) (by omega : 2 ≤ nsOf p Nt dt zmin zmax) hv hds hf (by norm_num) hle (-1) (W3.getD (p.nTrans * (2 * p.nTrans + 1) + p.nTrans) []) L
  obtain ⟨-, i2, e2, -⟩ := C51_axis (s0 := -p.ti * p.v) (samples := 1001) (by omega : 2 ≤ nsOf p Nt dt zmin zmax) hv hds hf (by norm_num) hle I X L
  obtain ⟨-, i3, e3, -⟩ := C51_axis (s0 := -p.ti * p.v) (samples := 1001) (by omega : 2 ≤ nsOf p Nt dt zmin zmax) hv hds hf (by norm_num) hle I Y L
  refine ⟨⟨axis (-p.ti * p.v) (dt * p.v) (nsOf p Nt dt zmin zmax), W3.getD (p.nTrans * (2 * p.nTrans + 1) + p.nTrans) [], X, Y, L, i1.f, i1.Z, i1.lambdaf, i2.f, i2.Z, i3.f, i3.Z⟩, ?_, ?_⟩
  · show (calcTransWP _ _ _ _ _ _ _).bind _ = _
    rw [htr]
    show (impedance _ _ _ _ _ _ _).bind _ = _
    simp only [hL]
    rw [e1]
    show (impedance _ _ _ _ _ _ _).bind _ = _
    rw [e2]
    show (impedance _ _ _ _ _ _ _).bind _ = _
    rw [e3]
    rfl
  · show 2 ≤ i1.f.length
    rw [hi1, List.length_map, List.length_range]
    by_contra hlt
    have hM' : M = 1 := by omega
    rw [hM'] at hM
    have h1 := hM (by rw [hR]; exact hres)
    have hq1 : 1 ≤ p.v / (dt * p.v) / fmax := by rwa [le_div_iff₀ hf, one_mul]
    have hr : 1 ≤ ⌊p.v / (dt * p.v) / fmax⌋₊ := Nat.le_floor (by exact_mod_cast hq1)
    have hr' : (1 : ℝ) ≤ ⌊p.v / (dt * p.v) / fmax⌋₊ := by exact_mod_cast hr
    have hlt' := Nat.lt_floor_add_one (p.v / (dt * p.v) / fmax)
    rw [div_lt_iff₀ hf] at hlt'
    push_cast at h1
    rw [one_mul, le_div_iff₀ (by positivity)] at h1
    nlinarith [mul_pos hf (by linarith : (0 : ℝ) < ⌊p.v / (dt * p.v) / fmax⌋₊)]

/-- A run of four steps on one cell in which the field is constant. -/
def bothRec : Rec ℝ := ⟨4, fun i => i, 1, fun _ => 0, 1, fun _ => 1, H5.ofWrites (wakeWrites (fun _ => .d1 0 0) 4 fun _ => .d3 3 3 1 fun i j _ => (i + 2 * j : ℕ))⟩

def bothPar : Par ℝ := ⟨1, 1, 0, some 3, 0, false, 1⟩

theorem bothRec_recorded : Recorded bothRec 4 1 1 0 0 (fun _ => .d1 0 0) (fun _ => .d3 (2 * bothPar.nTrans + 1) (2 * bothPar.nTrans + 1) 1 fun i j _ => (i + 2 * j : ℕ)) :=
  ⟨rfl, fun i => (mul_one _).symm, rfl, ⟨⟨0, by norm_num, rfl⟩, fun i _ => le_refl _⟩, ⟨⟨0, by norm_num, rfl⟩, fun i _ => le_refl _⟩, rfl⟩

example : ∃ o, solveBoth bothPar (1 / 2) 1 none 2 (fun _ => 1) 2 (fun _ => 1) bothRec = .ok o ∧ 2 ≤ o.f.length :=
  solveBoth_ok bothPar bothRec_recorded one_pos one_pos (by norm_num) (by norm_num) (by decide) rfl one_ne_zero one_pos (by norm_num [nsOf, bothPar, arangeLen, lengthOf]) (by norm_num) (by norm_num)
    1 none _ _ (by decide) (by decide)

/-- A set of results with different transverse wakes can be saved. -/
def sampleOut : Out := ⟨[0, 1], [2, 3], [4, 5], [6, 7], [8, 9], [0, 1], [I, 2], [1, I], [0, 1], [3, I], [0, 1], [4, I]⟩

example : ∃ fs', saveBoth sampleOut true (fun _ => none) = .ok fs' ∧ sampleOut.WPx ≠ sampleOut.WPy := ⟨_, rfl, by
  intro h
  have := (List.cons.inj h).1
  norm_num [sampleOut] at this⟩

example : ∃ fs', saveOnlyLong sampleOut true (fun _ => none) = .ok fs' := ⟨_, rfl⟩

end
end Wake
end Wakis
