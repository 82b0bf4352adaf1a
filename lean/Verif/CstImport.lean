import Verif.Py
import Mathlib.Algebra.Field.Defs
import Mathlib.Algebra.Order.Ring.Nat
import Mathlib.Tactic.Ring
import Mathlib.Tactic.Linarith
import Mathlib.Tactic.NormNum
import Mathlib.Data.Rat.Defs

/-!
# C56: import of CST field exports (`read_cst_3d`, wakeSolver.py:1517-1688)

A file is the list of its data lines (the three header lines are skipped by both passes, blank lines are not modelled). Coordinates are exact numbers; the code compares the
text of the x column, here its value. File names (the time stamps) are given as numbers.
-/

namespace Wakis
namespace Cst

variable {K : Type} [Mul K] [Zero K] [DecidableEq K]

/-- One data line: the first three columns and the sixth. -/
structure Row (K : Type) where
  x : K
  y : K
  z : K
  ez : K

/-- wakeSolver.py:1584-1596: the loop looking for the first later line with the x of the first one; `i` is the line tried, the end of the file raises an `IndexError`. -/
def findNext (x1 : K) : ℕ → List (Row K) → Py ℕ
  | _, [] => .error .indexError
  | i, r :: l => if r.x = x1 then .ok i else findNext x1 (i + 1) l

/-- wakeSolver.py:1584-1596: the number of transverse cells. -/
def transverse (rows : List (Row K)) : Py ℕ :=
  match rows with
  | [] => .error .indexError
  | r :: l => findNext r.x 1 l

/-- wakeSolver.py:1634-1638: the cell of data line `m` (`int` truncates; `k` is exact, and `m / n - n * k` is not negative). -/
def cellOf (n m : ℕ) : ℕ × ℕ × ℕ :=
  let k := m / n ^ 2
  let j := m / n - n * k
  (m - j * n - k * n ^ 2, j, k)

/-- The arrays filled while scanning. -/
structure Arrays (K : Type) where
  Ez : ℕ → ℕ → ℕ → K
  x : ℕ → K
  y : ℕ → K
  z : ℕ → K

/-- An assignment of one entry. -/
def upd (f : ℕ → K) (i : ℕ) (v : K) : ℕ → K := fun a => if a = i then v else f a

/-- wakeSolver.py:1633-1648: one data line. The arrays have `n` (x and y) and `nz` entries per axis; with `nz = 0` nothing can be stored. -/
def putRow (n nz : ℕ) (units : K) (A : Arrays K) (m : ℕ) (r : Row K) : Py (Arrays K) :=
  let (i, j, k) := cellOf n m
  let k := if nz ≤ k then nz - 1 else k
  if i < n ∧ j < n ∧ k < nz then
    .ok ⟨fun a b c => if a = i ∧ b = j ∧ c = k then r.ez else A.Ez a b c, upd A.x i (r.x * units), upd A.y j (r.y * units), upd A.z k (r.z * units)⟩
  else .error .indexError

/-- wakeSolver.py:1627-1648: one file. -/
def scan (n nz : ℕ) (units : K) : ℕ → Arrays K → List (Row K) → Py (Arrays K)
  | _, A, [] => .ok A
  | m, A, r :: l => (putRow n nz units A m r).bind fun A => scan n nz units (m + 1) A l

/-- wakeSolver.py:1614-1660: all files; the arrays are not cleared in between, and each `Ez` is stored after its file. -/
def scanAll (n nz : ℕ) (units : K) : Arrays K → List (List (Row K)) → Py (Arrays K × List (ℕ → ℕ → ℕ → K))
  | A, [] => .ok (A, [])
  | A, f :: l => (scan n nz units 0 A f).bind fun A => (scanAll n nz units A l).map fun r => (r.1, A.Ez :: r.2)

/-- The result: sizes, coordinates, one field per file. -/
structure Import (K : Type) where
  n : ℕ
  nz : ℕ
  x : List K
  y : List K
  z : List K
  frames : List (ℕ → ℕ → ℕ → K)

/-- wakeSolver.py:1517-1688 `read_cst_3d`: the files in the order of their time stamps. -/
def readCst (units : K) (files : List (List (Row K))) : Py (Import K) :=
  match files with
  | [] => .error .indexError
  | first :: _ =>
    (transverse first).bind fun n =>
      let nz := first.length / n ^ 2
      (scanAll n nz units ⟨fun _ _ _ => 0, fun _ => 0, fun _ => 0, fun _ => 0⟩ files).map fun r =>
        ⟨n, nz, (List.range n).map r.1.x, (List.range n).map r.1.y, (List.range nz).map r.1.z, r.2⟩

/-! ### Specification -/

/-- An export of a regular grid: x varies fastest, then y, then z. -/
def export3d (nx ny nz : ℕ) (xs ys zs : ℕ → K) (E : ℕ → ℕ → ℕ → K) : List (Row K) :=
  (List.range nz).flatMap fun k => (List.range ny).flatMap fun j => (List.range nx).map fun i => ⟨xs i, ys j, zs k, E i j k⟩

/-! ### C56 -/

/-- The row of a cell. -/
def rowOf (n i j k : ℕ) : ℕ := i + n * (j + n * k)

theorem cellOf_rowOf {n i j : ℕ} (k : ℕ) (hi : i < n) (hj : j < n) : cellOf n (rowOf n i j k) = (i, j, k) := by
  have hn : 0 < n := by omega
  have h1 : rowOf n i j k / n = j + n * k := by
    unfold rowOf
    rw [Nat.add_mul_div_left _ _ hn, Nat.div_eq_of_lt hi, Nat.zero_add]
  have h2 : rowOf n i j k / n ^ 2 = k := by
    rw [pow_two, ← Nat.div_div_eq_div_mul, h1, Nat.add_mul_div_left _ _ hn, Nat.div_eq_of_lt hj, Nat.zero_add]
  unfold cellOf
  simp only [h1, h2]
  have h3 : j + n * k - n * k = j := Nat.add_sub_cancel ..
  rw [h3]
  have h4 : rowOf n i j k - j * n - k * n ^ 2 = i := by
    unfold rowOf
    have : i + n * (j + n * k) = i + j * n + k * n ^ 2 := by ring
    rw [this]
    omega
  rw [h4]

/-- **C56 (rows and cells).** For every `n`: every row `m` is the row of exactly one cell `(i, j, k)` with `i, j < n`, the one it is decoded to. -/
theorem C56_bijective {n : ℕ} (hn : 0 < n) (m : ℕ) :
    ∃ i j k, i < n ∧ j < n ∧ cellOf n m = (i, j, k) ∧ m = i + n * j + n ^ 2 * k ∧ ∀ i' j' k', i' < n → j' < n → m = i' + n * j' + n ^ 2 * k' → (i', j', k') = (i, j, k) := by
  have hsplit : m = rowOf n (m % n) (m / n % n) (m / n / n) := by
    unfold rowOf
    rw [Nat.mod_add_div (m / n) n, Nat.mod_add_div m n]
  have hlt1 := Nat.mod_lt m hn
  have hlt2 := Nat.mod_lt (m / n) hn
  have hdec : cellOf n m = (m % n, m / n % n, m / n / n) := by
    conv_lhs => rw [hsplit]
    exact cellOf_rowOf _ hlt1 hlt2
  refine ⟨_, _, _, hlt1, hlt2, hdec, ?_, fun i' j' k' hi hj h => ?_⟩
  · conv_lhs => rw [hsplit]
    unfold rowOf
    ring
  · have : m = rowOf n i' j' k' := by rw [h]; unfold rowOf; ring
    rw [← hdec, this, cellOf_rowOf k' hi hj]

section
variable {n nz : ℕ} {xs ys zs : ℕ → K} {E : ℕ → ℕ → ℕ → K}

theorem length_export (nx ny nz : ℕ) (xs ys zs : ℕ → K) (E : ℕ → ℕ → ℕ → K) : (export3d nx ny nz xs ys zs E).length = nz * (ny * nx) := by
  unfold export3d
  rw [List.length_flatMap]
  simp [List.length_flatMap]

theorem getElem?_flatMap_range {α : Type} (N c : ℕ) (f : ℕ → List α) (hf : ∀ a, (f a).length = c) {a b : ℕ} (ha : a < N) (hb : b < c) :
    ((List.range N).flatMap f)[a * c + b]? = (f a)[b]? := by
  induction N with
  | zero => omega
  | succ N ih =>
    have hlen : ((List.range N).flatMap f).length = N * c := by
      rw [List.length_flatMap]
      simp [hf]
    rw [List.range_succ, List.flatMap_append]
    rcases Nat.lt_or_ge a N with h | h
    · rw [List.getElem?_append_left]
      · exact ih h
      · rw [hlen]
        calc a * c + b < a * c + c := by omega
          _ = (a + 1) * c := by ring
          _ ≤ N * c := Nat.mul_le_mul_right _ h
    · have : a = N := by omega
      subst this
      rw [List.getElem?_append_right (by rw [hlen]; omega), hlen, Nat.add_sub_cancel_left]
      simp

/-- The line of a cell. -/
theorem export_getElem? {nx ny nz : ℕ} (xs ys zs : ℕ → K) (E : ℕ → ℕ → ℕ → K) {i j k : ℕ} (hi : i < nx) (hj : j < ny) (hk : k < nz) :
    (export3d nx ny nz xs ys zs E)[k * (ny * nx) + (j * nx + i)]? = some ⟨xs i, ys j, zs k, E i j k⟩ := by
  unfold export3d
  rw [getElem?_flatMap_range nz (ny * nx) _ (fun a => by rw [List.length_flatMap]; simp) hk (by
    calc j * nx + i < j * nx + nx := by omega
      _ = (j + 1) * nx := by ring
      _ ≤ ny * nx := Nat.mul_le_mul_right _ hj),
    getElem?_flatMap_range ny nx _ (fun a => by rw [List.length_map, List.length_range]) hj hi, List.getElem?_map, List.getElem?_range hi]
  rfl

omit [Mul K] [Zero K] in
theorem findNext_spec {x1 : K} : ∀ {l : List (Row K)} {i m : ℕ} {r : Row K}, l[m]? = some r → r.x = x1 → (∀ m' < m, ∀ r', l[m']? = some r' → r'.x ≠ x1) → findNext x1 i l = .ok (i + m)
  | [], i, m, r, h, _, _ => by simp at h
  | a :: l, i, 0, r, h, hr, _ => by
    simp only [List.getElem?_cons_zero, Option.some.injEq] at h
    subst h
    rw [findNext, if_pos hr]
    rfl
  | a :: l, i, m + 1, r, h, hr, hb => by
    rw [findNext, if_neg (hb 0 (by omega) a rfl), findNext_spec (i := i + 1) (m := m) (by simpa using h) hr fun m' hm' r' hr' => hb (m' + 1) (by omega) r' (by simpa using hr')]
    congr 1
    omega

/-- The number of transverse cells is found from the first repetition of an x value. -/
theorem transverse_export (hn : 0 < n) (h2 : 2 ≤ n * nz) (hx : ∀ a < n, ∀ b < n, xs a = xs b → a = b) : transverse (export3d n n nz xs ys zs E) = .ok n := by
  have hnz : 0 < nz := by
    rcases Nat.eq_zero_or_pos nz with h | h
    · rw [h] at h2; omega
    · exact h
  have h0 := export_getElem? xs ys zs E hn hn hnz
  simp only [Nat.zero_mul, Nat.zero_add] at h0
  cases hl : export3d n n nz xs ys zs E with
  | nil => rw [hl] at h0; simp at h0
  | cons r l =>
    rw [hl] at h0
    simp only [List.getElem?_cons_zero, Option.some.injEq] at h0
    have hget : ∀ m, l[m]? = (export3d n n nz xs ys zs E)[m + 1]? := fun m => by rw [hl]; rfl
    show findNext r.x 1 l = .ok n
    have hrow : ∃ r', (export3d n n nz xs ys zs E)[n]? = some r' ∧ r'.x = xs 0 := by
      rcases Nat.lt_or_ge 1 n with h | h
      · have := export_getElem? xs ys zs E (i := 0) (j := 1) (k := 0) hn h hnz
        rw [Nat.zero_mul, Nat.one_mul, Nat.zero_add, Nat.add_zero] at this
        exact ⟨_, this, rfl⟩
      · have hn1 : n = 1 := by omega
        have := export_getElem? xs ys zs E (i := 0) (j := 0) (k := 1) hn hn (by rw [hn1] at h2; omega : 1 < nz)
        rw [hn1] at this ⊢
        exact ⟨_, this, rfl⟩
    obtain ⟨r', hr', hx'⟩ := hrow
    have := findNext_spec (x1 := r.x) (l := l) (i := 1) (m := n - 1) (r := r') (by rw [hget, Nat.sub_add_cancel hn]; exact hr') (by rw [hx', h0]) fun m' hm' r'' hr'' e => by
      rw [hget] at hr''
      have hg := export_getElem? xs ys zs E (i := m' + 1) (j := 0) (k := 0) (by omega : m' + 1 < n) hn hnz
      simp only [Nat.zero_mul, Nat.zero_add] at hg
      rw [hg] at hr''
      rw [← Option.some.inj hr'', h0] at e
      exact absurd (hx _ (by omega) _ hn e) (by omega)
    rw [this]
    congr 1
    omega

/-- All cells of rows below `m` hold the exported values. -/
def Filled (n nz : ℕ) (units : K) (xs ys zs : ℕ → K) (E : ℕ → ℕ → ℕ → K) (m : ℕ) (A : Arrays K) : Prop :=
  ∀ i j k, i < n → j < n → k < nz → rowOf n i j k < m → A.Ez i j k = E i j k ∧ A.x i = xs i * units ∧ A.y j = ys j * units ∧ A.z k = zs k * units

omit [DecidableEq K] [Zero K] in
theorem putRow_filled {units : K} {A : Arrays K} {i j k : ℕ} (hi : i < n) (hj : j < n) (hk : k < nz) (h : Filled n nz units xs ys zs E (rowOf n i j k) A) :
    ∃ A', putRow n nz units A (rowOf n i j k) ⟨xs i, ys j, zs k, E i j k⟩ = .ok A' ∧ Filled n nz units xs ys zs E (rowOf n i j k + 1) A' := by
  unfold putRow
  rw [cellOf_rowOf k hi hj]
  simp only
  rw [if_neg (not_le.2 hk), if_pos ⟨hi, hj, hk⟩]
  refine ⟨_, rfl, fun a b c ha hb hc hrow => ?_⟩
  simp only [upd]
  by_cases heq : rowOf n a b c = rowOf n i j k
  · have e := cellOf_rowOf c ha hb
    rw [heq, cellOf_rowOf k hi hj] at e
    simp only [Prod.mk.injEq] at e
    obtain ⟨rfl, rfl, rfl⟩ := e
    simp
  · obtain ⟨h1, h2, h3, h4⟩ := h a b c ha hb hc (by omega)
    refine ⟨?_, ?_, ?_, ?_⟩
    · rw [if_neg]
      · exact h1
      · rintro ⟨rfl, rfl, rfl⟩
        exact heq rfl
    · split
      · next e => rw [e]
      · exact h2
    · split
      · next e => rw [e]
      · exact h3
    · split
      · next e => rw [e]
      · exact h4

omit [DecidableEq K] [Zero K] in
theorem scan_filled {units : K} : ∀ {l : List (Row K)} {m : ℕ} {A : Arrays K},
    (∀ t r, l[t]? = some r → ∃ i j k, i < n ∧ j < n ∧ k < nz ∧ m + t = rowOf n i j k ∧ r = ⟨xs i, ys j, zs k, E i j k⟩) →
    Filled n nz units xs ys zs E m A → ∃ A', scan n nz units m A l = .ok A' ∧ Filled n nz units xs ys zs E (m + l.length) A'
  | [], m, A, _, hA => ⟨A, rfl, hA⟩
  | r :: l, m, A, h, hA => by
    obtain ⟨i, j, k, hi, hj, hk, hrow, rfl⟩ := h 0 r rfl
    rw [Nat.add_zero] at hrow
    subst hrow
    obtain ⟨A1, e1, h1⟩ := putRow_filled hi hj hk hA
    obtain ⟨A2, e2, h2⟩ := scan_filled (l := l) (m := rowOf n i j k + 1) (A := A1) (fun t r' hr' => by
      obtain ⟨i', j', k', hi', hj', hk', hrow', e⟩ := h (t + 1) r' (by simpa using hr')
      exact ⟨i', j', k', hi', hj', hk', by omega, e⟩) h1
    refine ⟨A2, ?_, ?_⟩
    · rw [scan, e1]
      exact e2
    · rw [List.length_cons, show rowOf n i j k + (l.length + 1) = rowOf n i j k + 1 + l.length by omega]
      exact h2

theorem export_rows (hn : 0 < n) (t : ℕ) (r : Row K) (h : (export3d n n nz xs ys zs E)[t]? = some r) :
    ∃ i j k, i < n ∧ j < n ∧ k < nz ∧ t = rowOf n i j k ∧ r = ⟨xs i, ys j, zs k, E i j k⟩ := by
  obtain ⟨i, j, k, hi, hj, -, hm, -⟩ := C56_bijective hn t
  have hlt : t < nz * (n * n) := by
    have := (List.getElem?_eq_some_iff.1 h).1
    rwa [length_export] at this
  have hk : k < nz := by
    by_contra hc
    have : nz * (n * n) ≤ k * (n * n) := Nat.mul_le_mul_right _ (not_lt.1 hc)
    have : n ^ 2 * k = k * (n * n) := by ring
    omega
  have hrow : t = k * (n * n) + (j * n + i) := by rw [hm]; ring
  rw [hrow, export_getElem? xs ys zs E hi hj hk] at h
  exact ⟨i, j, k, hi, hj, hk, by rw [hm]; unfold rowOf; ring, (Option.some.inj h).symm⟩

theorem scanAll_filled {units : K} (hn : 0 < n) : ∀ (Es : List (ℕ → ℕ → ℕ → K)) (A : Arrays K),
    ∃ R, scanAll n nz units A (Es.map fun E => export3d n n nz xs ys zs E) = .ok R ∧ R.2.length = Es.length ∧
      (∀ (t : ℕ) (E F : ℕ → ℕ → ℕ → K), Es[t]? = some E → R.2[t]? = some F → ∀ i j k, i < n → j < n → k < nz → F i j k = E i j k) ∧
      (Es ≠ [] → ∀ i j k, i < n → j < n → k < nz → R.1.x i = xs i * units ∧ R.1.y j = ys j * units ∧ R.1.z k = zs k * units) ∧ (Es = [] → R.1 = A)
  | [], A => ⟨(A, []), rfl, rfl, fun t E F h => by simp at h, fun h => absurd rfl h, fun _ => rfl⟩
  | E :: Es, A => by
    obtain ⟨A1, e1, h1⟩ := scan_filled (units := units) (E := E) (l := export3d n n nz xs ys zs E) (m := 0) (A := A) (fun t r hr => by
      obtain ⟨i, j, k, a, b, c, d, e⟩ := export_rows hn t r hr
      exact ⟨i, j, k, a, b, c, by rw [Nat.zero_add]; exact d, e⟩) (fun _ _ _ _ _ _ h => absurd h (Nat.not_lt_zero _))
    have hall : ∀ i j k, i < n → j < n → k < nz → rowOf n i j k < 0 + (export3d n n nz xs ys zs E).length := by
      intro i j k hi hj hk
      rw [length_export, Nat.zero_add]
      unfold rowOf
      have h1 : j + n * k < n * (k + 1) := by rw [Nat.mul_add, Nat.mul_one]; omega
      calc i + n * (j + n * k) < n + n * (j + n * k) := by omega
        _ = n * (j + n * k + 1) := by ring
        _ ≤ n * (n * (k + 1)) := Nat.mul_le_mul_left _ h1
        _ ≤ n * (n * nz) := Nat.mul_le_mul_left _ (Nat.mul_le_mul_left _ hk)
        _ = nz * (n * n) := by ring
    obtain ⟨R, e2, hlen, hfr, hx, hA⟩ := scanAll_filled (units := units) hn Es A1
    refine ⟨(R.1, A1.Ez :: R.2), ?_, by rw [List.length_cons, List.length_cons, hlen], fun t E' F hE hF => ?_, fun _ i j k hi hj hk => ?_, fun h => absurd h (List.cons_ne_nil _ _)⟩
    · rw [List.map_cons, scanAll, e1]
      show (scanAll n nz units A1 _).map _ = _
      rw [e2]
      rfl
    · cases t with
      | zero =>
        simp only [List.getElem?_cons_zero, Option.some.injEq] at hE hF
        subst hE hF
        exact fun i j k hi hj hk => (h1 i j k hi hj hk (hall i j k hi hj hk)).1
      | succ t => exact hfr t E' F (by simpa using hE) (by simpa using hF)
    · by_cases hnil : Es = []
      · rw [hA hnil]
        exact (h1 i j k hi hj hk (hall i j k hi hj hk)).2
      · exact hx hnil i j k hi hj hk

/-- **C56 (partial).** For every regular grid with as many cells in x as in y (at least two data lines, distinct x values) and every number of exported time steps, the import has the size of the
grid, the coordinates of its cells in the units asked for, and for each time step the exported value in each cell. Missing: grids with different numbers of cells in x and y (`C56_refuted`), exports with a
single line (`C56_single_refuted`). -/
theorem C56_import_partial (units : K) (hn : 0 < n) (h2 : 2 ≤ n * nz) (hx : ∀ a < n, ∀ b < n, xs a = xs b → a = b) (ys zs : ℕ → K) (E0 : ℕ → ℕ → ℕ → K) (Es : List (ℕ → ℕ → ℕ → K)) :
    ∃ R, readCst units ((E0 :: Es).map fun E => export3d n n nz xs ys zs E) = .ok R ∧ R.n = n ∧ R.nz = nz ∧
      R.x = (List.range n).map (fun i => xs i * units) ∧ R.y = (List.range n).map (fun j => ys j * units) ∧ R.z = (List.range nz).map (fun k => zs k * units) ∧
      R.frames.length = Es.length + 1 ∧
      ∀ (t : ℕ) (E F : ℕ → ℕ → ℕ → K), (E0 :: Es)[t]? = some E → R.frames[t]? = some F → ∀ i j k, i < n → j < n → k < nz → F i j k = E i j k := by
  have hnz : 0 < nz := by
    rcases Nat.eq_zero_or_pos nz with h | h
    · rw [h] at h2; omega
    · exact h
  have hlen : (export3d n n nz xs ys zs E0).length / n ^ 2 = nz := by
    rw [length_export, show nz * (n * n) = nz * n ^ 2 by ring]
    exact Nat.mul_div_cancel _ (Nat.pow_pos hn)
  obtain ⟨R, e, h1, h3, h4, -⟩ := scanAll_filled (xs := xs) (ys := ys) (zs := zs) (nz := nz) (units := units) hn (E0 :: Es) ⟨fun _ _ _ => 0, fun _ => 0, fun _ => 0, fun _ => 0⟩
  have hc := h4 (List.cons_ne_nil _ _)
  refine ⟨⟨n, nz, (List.range n).map R.1.x, (List.range n).map R.1.y, (List.range nz).map R.1.z, R.2⟩, ?_, rfl, rfl, ?_, ?_, ?_, h1, h3⟩
  · rw [List.map_cons] at e ⊢
    show (transverse _).bind _ = _
    rw [transverse_export hn h2 hx]
    simp only [Except.bind, hlen]
    rw [e]
    rfl
  · exact List.map_congr_left fun i hi => (hc i 0 0 (List.mem_range.1 hi) hn hnz).1
  · exact List.map_congr_left fun j hj => (hc 0 j 0 hn (List.mem_range.1 hj) hnz).2.1
  · exact List.map_congr_left fun k hk => (hc 0 0 k hn hn (List.mem_range.1 hk)).2.2

end

example : ∃ R, readCst (1 / 1000 : ℚ) ([fun i j k => ((i + 2 * j + 4 * k : ℕ) : ℚ)].map fun E => export3d 2 2 3 (fun i => (i : ℚ)) (fun _ => 5) (fun k => (k : ℚ)) E) = .ok R ∧ R.n = 2 ∧ R.nz = 3 := by
  obtain ⟨R, h, h1, h2, -⟩ := C56_import_partial (K := ℚ) (n := 2) (nz := 3) (xs := fun i => (i : ℚ)) (1 / 1000) (by norm_num) (by norm_num) (fun a _ b _ h => by exact_mod_cast h) (fun _ => 5) (fun k => (k : ℚ))
    (fun i j k => ((i + 2 * j + 4 * k : ℕ) : ℚ)) []
  exact ⟨R, h, h1, h2⟩

/-- The shape and the values of an import. -/
def valuesOf (r : Py (Import ℚ)) : Option (ℕ × ℕ × List (List ℚ)) :=
  match r with
  | .ok R => some (R.n, R.nz, R.frames.map fun F => (List.range R.n).flatMap fun i => (List.range R.n).flatMap fun j => (List.range R.nz).map fun k => F i j k)
  | .error _ => none

/-- **C56 (refuted).** A grid of 2 × 1 × 3 cells imports as 2 × 2 × 1 cells, with the last values overwriting others. -/
theorem C56_refuted : valuesOf (readCst 1 [export3d 2 1 3 (fun i => (i : ℚ)) (fun _ => 0) (fun k => (k : ℚ)) fun i _ k => (10 * k + i : ℕ)]) = some (2, 1, [[20, 10, 21, 11]]) := by decide +kernel

/-- **C56 (refuted: single line).** -/
theorem C56_single_refuted {K : Type} [Mul K] [Zero K] [DecidableEq K] (units : K) (r : Row K) : readCst units [[r]] = .error .indexError := rfl

end Cst
end Wakis
