import Verif.FieldLemmas
import Verif.FieldSpec
import Mathlib.Analysis.SpecialFunctions.Pow.NNReal

/-!
# Properties of `Field` (C01–C06, C08)
-/

namespace Wakis
namespace Fld
variable {K : Type _}

theorem names_iff {key : CKey} {c : ℕ} : Names key c ↔ compOf key = some c := by
  cases key with
  | num z =>
    simp only [Names, compOf, CKey.num.injEq, reduceCtorEq, or_false]
    split_ifs with h0 h1 h2 <;> simp <;> omega
  | str s =>
    simp only [Names, compOf, CKey.str.injEq, reduceCtorEq, false_or]
    split_ifs with h0 h1 h2
    · subst h0; simp; omega
    · subst h1; simp; omega
    · subst h2; simp; omega
    · simp [h0, h1, h2]

theorem denotes_iff {n : ℕ} {i : ℤ} {a : ℕ} (ha : a < n) :
    Denotes n i a ↔ pyIndex n i = .ok a := by
  rw [pyIndex_ok_iff]; simp [Denotes, ha]

/-! ## C01 -/

open Classical in
/-- **C01.** Any sequence of cell writes (valid or not, with positive or negative Python indices)
makes the field behave as a map from (component, i, j, k) to values holding the last value written.
The read itself may also use any index spelling of the cell. -/
theorem C01_field_is_map (f : Fld K) (ws : List (Write K)) {key : CKey} {c a b d : ℕ} {i j k : ℤ}
    (hc : Names key c) (ha : a < f.Nx) (hb : b < f.Ny) (hd : d < f.Nz)
    (hi : Denotes f.Nx i a) (hj : Denotes f.Ny j b) (hk : Denotes f.Nz k d)
    {v0 : K} (h0 : f.get i j k key = .ok v0) :
    (f.runWrites ws).get i j k key = .ok (lastWritten f.Nx f.Ny f.Nz ws c a b d v0) := by
  induction ws generalizing f v0 with
  | nil => simpa [runWrites, lastWritten] using h0
  | cons w ws ih =>
    have hc' := names_iff.1 hc
    have pi := (denotes_iff ha).1 hi
    have pj := (denotes_iff hb).1 hj
    have pk := (denotes_iff hd).1 hk
    rw [get_eq pi pj pk hc'] at h0
    simp only [Except.ok.injEq] at h0
    simp only [runWrites, lastWritten, List.foldl_cons]
    cases hs : f.set w.i w.j w.k w.c w.v with
    | error e =>
      have hmiss : ¬ w.Hits f.Nx f.Ny f.Nz c a b d := by
        rintro ⟨h1, h2, h3, h4⟩
        rw [set_eq ((denotes_iff ha).1 h2) ((denotes_iff hb).1 h3) ((denotes_iff hd).1 h4)
          (names_iff.1 h1)] at hs
        simp at hs
      simp only [hmiss, if_false]
      exact ih f ha hb hd hi hj hk (by rw [get_eq pi pj pk hc', h0])
    | ok g =>
      obtain ⟨ex, ey, ez⟩ := set_dims (f := f) (g := g) hs
      -- the write succeeded, so its indices and key are valid
      have hval : ∃ c' a' b' d', compOf w.c = some c' ∧ pyIndex f.Nx w.i = .ok a' ∧
          pyIndex f.Ny w.j = .ok b' ∧ pyIndex f.Nz w.k = .ok d' := by
        unfold set at hs
        simp only [setitem, toMatrix] at hs
        cases h1 : compOf w.c with
        | none => simp [h1] at hs
        | some c' =>
          cases h2 : pyIndex f.Nx w.i with
          | error e => simp [h1, h2, assign3, resolve3, Sel.resolve, Except.map, bind, Except.bind] at hs
          | ok a' =>
            cases h3 : pyIndex f.Ny w.j with
            | error e => simp [h1, h2, h3, assign3, resolve3, Sel.resolve, Except.map, bind, Except.bind] at hs
            | ok b' =>
              cases h4 : pyIndex f.Nz w.k with
              | error e => simp [h1, h2, h3, h4, assign3, resolve3, Sel.resolve, Except.map, bind, Except.bind] at hs
              | ok d' => exact ⟨c', a', b', d', rfl, rfl, rfl, rfl⟩
      obtain ⟨c', a', b', d', h1, h2, h3, h4⟩ := hval
      have hat := set_at3 h2 h3 h4 h1 hs (c' := c) ha hb hd
      have hiff : w.Hits f.Nx f.Ny f.Nz c a b d ↔ (c = c' ∧ a = a' ∧ b = b' ∧ d = d') := by
        unfold Write.Hits
        rw [names_iff, denotes_iff ha, denotes_iff hb, denotes_iff hd, h1, h2, h3, h4]
        simp [eq_comm]
      have key' : g.get i j k key =
          .ok (if w.Hits f.Nx f.Ny f.Nz c a b d then w.v else v0) := by
        rw [get_eq (by rw [ex]; exact pi) (by rw [ey]; exact pj) (by rw [ez]; exact pk) hc', hat, h0]
        simp only [hiff]
      have := ih g (ex ▸ ha) (ey ▸ hb) (ez ▸ hd) (ex ▸ hi) (ey ▸ hj) (ez ▸ hk) key'
      rw [ex, ey, ez] at this
      exact this

/-- **C01 (single write).** A write reads back, and no other cell changes. -/
theorem C01_read_after_write (f : Fld K) {key : CKey} {c a b d : ℕ} {i j k : ℤ} (v : K)
    (hc : Names key c) (ha : a < f.Nx) (hb : b < f.Ny) (hd : d < f.Nz)
    (hi : Denotes f.Nx i a) (hj : Denotes f.Ny j b) (hk : Denotes f.Nz k d) :
    ∃ g, f.set i j k key v = .ok g ∧ g.get i j k key = .ok v ∧
      (∀ (key' : CKey) (c' a' b' d' : ℕ), Names key' c' → a' < f.Nx → b' < f.Ny → d' < f.Nz →
        (c', a', b', d') ≠ (c, a, b, d) →
        g.get a' b' d' key' = f.get a' b' d' key') := by
  have hc' := names_iff.1 hc
  have pi := (denotes_iff ha).1 hi
  have pj := (denotes_iff hb).1 hj
  have pk := (denotes_iff hd).1 hk
  refine ⟨_, set_eq pi pj pk hc', ?_, ?_⟩
  · obtain ⟨ex, ey, ez⟩ := set_dims (f := f) (set_eq (v := v) pi pj pk hc')
    have := set_at3 pi pj pk hc' (set_eq (v := v) pi pj pk hc') (c' := c) ha hb hd
    rw [get_eq (by rw [ex]; exact pi) (by rw [ey]; exact pj) (by rw [ez]; exact pk) hc', this]
    simp
  · intro key' c' a' b' d' hc2 ha' hb' hd' hne
    have := set_at3 pi pj pk hc' (set_eq (v := v) pi pj pk hc') (c' := c') ha' hb' hd'
    obtain ⟨ex, ey, ez⟩ := set_dims (f := f) (set_eq (v := v) pi pj pk hc')
    rw [get_eq (by rw [ex]; exact pyIndex_natCast ha') (by rw [ey]; exact pyIndex_natCast hb')
        (by rw [ez]; exact pyIndex_natCast hd') (names_iff.1 hc2), this,
      get_eq (pyIndex_natCast ha') (pyIndex_natCast hb') (pyIndex_natCast hd') (names_iff.1 hc2)]
    rw [if_neg]
    rintro ⟨rfl, rfl, rfl, rfl⟩
    exact hne rfl

/-- A 2×3×2 field whose flat entries are their own positions. -/
def demo : Fld ℕ := ⟨2, 3, 2, id⟩

/-- Non-vacuity of C01: a sequence mixing a valid write, a write with negative indices and an
invalid one. -/
example : ((demo.runWrites [⟨1, 2, 1, .str "y", 100⟩, ⟨7, 0, 0, .num 1, 5⟩, ⟨-1, -1, -1, .num 1, 200⟩]).get
    1 2 1 (.num 1)).toOption = some 200 ∧ (demo.get 1 2 1 (.num 1)).toOption = some 23 := by
  decide

/-- **C01 (slices).** Assigning through any three selectors (integers or slices) changes exactly the
selected cells of the named component: inside the selection the cell holds the scalar, or the entry
of the array at the same relative position; everything else is untouched. -/
theorem C01_block_write (f g : Fld K) {kx ky kz : Sel} {key : CKey} {c : ℕ} {value : Rhs K}
    {xs ys zs : List ℕ} (hc : Names key c)
    (hx : kx.resolve f.Nx = .ok xs) (hy : ky.resolve f.Ny = .ok ys) (hz : kz.resolve f.Nz = .ok zs)
    (hg : f.setitem (.tup kx ky kz key) value = .ok g)
    {key' : CKey} {c' i j k : ℕ} (hc' : Names key' c') (hi : i < f.Nx) (hj : j < f.Ny)
    (hk : k < f.Nz) :
    g.get i j k key' =
      if c' = c ∧ i ∈ xs ∧ j ∈ ys ∧ k ∈ zs then
        .ok (match value with
          | .scalar v => v
          | .arr _ v => v (xs.idxOf i) (ys.idxOf j) (zs.idxOf k))
      else f.get i j k key' := by
  obtain ⟨ex, ey, ez⟩ := set_dims hg
  have hcc := names_iff.1 hc
  have hcc' := names_iff.1 hc'
  rw [get_eq (f := g) (by rw [ex]; exact pyIndex_natCast hi) (by rw [ey]; exact pyIndex_natCast hj)
      (by rw [ez]; exact pyIndex_natCast hk) hcc',
    get_eq (pyIndex_natCast hi) (pyIndex_natCast hj) (pyIndex_natCast hk) hcc']
  simp only [setitem, toMatrix, hcc, Option.map, assign3, resolve3, hx, hy, hz, bind, Except.bind,
    pure, Except.pure, fromMatrix] at hg
  cases value with
  | scalar v =>
    simp only [Except.ok.injEq] at hg
    subst hg
    rw [setPart_at3 hi hj hk, ravelF_idx _ hi hj]
    by_cases h : c' = c
    · subst h; simp only [if_true, true_and]; split_ifs <;> rfl
    · simp [h]
  | arr sh v =>
    simp only at hg
    split_ifs at hg with hsh
    simp only [Except.ok.injEq] at hg
    subst hg
    rw [setPart_at3 hi hj hk, ravelF_idx _ hi hj]
    by_cases h : c' = c
    · subst h; simp only [if_true, true_and]; split_ifs <;> rfl
    · simp [h]

/-- Which positions a slice selects: exactly those between the clipped bounds. -/
theorem mem_slice {n : ℕ} {st sp : Option ℤ} {xs : List ℕ}
    (h : (Sel.slice st sp).resolve n = .ok xs) (a : ℕ) :
    a ∈ xs ↔ sliceLo n st ≤ a ∧ a < sliceHi n sp := by
  simp only [Sel.resolve, Except.ok.injEq] at h
  subst h
  simp only [List.mem_map, List.mem_range]
  constructor
  · rintro ⟨b, hb, rfl⟩; omega
  · rintro ⟨h1, h2⟩; exact ⟨a - sliceLo n st, by omega, by omega⟩

example : ((match demo.setitem (.tup (.int (-1)) (.slice (some 1) none) .all (.str "z")) (.scalar 7) with
    | .ok g => (List.range 36).map g.array | .error _ => []))
  = [0,1,2,3,4,5,6,7,8,9,10,11,12,13,14,15,16,17,18,19,20,21,22,23,24,25,26,7,28,7,30,31,32,7,34,7] := by
  decide

/-! ## C02 -/

/-- The documented flat position of a cell. -/
def flatPos (Nx Ny Nz c i j k : ℕ) : ℕ := c * (Nx * Ny * Nz) + i + j * Nx + k * Nx * Ny

/-- **C02 (layout).** Reading a cell returns the flat entry at `c*N + i + j*Nx + k*Nx*Ny`. -/
theorem C02_layout (f : Fld K) {key : CKey} {c i j k : ℕ} (hc : Names key c) (hi : i < f.Nx)
    (hj : j < f.Ny) (hk : k < f.Nz) :
    f.get i j k key = .ok (f.toarray (flatPos f.Nx f.Ny f.Nz c i j k)) := by
  rw [get_eq (pyIndex_natCast hi) (pyIndex_natCast hj) (pyIndex_natCast hk) (names_iff.1 hc)]
  unfold at3 toarray flatPos N
  congr 2
  ring

/-- **C02 (bijection).** Every flat position below `3N` is the position of exactly one cell of one
component, and positions of cells are below `3N`. -/
theorem C02_bijection (Nx Ny Nz : ℕ) :
    (∀ c i j k, c < 3 → i < Nx → j < Ny → k < Nz → flatPos Nx Ny Nz c i j k < 3 * (Nx * Ny * Nz)) ∧
    (∀ p < 3 * (Nx * Ny * Nz), ∃! q : ℕ × ℕ × ℕ × ℕ,
      q.1 < 3 ∧ q.2.1 < Nx ∧ q.2.2.1 < Ny ∧ q.2.2.2 < Nz ∧
        flatPos Nx Ny Nz q.1 q.2.1 q.2.2.1 q.2.2.2 = p) := by
  have hrw : ∀ c i j k, flatPos Nx Ny Nz c i j k = i + Nx * (j + Ny * (k + Nz * c)) := by
    intro c i j k; unfold flatPos; ring
  constructor
  · intro c i j k hc hi hj hk
    rw [hrw]
    have h1 := idx_lt (n0 := Ny) (n1 := Nz) (n2 := 3) hj hk hc
    calc i + Nx * (j + Ny * (k + Nz * c)) < Nx + Nx * (j + Ny * (k + Nz * c)) := by omega
      _ = Nx * (j + Ny * (k + Nz * c) + 1) := by ring
      _ ≤ Nx * (Ny * Nz * 3) := Nat.mul_le_mul_left _ h1
      _ = 3 * (Nx * Ny * Nz) := by ring
  · intro p hp
    have hx : 0 < Nx := by rcases Nat.eq_zero_or_pos Nx with h | h; · subst h; simp at hp
                           · exact h
    have hy : 0 < Ny := by rcases Nat.eq_zero_or_pos Ny with h | h; · subst h; simp at hp
                           · exact h
    have hz : 0 < Nz := by rcases Nat.eq_zero_or_pos Nz with h | h; · subst h; simp at hp
                           · exact h
    refine ⟨(p / Nx / Ny / Nz, p % Nx, p / Nx % Ny, p / Nx / Ny % Nz), ?_, ?_⟩
    · refine ⟨?_, Nat.mod_lt _ hx, Nat.mod_lt _ hy, Nat.mod_lt _ hz, ?_⟩
      · rw [Nat.div_div_eq_div_mul, Nat.div_div_eq_div_mul]
        exact Nat.div_lt_of_lt_mul (by rw [← Nat.mul_assoc, Nat.mul_comm]; exact hp)
      · rw [hrw]; simp only
        rw [Nat.mod_add_div (p / Nx / Ny) Nz, Nat.mod_add_div (p / Nx) Ny, Nat.mod_add_div p Nx]
    · rintro ⟨c, i, j, k⟩ ⟨hc, hi, hj, hk, rfl⟩
      simp only at hc hi hj hk ⊢
      rw [hrw]
      rw [idx_mod _ hi, idx_div _ hi, idx_mod _ hj, idx_div _ hj, idx_mod _ hk, idx_div _ hk]

/-- **C02 (round trip).** `to_matrix` after `from_matrix` returns the matrix, the other components
keep theirs, and storing back the matrix just read changes no entry of the array. -/
theorem C02_matrix_round_trip (f g : Fld K) (mat : ℕ → ℕ → ℕ → K) {key : CKey} {c : ℕ}
    (hc : Names key c) (hg : f.fromMatrix mat key = .ok g) :
    (∀ m, g.toMatrix key = some m → ∀ i < f.Nx, ∀ j < f.Ny, ∀ k < f.Nz, m i j k = mat i j k) ∧
    (∀ key' c', Names key' c' → c' ≠ c → ∀ m m', f.toMatrix key' = some m →
      g.toMatrix key' = some m' → ∀ i < f.Nx, ∀ j < f.Ny, ∀ k < f.Nz, m' i j k = m i j k) ∧
    (∀ m h, f.toMatrix key = some m → f.fromMatrix m key = .ok h →
      ∀ p < 3 * f.N, h.toarray p = f.toarray p) := by
  have hc1 := names_iff.1 hc
  simp only [fromMatrix, hc1, Except.ok.injEq] at hg
  subst hg
  refine ⟨?_, ?_, ?_⟩
  · intro m hm i hi j hj k hk
    simp only [toMatrix, hc1, Option.map, Option.some.injEq] at hm
    subst hm
    have := setPart_part (f := f) (c := c) (c' := c) (v := ravelF f.Nx f.Ny mat) (idx_lt hi hj hk)
    simp only [if_true] at this
    simp only [reshapeF, setPart_Nx, setPart_Ny]
    rw [this, ravelF_idx _ hi hj]
  · intro key' c' hk' hne m m' hm hm' i hi j hj k hk
    have hc2 := names_iff.1 hk'
    simp only [toMatrix, hc2, Option.map, Option.some.injEq] at hm hm'
    subst hm hm'
    have := setPart_part (f := f) (c := c) (c' := c') (v := ravelF f.Nx f.Ny mat) (idx_lt hi hj hk)
    simp only [hne, if_false] at this
    simp only [reshapeF, setPart_Nx, setPart_Ny]
    rw [this]
  · intro m h hm hh p hp
    simp only [toMatrix, hc1, Option.map, Option.some.injEq] at hm
    subst hm
    simp only [fromMatrix, hc1, Except.ok.injEq] at hh
    subst hh
    simp only [toarray, setPart]
    split_ifs with hin
    · rw [ravelF_reshapeF]
      unfold part
      congr 1; omega
    · rfl

example : Names (.str "y") 1 ∧ (demo.fromMatrix (fun i j k => 100 * i + 10 * j + k) (.str "y")).toOption.isSome := by
  refine ⟨by simp [Names], by decide⟩

/-! ## C03 -/

/-- The full claim of C03 for one grid: `compute_ijk` accepts exactly the cell numbers and returns
the cell. -/
def ComputeIjkCorrect (f : Fld K) : Prop :=
  ∀ n : ℤ, (0 ≤ n ∧ n < f.N → ∃ i j k : ℤ, f.computeIjk n = .ok (i, j, k) ∧ 0 ≤ i ∧ i < f.Nx ∧
      0 ≤ j ∧ j < f.Ny ∧ 0 ≤ k ∧ k < f.Nz ∧ i + j * f.Nx + k * f.Nx * f.Ny = n) ∧
    (¬ (0 ≤ n ∧ n < f.N) → ∃ e, f.computeIjk n = .error e)

/-- **C03 (partial).** On every cell number `compute_ijk` returns the unique in-range cell with that
number, and every `n > N` is refused.  Missing from the full claim: `n = N` and negative `n` are
accepted, see `C03_accepts_N` and `C03_accepts_negative`. -/
theorem C03_compute_ijk_partial (f : Fld K) (n : ℕ) :
    (n < f.N → ∃ i j k : ℕ, f.computeIjk n = .ok ((i : ℤ), (j : ℤ), (k : ℤ)) ∧ i < f.Nx ∧ j < f.Ny ∧
      k < f.Nz ∧ i + j * f.Nx + k * f.Nx * f.Ny = n ∧
      ∀ i' j' k' : ℕ, i' < f.Nx → j' < f.Ny → k' < f.Nz →
        i' + j' * f.Nx + k' * f.Nx * f.Ny = n → i' = i ∧ j' = j ∧ k' = k) ∧
    (f.N < n → f.computeIjk n = .error .indexError) := by
  constructor
  · intro hn
    obtain ⟨h1, h2, h3⟩ := digits_lt (n0 := f.Nx) (n1 := f.Ny) (n2 := f.Nz) hn
    refine ⟨n % f.Nx, n / f.Nx % f.Ny, n / f.Nx / f.Ny, ?_, h1, h2, h3, ?_, ?_⟩
    · unfold computeIjk
      rw [if_neg (by push_cast; omega)]
      have hk : (n : ℤ).fdiv (f.Nx * f.Ny) = ((n / f.Nx / f.Ny : ℕ) : ℤ) := by
        rw [Int.fdiv_eq_ediv_of_nonneg _ (by positivity), Nat.div_div_eq_div_mul]
        push_cast; rfl
      have hsub : (n : ℤ) - ((n / f.Nx / f.Ny : ℕ) : ℤ) * f.Nx * f.Ny = ((n % (f.Nx * f.Ny) : ℕ) : ℤ) := by
        have := Nat.mod_add_div n (f.Nx * f.Ny)
        rw [Nat.div_div_eq_div_mul]
        have e : (n : ℤ) = ((n % (f.Nx * f.Ny) : ℕ) : ℤ) + f.Nx * f.Ny * ((n / (f.Nx * f.Ny) : ℕ) : ℤ) := by
          exact_mod_cast this.symm
        linarith [e, mul_comm ((n / (f.Nx * f.Ny) : ℕ) : ℤ) ((f.Nx : ℤ) * f.Ny),
          mul_assoc ((n / (f.Nx * f.Ny) : ℕ) : ℤ) (f.Nx : ℤ) (f.Ny : ℤ)]
      simp only [hk, hsub]
      rw [Int.fmod_eq_emod_of_nonneg _ (by positivity), Int.fdiv_eq_ediv_of_nonneg _ (by positivity)]
      have e1 : ((n % (f.Nx * f.Ny) : ℕ) : ℤ) % f.Nx = ((n % f.Nx : ℕ) : ℤ) := by
        rw [← Nat.mod_mul_right_mod n f.Nx f.Ny]; push_cast; rfl
      have e2 : ((n % (f.Nx * f.Ny) : ℕ) : ℤ) / f.Nx = ((n / f.Nx % f.Ny : ℕ) : ℤ) := by
        rw [← Nat.mod_mul_right_div_self n f.Nx f.Ny]; push_cast; rfl
      rw [e1, e2]
    · have e1 := Nat.mod_add_div n f.Nx
      have e2 := Nat.mod_add_div (n / f.Nx) f.Ny
      calc n % f.Nx + n / f.Nx % f.Ny * f.Nx + n / f.Nx / f.Ny * f.Nx * f.Ny
          = n % f.Nx + f.Nx * (n / f.Nx % f.Ny + f.Ny * (n / f.Nx / f.Ny)) := by ring
        _ = n := by rw [e2, e1]
    · intro i' j' k' hi hj hk e
      have e' : n = i' + f.Nx * (j' + f.Ny * k') := by rw [← e]; ring
      subst e'
      rw [idx_mod _ hi, idx_div _ hi, idx_mod _ hj, idx_div _ hj]
      exact ⟨rfl, rfl, rfl⟩
  · intro hn
    unfold computeIjk
    rw [if_pos (by exact_mod_cast hn)]

/-- **C03 (negation at the boundary).** On every grid with at least one cell, the first non-cell
number `N` is accepted and decoded to layer `k = Nz`, which does not exist. -/
theorem C03_accepts_N (f : Fld K) (h : 0 < f.N) : f.computeIjk f.N = .ok (0, 0, (f.Nz : ℤ)) := by
  unfold computeIjk
  rw [if_neg (by omega)]
  have hxy : 0 < f.Nx * f.Ny := Nat.pos_of_mul_pos_right h
  have hk : ((f.N : ℕ) : ℤ).fdiv (f.Nx * f.Ny) = (f.Nz : ℤ) := by
    rw [Int.fdiv_eq_ediv_of_nonneg _ (by positivity)]
    have : f.N / (f.Nx * f.Ny) = f.Nz := by
      unfold N; exact Nat.mul_div_cancel_left _ hxy
    exact_mod_cast this
  have hsub : ((f.N : ℕ) : ℤ) - (f.Nz : ℤ) * f.Nx * f.Ny = 0 := by
    unfold N; push_cast; ring
  simp only [hk, hsub]
  simp

/-- **C03 (negation for negative numbers).** -1 is accepted and decoded to a negative layer. -/
theorem C03_accepts_negative (f : Fld K) (h : 0 < f.N) :
    ∃ i j k : ℤ, f.computeIjk (-1) = .ok (i, j, k) ∧ k < 0 := by
  unfold computeIjk
  rw [if_neg (by omega)]
  refine ⟨_, _, _, rfl, ?_⟩
  have hxy : 0 < f.Nx * f.Ny := Nat.pos_of_mul_pos_right h
  have : (0 : ℤ) < (f.Nx : ℤ) * f.Ny := by exact_mod_cast hxy
  rw [Int.fdiv_eq_ediv_of_nonneg _ this.le]
  exact Int.ediv_neg_of_neg_of_pos (by norm_num) this

/-- The full claim of C03 is false on every non-empty grid. -/
theorem C03_full_claim_false (f : Fld K) (h : 0 < f.N) : ¬ ComputeIjkCorrect f := by
  intro hc
  obtain ⟨e, he⟩ := (hc f.N).2 (by omega)
  rw [C03_accepts_N f h] at he
  simp at he

example : 0 < demo.N ∧ demo.computeIjk 11 = .ok (1, 2, 1) ∧ demo.computeIjk 12 = .ok (0, 0, 2) := by
  decide

/-! ## C04 -/

/-- **C04 (partial).** What an integer key does, for every integer: between `-3N` and `N` it addresses
the flat entry `n` (or `3N + n` if negative) and nothing else; every other integer raises
`IndexError`.  Missing from the full claim: the entries `N+1 .. 3N-1` exist but are refused
(`C04_refuses_valid`), and `N` is accepted although the guard says "cannot be higher than the product
of dimensions" and addresses the first y entry (`C04_N_is_y`). -/
theorem C04_int_key_partial (f : Fld K) (n : ℤ) (v : K) :
    (-(3 * f.N : ℕ) ≤ n ∧ n < (3 * f.N : ℕ) ∧ n ≤ f.N →
      ∃ p : ℕ, p < 3 * f.N ∧ Denotes (3 * f.N) n p ∧ f.getInt n = .ok (f.toarray p) ∧
        ∃ g, f.setitem (.int n) (.scalar v) = .ok g ∧ g.toarray p = v ∧
          ∀ q, q ≠ p → g.toarray q = f.toarray q) ∧
    (¬ (-(3 * f.N : ℕ) ≤ n ∧ n < (3 * f.N : ℕ) ∧ n ≤ f.N) →
      f.getInt n = .error .indexError ∧ f.setitem (.int n) (.scalar v) = .error .indexError) := by
  constructor
  · rintro ⟨h1, h2, h3⟩
    have : ∃ p, pyIndex (3 * f.N) n = .ok p := by
      unfold pyIndex
      split_ifs with ha hb
      · exact ⟨_, rfl⟩
      · exact ⟨_, rfl⟩
      · omega
    obtain ⟨p, hp⟩ := this
    refine ⟨p, pyIndex_lt hp, (pyIndex_ok_iff.1 hp).2, ?_, ?_⟩
    · simp [getInt, h3, hp, Except.map, toarray]
    · refine ⟨{ f with array := fun q => if q = p then v else f.array q }, ?_, ?_, ?_⟩
      · simp [setitem, h3, hp, bind, Except.bind]
      · simp [toarray]
      · intro q hq; simp [toarray, hq]
  · intro hn
    by_cases h3 : n ≤ f.N
    · have : pyIndex (3 * f.N) n = .error .indexError := by
        unfold pyIndex
        rw [if_neg (by omega), if_neg (by omega)]
      simp [getInt, setitem, h3, this, Except.map, bind, Except.bind]
    · simp [getInt, setitem, h3]

/-- **C04 (negation).** Valid flat positions above `N` are refused, on every non-empty grid. -/
theorem C04_refuses_valid (f : Fld K) (n : ℕ) (_ : n < 3 * f.N) (h : f.N < n) :
    f.getInt n = .error .indexError := by
  simp only [getInt]
  rw [if_neg (by push_cast; omega)]

/-- **C04 (negation).** Key `N` passes the guard and reads the first entry of the y component. -/
theorem C04_N_is_y (f : Fld K) (h : 0 < f.N) : f.getInt f.N = f.get 0 0 0 (.str "y") := by
  have hx : 0 < f.Nx := by
    rcases Nat.eq_zero_or_pos f.Nx with h0 | h0
    · simp [N, h0] at h
    · exact h0
  have hy : 0 < f.Ny := by
    rcases Nat.eq_zero_or_pos f.Ny with h0 | h0
    · simp [N, h0] at h
    · exact h0
  have hz : 0 < f.Nz := by
    rcases Nat.eq_zero_or_pos f.Nz with h0 | h0
    · simp [N, h0] at h
    · exact h0
  rw [get_eq (i := 0) (j := 0) (k := 0) (a := 0) (b := 0) (d := 0) (c := 1)
    (pyIndex_natCast hx) (pyIndex_natCast hy) (pyIndex_natCast hz) (by decide)]
  simp only [getInt, le_refl, if_true]
  rw [pyIndex_natCast (by omega)]
  simp [Except.map, at3]

example : demo.getInt 12 = .ok 12 ∧ demo.getInt 13 = .error .indexError ∧ demo.getInt (-1) = .ok 35 := by
  refine ⟨rfl, rfl, rfl⟩

/-! ## C05 -/

/-- **C05.** A key naming no component is refused by every accessor (for reading, unless it is "abs"
in some letter case); as the operations return the new field only on success, nothing is stored. -/
theorem C05_unknown_component (norm3 : K → K → K → K) (f : Fld K) (key : CKey)
    (h : ∀ c, ¬ Names key c) (kx ky kz : Sel) (value : Rhs K) (mat : ℕ → ℕ → ℕ → K) :
    f.setitem (.tup kx ky kz key) value = .error .typeError ∧
    f.fromMatrix mat key = .error .indexError ∧
    f.toMatrix key = none ∧
    (isAbs key = false → f.getitem norm3 kx ky kz key = .error .indexError) := by
  have hn : compOf key = none := by
    cases hc : compOf key with
    | none => rfl
    | some c => exact absurd (names_iff.2 hc) (h c)
  refine ⟨?_, ?_, ?_, ?_⟩
  · simp [setitem, toMatrix, hn]
  · simp [fromMatrix, hn]
  · simp [toMatrix, hn]
  · intro ha; simp [getitem, toMatrix, hn, ha]

/-- **C05.** Every other ill-formed key is refused as well. -/
theorem C05_bad_keys (f : Fld K) (value : Rhs K) :
    f.setitem .badTup value = .error .indexError ∧ f.setitem .other value = .error .indexError :=
  ⟨rfl, rfl⟩

/-- The keys accepted for writing are exactly six. -/
theorem C05_accepted_keys (key : CKey) : (∃ c, Names key c) ↔
    key ∈ [CKey.num 0, .num 1, .num 2, .str "x", .str "y", .str "z"] := by
  constructor
  · rintro ⟨c, hc⟩
    cases key with
    | num z => obtain ⟨rfl, hlt⟩ := hc; interval_cases c <;> simp
    | str s => rcases hc with ⟨rfl, _⟩ | ⟨rfl, _⟩ | ⟨rfl, _⟩ <;> simp
  · intro h
    simp only [List.mem_cons, List.not_mem_nil, or_false] at h
    rcases h with h | h | h | h | h | h <;> subst h
    · exact ⟨0, by simp [Names]⟩
    · exact ⟨1, by simp [Names]⟩
    · exact ⟨2, by simp [Names]⟩
    · exact ⟨0, by simp [Names]⟩
    · exact ⟨1, by simp [Names]⟩
    · exact ⟨2, by simp [Names]⟩

example : ∀ c, ¬ Names (.str "X") c := by
  intro c h
  rcases h with ⟨h, _⟩ | ⟨h, _⟩ | ⟨h, _⟩ <;> exact absurd h (by decide)
example : isAbs (.str "aBs") = true ∧ isAbs (.str "X") = false := by decide

end Fld
end Wakis
