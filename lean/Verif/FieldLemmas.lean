import Verif.FieldModel
import Mathlib.Tactic.NormNum
import Mathlib.Tactic.IntervalCases

/-! Helper lemmas about the `Field` model (no property statements here). -/

namespace Wakis
namespace Fld
variable {K : Type _}

theorem idx_lt {n0 n1 n2 i j k : ℕ} (hi : i < n0) (hj : j < n1) (hk : k < n2) :
    i + n0 * (j + n1 * k) < n0 * n1 * n2 := by
  have h1 : j + n1 * k < n1 * n2 := by
    calc j + n1 * k < n1 + n1 * k := by omega
      _ = n1 * (k + 1) := by ring
      _ ≤ n1 * n2 := Nat.mul_le_mul_left _ hk
  calc i + n0 * (j + n1 * k) < n0 + n0 * (j + n1 * k) := by omega
    _ = n0 * (j + n1 * k + 1) := by ring
    _ ≤ n0 * (n1 * n2) := Nat.mul_le_mul_left _ h1
    _ = n0 * n1 * n2 := by ring

theorem idx_mod {n0 i : ℕ} (m : ℕ) (hi : i < n0) : (i + n0 * m) % n0 = i := by
  rw [Nat.add_mul_mod_self_left, Nat.mod_eq_of_lt hi]

theorem idx_div {n0 i : ℕ} (m : ℕ) (hi : i < n0) : (i + n0 * m) / n0 = m := by
  rw [Nat.add_mul_div_left _ _ (by omega), Nat.div_eq_of_lt hi, Nat.zero_add]

theorem ravelF_idx {n0 n1 i j k : ℕ} (m : ℕ → ℕ → ℕ → K) (hi : i < n0) (hj : j < n1) :
    ravelF n0 n1 m (i + n0 * (j + n1 * k)) = m i j k := by
  unfold ravelF
  rw [idx_mod _ hi, idx_div _ hi, idx_mod _ hj, idx_div _ hj]

theorem reshapeF_ravelF {n0 n1 i j k : ℕ} (m : ℕ → ℕ → ℕ → K) (hi : i < n0) (hj : j < n1) :
    reshapeF n0 n1 (ravelF n0 n1 m) i j k = m i j k := ravelF_idx m hi hj

theorem ravelF_reshapeF (n0 n1 p : ℕ) (a : ℕ → K) :
    ravelF n0 n1 (reshapeF n0 n1 a) p = a p := by
  unfold ravelF reshapeF
  congr 1
  rw [Nat.mod_add_div (p / n0) n1, Nat.mod_add_div p n0]

theorem digits_lt {n0 n1 n2 p : ℕ} (h : p < n0 * n1 * n2) :
    p % n0 < n0 ∧ p / n0 % n1 < n1 ∧ p / n0 / n1 < n2 := by
  have h0 : 0 < n0 := by
    rcases Nat.eq_zero_or_pos n0 with h0 | h0
    · subst h0; simp at h
    · exact h0
  have h1 : 0 < n1 := by
    rcases Nat.eq_zero_or_pos n1 with h1 | h1
    · subst h1; simp at h
    · exact h1
  refine ⟨Nat.mod_lt _ h0, Nat.mod_lt _ h1, ?_⟩
  rw [Nat.div_div_eq_div_mul]
  exact Nat.div_lt_of_lt_mul h

theorem compOf_lt {key : CKey} {c : ℕ} (h : compOf key = some c) : c < 3 := by
  unfold compOf at h
  split_ifs at h <;> simp at h <;> omega

@[simp] theorem setPart_N (f : Fld K) (c : ℕ) (v : ℕ → K) : (f.setPart c v).N = f.N := rfl
@[simp] theorem setPart_Nx (f : Fld K) (c : ℕ) (v : ℕ → K) : (f.setPart c v).Nx = f.Nx := rfl
@[simp] theorem setPart_Ny (f : Fld K) (c : ℕ) (v : ℕ → K) : (f.setPart c v).Ny = f.Ny := rfl
@[simp] theorem setPart_Nz (f : Fld K) (c : ℕ) (v : ℕ → K) : (f.setPart c v).Nz = f.Nz := rfl

theorem setPart_array_same {f : Fld K} {c p : ℕ} {v : ℕ → K} (h : p < f.N) :
    (f.setPart c v).array (c * f.N + p) = v p := by
  unfold setPart
  have : (c + 1) * f.N = c * f.N + f.N := by ring
  simp only
  rw [if_pos (by omega)]
  congr 1; omega

theorem setPart_array_ne {f : Fld K} {c c' p : ℕ} {v : ℕ → K} (h : p < f.N) (hc : c' ≠ c) :
    (f.setPart c v).array (c' * f.N + p) = f.array (c' * f.N + p) := by
  unfold setPart
  simp only
  rw [if_neg]
  rintro ⟨h1, h2⟩
  rcases Nat.lt_or_gt_of_ne hc with h' | h'
  · have : (c' + 1) * f.N ≤ c * f.N := Nat.mul_le_mul_right _ h'
    have e : (c' + 1) * f.N = c' * f.N + f.N := by ring
    omega
  · have : (c + 1) * f.N ≤ c' * f.N := Nat.mul_le_mul_right _ h'
    omega

theorem setPart_part {f : Fld K} {c c' p : ℕ} {v : ℕ → K} (h : p < f.N) :
    (f.setPart c v).part c' p = if c' = c then v p else f.part c' p := by
  unfold part
  rw [setPart_N]
  split_ifs with hc
  · subst hc; exact setPart_array_same h
  · exact setPart_array_ne h hc

/-- The value of component `c` at cell `(i,j,k)`: the flat-array entry at the documented place. -/
def at3 (f : Fld K) (c i j k : ℕ) : K := f.array (c * f.N + (i + f.Nx * (j + f.Ny * k)))

theorem setPart_at3 {f : Fld K} {c c' i j k : ℕ} {v : ℕ → K} (hi : i < f.Nx) (hj : j < f.Ny)
    (hk : k < f.Nz) :
    (f.setPart c v).at3 c' i j k =
      if c' = c then v (i + f.Nx * (j + f.Ny * k)) else f.at3 c' i j k :=
  setPart_part (f := f) (c := c) (c' := c') (v := v) (idx_lt hi hj hk)

theorem mem_idx {n : ℕ} {a : ℕ} {i : ℤ} (h : pyIndex n i = .ok a) :
    (Sel.int i).resolve n = .ok [a] := by
  simp [Sel.resolve, h, Except.map]

theorem get_eq {f : Fld K} {i j k : ℤ} {key : CKey} {a b d c : ℕ}
    (hi : pyIndex f.Nx i = .ok a) (hj : pyIndex f.Ny j = .ok b) (hk : pyIndex f.Nz k = .ok d)
    (hc : compOf key = some c) : f.get i j k key = .ok (f.at3 c a b d) := by
  simp only [get, toMatrix, hc, Option.map, index3, resolve3, mem_idx hi, mem_idx hj, mem_idx hk,
    bind, Except.bind, pure, Except.pure]
  rfl

theorem set_eq {f : Fld K} {i j k : ℤ} {key : CKey} {a b d c : ℕ} {v : K}
    (hi : pyIndex f.Nx i = .ok a) (hj : pyIndex f.Ny j = .ok b) (hk : pyIndex f.Nz k = .ok d)
    (hc : compOf key = some c) :
    f.set i j k key v = .ok (f.setPart c (ravelF f.Nx f.Ny fun i' j' k' =>
      if i' ∈ [a] ∧ j' ∈ [b] ∧ k' ∈ [d] then v else reshapeF f.Nx f.Ny (f.part c) i' j' k')) := by
  simp only [set, setitem, toMatrix, hc, Option.map, assign3, resolve3, mem_idx hi, mem_idx hj,
    mem_idx hk, bind, Except.bind, pure, Except.pure, fromMatrix]

/-- What a successful `set` does to any cell. -/
theorem set_at3 {f g : Fld K} {i j k : ℤ} {key : CKey} {a b d c : ℕ} {v : K}
    (hi : pyIndex f.Nx i = .ok a) (hj : pyIndex f.Ny j = .ok b) (hk : pyIndex f.Nz k = .ok d)
    (hc : compOf key = some c) (hg : f.set i j k key v = .ok g) {c' i' j' k' : ℕ}
    (hi' : i' < f.Nx) (hj' : j' < f.Ny) (hk' : k' < f.Nz) :
    g.at3 c' i' j' k' = if c' = c ∧ i' = a ∧ j' = b ∧ k' = d then v else f.at3 c' i' j' k' := by
  rw [set_eq hi hj hk hc] at hg
  simp only [Except.ok.injEq] at hg
  subst hg
  rw [setPart_at3 hi' hj' hk']
  by_cases h : c' = c
  · subst h
    simp only [if_true, true_and]
    rw [ravelF_idx _ hi' hj']
    simp only [List.mem_singleton]
    split_ifs <;> first | rfl | simp_all
  · simp [h]

theorem set_dims {f g : Fld K} {key : Key} {v : Rhs K} (hg : f.setitem key v = .ok g) :
    g.Nx = f.Nx ∧ g.Ny = f.Ny ∧ g.Nz = f.Nz := by
  cases key with
  | badTup => simp [setitem] at hg
  | other => simp [setitem] at hg
  | tup kx ky kz c =>
    simp only [setitem] at hg
    split at hg
    · simp at hg
    · rename_i m hm
      cases hm' : f.assign3 m kx ky kz v with
      | error e => simp [hm', bind, Except.bind] at hg
      | ok m' =>
        simp only [hm', bind, Except.bind, fromMatrix] at hg
        split at hg
        · simp only [Except.ok.injEq] at hg; subst hg; exact ⟨rfl, rfl, rfl⟩
        · simp at hg
  | int n =>
    simp only [setitem] at hg
    split_ifs at hg
    cases ha : pyIndex (3 * f.N) n with
    | error e => simp [ha, bind, Except.bind] at hg
    | ok a =>
      simp only [ha, bind, Except.bind] at hg
      cases v with
      | scalar v => simp only [Except.ok.injEq] at hg; subst hg; exact ⟨rfl, rfl, rfl⟩
      | arr s w => simp at hg

/-- Two fields of the same size agree on every stored entry iff they agree on every cell. -/
theorem array_eq_of_at3 {f g : Fld K} (hx : g.Nx = f.Nx) (hy : g.Ny = f.Ny) (hz : g.Nz = f.Nz)
    (h : ∀ c < 3, ∀ i < f.Nx, ∀ j < f.Ny, ∀ k < f.Nz, g.at3 c i j k = f.at3 c i j k) :
    ∀ n < 3 * f.N, g.array n = f.array n := by
  intro n hn
  have hN : 0 < f.N := by
    rcases Nat.eq_zero_or_pos f.N with h0 | h0
    · rw [h0] at hn; simp at hn
    · exact h0
  have hNg : g.N = f.N := by simp [N, hx, hy, hz]
  have hp : n % f.N < f.Nx * f.Ny * f.Nz := Nat.mod_lt _ hN
  obtain ⟨h1, h2, h3⟩ := digits_lt hp
  have hc : n / f.N < 3 := Nat.div_lt_of_lt_mul (by rw [Nat.mul_comm]; exact hn)
  have := h (n / f.N) hc _ h1 _ h2 _ h3
  unfold at3 at this
  rw [hNg, hx, hy] at this
  have e : n % f.N % f.Nx + f.Nx * (n % f.N / f.Nx % f.Ny + f.Ny * (n % f.N / f.Nx / f.Ny))
      = n % f.N := by
    rw [Nat.mod_add_div (n % f.N / f.Nx) f.Ny, Nat.mod_add_div (n % f.N) f.Nx]
  rw [e] at this
  have e2 : n / f.N * f.N + n % f.N = n := by
    rw [Nat.mul_comm]; exact Nat.div_add_mod n f.N
  rwa [e2] at this

end Fld
end Wakis
