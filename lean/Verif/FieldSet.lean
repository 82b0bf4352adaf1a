import Verif.FieldArith

/-!
# C141: replacing a component or the whole array

`wakis/field.py`: the setters `field_x`, `field_y`, `field_z` (92-114), `fromarray` (127-136) and `from_matrix` (167-187) with values of any shape, as numpy assigns them.
-/

namespace Wakis
namespace Fld
variable {K : Type}

/-! ### Model -/

/-- What a user may assign: a Python number or list (no `shape`), an array without axes, with one axis, or with more.  An array of two axes is one of three with a last axis of length one: `reshape` does not tell them apart; more axes are left out. -/
inductive Val (K : Type)
  | plain
  | arr0 (v : K)
  | arr1 (n : ℕ) (a : ℕ → K)
  | arr3 (n0 n1 n2 : ℕ) (m : ℕ → ℕ → ℕ → K)

/-- `np.reshape(mat, N, order="F")` for a matrix of any shape. -/
def reshapeTo (N n0 n1 n2 : ℕ) (m : ℕ → ℕ → ℕ → K) : Py (ℕ → K) := if n0 * n1 * n2 = N then .ok (ravelF n0 n1 m) else .error .valueError

/-- `array[a:b] = v` for a one-axis `v` of length `n`, on a target of length `len`: numpy repeats a single value. -/
def spread (len n : ℕ) (a : ℕ → K) : Py (ℕ → K) := if n = len then .ok a else if n = 1 then .ok fun _ => a 0 else .error .valueError

/-- field.py:167-187 `from_matrix`; the component is looked at first. -/
def fromMatrixAny (f : Fld K) (n0 n1 n2 : ℕ) (m : ℕ → ℕ → ℕ → K) (key : CKey) : Py (Fld K) :=
  match compOf key with
  | some c => do
    let v ← reshapeTo f.N n0 n1 n2 m
    .ok (f.setPart c v)
  | none => .error .indexError

/-- The letter of a component. -/
def letter : ℕ → CKey
  | 0 => .str "x"
  | 1 => .str "y"
  | _ => .str "z"

/-- field.py:92-114: the setters `field_x = value` (`c = 0`), `field_y = value`, `field_z = value`. -/
def setField (f : Fld K) (c : ℕ) : Val K → Py (Fld K)
  | .plain => .error .attributeError
  | .arr0 v => .ok (f.setPart c fun _ => v)
  | .arr1 n a => do
    let v ← spread f.N n a
    .ok (f.setPart c v)
  | .arr3 n0 n1 n2 m => f.fromMatrixAny n0 n1 n2 m (letter c)

/-- field.py:127-136 `fromarray` with an array of length `n`. -/
def fromArrayAny (f : Fld K) (n : ℕ) (a : ℕ → K) : Py (Fld K) := do
  let v ← spread (3 * f.N) n a
  .ok { f with array := v }

/-! ### Specification -/

/-- Only component `c` of the field is replaced, by `v` at each cell; sizes and other components stay, for every name of a component. -/
def Replaced (f g : Fld K) (c : ℕ) (v : ℕ → ℕ → ℕ → K) : Prop :=
  (g.Nx = f.Nx ∧ g.Ny = f.Ny ∧ g.Nz = f.Nz) ∧ ∀ i < f.Nx, ∀ j < f.Ny, ∀ k < f.Nz, ∀ key c', Names key c' → g.get i j k key = if c' = c then .ok (v i j k) else f.get i j k key

/-! ### Theorems -/

lemma replaced_setPart (f : Fld K) (c : ℕ) (v : ℕ → K) : Replaced f (f.setPart c v) c fun i j k => v (i + f.Nx * (j + f.Ny * k)) := by
  refine ⟨⟨rfl, rfl, rfl⟩, fun i hi j hj k hk key c' hc' => ?_⟩
  rw [get_at3 (f := f.setPart c v) key hc' hi hj hk, get_at3 key hc' hi hj hk, setPart_at3 hi hj hk]
  split <;> rfl

lemma replaced_congr {f g : Fld K} {c : ℕ} {v w : ℕ → ℕ → ℕ → K} (h : Replaced f g c v) (e : ∀ i < f.Nx, ∀ j < f.Ny, ∀ k < f.Nz, v i j k = w i j k) : Replaced f g c w :=
  ⟨h.1, fun i hi j hj k hk key c' hc' => by rw [h.2 i hi j hj k hk key c' hc', e i hi j hj k hk]⟩

/-- **C141 (partial).** For every field, component and value of the documented shapes: `field_x = matrix` and `from_matrix(matrix, key)` put `matrix[i, j, k]` at every cell `(i, j, k)` of that component and change nothing else;
a flat array of length `N` is put at the flat positions; an array without axes or of length one is put at every cell; `fromarray` of `3N` values sets every flat position. -/
theorem C141_partial (f : Fld K) :
    (∀ c < 3, ∀ m, ∃ g, f.setField c (.arr3 f.Nx f.Ny f.Nz m) = .ok g ∧ Replaced f g c m) ∧
      (∀ key c m, Names key c → ∃ g, f.fromMatrixAny f.Nx f.Ny f.Nz m key = .ok g ∧ Replaced f g c m) ∧
      (∀ c < 3, ∀ a, ∃ g, f.setField c (.arr1 f.N a) = .ok g ∧ Replaced f g c fun i j k => a (i + j * f.Nx + k * f.Nx * f.Ny)) ∧
      (∀ c < 3, ∀ v, ∃ g, f.setField c (.arr0 v) = .ok g ∧ Replaced f g c fun _ _ _ => v) ∧
      (∀ c < 3, ∀ a, ∃ g, f.setField c (.arr1 1 a) = .ok g ∧ Replaced f g c fun _ _ _ => a 0) ∧
      (∀ a, ∃ g, f.fromArrayAny (3 * f.N) a = .ok g ∧ g.Nx = f.Nx ∧ g.Ny = f.Ny ∧ g.Nz = f.Nz ∧ ∀ p, g.toarray p = a p) := by
  have hm : ∀ key c m, Names key c → ∃ g, f.fromMatrixAny f.Nx f.Ny f.Nz m key = .ok g ∧ Replaced f g c m := fun key c m hc => by
    unfold fromMatrixAny
    rw [names_iff.1 hc]
    simp only [reshapeTo, show f.Nx * f.Ny * f.Nz = f.N from rfl, if_true, bind, Except.bind]
    exact ⟨_, rfl, replaced_congr (replaced_setPart f c _) fun i hi j hj k _ => ravelF_idx m hi hj⟩
  refine ⟨fun c hc m => ?_, hm, fun c _ a => ?_, fun c _ v => ⟨_, rfl, replaced_setPart f c _⟩, fun c _ a => ?_, fun a => ?_⟩
  · exact hm (letter c) c m (by interval_cases c <;> simp [letter, Names])
  · refine ⟨_, by rw [setField, spread, if_pos rfl]; rfl, replaced_congr (replaced_setPart f c a) fun i _ j _ k _ => ?_⟩
    congr 1; ring
  · by_cases h : 1 = f.N
    · refine ⟨_, by rw [setField, spread, if_pos h]; rfl, replaced_congr (replaced_setPart f c a) fun i hi j hj k hk => ?_⟩
      have := idx_lt hi hj hk
      congr 1
      unfold N at h
      omega
    · exact ⟨_, by rw [setField, spread, if_neg h, if_pos rfl]; rfl, replaced_setPart f c _⟩
  · exact ⟨{ f with array := a }, by unfold fromArrayAny spread; rw [if_pos rfl]; rfl, rfl, rfl, rfl, fun _ => rfl⟩

/-- **C141 (refused).** A matrix with another number of cells, a flat array of another length, and anything that is not an array are refused with an error, whatever the component. -/
theorem C141_refused (f : Fld K) (c : ℕ) (hc : c < 3) :
    (∀ n0 n1 n2 m, n0 * n1 * n2 ≠ f.Nx * f.Ny * f.Nz → f.setField c (.arr3 n0 n1 n2 m) = .error .valueError) ∧
      (∀ n a, n ≠ f.Nx * f.Ny * f.Nz → n ≠ 1 → f.setField c (.arr1 n a) = .error .valueError) ∧ f.setField c .plain = .error .attributeError ∧
      ∀ n a, n ≠ 3 * (f.Nx * f.Ny * f.Nz) → n ≠ 1 → f.fromArrayAny n a = .error .valueError := by
  refine ⟨fun n0 n1 n2 m h => ?_, fun n a h h1 => ?_, rfl, fun n a h h1 => ?_⟩ <;> rw [show f.Nx * f.Ny * f.Nz = f.N from rfl] at h
  · obtain ⟨c', hc'⟩ : ∃ c', compOf (letter c) = some c' := by interval_cases c <;> exact ⟨_, rfl⟩
    rw [setField]
    unfold fromMatrixAny reshapeTo
    rw [hc', if_neg h]; rfl
  · rw [setField, spread, if_neg h, if_neg h1]; rfl
  · unfold fromArrayAny spread
    rw [if_neg h, if_neg h1]; rfl

/-- **C141 (shape, refuted).** A matrix of any other shape with the same number of cells (for instance with the axes in the order z, y, x) is accepted, and there is a cell that gets the entry of another position of the matrix, whatever the matrix holds. -/
theorem C141_shape_refuted (f : Fld K) (h0 : 0 < f.Nx * f.Ny * f.Nz) {n0 n1 n2 : ℕ} (h : n0 * n1 * n2 = f.Nx * f.Ny * f.Nz) (hne : (n0, n1, n2) ≠ (f.Nx, f.Ny, f.Nz)) {key : CKey} {c : ℕ} (hc : Names key c) :
    ∃ i j k a b d : ℕ, i < f.Nx ∧ j < f.Ny ∧ k < f.Nz ∧ a < n0 ∧ b < n1 ∧ d < n2 ∧ (a, b, d) ≠ (i, j, k) ∧
      ∀ m, ∃ g, f.fromMatrixAny n0 n1 n2 m key = .ok g ∧ f.setField c (.arr3 n0 n1 n2 m) = .ok g ∧ g.get i j k key = .ok (m a b d) := by
  have pos : ∀ {x y z : ℕ}, 0 < x * y * z → 0 < x ∧ 0 < y ∧ 0 < z := fun {x y z} hp =>
    ⟨Nat.pos_of_mul_pos_right (Nat.pos_of_mul_pos_right hp), Nat.pos_of_mul_pos_left (Nat.pos_of_mul_pos_right hp), Nat.pos_of_mul_pos_left hp⟩
  obtain ⟨hx, hy, hz⟩ := pos h0
  obtain ⟨g0, g1, g2⟩ := pos (h.symm ▸ h0)
  have last : ∀ {x y z : ℕ}, 0 < x → 0 < y → 0 < z → (x - 1) + x * ((y - 1) + y * (z - 1)) = x * y * z - 1 := by
    intro x y z hx hy hz
    obtain ⟨x, rfl⟩ := Nat.exists_eq_succ_of_ne_zero hx.ne'
    obtain ⟨y, rfl⟩ := Nat.exists_eq_succ_of_ne_zero hy.ne'
    obtain ⟨z, rfl⟩ := Nat.exists_eq_succ_of_ne_zero hz.ne'
    simp only [Nat.succ_eq_add_one, Nat.add_sub_cancel]
    have : (x + 1) * (y + 1) * (z + 1) = (x + (x + 1) * (y + (y + 1) * z)) + 1 := by ring
    omega
  refine ⟨f.Nx - 1, f.Ny - 1, f.Nz - 1, n0 - 1, n1 - 1, n2 - 1, by omega, by omega, by omega, by omega, by omega, by omega, ?_, fun m => ?_⟩
  · intro e
    simp only [Prod.mk.injEq] at e
    exact hne (by simp only [Prod.mk.injEq]; omega)
  · refine ⟨f.setPart c (ravelF n0 n1 m), ?_, ?_, ?_⟩
    · unfold fromMatrixAny reshapeTo
      rw [names_iff.1 hc, if_pos (show n0 * n1 * n2 = f.N from h)]; rfl
    · have hl : compOf (letter c) = some c := by
        have : c < 3 := compOf_lt (names_iff.1 hc)
        interval_cases c <;> rfl
      rw [setField]
      unfold fromMatrixAny reshapeTo
      rw [hl, if_pos (show n0 * n1 * n2 = f.N from h)]; rfl
    · have hx1 : f.Nx - 1 < f.Nx := by omega
      have hy1 : f.Ny - 1 < f.Ny := by omega
      have hz1 : f.Nz - 1 < f.Nz := by omega
      rw [get_at3 (f := f.setPart c (ravelF n0 n1 m)) key hc hx1 hy1 hz1, setPart_at3 hx1 hy1 hz1, if_pos rfl, last hx hy hz, ← h, ← last g0 g1 g2, ravelF_idx m (by omega) (by omega)]

example : (∃ g, (new 2 1 3 : Fld ℚ).setField 1 (.arr3 2 1 3 fun i _ k => i + 10 * k) = .ok g ∧ Replaced (new 2 1 3) g 1 fun i _ k => i + 10 * k) ∧
    ∃ i j k a b d : ℕ, i < 2 ∧ j < 1 ∧ k < 3 ∧ a < 3 ∧ b < 1 ∧ d < 2 ∧ (a, b, d) ≠ (i, j, k) ∧
      ∀ m, ∃ g, (new 2 1 3 : Fld ℚ).fromMatrixAny 3 1 2 m (.str "y") = .ok g ∧ (new 2 1 3 : Fld ℚ).setField 1 (.arr3 3 1 2 m) = .ok g ∧ g.get i j k (.str "y") = .ok (m a b d) :=
  ⟨(C141_partial _).1 1 (by norm_num) _, C141_shape_refuted (new 2 1 3 : Fld ℚ) (n0 := 3) (n1 := 1) (n2 := 2) (key := .str "y") (c := 1) (by simp [new]) (by simp [new]) (by simp [new]) (by simp [Names])⟩

end Fld
end Wakis
