import Mathlib.Data.Int.Order.Basic
import Mathlib.Data.List.Basic
import Mathlib.Data.List.Nodup
import Mathlib.Data.List.Range
import Mathlib.Tactic.Linarith
import Mathlib.Tactic.Ring

/-!
# Python and numpy conventions used by the model

Nothing in this file is specific to wakis: exceptions as values, integer indexing with negative
wrap-around, and step-less slices, as defined by the Python / numpy language references.
-/

namespace Wakis

/-- The Python exceptions that occur in the modelled code. -/
inductive PyErr
  | indexError | valueError | typeError | attributeError | keyError | unboundLocalError | importError | fileNotFoundError
  | zeroDivisionError | recursionError | runtimeError
  deriving DecidableEq, Repr

/-- A Python call that returns a value or raises. -/
abbrev Py (α : Type _) := Except PyErr α

/-- `str.lower()`, on ASCII letters (all names in the code are ASCII). -/
def pyLower (s : String) : String := String.ofList (s.toList.map Char.toLower)

/-- numpy integer indexing of an axis of length `n`: `0 ≤ i < n` is taken as is, `-n ≤ i < 0` counts
from the end, everything else raises `IndexError`. -/
def pyIndex (n : ℕ) (i : ℤ) : Py ℕ :=
  if 0 ≤ i ∧ i < n then .ok i.toNat
  else if i < 0 ∧ -(n : ℤ) ≤ i then .ok (i + n).toNat
  else .error .indexError

/-- One bound of a Python slice clipped to an axis of length `n` (`slice.indices`, step 1). -/
def clipBound (n : ℕ) (i : ℤ) : ℕ :=
  if i < 0 then (i + n).toNat else min i.toNat n

/-- An index along one axis: an integer or a slice `start:stop` (either bound may be missing). -/
inductive Sel
  | int (i : ℤ)
  | slice (start stop : Option ℤ)
  deriving DecidableEq, Repr

/-- The full slice `:`. -/
abbrev Sel.all : Sel := .slice none none

/-- First position of a slice. -/
def sliceLo (n : ℕ) : Option ℤ → ℕ
  | none => 0
  | some s => clipBound n s

/-- One past the last position of a slice. -/
def sliceHi (n : ℕ) : Option ℤ → ℕ
  | none => n
  | some s => clipBound n s

/-- The positions along an axis of length `n` selected by an index, in order. -/
def Sel.resolve (n : ℕ) : Sel → Py (List ℕ)
  | .int i => (pyIndex n i).map fun a => [a]
  | .slice start stop =>
    .ok ((List.range (sliceHi n stop - sliceLo n start)).map (· + sliceLo n start))

theorem pyIndex_ok_iff {n : ℕ} {i : ℤ} {a : ℕ} :
    pyIndex n i = .ok a ↔ a < n ∧ (i = a ∨ i = (a : ℤ) - n) := by
  unfold pyIndex
  split_ifs with h1 h2
  · simp only [Except.ok.injEq]; omega
  · simp only [Except.ok.injEq]; omega
  · simp only [reduceCtorEq, false_iff]; omega

theorem pyIndex_lt {n : ℕ} {i : ℤ} {a : ℕ} (h : pyIndex n i = .ok a) : a < n :=
  (pyIndex_ok_iff.1 h).1

theorem pyIndex_natCast {n a : ℕ} (h : a < n) : pyIndex n (a : ℤ) = .ok a :=
  pyIndex_ok_iff.2 ⟨h, .inl rfl⟩

theorem pyIndex_neg {n a : ℕ} (h : a < n) : pyIndex n ((a : ℤ) - n) = .ok a :=
  pyIndex_ok_iff.2 ⟨h, .inr rfl⟩

theorem pyIndex_error_iff {n : ℕ} {i : ℤ} :
    (∃ e, pyIndex n i = .error e) ↔ (n : ℤ) ≤ i ∨ i < -(n : ℤ) := by
  unfold pyIndex
  split_ifs with h1 h2
  · simp; omega
  · simp; omega
  · simp; omega

theorem clipBound_le (n : ℕ) (i : ℤ) : clipBound n i ≤ n := by
  unfold clipBound; split_ifs <;> omega

theorem Sel.resolve_lt {n : ℕ} {s : Sel} {xs : List ℕ} (h : s.resolve n = .ok xs) :
    ∀ a ∈ xs, a < n := by
  intro a ha
  cases s with
  | int i =>
    simp only [Sel.resolve] at h
    cases hp : pyIndex n i with
    | error e => rw [hp] at h; simp [Except.map] at h
    | ok b =>
      rw [hp] at h
      simp only [Except.map, Except.ok.injEq] at h
      subst h
      simp only [List.mem_singleton] at ha
      subst ha
      exact pyIndex_lt hp
  | slice st sp =>
    simp only [Sel.resolve, Except.ok.injEq] at h
    subst h
    simp only [List.mem_map, List.mem_range] at ha
    obtain ⟨b, hb, rfl⟩ := ha
    have : sliceHi n sp ≤ n := by
      cases sp <;> simp [sliceHi, clipBound_le]
    omega

theorem Sel.resolve_nodup {n : ℕ} {s : Sel} {xs : List ℕ} (h : s.resolve n = .ok xs) :
    xs.Nodup := by
  cases s with
  | int i =>
    simp only [Sel.resolve] at h
    cases hp : pyIndex n i with
    | error e => rw [hp] at h; simp [Except.map] at h
    | ok b =>
      rw [hp] at h
      simp only [Except.map, Except.ok.injEq] at h
      subst h; simp
  | slice st sp =>
    simp only [Sel.resolve, Except.ok.injEq] at h
    subst h
    exact List.Nodup.map (fun a b hab => by simpa using hab) List.nodup_range

@[simp] theorem Sel.resolve_all (n : ℕ) : Sel.all.resolve n = .ok (List.range n) := by
  simp [Sel.resolve, sliceLo, sliceHi]

end Wakis
