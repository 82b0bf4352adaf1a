import Verif.WakeModel
import Mathlib.Order.Basic
import Mathlib.Data.List.Lex

/-!
# C49: recorded frames are read in chronological order
-/

namespace Wakis
namespace Wake

/-- The `w` last digits of a number, most significant first. -/
def fixed : ℕ → ℕ → List ℕ
  | 0, _ => []
  | w + 1, n => fixed w (n / 10) ++ [n % 10]

theorem fixed_length (w n : ℕ) : (fixed w n).length = w := by
  induction w generalizing n with
  | zero => rfl
  | succ w ih => simp [fixed, ih]

theorem fixed_zero (w : ℕ) : fixed w 0 = List.replicate w 0 := by
  induction w with
  | zero => rfl
  | succ w ih => rw [fixed, Nat.zero_div, ih, Nat.zero_mod, ← List.replicate_succ']

/-- Numbers that fit are written with exactly `w` digits. -/
theorem zfill_eq {w n : ℕ} (hw : 0 < w) (h : n < 10 ^ w) : zfill w n = fixed w n := by
  induction w generalizing n with
  | zero => omega
  | succ w ih =>
    unfold zfill
    by_cases h10 : n < 10
    · rw [decimal, if_pos h10, fixed, Nat.div_eq_of_lt h10, fixed_zero, Nat.mod_eq_of_lt h10]
      simp
    · rw [decimal, if_neg h10, List.length_append, List.length_singleton, fixed]
      have hw' : 0 < w := by
        rcases Nat.eq_zero_or_pos w with rfl | h'
        · simp at h; omega
        · exact h'
      rw [← ih hw' (by rw [pow_succ] at h; omega), zfill, Nat.add_sub_add_right, List.append_assoc]

theorem append_lt_of_lt : ∀ {a b : List ℕ} {x y : ℕ}, a.length = b.length → a < b → a ++ [x] < b ++ [y]
  | [], [], _, _, _, h => absurd h (lt_irrefl _)
  | [], _ :: _, _, _, h, _ => by simp at h
  | _ :: _, [], _, _, h, _ => by simp at h
  | a :: l, b :: l', x, y, hl, h => by
    rw [List.cons_append, List.cons_append, List.cons_lt_cons_iff]
    rw [List.cons_lt_cons_iff] at h
    rcases h with h | ⟨rfl, h⟩
    · exact .inl h
    · exact .inr ⟨rfl, append_lt_of_lt (by simpa using hl) h⟩

theorem append_lt_last : ∀ (a : List ℕ) {x y : ℕ}, x < y → a ++ [x] < a ++ [y]
  | [], _, _, h => List.cons_lt_cons_iff.2 (.inl h)
  | _ :: l, _, _, h => List.cons_lt_cons_iff.2 (.inr ⟨rfl, append_lt_last l h⟩)

/-- Numbers of at most `w` digits compare as their digit strings. -/
theorem fixed_lt {w m n : ℕ} (hn : n < 10 ^ w) (h : m < n) : fixed w m < fixed w n := by
  induction w generalizing m n with
  | zero => simp at hn; omega
  | succ w ih =>
    rw [fixed, fixed]
    by_cases hd : m / 10 < n / 10
    · exact append_lt_of_lt (by rw [fixed_length, fixed_length]) (ih (by rw [pow_succ] at hn; omega) hd)
    · have : m / 10 = n / 10 := by omega
      rw [this]
      exact append_lt_last _ (by omega)

theorem map_lt_map : ∀ {a b : List ℕ}, a < b → a.map (48 + ·) < b.map (48 + ·)
  | [], [], h => absurd h (lt_irrefl _)
  | [], _ :: _, _ => List.nil_lt_cons _ _
  | _ :: _, [], h => absurd h (List.not_lt_nil _)
  | a :: l, b :: l', h => by
    rw [List.map_cons, List.map_cons, List.cons_lt_cons_iff]
    rcases List.cons_lt_cons_iff.1 h with h' | ⟨rfl, h'⟩
    · exact .inl (by omega)
    · exact .inr ⟨rfl, map_lt_map h'⟩

/-- Names of the first 100000 frames sort in time order. -/
theorem frameName_lt {m n : ℕ} (hn : n < 100000) (h : m < n) : frameName m < frameName n := by
  unfold frameName
  rw [zfill_eq (by norm_num) (by omega), zfill_eq (by norm_num) (by omega)]
  exact List.cons_lt_cons_iff.2 (.inr ⟨rfl, map_lt_map (fixed_lt (by omega) h)⟩)

/-- Frame names sort before every metadata name. -/
theorem frameName_lt_meta (n : ℕ) {s : Name} (h : s ∈ metaNames) : frameName n < s := by
  simp only [metaNames, List.mem_cons, List.not_mem_nil, or_false] at h
  unfold frameName
  rcases h with rfl | rfl | rfl | rfl | rfl | rfl | rfl <;> exact List.cons_lt_cons_iff.2 (.inl (by norm_num))

variable {K : Type}

/-- The metadata entries in the order of the file. -/
def metaSorted (md : ℕ → Dset K) : List (Name × Dset K) :=
  [([100, 120], md 3), ([100, 121], md 4), ([100, 122], md 5), ([116], md 6), ([120], md 0), ([121], md 1), ([122], md 2)]

theorem metaSorted_perm (md : ℕ → Dset K) : (metaSorted md).Perm (metaNames.zipIdx.map fun p => (p.1, md p.2)) := by
  have : (metaNames.zipIdx.map fun p => (p.1, md p.2)) =
      [([120], md 0), ([121], md 1), ([122], md 2), ([100, 120], md 3), ([100, 121], md 4), ([100, 122], md 5), ([116], md 6)] := rfl
  rw [this]
  unfold metaSorted
  exact (List.perm_append_comm (l₁ := [([100, 120], md 3), ([100, 121], md 4), ([100, 122], md 5), ([116], md 6)]) (l₂ := [([120], md 0), ([121], md 1), ([122], md 2)]))

instance : Std.Total (fun a b : Name × Dset K => a.1 ≤ b.1) := ⟨fun a b => le_total a.1 b.1⟩
instance : IsTrans (Name × Dset K) (fun a b => a.1 ≤ b.1) := ⟨fun _ _ _ => le_trans⟩

/-- A strictly sorted arrangement of the writes is the listing of the file. -/
theorem ofWrites_eq {w l : List (Name × Dset K)} (hp : l.Perm w) (hs : l.Pairwise fun a b => a.1 < b.1) : H5.ofWrites w = l := by
  have hne : ∀ a ∈ l, ∀ b ∈ l, a.1 = b.1 → a = b := by
    intro a ha b hb e
    by_contra hab
    obtain ⟨i, hi, rfl⟩ := List.getElem_of_mem ha
    obtain ⟨j, hj, rfl⟩ := List.getElem_of_mem hb
    have H := List.pairwise_iff_getElem.1 hs
    rcases lt_trichotomy i j with h | h | h
    · exact absurd e (H i j hi hj h).ne
    · subst h; exact hab rfl
    · exact absurd e.symm (H j i hj hi h).ne
  refine List.Perm.eq_of_pairwise (le := fun a b => a.1 ≤ b.1) (fun a b ha hb h1 h2 => ?_) (List.pairwise_insertionSort _ _) (hs.imp fun h => h.le)
    ((List.perm_insertionSort _ _).trans hp.symm)
  have ha' : a ∈ l := hp.mem_iff.2 ((List.mem_insertionSort _).1 ha)
  exact hne a ha' b hb (le_antisymm h1 h2)

/-- **C49 (partial).** For runs of at most 100000 steps, listing the recorded file returns the frames in time order, followed by the seven metadata entries. -/
theorem C49_order_partial (md : ℕ → Dset K) {Nt : ℕ} (hN : Nt ≤ 100000) (frame : ℕ → Dset K) :
    H5.ofWrites (wakeWrites md Nt frame) = ((List.range Nt).map fun n => (frameName n, frame n)) ++ metaSorted md := by
  refine ofWrites_eq ?_ ?_
  · exact ((metaSorted_perm md).append_left _).trans List.perm_append_comm
  · rw [List.pairwise_append]
    refine ⟨?_, ?_, ?_⟩
    · rw [List.pairwise_map]
      exact List.pairwise_lt_range.imp_of_mem fun {a b} _ hb h => frameName_lt (by have := List.mem_range.1 hb; omega) h
    · unfold metaSorted
      simp only [List.pairwise_cons, List.mem_cons, List.not_mem_nil, or_false, forall_eq_or_imp, forall_eq, IsEmpty.forall_iff, implies_true, List.Pairwise.nil, and_true]
      decide
    · intro a ha b hb
      obtain ⟨n, -, rfl⟩ := List.mem_map.1 ha
      refine frameName_lt_meta n ?_
      simp only [metaSorted, List.mem_cons, List.not_mem_nil, or_false] at hb
      rcases hb with rfl | rfl | rfl | rfl | rfl | rfl | rfl <;> simp [metaNames]

/-- Frame `n` is what the loader reads at position `n`. -/
theorem C49_frames_partial (md : ℕ → Dset K) {Nt : ℕ} (hN : Nt ≤ 100000) (frame : ℕ → Dset K) {n : ℕ} (hn : n < Nt) :
    (H5.ofWrites (wakeWrites md Nt frame))[n]? = some (frameName n, frame n) := by
  rw [C49_order_partial md hN frame, List.getElem?_append_left (by simpa using hn), List.getElem?_map, List.getElem?_range hn]
  rfl

theorem wakeFile_length (md : ℕ → Dset K) (Nt : ℕ) (frame : ℕ → Dset K) : (H5.ofWrites (wakeWrites md Nt frame)).length = Nt + 7 := by
  unfold H5.ofWrites wakeWrites metaNames
  rw [List.length_insertionSort]
  simp [List.zipIdx]

theorem frameName_late : frameName 100000 < frameName 99999 := by
  have e : frameName 100000 = [35, 49, 48, 48, 48, 48, 48] := by
    simp [frameName, zfill, decimal]
  have e' : frameName 99999 = [35, 57, 57, 57, 57, 57] := by
    simp [frameName, zfill, decimal]
  rw [e, e']
  decide

/-- **C49 (refuted for long runs).** With more than 100000 steps some recorded frames are not read at their own position, whatever was recorded. -/
theorem C49_long_refuted (md : ℕ → Dset K) {Nt : ℕ} (hN : 100000 < Nt) (frame : ℕ → Dset K) :
    ¬ ∀ n < Nt, ∃ d, (H5.ofWrites (wakeWrites md Nt frame))[n]? = some (frameName n, d) := by
  intro H
  obtain ⟨d1, h1⟩ := H 99999 (by omega)
  obtain ⟨d2, h2⟩ := H 100000 hN
  obtain ⟨l1, e1⟩ := List.getElem?_eq_some_iff.1 h1
  obtain ⟨l2, e2⟩ := List.getElem?_eq_some_iff.1 h2
  have hs : (H5.ofWrites (wakeWrites md Nt frame)).Pairwise (fun a b => a.1 ≤ b.1) := List.pairwise_insertionSort _ _
  have := List.pairwise_iff_getElem.1 hs 99999 100000 l1 l2 (by norm_num)
  rw [e1, e2] at this
  exact absurd frameName_late (not_lt.2 this)

/-- **C49 (metadata).** As long as the recorded time axis has at most as many entries as there are frames, the number of frames the loader reads is that of the
time axis: no metadata is mistaken for a frame. -/
theorem C49_metadata_partial {nt Nt : ℕ} (h : nt ≤ Nt) : guardNt nt (Nt + 7) = nt := by
  unfold guardNt
  rw [if_neg (by push_cast; omega)]

/-- **C49 (metadata, bound).** Whatever the length of the time axis, at most three metadata entries are read as frames: the loader stops at the shorter of the time axis and the frames plus three. -/
theorem C49_guard_partial (nt Nt : ℕ) : guardNt nt (Nt + 7) = min nt (Nt + 3) := by
  unfold guardNt
  split_ifs <;> omega

/-- **C49 (metadata, refuted).** The guard against a time axis that came out one entry too long does not act: the loader reads the metadata entry `dx` as the last
frame. -/
theorem C49_metadata_refuted (md : ℕ → Dset K) {Nt : ℕ} (hN : Nt ≤ 100000) (frame : ℕ → Dset K) :
    guardNt (Nt + 1) (H5.ofWrites (wakeWrites md Nt frame)).length = Nt + 1 ∧ (H5.ofWrites (wakeWrites md Nt frame))[Nt]? = some ([100, 120], md 3) := by
  refine ⟨?_, ?_⟩
  · rw [wakeFile_length]
    unfold guardNt
    rw [if_neg (by push_cast; omega)]
  · rw [C49_order_partial md hN frame, List.getElem?_append_right (by simp)]
    simp [metaSorted]

example : ∃ md frame : ℕ → Dset ℚ, (H5.ofWrites (wakeWrites md 12 frame)).map Prod.fst = (List.range 12).map frameName ++ [[100, 120], [100, 121], [100, 122], [116], [120], [121], [122]] :=
  ⟨fun _ => .d1 0 0, fun _ => .d1 0 0, by rw [C49_order_partial _ (by norm_num)]; simp [metaSorted]⟩

end Wake
end Wakis
