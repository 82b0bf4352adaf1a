import Mathlib.Data.List.Basic
import Mathlib.Data.List.Induction
import Mathlib.Tactic.Linarith

/-!
# Aliasing of `Field` storage (C07)

`Field.copy` allocates, `Field.toarray`, `Field.field_x` and `Field.to_matrix` return numpy *views*
of the live array.  The functional model of `FieldModel.lean` has no sharing, so this file models
the storage: a heap of arrays and handles (Python variables) that point into it.
-/

namespace Wakis
namespace FieldHeap
variable {K : Type _}

/-- A Python variable holding a field or an array taken from it: the storage it points to and the
offset of its first entry (`0` for the field itself and `toarray()`, `c*N` for the component views
of field.py:78-90 and 152-165). -/
structure Handle where
  ref : ℕ
  off : ℕ
  deriving DecidableEq, Repr

/-- The heap: `next` is the first unused storage address. -/
structure State (K : Type _) where
  next : ℕ
  store : ℕ → ℕ → K
  handles : List Handle

/-- What a program can do with fields and their arrays.  `h` is the position of a variable in the list
of variables created so far. -/
inductive Op (K : Type _)
  /-- `g = f.copy()`, field.py:481-502 (CPU: `copy.deepcopy(self.array)`) -/
  | copy (h : ℕ)
  /-- `a = f.toarray()` (offset 0, field.py:125) or `f.field_x`, `f.to_matrix(c)` (offset `c*N`): a view -/
  | view (h : ℕ) (off : ℕ)
  /-- write entry `p` through the variable: `f[...] = v`, `f.fromarray`, or assignment into a view -/
  | write (h : ℕ) (p : ℕ) (v : K)

/-- One operation.  Using a variable that does not exist does nothing. -/
def step (s : State K) : Op K → State K
  | .copy h => match s.handles[h]? with
    | none => s
    | some a => { next := s.next + 1
                  store := fun r => if r = s.next then s.store a.ref else s.store r
                  handles := s.handles ++ [⟨s.next, a.off⟩] }
  | .view h off => match s.handles[h]? with
    | none => s
    | some a => { s with handles := s.handles ++ [⟨a.ref, a.off + off⟩] }
  | .write h p v => match s.handles[h]? with
    | none => s
    | some a => { s with store := fun r q => if r = a.ref ∧ q = a.off + p then v else s.store r q }

def run (s : State K) (ops : List (Op K)) : State K := ops.foldl step s

/-- What variable `h` shows at entry `p`. -/
def read (s : State K) (h p : ℕ) : Option K := s.handles[h]?.map fun a => s.store a.ref (a.off + p)

/-- `n` fields created one after the other (each `Field(...)` allocates its own array, field.py:72-75). -/
def init (n : ℕ) (content : ℕ → ℕ → K) : State K :=
  ⟨n, content, (List.range n).map fun r => ⟨r, 0⟩⟩

/-! ### Specification: which variables belong together -/

/-- The owner of each variable, computed from the program text alone: a field or a copy owns itself,
a view belongs to the owner of the variable it was taken from. -/
def ownersStep (o : List ℕ) : Op K → List ℕ
  | .copy h => if h < o.length then o ++ [o.length] else o
  | .view h _ => match o[h]? with | none => o | some r => o ++ [r]
  | .write _ _ _ => o

def owners (n : ℕ) (ops : List (Op K)) : List ℕ := ops.foldl ownersStep (List.range n)

/-- The operation writes through a variable owned by `r`. -/
def WritesTo (o : List ℕ) (r : ℕ) : Op K → Prop
  | .write h _ _ => o[h]? = some r
  | _ => False

/-! ### Invariant: same storage iff same owner -/

/-- Storage addresses are allocated in order, and two variables share storage exactly if they have
the same owner. -/
def Inv (s : State K) (o : List ℕ) : Prop :=
  s.handles.length = o.length ∧ (∀ a ∈ s.handles, a.ref < s.next) ∧ (∀ r ∈ o, r < o.length) ∧
  (∀ (h1 h2 : ℕ) (a1 a2 : Handle) (r1 r2 : ℕ), s.handles[h1]? = some a1 → s.handles[h2]? = some a2 → o[h1]? = some r1 →
    o[h2]? = some r2 → (a1.ref = a2.ref ↔ r1 = r2))

theorem inv_init (n : ℕ) (c : ℕ → ℕ → K) : Inv (init n c) (List.range n) := by
  refine ⟨by simp [init], ?_, ?_, ?_⟩
  · intro a ha
    simp only [init, List.mem_map, List.mem_range] at ha
    obtain ⟨r, hr, rfl⟩ := ha
    exact hr
  · intro r hr; simpa using hr
  · intro h1 h2 a1 a2 r1 r2 e1 e2 e3 e4
    simp only [init, List.getElem?_map] at e1 e2
    rw [e3] at e1; rw [e4] at e2
    simp only [Option.map_some, Option.some.injEq] at e1 e2
    subst e1 e2; rfl

theorem getElem?_append_one {α : Type _} (l : List α) (x : α) (h : ℕ) (y : α) :
    (l ++ [x])[h]? = some y ↔ l[h]? = some y ∨ (h = l.length ∧ x = y) := by
  rcases Nat.lt_trichotomy h l.length with hlt | heq | hgt
  · rw [List.getElem?_append_left hlt]
    constructor
    · exact Or.inl
    · rintro (h' | ⟨h', _⟩)
      · exact h'
      · omega
  · subst heq
    simp
  · rw [List.getElem?_eq_none (by simp; omega), List.getElem?_eq_none (by omega)]
    simp; omega

theorem inv_step (s : State K) (o : List ℕ) (op : Op K) (hs : Inv s o) :
    Inv (step s op) (ownersStep o op) := by
  obtain ⟨hl, hr, ho, hsh⟩ := hs
  cases op with
  | write h p v =>
    simp only [step, ownersStep]
    split
    · exact ⟨hl, hr, ho, hsh⟩
    · exact ⟨hl, hr, ho, hsh⟩
  | copy h =>
    simp only [step, ownersStep]
    by_cases hh : h < o.length
    · have : ∃ a, s.handles[h]? = some a := ⟨s.handles[h]'(by omega), by simp [hl, hh]⟩
      obtain ⟨a, ha⟩ := this
      simp only [ha, hh, if_true]
      refine ⟨by simp [hl], ?_, ?_, ?_⟩
      · intro b hb
        simp only [List.mem_append, List.mem_singleton] at hb
        rcases hb with hb | rfl
        · have := hr b hb; simp only; omega
        · simp
      · intro r hr'
        simp only [List.mem_append, List.mem_singleton, List.length_append, List.length_singleton] at hr' ⊢
        rcases hr' with hr' | rfl
        · have := ho r hr'; omega
        · omega
      · intro h1 h2 a1 a2 r1 r2 e1 e2 e3 e4
        simp only at e1 e2
        rw [getElem?_append_one] at e1 e2 e3 e4
        have lt1 : ∀ {h : ℕ} {a : Handle}, s.handles[h]? = some a → h < o.length ∧ a.ref < s.next := by
          intro h a e
          have := (List.getElem?_eq_some_iff.1 e).1
          exact ⟨by omega, hr a (List.mem_of_getElem? e)⟩
        have lt2 : ∀ {h r : ℕ}, o[h]? = some r → h < o.length ∧ r < o.length := by
          intro h r e
          exact ⟨(List.getElem?_eq_some_iff.1 e).1, ho r (List.mem_of_getElem? e)⟩
        rcases e1 with e1 | ⟨e1, rfl⟩ <;> rcases e2 with e2 | ⟨e2, rfl⟩ <;>
          rcases e3 with e3 | ⟨e3, rfl⟩ <;> rcases e4 with e4 | ⟨e4, rfl⟩ <;>
          first
          | exact hsh h1 h2 a1 a2 r1 r2 e1 e2 e3 e4
          | (exfalso; (try have := lt1 e1); (try have := lt1 e2); (try have := lt2 e3);
             (try have := lt2 e4); omega)
          | (have q1 := lt1 e1; have q3 := lt2 e3; simp only; constructor <;> intro <;> omega)
          | (have q1 := lt1 e2; have q3 := lt2 e4; simp only; constructor <;> intro <;> omega)
          | simp
    · have : s.handles[h]? = none := by simp; omega
      simp only [this, hh, if_false]
      exact ⟨hl, hr, ho, hsh⟩
  | view h off =>
    simp only [step, ownersStep]
    by_cases hh : h < o.length
    · obtain ⟨a, ha⟩ : ∃ a, s.handles[h]? = some a := ⟨s.handles[h]'(by omega), by simp [hl, hh]⟩
      obtain ⟨r, hor⟩ : ∃ r, o[h]? = some r := ⟨o[h], by simp [hh]⟩
      simp only [ha, hor]
      refine ⟨by simp [hl], ?_, ?_, ?_⟩
      · intro b hb
        simp only [List.mem_append, List.mem_singleton] at hb
        rcases hb with hb | rfl
        · exact hr b hb
        · exact hr a (List.mem_of_getElem? ha)
      · intro r' hr'
        simp only [List.mem_append, List.mem_singleton, List.length_append, List.length_singleton] at hr' ⊢
        rcases hr' with hr' | rfl
        · have := ho r' hr'; omega
        · have := ho r' (List.mem_of_getElem? hor); omega
      · intro h1 h2 a1 a2 r1 r2 e1 e2 e3 e4
        simp only at e1 e2
        rw [getElem?_append_one] at e1 e2 e3 e4
        have lt1 : ∀ {h : ℕ} {a : Handle}, s.handles[h]? = some a → h < o.length := by
          intro h a e
          have := (List.getElem?_eq_some_iff.1 e).1
          omega
        have lt2 : ∀ {h r : ℕ}, o[h]? = some r → h < o.length := by
          intro h r e
          exact (List.getElem?_eq_some_iff.1 e).1
        rcases e1 with e1 | ⟨e1, rfl⟩ <;> rcases e2 with e2 | ⟨e2, rfl⟩ <;>
          rcases e3 with e3 | ⟨e3, rfl⟩ <;> rcases e4 with e4 | ⟨e4, rfl⟩ <;>
          first
          | exact hsh h1 h2 a1 a2 r1 r2 e1 e2 e3 e4
          | exact hsh h h2 a a2 _ _ ha e2 hor e4
          | exact hsh h1 h a1 a _ _ e1 ha e3 hor
          | exact hsh h h a a _ _ ha ha hor hor
          | (exfalso; (try have := lt1 e1); (try have := lt1 e2); (try have := lt2 e3);
             (try have := lt2 e4); omega)
    · have h1 : s.handles[h]? = none := by simp; omega
      have h2 : o[h]? = none := by simp; omega
      simp only [h1, h2]
      exact ⟨hl, hr, ho, hsh⟩

theorem inv_run (s : State K) (o : List ℕ) (ops : List (Op K)) (hs : Inv s o) :
    Inv (run s ops) (ops.foldl ownersStep o) := by
  induction ops generalizing s o with
  | nil => exact hs
  | cons op ops ih => exact ih _ _ (inv_step s o op hs)

theorem handle_stays (s : State K) (op : Op K) {h : ℕ} {a : Handle} (ha : s.handles[h]? = some a) :
    (step s op).handles[h]? = some a := by
  cases op with
  | write h' p v => simp only [step]; split <;> exact ha
  | copy h' => simp only [step]; split
               · exact ha
               · simp only; rw [getElem?_append_one]; exact .inl ha
  | view h' off => simp only [step]; split
                   · exact ha
                   · simp only; rw [getElem?_append_one]; exact .inl ha

theorem owner_stays (o : List ℕ) (op : Op K) {h r : ℕ} (ha : o[h]? = some r) :
    (ownersStep o op)[h]? = some r := by
  cases op with
  | write h' p v => exact ha
  | copy h' => simp only [ownersStep]; split_ifs
               · rw [getElem?_append_one]; exact .inl ha
               · exact ha
  | view h' off => simp only [ownersStep]; split
                   · exact ha
                   · rw [getElem?_append_one]; exact .inl ha

/-- One step that does not write to the owner of `h` leaves what `h` shows unchanged. -/
theorem read_step (s : State K) (o : List ℕ) (op : Op K) (hs : Inv s o) {h r : ℕ}
    (hr : o[h]? = some r) (hw : ¬ WritesTo o r op) (p : ℕ) :
    read (step s op) h p = read s h p := by
  obtain ⟨hl, href, ho, hsh⟩ := hs
  have hlt : h < s.handles.length := by rw [hl]; exact (List.getElem?_eq_some_iff.1 hr).1
  obtain ⟨a, ha⟩ : ∃ a, s.handles[h]? = some a := ⟨s.handles[h], by simp [hlt]⟩
  have ha' := handle_stays s op ha
  simp only [read, ha, ha', Option.map_some, Option.some.injEq]
  cases op with
  | view h' off => simp only [step]; split <;> rfl
  | copy h' =>
    simp only [step]; split
    · rfl
    · have := href a (List.mem_of_getElem? ha)
      simp only
      rw [if_neg (by omega)]
  | write h' q v =>
    simp only [step]; split
    · rfl
    · rename_i a' e
      simp only
      rw [if_neg]
      rintro ⟨e1, -⟩
      have hlt' : h' < o.length := by rw [← hl]; exact (List.getElem?_eq_some_iff.1 e).1
      have e2 : o[h']? = some o[h'] := by simp [hlt']
      have := (hsh h h' a a' r o[h'] ha e hr e2).1 e1
      exact hw (by simp only [WritesTo]; rw [e2, this])

/-! ### C07 -/

/-- **C07 (independence).** Start from any number of fields, run any program `pre`, and then any
program `post` in which no write goes through a variable belonging to the owner of `h`: `h` shows
at every entry exactly what it showed before `post`.  In particular writes through a copy, or through
arrays taken from it, are never visible through the original, nor the reverse. -/
theorem C07_independent (n : ℕ) (c : ℕ → ℕ → K) (pre post : List (Op K)) {h r : ℕ}
    (hr : (owners n pre)[h]? = some r)
    (hw : ∀ i (hi : i < post.length), ¬ WritesTo (owners n (pre ++ post.take i)) r post[i]) (p : ℕ) :
    read (run (init n c) (pre ++ post)) h p = read (run (init n c) pre) h p := by
  induction post using List.reverseRecOn with
  | nil => simp
  | append_singleton post op ih =>
    have hinv : Inv (run (init n c) (pre ++ post)) (owners n (pre ++ post)) :=
      inv_run _ _ _ (inv_init n c)
    have hown : (owners n (pre ++ post))[h]? = some r := by
      clear ih hw hinv
      induction post using List.reverseRecOn with
      | nil => simpa using hr
      | append_singleton l x ih2 =>
        have e : owners n (pre ++ (l ++ [x])) = ownersStep (owners n (pre ++ l)) x := by
          simp [owners, List.foldl_append]
        rw [e]; exact owner_stays _ _ ih2
    have e : run (init n c) (pre ++ (post ++ [op])) = step (run (init n c) (pre ++ post)) op := by
      simp [run, List.foldl_append]
    rw [e, read_step _ _ op hinv hown]
    · apply ih
      intro i hi
      have := hw i (by simp; omega)
      rw [List.take_append_of_le_length (by omega)] at this
      rwa [List.getElem_append_left (by omega)] at this
    · have := hw post.length (by simp)
      simpa using this

/-- **C07 (a copy owns itself).** The variable created by `copy` starts with the content of the
original and is owned by itself, hence by no variable existing before. -/
theorem C07_copy_fresh (n : ℕ) (c : ℕ → ℕ → K) (pre : List (Op K)) {h r : ℕ}
    (hr : (owners n pre)[h]? = some r) :
    let m := (owners n pre).length
    (owners n (pre ++ [.copy h]))[m]? = some m ∧
    (∀ h' r' : ℕ, (owners n pre)[h']? = some r' → r' ≠ m) ∧
    ∀ p, read (run (init n c) (pre ++ [.copy h])) m p = read (run (init n c) pre) h p := by
  have hinv : Inv (run (init n c) pre) (owners n pre) := inv_run _ _ _ (inv_init n c)
  have hlt : h < (owners n pre).length := (List.getElem?_eq_some_iff.1 hr).1
  intro m
  refine ⟨?_, ?_, ?_⟩
  · have e : owners n (pre ++ [Op.copy h]) = owners n pre ++ [m] := by
      simp [owners, List.foldl_append, ownersStep] at hlt ⊢
      simp [hlt, m, owners]
    rw [e, getElem?_append_one]; exact .inr ⟨rfl, rfl⟩
  · intro h' r' e
    have := hinv.2.2.1 r' (List.mem_of_getElem? e)
    omega
  · intro p
    have hl : (run (init n c) pre).handles.length = m := hinv.1
    obtain ⟨a, ha⟩ : ∃ a, (run (init n c) pre).handles[h]? = some a :=
      ⟨(run (init n c) pre).handles[h]'(by omega), by simp⟩
    have e : run (init n c) (pre ++ [.copy h]) = step (run (init n c) pre) (.copy h) := by
      simp [run, List.foldl_append]
    rw [e]
    have hm : (step (run (init n c) pre) (Op.copy h)).handles[m]? =
        some ⟨(run (init n c) pre).next, a.off⟩ := by
      simp only [step, ha]
      rw [getElem?_append_one]; exact .inr ⟨hl.symm, rfl⟩
    simp only [read, hm, ha, Option.map_some, Option.some.injEq]
    simp only [step, ha, if_true]

/-- **C07 (views are live).** An array taken from a field at offset `off` shows, after any further
program, the current content of the field at that offset. -/
theorem C07_view_live (n : ℕ) (c : ℕ → ℕ → K) (pre post : List (Op K)) {h r off : ℕ}
    (hr : (owners n pre)[h]? = some r) (p : ℕ) :
    read (run (init n c) (pre ++ .view h off :: post)) (owners n pre).length p =
      read (run (init n c) (pre ++ .view h off :: post)) h (off + p) := by
  have hinv : Inv (run (init n c) pre) (owners n pre) := inv_run _ _ _ (inv_init n c)
  have hlt : h < (owners n pre).length := (List.getElem?_eq_some_iff.1 hr).1
  have hl := hinv.1
  obtain ⟨a, ha⟩ : ∃ a, (run (init n c) pre).handles[h]? = some a :=
    ⟨(run (init n c) pre).handles[h]'(by omega), by simp [hl, hlt]⟩
  have key : ∀ post : List (Op K),
      (run (init n c) (pre ++ .view h off :: post)).handles[(owners n pre).length]? = some ⟨a.ref, a.off + off⟩ ∧
      (run (init n c) (pre ++ .view h off :: post)).handles[h]? = some a := by
    intro post
    induction post using List.reverseRecOn with
    | nil =>
      have e : run (init n c) (pre ++ [.view h off]) = step (run (init n c) pre) (.view h off) := by
        simp [run, List.foldl_append]
      rw [e]
      simp only [step, ha]
      rw [getElem?_append_one, getElem?_append_one]
      exact ⟨.inr ⟨hl.symm, rfl⟩, .inl ha⟩
    | append_singleton l x ih =>
      have e : run (init n c) (pre ++ .view h off :: (l ++ [x])) =
          step (run (init n c) (pre ++ .view h off :: l)) x := by
        simp [run, List.foldl_append]
      rw [e]
      exact ⟨handle_stays _ _ ih.1, handle_stays _ _ ih.2⟩
  obtain ⟨k1, k2⟩ := key post
  simp only [read, k1, k2, Option.map_some, Nat.add_assoc]

/-- Non-vacuity: one field, a copy, a view of the copy; a write through the view of the copy is seen
in the copy and not in the original. -/
example :
    let s := run (init 1 fun _ p => p) [.copy 0, .view 1 4, .write 2 0 99]
    read s 1 4 = some 99 ∧ read s 2 0 = some 99 ∧ read s 0 4 = some 4 ∧
    owners (K := ℕ) 1 [.copy 0, .view 1 4, .write 2 0 99] = [0, 1, 1] := by
  decide

end FieldHeap
end Wakis
