import Verif.SaveJ

/-!
# C147 on several ranks: a wake run with `save_J` never comes to an end

`wakis/routines.py:365-379, 396-402, 412-422` with `use_mpi`.  The values are those of C146; here only the order of events matters: which names a rank has bound, where it waits for others.
-/

namespace Wakis
namespace MpiJ

/-! ### Model -/

/-- What matters of a line of the loop: reading a local name, a `comm.gather` to rank 0 (solverFIT3D.py:575), the exchange of ghost layers with the neighbours in `one_step` (solverFIT3D.py:480-518). -/
inductive Op
  | name (v : String)
  | gather (field : String)
  | step
  deriving DecidableEq

/-- routines.py:417-422: one pass of the loop.  Arguments are evaluated before the call. -/
def passOps (saveJ : Bool) : List Op :=
  [.name "hf", .gather "E"] ++ (if saveJ then [.name "hfJ", .gather "J"] else []) ++ [.step]

/-- routines.py:412: `Nt` passes. -/
def program (saveJ : Bool) : ℕ → List Op
  | 0 => []
  | n + 1 => passOps saveJ ++ program saveJ n

/-- routines.py:367-379: the names of files bound on rank `r` before the loop; `hf = None` on all ranks, `hfJ` is set by rank 0 only. -/
def bound (saveJ : Bool) (r : ℕ) : List String := "hf" :: (if r = 0 ∧ saveJ = true then ["hfJ"] else [])

/-- How far each rank is, and the exception that ended it, if any. -/
structure St where
  pc : ℕ → ℕ
  err : ℕ → Option PyErr

def St.next (st : St) (r : ℕ) : St := { st with pc := Function.update st.pc r (st.pc r + 1) }

def St.fail (st : St) (r : ℕ) (e : PyErr) : St := { st with err := Function.update st.err r (some e) }

/-- Rank `r` of `size` executes the next line of its program `P r`; `none` if it has ended or has to wait: the root of a gather for the contribution of every rank, an exchange for the neighbours to be there. -/
def act (P : ℕ → List Op) (names : ℕ → List String) (size : ℕ) (st : St) (r : ℕ) : Option St :=
  if r < size ∧ st.err r = none then
    match (P r)[st.pc r]? with
    | none => none
    | some (.name v) => if v ∈ names r then some (st.next r) else some (st.fail r .unboundLocalError)
    | some (.gather _) =>
      if r = 0 then
        if ∀ q < size, q ≠ 0 → st.pc 0 < st.pc q then some (st.next r) else none
      else some (st.next r)
    | some .step => if ∀ q < size, q + 1 = r ∨ r + 1 = q → st.pc r ≤ st.pc q then some (st.next r) else none
  else none

/-- A schedule: the rank that acts next, step by step. -/
def run (P : ℕ → List Op) (names : ℕ → List String) (size : ℕ) : St → List ℕ → Option St
  | st, [] => some st
  | st, r :: l => (act P names size st r).bind fun st => run P names size st l

/-- Before the loop. -/
def start : St := ⟨fun _ => 0, fun _ => none⟩

/-! ### Proofs -/

theorem run_inv {P : ℕ → List Op} {names : ℕ → List String} {size : ℕ} {I : St → Prop} (hI : ∀ st r st', I st → act P names size st r = some st' → I st') {st st' : St} {l : List ℕ} (h0 : I st)
    (h : run P names size st l = some st') : I st' := by
  induction l generalizing st with
  | nil => obtain rfl := Option.some.inj h; exact h0
  | cons r l ih =>
    rw [run] at h
    cases ha : act P names size st r with
    | none => rw [ha] at h; simp at h
    | some st1 => rw [ha] at h; exact ih (hI _ _ _ h0 ha) h

theorem act_lt {P : ℕ → List Op} {names : ℕ → List String} {size : ℕ} {st st' : St} {r : ℕ} (h : act P names size st r = some st') : r < size ∧ st.err r = none := by
  by_contra hc
  rw [act, if_neg hc] at h
  simp at h

/-- What an action does. -/
theorem act_cases {P : ℕ → List Op} {names : ℕ → List String} {size : ℕ} {st st' : St} {r : ℕ} (h : act P names size st r = some st') :
    (∃ v, (P r)[st.pc r]? = some (.name v) ∧ ((v ∈ names r ∧ st' = st.next r) ∨ (v ∉ names r ∧ st' = st.fail r .unboundLocalError))) ∨
      (∃ f, (P r)[st.pc r]? = some (.gather f) ∧ (r = 0 → ∀ q < size, q ≠ 0 → st.pc 0 < st.pc q) ∧ st' = st.next r) ∨
      ((P r)[st.pc r]? = some .step ∧ (∀ q < size, q + 1 = r ∨ r + 1 = q → st.pc r ≤ st.pc q) ∧ st' = st.next r) := by
  rw [act, if_pos (act_lt h)] at h
  cases hp : (P r)[st.pc r]? with
  | none => rw [hp] at h; simp at h
  | some o =>
    rw [hp] at h
    cases o with
    | name v =>
      refine .inl ⟨v, rfl, ?_⟩
      by_cases hv : v ∈ names r
      · change (if _ then _ else _) = _ at h; rw [if_pos hv] at h; exact .inl ⟨hv, (Option.some.inj h).symm⟩
      · change (if _ then _ else _) = _ at h; rw [if_neg hv] at h; exact .inr ⟨hv, (Option.some.inj h).symm⟩
    | gather f =>
      refine .inr (.inl ⟨f, rfl, ?_⟩)
      by_cases hr : r = 0
      · subst hr
        by_cases hq : ∀ q < size, q ≠ 0 → st.pc 0 < st.pc q
        · rw [if_pos rfl, if_pos hq] at h; exact ⟨fun _ => hq, (Option.some.inj h).symm⟩
        · rw [if_pos rfl, if_neg hq] at h; simp at h
      · rw [if_neg hr] at h; exact ⟨fun h => absurd h hr, (Option.some.inj h).symm⟩
    | step =>
      refine .inr (.inr ⟨rfl, ?_⟩)
      by_cases hq : ∀ q < size, q + 1 = r ∨ r + 1 = q → st.pc r ≤ st.pc q
      · rw [if_pos hq] at h; exact ⟨hq, (Option.some.inj h).symm⟩
      · rw [if_neg hq] at h; simp at h

/-- As long as the run with `save_J` goes on: the other ranks are not beyond the third line (reading `hfJ`), the root not beyond the fourth (gathering J). -/
structure Held (size : ℕ) (st : St) : Prop where
  others : ∀ r, 0 < r → r < size → st.pc r ≤ 2 ∧ (st.err r = none ∨ (st.err r = some .unboundLocalError ∧ st.pc r = 2))
  root : st.pc 0 ≤ 3
  fine : st.err 0 = none

theorem line_eq (n : ℕ) : (program true (n + 1))[0]? = some (.name "hf") ∧ (program true (n + 1))[1]? = some (.gather "E") ∧ (program true (n + 1))[2]? = some (.name "hfJ") ∧
    (program true (n + 1))[3]? = some (.gather "J") := ⟨rfl, rfl, rfl, rfl⟩

theorem held_start (size : ℕ) : Held size start := ⟨fun _ _ _ => ⟨Nat.zero_le _, .inl rfl⟩, Nat.zero_le _, rfl⟩

theorem next_other {st : St} {r q : ℕ} (h : q ≠ r) : (st.next r).pc q = st.pc q := Function.update_of_ne h _ _

theorem next_self (st : St) (r : ℕ) : (st.next r).pc r = st.pc r + 1 := Function.update_self _ _ _

theorem held_act {size n : ℕ} (hs : 2 ≤ size) {st st' : St} {r : ℕ} (hI : Held size st) (h : act (fun _ => program true (n + 1)) (bound true) size st r = some st') : Held size st' := by
  obtain ⟨l0, l1, l2, l3⟩ := line_eq n
  obtain ⟨hr, he⟩ := act_lt h
  rcases Nat.eq_zero_or_pos r with rfl | hr0
  · have hpc := hI.root
    have key : st.pc 0 < 3 → st' = st.next 0 → Held size st' := by
      rintro h3 rfl
      exact ⟨fun q h0 hq => by rw [next_other (by omega)]; exact hI.others q h0 hq, by rw [next_self]; omega, hI.fine⟩
    rcases act_cases h with ⟨v, hv, hw⟩ | ⟨f, hf, hall, e⟩ | ⟨hv, -, e⟩
    · rcases hw with ⟨-, e⟩ | ⟨hv', -⟩
      · refine key ?_ e
        by_contra hc
        rw [show st.pc 0 = 3 by omega, l3] at hv
        simp at hv
      · exfalso
        obtain h0 | h0 | h0 | h0 : st.pc 0 = 0 ∨ st.pc 0 = 1 ∨ st.pc 0 = 2 ∨ st.pc 0 = 3 := by omega
        · rw [h0, l0] at hv; obtain rfl : "hf" = v := by simpa using hv
          exact hv' (by simp [bound])
        · rw [h0, l1] at hv; simp at hv
        · rw [h0, l2] at hv; obtain rfl : "hfJ" = v := by simpa using hv
          exact hv' (by simp [bound])
        · rw [h0, l3] at hv; simp at hv
    · refine key ?_ e
      have := hall rfl 1 (by omega) (by decide)
      have := (hI.others 1 (by decide) (by omega)).1
      omega
    · exfalso
      obtain h0 | h0 | h0 | h0 : st.pc 0 = 0 ∨ st.pc 0 = 1 ∨ st.pc 0 = 2 ∨ st.pc 0 = 3 := by omega
      · rw [h0, l0] at hv; simp at hv
      · rw [h0, l1] at hv; simp at hv
      · rw [h0, l2] at hv; simp at hv
      · rw [h0, l3] at hv; simp at hv
  · obtain ⟨hpc, -⟩ := hI.others r hr0 hr
    have key : st.pc r < 2 → st' = st.next r → Held size st' := by
      rintro h3 rfl
      refine ⟨fun q h0 hq => ?_, by rw [next_other (by omega)]; exact hI.root, hI.fine⟩
      by_cases e : q = r
      · subst e; rw [next_self]; exact ⟨by omega, .inl he⟩
      · rw [next_other e]; exact hI.others q h0 hq
    have bad : st.pc r = 2 → st' = st.fail r .unboundLocalError → Held size st' := by
      rintro h2 rfl
      refine ⟨fun q h0 hq => ⟨(hI.others q h0 hq).1, ?_⟩, hI.root, ?_⟩
      · by_cases e : q = r
        · subst e; exact .inr ⟨Function.update_self _ _ _, h2⟩
        · rw [show (st.fail r .unboundLocalError).err q = st.err q from Function.update_of_ne e _ _]; exact (hI.others q h0 hq).2
      · rw [show (st.fail r .unboundLocalError).err 0 = st.err 0 from Function.update_of_ne (by omega) _ _]; exact hI.fine
    rcases act_cases h with ⟨v, hv, ⟨hw, e⟩ | ⟨hw, e⟩⟩ | ⟨f, hv, -, e⟩ | ⟨hv, -, e⟩
    · refine key ?_ e
      by_contra hc
      rw [show st.pc r = 2 by omega, l2] at hv
      obtain rfl : "hfJ" = v := by simpa using hv
      simp [bound, hr0.ne'] at hw
    · refine bad ?_ e
      obtain h0 | h0 | h0 : st.pc r = 0 ∨ st.pc r = 1 ∨ st.pc r = 2 := by omega
      · exfalso
        rw [h0, l0] at hv
        obtain rfl : "hf" = v := by simpa using hv
        exact hw (by simp [bound])
      · rw [h0, l1] at hv; simp at hv
      · exact h0
    · refine key ?_ e
      by_contra hc
      rw [show st.pc r = 2 by omega, l2] at hv
      simp at hv
    · refine key ?_ e
      by_contra hc
      rw [show st.pc r = 2 by omega, l2] at hv
      simp at hv

theorem program_length (saveJ : Bool) (n : ℕ) : (program saveJ n).length = (passOps saveJ).length * n := by
  induction n with
  | zero => rfl
  | succ n ih => rw [program, List.length_append, ih]; ring

/-- A rank that has not ended, has not failed and need not wait can act. -/
theorem can_act {P : ℕ → List Op} {names : ℕ → List String} {size : ℕ} {st : St} {r : ℕ} (hr : r < size) (he : st.err r = none) (hp : st.pc r < (P r).length)
    (hg : r = 0 → (∃ f, (P r)[st.pc r]? = some (.gather f)) → ∀ q < size, q ≠ 0 → st.pc 0 < st.pc q)
    (hst : (P r)[st.pc r]? = some .step → ∀ q < size, q + 1 = r ∨ r + 1 = q → st.pc r ≤ st.pc q) : ∃ st', act P names size st r = some st' := by
  rw [act, if_pos ⟨hr, he⟩]
  have hsome : (P r)[st.pc r]? = some (P r)[st.pc r] := List.getElem?_eq_getElem hp
  cases hP : (P r)[st.pc r]? with
  | none => rw [hP] at hsome; simp at hsome
  | some o =>
    cases o with
    | name v =>
      by_cases hv : v ∈ names r
      · exact ⟨_, if_pos hv⟩
      · exact ⟨_, if_neg hv⟩
    | gather f =>
      by_cases h0 : r = 0
      · subst h0; exact ⟨_, (if_pos rfl).trans (if_pos (hg rfl ⟨f, hP⟩))⟩
      · exact ⟨_, if_neg h0⟩
    | step => exact ⟨_, if_pos (hst hP)⟩

/-- The number of actions so far: every action is one line done or one failure. -/
def count (size : ℕ) (st : St) : ℕ := ∑ r ∈ Finset.range size, (st.pc r + if st.err r = none then 0 else 1)

theorem count_act {P : ℕ → List Op} {names : ℕ → List String} {size : ℕ} {st st' : St} {r : ℕ} (h : act P names size st r = some st') : count size st' = count size st + 1 := by
  obtain ⟨hr, he⟩ := act_lt h
  have hm := Finset.mem_range.2 hr
  have key : (∀ q, q ≠ r → st'.pc q = st.pc q ∧ st'.err q = st.err q) → (st'.pc r + if st'.err r = none then 0 else 1) = st.pc r + 1 → count size st' = count size st + 1 := by
    intro ho hs
    rw [count, count, ← Finset.add_sum_erase _ _ hm, ← Finset.add_sum_erase _ _ hm, hs, if_pos he,
      Finset.sum_congr rfl fun q hq => by rw [(ho q (Finset.ne_of_mem_erase hq)).1, (ho q (Finset.ne_of_mem_erase hq)).2]]
    omega
  have hnext : st' = st.next r → count size st' = count size st + 1 := by
    rintro rfl
    refine key (fun q hq => ⟨next_other hq, rfl⟩) ?_
    rw [next_self, show (st.next r).err r = none from he, if_pos rfl]
  have hfail : st' = st.fail r .unboundLocalError → count size st' = count size st + 1 := by
    rintro rfl
    refine key (fun q hq => ⟨rfl, Function.update_of_ne hq _ _⟩) ?_
    rw [show (st.fail r .unboundLocalError).err r = some .unboundLocalError from Function.update_self _ _ _, if_neg (by simp)]
    rfl
  rcases act_cases h with ⟨v, -, ⟨-, e⟩ | ⟨-, e⟩⟩ | ⟨f, -, -, e⟩ | ⟨-, -, e⟩
  · exact hnext e
  · exact hfail e
  · exact hnext e
  · exact hnext e

theorem count_run {P : ℕ → List Op} {names : ℕ → List String} {size : ℕ} {st st' : St} {l : List ℕ} (h : run P names size st l = some st') : count size st' = count size st + l.length := by
  induction l generalizing st with
  | nil => obtain rfl := Option.some.inj h; rfl
  | cons r l ih =>
    rw [run] at h
    cases ha : act P names size st r with
    | none => rw [ha] at h; simp at h
    | some st1 =>
      rw [ha] at h
      rw [ih h, count_act ha, List.length_cons]
      omega

theorem count_start (size : ℕ) : count size start = 0 := Finset.sum_eq_zero fun _ _ => rfl

theorem count_le {size b : ℕ} {st : St} (h : ∀ r < size, (st.pc r + if st.err r = none then 0 else 1) ≤ b) : count size st ≤ size * b := by
  refine (Finset.sum_le_card_nsmul _ _ b fun r hr => h r (Finset.mem_range.1 hr)).trans ?_
  rw [Finset.card_range, smul_eq_mul]

/-- **C147 (refuted on several ranks).**  A wake run of two or more ranks with `save_J` and at least one step, in whatever order the ranks act: no rank gets through the first pass; rank 0 never completes the first gather of J, so
no step of J is ever written; after at most three actions a rank nothing moves any more, and then every other rank has failed with an `UnboundLocalError` on reading `hfJ` while rank 0 waits in that gather for ever. -/
theorem C147_mpi_refuted {size Nt : ℕ} (hs : 2 ≤ size) (hn : 0 < Nt) {l : List ℕ} {st : St} (h : run (fun _ => program true Nt) (bound true) size start l = some st) :
    (∀ r < size, st.pc r < (passOps true).length) ∧ st.pc 0 ≤ 3 ∧ (program true Nt)[3]? = some (.gather "J") ∧ st.err 0 = none ∧ l.length ≤ size * 3 ∧
      ((∀ r, act (fun _ => program true Nt) (bound true) size st r = none) →
        st.pc 0 = 3 ∧ ∀ r, 0 < r → r < size → (program true Nt)[st.pc r]? = some (.name "hfJ") ∧ st.err r = some .unboundLocalError) := by
  obtain ⟨n, rfl⟩ : ∃ n, Nt = n + 1 := ⟨Nt - 1, by omega⟩
  obtain ⟨l0, l1, l2, l3⟩ := line_eq n
  have hI : Held size st := run_inv (I := Held size) (fun _ _ _ hI h => held_act hs hI h) (held_start size) h
  have hlen : (program true (n + 1)).length = 5 * (n + 1) := program_length true (n + 1)
  have hlt : ∀ r < size, st.pc r < 5 := fun r hr => by
    rcases Nat.eq_zero_or_pos r with rfl | h0
    · have := hI.root; omega
    · have := (hI.others r h0 hr).1; omega
  refine ⟨hlt, hI.root, l3, hI.fine, ?_, fun stuck => ?_⟩
  · have hc := count_run h
    rw [count_start, zero_add] at hc
    rw [← hc]
    refine count_le fun r hr => ?_
    rcases Nat.eq_zero_or_pos r with rfl | h0
    · rw [if_pos hI.fine]; exact hI.root
    · have := (hI.others r h0 hr).1
      split <;> omega
  · have hoth : ∀ r, 0 < r → r < size → st.err r = some .unboundLocalError ∧ st.pc r = 2 := fun r h0 hr => by
      rcases (hI.others r h0 hr).2 with he | he
      · exfalso
        have hp := (hI.others r h0 hr).1
        obtain ⟨st', ha⟩ := can_act (P := fun _ => program true (n + 1)) (names := bound true) hr he (by omega) (fun e => absurd e h0.ne') (fun hstep => by
          exfalso
          obtain e | e | e : st.pc r = 0 ∨ st.pc r = 1 ∨ st.pc r = 2 := by omega
          · rw [e, l0] at hstep; simp at hstep
          · rw [e, l1] at hstep; simp at hstep
          · rw [e, l2] at hstep; simp at hstep)
        rw [stuck r] at ha
        simp at ha
      · exact he
    have hat : ∀ r, 0 < r → r < size → st.pc r = 2 := fun r h0 hr => (hoth r h0 hr).2
    refine ⟨?_, fun r h0 hr => ⟨by rw [hat r h0 hr]; exact l2, (hoth r h0 hr).1⟩⟩
    by_contra hc
    have hp := hI.root
    obtain ⟨st', ha⟩ := can_act (P := fun _ => program true (n + 1)) (names := bound true) (size := size) (r := 0) (by omega) hI.fine (by omega) (fun _ ⟨f, hf⟩ q hq hq0 => by
      rw [hat q (by omega) hq]
      obtain e | e | e : st.pc 0 = 0 ∨ st.pc 0 = 1 ∨ st.pc 0 = 2 := by omega
      · omega
      · omega
      · rw [e, l2] at hf; simp at hf) (fun hstep => by
      exfalso
      obtain e | e | e : st.pc 0 = 0 ∨ st.pc 0 = 1 ∨ st.pc 0 = 2 := by omega
      · rw [e, l0] at hstep; simp at hstep
      · rw [e, l1] at hstep; simp at hstep
      · rw [e, l2] at hstep; simp at hstep)
    rw [stuck 0] at ha
    simp at ha

/-- Without `save_J`. -/
structure Fine (P : ℕ → List Op) (st : St) : Prop where
  fine : ∀ r, st.err r = none
  le : ∀ r, st.pc r ≤ (P r).length

theorem fine_act {P : ℕ → List Op} {names : ℕ → List String} (hP : ∀ r v, Op.name v ∈ P r → v ∈ names r) {size : ℕ} {st st' : St} {r : ℕ} (hI : Fine P st) (h : act P names size st r = some st') : Fine P st' := by
  have hnext : ∀ o, (P r)[st.pc r]? = some o → st' = st.next r → Fine P st' := by
    rintro o ho rfl
    refine ⟨hI.fine, fun q => ?_⟩
    by_cases e : q = r
    · subst e
      rw [next_self]
      obtain ⟨hlt, -⟩ := List.getElem?_eq_some_iff.1 ho
      omega
    · rw [next_other e]; exact hI.le q
  rcases act_cases h with ⟨v, hv, ⟨-, e⟩ | ⟨hn, -⟩⟩ | ⟨f, hv, -, e⟩ | ⟨hv, -, e⟩
  · exact hnext _ hv e
  · exact absurd (hP r v (List.mem_of_getElem? hv)) hn
  · exact hnext _ hv e
  · exact hnext _ hv e

theorem names_false (Nt : ℕ) : ∀ v, Op.name v ∈ program false Nt → ∀ r, v ∈ bound false r := by
  induction Nt with
  | zero => intro v hv; simp [program] at hv
  | succ n ih =>
    intro v hv r
    rw [program, List.mem_append] at hv
    rcases hv with hv | hv
    · obtain rfl : v = "hf" := by simpa [passOps] using hv
      simp [bound]
    · exact ih v hv r

/-- **C147 (partial).**  Without `save_J` there is no such failure on any number of ranks: in whatever order the ranks act none fails, as long as not all have come to the end some rank can go on, and the number of actions is bounded; so
every run comes to its end. -/
theorem C147_mpi_without_partial {size Nt : ℕ} {l : List ℕ} {st : St} (h : run (fun _ => program false Nt) (bound false) size start l = some st) :
    (∀ r, st.err r = none) ∧ l.length ≤ size * (3 * Nt) ∧
      ((∀ r, act (fun _ => program false Nt) (bound false) size st r = none) → ∀ r < size, st.pc r = (program false Nt).length) := by
  have hI : Fine (fun _ => program false Nt) st := run_inv (I := Fine (fun _ => program false Nt)) (fun _ _ _ hI h => fine_act (fun r v hv => names_false Nt v hv r) hI h) ⟨fun _ => rfl, fun _ => Nat.zero_le _⟩ h
  have hlen : (program false Nt).length = 3 * Nt := program_length false Nt
  refine ⟨hI.fine, ?_, fun stuck r hr => ?_⟩
  · have hc := count_run h
    rw [count_start, zero_add] at hc
    rw [← hc]
    refine count_le fun r _ => ?_
    rw [if_pos (hI.fine r), ← hlen]
    exact hI.le r
  · by_contra hne
    obtain ⟨m, hm, hmin⟩ := Finset.exists_min_image (Finset.range size) st.pc ⟨r, Finset.mem_range.2 hr⟩
    have hmr := hmin r (Finset.mem_range.2 hr)
    have hlt : st.pc m < (program false Nt).length := by have := hI.le r; omega
    have move : ∀ k < size, st.pc k = st.pc m → (k = 0 → ∀ q < size, q ≠ 0 → st.pc 0 < st.pc q) → False := fun k hk e hk0 => by
      obtain ⟨st', ha⟩ := can_act (P := fun _ => program false Nt) (names := bound false) hk (hI.fine k) (by omega) (fun e _ => hk0 e) (fun _ q hq _ => by rw [e]; exact hmin q (Finset.mem_range.2 hq))
      rw [stuck k] at ha
      simp at ha
    by_cases hex : ∃ k < size, k ≠ 0 ∧ st.pc k = st.pc m
    · obtain ⟨k, hk, hk0, e⟩ := hex
      exact move k hk e fun h => absurd h hk0
    · have hm0 : m = 0 := by
        by_contra h0
        exact hex ⟨m, Finset.mem_range.1 hm, h0, rfl⟩
      subst hm0
      refine move 0 (Finset.mem_range.1 hm) rfl fun _ q hq hq0 => ?_
      have h1 := hmin q (Finset.mem_range.2 hq)
      have h2 : st.pc q ≠ st.pc 0 := fun e => hex ⟨q, hq, hq0, e⟩
      omega

/-- Three ranks: rank 1 and rank 2 give their share of E and fail, rank 0 is left waiting; and one pass of two ranks without `save_J`. -/
example : ((run (fun _ => program true 4) (bound true) 3 start [1, 1, 0, 2, 2, 2, 0, 1, 0]).map fun st => (List.range 3).map fun r => (st.pc r, st.err r)) =
      some [(3, none), (2, some .unboundLocalError), (2, some .unboundLocalError)] ∧
    ((run (fun _ => program false 1) (bound false) 2 start [1, 1, 0, 0, 0, 1]).map fun st => (List.range 2).map st.pc) = some [3, 3] := by decide

end MpiJ
end Wakis
