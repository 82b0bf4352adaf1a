import Verif.MpiHang
import Verif.MpiIndex

/-!
# C146: when rank 0 fails in its gather the other ranks wait for ever

In a longitudinal wake run on several ranks rank 0 fails after `comm.gather` has delivered (solverFIT3D.py:575-579, `C146_longitudinal_refuted`).  The exception ends rank 0 only; the other ranks do not look at what rank 0
does with their contributions and go on.  The events of a pass are those of SaveJMpi.
-/

namespace Wakis
namespace MpiJ

/-! ### Model -/

/-- A gather. -/
def Op.isGather : Op → Bool
  | .gather _ => true
  | _ => false

/-- solverFIT3D.py:575-579: as `act`, but where rank 0 would complete a gather it fails with `e` instead. -/
def actFail (e : PyErr) (P : ℕ → List Op) (names : ℕ → List String) (size : ℕ) (st : St) (r : ℕ) : Option St :=
  if r = 0 ∧ ((P 0)[st.pc 0]?).any Op.isGather = true then (act P names size st 0).map fun _ => st.fail 0 e else act P names size st r

/-- A schedule: the rank that acts next, step by step. -/
def runFail (e : PyErr) (P : ℕ → List Op) (names : ℕ → List String) (size : ℕ) : St → List ℕ → Option St
  | st, [] => some st
  | st, r :: l => (actFail e P names size st r).bind fun st => runFail e P names size st l

/-! ### Proofs -/

theorem actFail_cases {e : PyErr} {P : ℕ → List Op} {names : ℕ → List String} {size : ℕ} {st st' : St} {r : ℕ} (h : actFail e P names size st r = some st') :
    (r = 0 ∧ (∃ f, (P 0)[st.pc 0]? = some (.gather f)) ∧ (∃ st1, act P names size st 0 = some st1) ∧ st' = st.fail 0 e) ∨
      ((r = 0 → ∀ f, (P 0)[st.pc 0]? ≠ some (.gather f)) ∧ act P names size st r = some st') := by
  unfold actFail at h
  split_ifs at h with hc
  · obtain ⟨rfl, hg⟩ := hc
    refine .inl ⟨rfl, ?_, ?_⟩
    · cases ho : (P 0)[st.pc 0]? with
      | none => rw [ho] at hg; simp at hg
      | some o =>
        cases o with
        | gather f => exact ⟨f, rfl⟩
        | name v => rw [ho] at hg; simp [Op.isGather] at hg
        | step => rw [ho] at hg; simp [Op.isGather] at hg
    · cases ha : act P names size st 0 with
      | none => rw [ha] at h; simp at h
      | some st1 => rw [ha] at h; exact ⟨⟨st1, rfl⟩, (Option.some.inj h).symm⟩
  · refine .inr ⟨fun h0 f hf => hc ⟨h0, ?_⟩, h⟩
    rw [hf]
    rfl

theorem fail_root (st : St) (e : PyErr) : (st.fail 0 e).err 0 = some e := Function.update_self (β := fun _ => Option PyErr) 0 (some e) st.err

/-- What stays true: rank 0 is not beyond its first gather, rank `r` not beyond the exchange of pass `r`. -/
structure Stalled (e : PyErr) (size : ℕ) (st : St) : Prop where
  root : st.pc 0 ≤ 1
  failed : st.err 0 = none ∨ (st.err 0 = some e ∧ st.pc 0 = 1)
  others : ∀ r, 0 < r → r < size → st.pc r + 1 ≤ 3 * r ∧ st.err r = none

theorem lines (n : ℕ) : (program false (n + 1))[0]? = some (.name "hf") ∧ (program false (n + 1))[1]? = some (.gather "E") ∧ (program false (n + 1))[2]? = some .step := ⟨rfl, rfl, rfl⟩

theorem stalled_act {e : PyErr} {size n : ℕ} {st st' : St} {r : ℕ} (hI : Stalled e size st) (h : actFail e (fun _ => program false (n + 1)) (bound false) size st r = some st') :
    Stalled e size st' := by
  obtain ⟨l0, l1, -⟩ := lines n
  rcases actFail_cases h with ⟨rfl, ⟨f, hf⟩, -, rfl⟩ | ⟨hng, ha⟩
  · have h1 : st.pc 0 = 1 := by
      have := hI.root
      obtain e | e : st.pc 0 = 0 ∨ st.pc 0 = 1 := by omega
      · rw [e, l0] at hf; simp at hf
      · exact e
    refine ⟨hI.root, .inr ⟨fail_root st e, h1⟩, fun q h0 hq => ⟨(hI.others q h0 hq).1, ?_⟩⟩
    rw [show (st.fail 0 e).err q = st.err q from Function.update_of_ne (by omega) _ _]
    exact (hI.others q h0 hq).2
  · obtain ⟨hr, he⟩ := act_lt ha
    have nofail : ∀ v, (program false (n + 1))[st.pc r]? = some (.name v) → v ∈ bound false r := fun v hv => names_false (n + 1) v (List.mem_of_getElem? hv) r
    rcases Nat.eq_zero_or_pos r with rfl | hr0
    · have hpc := hI.root
      have h0 : st.pc 0 = 0 := by
        by_contra hc
        exact hng rfl "E" (by rw [show st.pc 0 = 1 by omega]; exact l1)
      have e' : st' = st.next 0 := by
        rcases act_cases ha with ⟨v, hv, ⟨-, e⟩ | ⟨hw, -⟩⟩ | ⟨f, -, -, e⟩ | ⟨-, -, e⟩
        · exact e
        · exact absurd (nofail v hv) hw
        · exact e
        · exact e
      subst e'
      exact ⟨by rw [next_self]; omega, .inl he, fun q h0 hq => by rw [next_other (by omega)]; exact hI.others q h0 hq⟩
    · obtain ⟨hpc, -⟩ := hI.others r hr0 hr
      have key : st.pc r + 1 ≠ 3 * r → st' = st.next r → Stalled e size st' := by
        rintro hne rfl
        refine ⟨by rw [next_other (by omega)]; exact hI.root, ?_, fun q h0 hq => ?_⟩
        · rw [next_other (by omega)]; exact hI.failed
        · by_cases eq : q = r
          · subst eq; rw [next_self]; exact ⟨by omega, he⟩
          · rw [next_other eq]; exact hI.others q h0 hq
      have only : ∀ o, (program false (n + 1))[st.pc r]? = some o → o ≠ .step → st.pc r + 1 ≠ 3 * r := by
        intro o ho hns hc
        have e3 : st.pc r = 3 * (r - 1) + 2 := by omega
        obtain ⟨hlt, -⟩ := List.getElem?_eq_some_iff.1 ho
        rw [program_length] at hlt
        have hlt : st.pc r < 3 * (n + 1) := hlt
        rw [e3, step_line (by omega)] at ho
        exact hns (Option.some.inj ho).symm
      rcases act_cases ha with ⟨v, hv, ⟨-, e⟩ | ⟨hw, -⟩⟩ | ⟨f, hv, -, e⟩ | ⟨hv, hn, e⟩
      · exact key (only _ hv (by simp)) e
      · exact absurd (nofail v hv) hw
      · exact key (only _ hv (by simp)) e
      · refine key (fun hc => ?_) e
        have hle := hn (r - 1) (by omega) (.inl (by omega))
        rcases Nat.eq_zero_or_pos (r - 1) with h0 | h0
        · have := hI.root
          rw [h0] at hle
          omega
        · have := (hI.others (r - 1) h0 (by omega)).1
          omega

theorem runFail_inv {e : PyErr} {P : ℕ → List Op} {names : ℕ → List String} {size : ℕ} {I : St → Prop} (hI : ∀ st r st', I st → actFail e P names size st r = some st' → I st') {st st' : St} {l : List ℕ}
    (h0 : I st) (h : runFail e P names size st l = some st') : I st' := by
  induction l generalizing st with
  | nil => obtain rfl := Option.some.inj h; exact h0
  | cons r l ih =>
    rw [runFail] at h
    cases ha : actFail e P names size st r with
    | none => rw [ha] at h; simp at h
    | some st1 => rw [ha] at h; exact ih (hI _ _ _ h0 ha) h

theorem count_actFail {e : PyErr} {P : ℕ → List Op} {names : ℕ → List String} {size : ℕ} {st st' : St} {r : ℕ} (h : actFail e P names size st r = some st') : count size st' = count size st + 1 := by
  rcases actFail_cases h with ⟨rfl, -, ⟨st1, h1⟩, rfl⟩ | ⟨-, ha⟩
  · obtain ⟨hr, he⟩ := act_lt h1
    have hm := Finset.mem_range.2 hr
    rw [count, count, ← Finset.add_sum_erase _ _ hm, ← Finset.add_sum_erase _ _ hm, if_pos he, fail_root, if_neg (by simp),
      Finset.sum_congr rfl fun q hq => by rw [show (st.fail 0 e).err q = st.err q from Function.update_of_ne (Finset.ne_of_mem_erase hq) _ _]]
    show st.pc 0 + 1 + _ = st.pc 0 + 0 + _ + 1
    have : ∀ q, (st.fail 0 e).pc q = st.pc q := fun _ => rfl
    simp only [this]
    omega
  · exact count_act ha

theorem count_runFail {e : PyErr} {P : ℕ → List Op} {names : ℕ → List String} {size : ℕ} {st st' : St} {l : List ℕ} (h : runFail e P names size st l = some st') :
    count size st' = count size st + l.length := by
  induction l generalizing st with
  | nil => obtain rfl := Option.some.inj h; rfl
  | cons r l ih =>
    rw [runFail] at h
    cases ha : actFail e P names size st r with
    | none => rw [ha] at h; simp at h
    | some st1 =>
      rw [ha] at h
      rw [ih h, count_actFail ha, List.length_cons]
      omega

/-- **C146 (longitudinal runs never end).**  A longitudinal wake run of two or more ranks and at least one step, where rank 0 fails in its gathers (`C146_longitudinal_refuted`), in whatever order the ranks act: rank 0 does not get
beyond the gather of the first frame and no rank `r` beyond the exchange of ghost layers in pass `r`, so none of them ends if there are that many passes, and none of them raises an exception.  After at most `3 * size` actions a rank nothing moves
any more; then rank 0 has failed with an `AttributeError` and rank 1 waits for it in the exchange of the first pass. -/
theorem C146_stall_refuted {size Nt : ℕ} (hs : 2 ≤ size) (hn : 0 < Nt) {l : List ℕ} {st : St} (h : runFail .attributeError (fun _ => program false Nt) (bound false) size start l = some st) :
    st.pc 0 ≤ 1 ∧ (∀ r, 0 < r → r < size → st.err r = none ∧ st.pc r ≤ 3 * (r - 1) + 2 ∧ (r ≤ Nt → st.pc r < (program false Nt).length)) ∧ l.length ≤ size * (3 * size) ∧
      ((∀ r, actFail .attributeError (fun _ => program false Nt) (bound false) size st r = none) →
        st.err 0 = some .attributeError ∧ (program false Nt)[st.pc 0]? = some (.gather "E") ∧ (program false Nt)[st.pc 1]? = some .step) := by
  obtain ⟨n, rfl⟩ : ∃ n, Nt = n + 1 := ⟨Nt - 1, by omega⟩
  obtain ⟨l0, l1, l2⟩ := lines n
  have hI : Stalled .attributeError size st := runFail_inv (I := Stalled .attributeError size) (fun _ _ _ hI h => stalled_act hI h)
    ⟨Nat.zero_le _, .inl rfl, fun r h0 _ => ⟨by show 0 + 1 ≤ _; omega, rfl⟩⟩ h
  have hlen : (program false (n + 1)).length = 3 * (n + 1) := program_length false (n + 1)
  refine ⟨hI.root, fun r h0 hr => ?_, ?_, fun stuck => ?_⟩
  · obtain ⟨h1, h2⟩ := hI.others r h0 hr
    exact ⟨h2, by omega, fun _ => by omega⟩
  · have hc := count_runFail h
    rw [count_start, zero_add] at hc
    rw [← hc]
    refine count_le fun r hr => ?_
    rcases Nat.eq_zero_or_pos r with rfl | h0
    · have := hI.root
      split <;> omega
    · obtain ⟨h1, h2⟩ := hI.others r h0 hr
      rw [if_pos h2]
      omega
  · have hoth : ∀ r, 0 < r → r < size → 2 ≤ st.pc r := fun r h0 hr => by
      by_contra hc
      obtain ⟨st', ha⟩ := can_act (P := fun _ => program false (n + 1)) (names := bound false) hr (hI.others r h0 hr).2 (by omega) (fun e => absurd e h0.ne') (fun hstep => by
        exfalso
        obtain e | e : st.pc r = 0 ∨ st.pc r = 1 := by omega
        · rw [e, l0] at hstep; simp at hstep
        · rw [e, l1] at hstep; simp at hstep)
      have := stuck r
      unfold actFail at this
      rw [if_neg (by omega), ha] at this
      simp at this
    have hroot : st.err 0 = some .attributeError ∧ st.pc 0 = 1 := by
      rcases hI.failed with he | he
      · exfalso
        have hp := hI.root
        obtain ⟨st', ha⟩ := can_act (P := fun _ => program false (n + 1)) (names := bound false) (size := size) (r := 0) (by omega) he (by omega) (fun _ _ q hq hq0 => by
          have := hoth q (by omega) hq
          omega) (fun hstep => by
          exfalso
          obtain e | e : st.pc 0 = 0 ∨ st.pc 0 = 1 := by omega
          · rw [e, l0] at hstep; simp at hstep
          · rw [e, l1] at hstep; simp at hstep)
        have := stuck 0
        unfold actFail at this
        rw [ha] at this
        split_ifs at this <;> simp at this
      · exact he
    have h1 : st.pc 1 = 2 := by
      have := hoth 1 (by omega) (by omega)
      have := (hI.others 1 (by omega) (by omega)).1
      omega
    exact ⟨hroot.1, by rw [hroot.2]; exact l1, by rw [h1]; exact l2⟩

/-- Non-vacuity: two ranks and any number of passes; after four actions rank 0 has failed and rank 1 waits for ever. -/
example (n : ℕ) : ∃ st, runFail .attributeError (fun _ => program false (n + 1)) (bound false) 2 start [0, 1, 1, 0] = some st ∧ st.err 0 = some .attributeError ∧ st.pc 1 = 2 :=
  ⟨_, rfl, rfl, rfl⟩

end MpiJ
end Wakis
