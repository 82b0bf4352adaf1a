import Mathlib.Data.Finset.Basic
import Mathlib.Logic.Function.Basic
import Mathlib.Tactic.Common

/-!
# Message-passing semantics of blocking `Sendrecv`

A distributed run is a network of ranks.  Each rank executes its program in order.  A program is a list of
local computations and blocking `MPI.Sendrecv` calls (mpi4py `comm.Sendrecv`, used in solverFIT3D.py:490-518).

* `Sendrecv` posts a message to `dest` with `sendtag` and waits for one from `source` with `recvtag`; the two halves
  happen in any order.
* Messages between two ranks with the same tag arrive in the order they were sent (MPI's non-overtaking rule); one
  FIFO queue per (source, dest, tag).
* The call returns when its message was received and its own message left the send buffer.  An MPI library may
  buffer (`eager`) or wait until the receiver has taken the message (rendezvous), and may decide this call by call:
  `eager` is an arbitrary oracle.

Trusted: that mpi4py implements this.
-/

namespace Wakis
namespace Mpi

/-- One instruction of a rank's program with local states `σ` and messages `μ`. -/
inductive Instr (σ μ : Type _)
  | comp (f : σ → σ)
  | sendrecv (dest sendtag source recvtag : ℕ) (get : σ → μ) (put : μ → σ → σ)

/-- A rank: remaining program, memory, and for the current `Sendrecv` whether its message was posted and
whether its receive has completed. -/
structure Proc (σ μ : Type _) where
  prog : List (Instr σ μ)
  loc : σ
  dep : Bool
  rcv : Bool

/-- All ranks and all queues (source, destination, tag). -/
structure Net (σ μ : Type _) where
  proc : ℕ → Proc σ μ
  chan : ℕ → ℕ → ℕ → List μ

/-- What the scheduler can do with a rank. -/
inductive Kind | comp | post | receive | finish
  deriving DecidableEq

/-- An action of the scheduler. -/
abbrev Act := ℕ × Kind

variable {σ μ : Type _}

/-- Replace one rank. -/
def Net.setProc (n : Net σ μ) (r : ℕ) (p : Proc σ μ) : Net σ μ := { n with proc := Function.update n.proc r p }

/-- Replace one queue. -/
def Net.setChan (n : Net σ μ) (a b t : ℕ) (q : List μ) : Net σ μ :=
  { n with chan := fun a' b' t' => if a' = a ∧ b' = b ∧ t' = t then q else n.chan a' b' t' }

/-- The effect of an action, `none` if it is not possible now. -/
def fire (eager : ℕ → ℕ → Bool) (n : Net σ μ) (a : Act) : Option (Net σ μ) :=
  let r := a.1
  let p := n.proc r
  match p.prog, a.2 with
  | .comp f :: rest, .comp => some (n.setProc r ⟨rest, f p.loc, false, false⟩)
  | .sendrecv dest st _ _ get _ :: _, .post =>
    if p.dep then none
    else some ((n.setProc r { p with dep := true }).setChan r dest st (n.chan r dest st ++ [get p.loc]))
  | .sendrecv _ _ src rt _ put :: _, .receive =>
    if p.rcv then none
    else
      match n.chan src r rt with
      | [] => none
      | m :: q => some ((n.setProc r { p with rcv := true, loc := put m p.loc }).setChan src r rt q)
  | .sendrecv dest st _ _ _ _ :: rest, .finish =>
    if p.dep && p.rcv && (eager r rest.length || (n.chan r dest st).isEmpty) then
      some (n.setProc r ⟨rest, p.loc, false, false⟩)
    else none
  | _, _ => none

/-- A schedule: a list of actions, each possible when it happens. -/
def run (eager : ℕ → ℕ → Bool) : Net σ μ → List Act → Option (Net σ μ)
  | n, [] => some n
  | n, a :: l => (fire eager n a).bind fun n' => run eager n' l

/-- Every rank has finished its program. -/
def Net.Done (n : Net σ μ) : Prop := ∀ r, (n.proc r).prog = []

/-- The send buffer of a `Sendrecv` is not touched by its own receive. -/
def Instr.Ok : Instr σ μ → Prop
  | .comp _ => True
  | .sendrecv _ _ _ _ get put => ∀ m l, get (put m l) = get l

/-- All remaining instructions are of that kind. -/
def Net.Ok (n : Net σ μ) : Prop := ∀ r, ∀ i ∈ (n.proc r).prog, i.Ok

theorem Net.ext' {n m : Net σ μ} (h1 : n.proc = m.proc) (h2 : n.chan = m.chan) : n = m := by
  cases n; cases m; simp_all

/-! ### Inversion of `fire` -/

theorem fire_comp {eager : ℕ → ℕ → Bool} {n n' : Net σ μ} {r : ℕ} (h : fire eager n (r, .comp) = some n') :
    ∃ f rest, (n.proc r).prog = .comp f :: rest ∧ n' = n.setProc r ⟨rest, f (n.proc r).loc, false, false⟩ := by
  unfold fire at h
  cases hp : (n.proc r).prog with
  | nil => simp [hp] at h
  | cons i rest =>
    cases i with
    | comp f => simp only [hp, Option.some.injEq] at h; exact ⟨f, rest, rfl, h.symm⟩
    | sendrecv => simp [hp] at h

theorem fire_post {eager : ℕ → ℕ → Bool} {n n' : Net σ μ} {r : ℕ} (h : fire eager n (r, .post) = some n') :
    ∃ d st s rt get put rest, (n.proc r).prog = .sendrecv d st s rt get put :: rest ∧ (n.proc r).dep = false ∧
      n' = (n.setProc r { n.proc r with dep := true }).setChan r d st (n.chan r d st ++ [get (n.proc r).loc]) := by
  unfold fire at h
  cases hp : (n.proc r).prog with
  | nil => simp [hp] at h
  | cons i rest =>
    cases i with
    | comp f => simp [hp] at h
    | sendrecv d st s rt get put =>
      simp only [hp] at h
      cases hd : (n.proc r).dep with
      | true => simp [hd] at h
      | false =>
        simp only [hd, Bool.false_eq_true, if_false, Option.some.injEq] at h
        exact ⟨d, st, s, rt, get, put, rest, rfl, rfl, by rw [← h]; simp only [hp]⟩

theorem fire_receive {eager : ℕ → ℕ → Bool} {n n' : Net σ μ} {r : ℕ} (h : fire eager n (r, .receive) = some n') :
    ∃ d st s rt get put rest m q, (n.proc r).prog = .sendrecv d st s rt get put :: rest ∧ (n.proc r).rcv = false ∧
      n.chan s r rt = m :: q ∧
      n' = (n.setProc r { n.proc r with rcv := true, loc := put m (n.proc r).loc }).setChan s r rt q := by
  unfold fire at h
  cases hp : (n.proc r).prog with
  | nil => simp [hp] at h
  | cons i rest =>
    cases i with
    | comp f => simp [hp] at h
    | sendrecv d st s rt get put =>
      simp only [hp] at h
      cases hd : (n.proc r).rcv with
      | true => simp [hd] at h
      | false =>
        simp only [hd, Bool.false_eq_true, if_false] at h
        cases hc : n.chan s r rt with
        | nil => simp [hc] at h
        | cons m q =>
          simp only [hc, Option.some.injEq] at h
          exact ⟨d, st, s, rt, get, put, rest, m, q, rfl, rfl, hc, by rw [← h]; simp only [hp]⟩

theorem fire_finish {eager : ℕ → ℕ → Bool} {n n' : Net σ μ} {r : ℕ} (h : fire eager n (r, .finish) = some n') :
    ∃ d st s rt get put rest, (n.proc r).prog = .sendrecv d st s rt get put :: rest ∧ (n.proc r).dep = true ∧
      (n.proc r).rcv = true ∧ (eager r rest.length = true ∨ n.chan r d st = []) ∧
      n' = n.setProc r ⟨rest, (n.proc r).loc, false, false⟩ := by
  unfold fire at h
  cases hp : (n.proc r).prog with
  | nil => simp [hp] at h
  | cons i rest =>
    cases i with
    | comp f => simp [hp] at h
    | sendrecv d st s rt get put =>
      simp only [hp] at h
      split at h
      · rename_i hc
        simp only [Bool.and_eq_true, Bool.or_eq_true, List.isEmpty_iff] at hc
        simp only [Option.some.injEq] at h
        exact ⟨d, st, s, rt, get, put, rest, rfl, hc.1.1, hc.1.2, hc.2, h.symm⟩
      · simp at h

/-! ### Firing -/

theorem comp_fires {eager : ℕ → ℕ → Bool} {n : Net σ μ} {r : ℕ} {f rest} (h : (n.proc r).prog = .comp f :: rest) :
    fire eager n (r, .comp) = some (n.setProc r ⟨rest, f (n.proc r).loc, false, false⟩) := by
  simp [fire, h]

theorem post_fires {eager : ℕ → ℕ → Bool} {n : Net σ μ} {r d st s rt : ℕ} {get put rest}
    (h : (n.proc r).prog = .sendrecv d st s rt get put :: rest) (hd : (n.proc r).dep = false) :
    fire eager n (r, .post) =
      some ((n.setProc r { n.proc r with dep := true }).setChan r d st (n.chan r d st ++ [get (n.proc r).loc])) := by
  simp [fire, h, hd]

theorem receive_fires {eager : ℕ → ℕ → Bool} {n : Net σ μ} {r d st s rt : ℕ} {get put rest m q}
    (h : (n.proc r).prog = .sendrecv d st s rt get put :: rest) (hd : (n.proc r).rcv = false)
    (hc : n.chan s r rt = m :: q) :
    fire eager n (r, .receive) =
      some ((n.setProc r { n.proc r with rcv := true, loc := put m (n.proc r).loc }).setChan s r rt q) := by
  simp [fire, h, hd, hc]

theorem finish_fires {eager : ℕ → ℕ → Bool} {n : Net σ μ} {r d st s rt : ℕ} {get put rest}
    (h : (n.proc r).prog = .sendrecv d st s rt get put :: rest) (hd : (n.proc r).dep = true)
    (hr : (n.proc r).rcv = true) (hc : eager r rest.length = true ∨ n.chan r d st = []) :
    fire eager n (r, .finish) = some (n.setProc r ⟨rest, (n.proc r).loc, false, false⟩) := by
  have : (eager r rest.length || (n.chan r d st).isEmpty) = true := by
    simpa [Bool.or_eq_true, List.isEmpty_iff] using hc
  simp [fire, h, hd, hr, this]

/-! ### Diamond -/

@[simp] theorem setProc_proc_ne (n : Net σ μ) {r s : ℕ} (p : Proc σ μ) (h : s ≠ r) : (n.setProc r p).proc s = n.proc s := by
  simp [Net.setProc, Function.update_of_ne h]

@[simp] theorem setProc_proc (n : Net σ μ) (r : ℕ) (p : Proc σ μ) : (n.setProc r p).proc r = p := by
  simp [Net.setProc]

@[simp] theorem setProc_chan (n : Net σ μ) (r : ℕ) (p : Proc σ μ) : (n.setProc r p).chan = n.chan := rfl

@[simp] theorem setChan_proc (n : Net σ μ) (a b t : ℕ) (q : List μ) : (n.setChan a b t q).proc = n.proc := rfl

theorem setChan_chan (n : Net σ μ) (a b t : ℕ) (q : List μ) (a' b' t' : ℕ) :
    (n.setChan a b t q).chan a' b' t' = if a' = a ∧ b' = b ∧ t' = t then q else n.chan a' b' t' := rfl

theorem setProc_comm (n : Net σ μ) {r s : ℕ} (p q : Proc σ μ) (h : r ≠ s) :
    (n.setProc r p).setProc s q = (n.setProc s q).setProc r p :=
  Net.ext' (by simp only [Net.setProc]; exact Function.update_comm h _ _ _) rfl

theorem setChan_setProc (n : Net σ μ) (r : ℕ) (p : Proc σ μ) (a b t : ℕ) (q : List μ) :
    (n.setChan a b t q).setProc r p = (n.setProc r p).setChan a b t q := rfl

theorem setChan_comm (n : Net σ μ) {a b t a' b' t' : ℕ} (q q' : List μ) (h : ¬ (a' = a ∧ b' = b ∧ t' = t)) :
    (n.setChan a b t q).setChan a' b' t' q' = (n.setChan a' b' t' q').setChan a b t q := by
  refine Net.ext' rfl ?_
  funext x y z
  simp only [setChan_chan]
  by_cases h1 : x = a ∧ y = b ∧ z = t
  · obtain ⟨rfl, rfl, rfl⟩ := h1
    have : ¬ (x = a' ∧ y = b' ∧ z = t') := fun ⟨e1, e2, e3⟩ => h ⟨e1.symm, e2.symm, e3.symm⟩
    simp [this]
  · simp [h1]

theorem setChan_setChan (n : Net σ μ) (a b t : ℕ) (q q' : List μ) :
    (n.setChan a b t q).setChan a b t q' = n.setChan a b t q' := by
  refine Net.ext' rfl ?_
  funext x y z
  simp only [setChan_chan]
  split <;> rfl

theorem setProc_setProc (n : Net σ μ) (r : ℕ) (p q : Proc σ μ) : (n.setProc r p).setProc r q = n.setProc r q :=
  Net.ext' (by simp only [Net.setProc]; exact Function.update_idem ..) rfl

/-- Two actions commute in `n`. -/
def Commute (eager : ℕ → ℕ → Bool) (n : Net σ μ) (a b : Act) : Prop :=
  ∀ n1 n2, fire eager n a = some n1 → fire eager n b = some n2 →
    ∃ n', fire eager n1 b = some n' ∧ fire eager n2 a = some n'

theorem Commute.symm {eager : ℕ → ℕ → Bool} {n : Net σ μ} {a b : Act} (h : Commute eager n a b) : Commute eager n b a := by
  intro n1 n2 h1 h2
  obtain ⟨n', h3, h4⟩ := h n2 n1 h2 h1
  exact ⟨n', h4, h3⟩

section
variable {eager : ℕ → ℕ → Bool} {n : Net σ μ} {r s : ℕ}

theorem comm_comp_comp (h : r ≠ s) : Commute eager n (r, .comp) (s, .comp) := by
  intro n1 n2 h1 h2
  obtain ⟨f, rest, p1, rfl⟩ := fire_comp h1
  obtain ⟨f', rest', p2, rfl⟩ := fire_comp h2
  refine ⟨_, comp_fires (by rwa [setProc_proc_ne _ _ h.symm]), ?_⟩
  rw [comp_fires (by rwa [setProc_proc_ne _ _ h]), setProc_comm _ _ _ h, setProc_proc_ne _ _ h, setProc_proc_ne _ _ h.symm]

theorem comm_comp_post (h : r ≠ s) : Commute eager n (r, .comp) (s, .post) := by
  intro n1 n2 h1 h2
  obtain ⟨f, rest, p1, rfl⟩ := fire_comp h1
  obtain ⟨d, st, s', rt, get, put, rest', p2, hd, rfl⟩ := fire_post h2
  refine ⟨_, post_fires (by rwa [setProc_proc_ne _ _ h.symm]) (by rwa [setProc_proc_ne _ _ h.symm]), ?_⟩
  rw [comp_fires (by rw [setChan_proc, setProc_proc_ne _ _ h]; exact p1), setProc_proc_ne _ _ h.symm,
    setChan_proc, setProc_proc_ne _ _ h, setChan_setProc, setProc_comm _ _ _ h.symm]
  rfl

theorem comm_comp_receive (h : r ≠ s) : Commute eager n (r, .comp) (s, .receive) := by
  intro n1 n2 h1 h2
  obtain ⟨f, rest, p1, rfl⟩ := fire_comp h1
  obtain ⟨d, st, s', rt, get, put, rest', m, q, p2, hd, hc, rfl⟩ := fire_receive h2
  refine ⟨_, receive_fires (by rwa [setProc_proc_ne _ _ h.symm]) (by rwa [setProc_proc_ne _ _ h.symm]) (by exact hc), ?_⟩
  rw [comp_fires (by rw [setChan_proc, setProc_proc_ne _ _ h]; exact p1), setProc_proc_ne _ _ h.symm,
    setChan_proc, setProc_proc_ne _ _ h, setChan_setProc, setProc_comm _ _ _ h.symm]

theorem comm_comp_finish (h : r ≠ s) : Commute eager n (r, .comp) (s, .finish) := by
  intro n1 n2 h1 h2
  obtain ⟨f, rest, p1, rfl⟩ := fire_comp h1
  obtain ⟨d, st, s', rt, get, put, rest', p2, hd, hr, hc, rfl⟩ := fire_finish h2
  refine ⟨_, finish_fires (by rwa [setProc_proc_ne _ _ h.symm]) (by rwa [setProc_proc_ne _ _ h.symm])
    (by rwa [setProc_proc_ne _ _ h.symm]) hc, ?_⟩
  rw [comp_fires (by rw [setProc_proc_ne _ _ h]; exact p1), setProc_proc_ne _ _ h.symm, setProc_proc_ne _ _ h,
    setProc_comm _ _ _ h.symm]

theorem comm_post_post (h : r ≠ s) : Commute eager n (r, .post) (s, .post) := by
  intro n1 n2 h1 h2
  obtain ⟨d, st, s1, rt, get, put, rest, p1, hd1, rfl⟩ := fire_post h1
  obtain ⟨d', st', s2, rt', get', put', rest', p2, hd2, rfl⟩ := fire_post h2
  refine ⟨_, post_fires (by rw [setChan_proc, setProc_proc_ne _ _ h.symm]; exact p2)
    (by rw [setChan_proc, setProc_proc_ne _ _ h.symm]; exact hd2), ?_⟩
  rw [post_fires (by rw [setChan_proc, setProc_proc_ne _ _ h]; exact p1)
    (by rw [setChan_proc, setProc_proc_ne _ _ h]; exact hd1)]
  simp only [setChan_proc, setProc_proc_ne _ _ h, setProc_proc_ne _ _ h.symm, setChan_setProc, setChan_chan, h, h.symm,
    false_and, if_false, setProc_chan]
  rw [setChan_comm _ _ _ (by simp [h]), setProc_comm _ _ _ h.symm]

theorem comm_post_receive (h : r ≠ s) : Commute eager n (r, .post) (s, .receive) := by
  intro n1 n2 h1 h2
  obtain ⟨d, st, s1, rt, get, put, rest, p1, hd1, rfl⟩ := fire_post h1
  obtain ⟨d', st', s2, rt', get', put', rest', m, q, p2, hd2, hc, rfl⟩ := fire_receive h2
  by_cases e : s2 = r ∧ s = d ∧ rt' = st
  · obtain ⟨rfl, rfl, rfl⟩ := e
    refine ⟨_, receive_fires (m := m) (q := q ++ [get (n.proc s2).loc]) (by rw [setChan_proc, setProc_proc_ne _ _ h.symm]; exact p2)
      (by rw [setChan_proc, setProc_proc_ne _ _ h.symm]; exact hd2) (by simp [setChan_chan, hc]), ?_⟩
    rw [post_fires (by rw [setChan_proc, setProc_proc_ne _ _ h]; exact p1)
      (by rw [setChan_proc, setProc_proc_ne _ _ h]; exact hd1)]
    simp only [setChan_proc, setProc_proc_ne _ _ h, setProc_proc_ne _ _ h.symm, setChan_setProc, setChan_chan,
      and_self, if_true, setChan_setChan, setProc_chan]
    rw [setProc_comm _ _ _ h.symm]
  · refine ⟨_, receive_fires (m := m) (q := q) (by rw [setChan_proc, setProc_proc_ne _ _ h.symm]; exact p2)
      (by rw [setChan_proc, setProc_proc_ne _ _ h.symm]; exact hd2) (by rw [setChan_chan, if_neg e]; exact hc), ?_⟩
    rw [post_fires (by rw [setChan_proc, setProc_proc_ne _ _ h]; exact p1)
      (by rw [setChan_proc, setProc_proc_ne _ _ h]; exact hd1)]
    have e' : ¬ (r = s2 ∧ d = s ∧ st = rt') := fun ⟨a, b, c⟩ => e ⟨a.symm, b.symm, c.symm⟩
    simp only [setChan_proc, setProc_proc_ne _ _ h, setProc_proc_ne _ _ h.symm, setChan_setProc, setChan_chan,
      if_neg e', setProc_chan]
    rw [setChan_comm _ _ _ e', setProc_comm _ _ _ h.symm]

theorem comm_post_finish (h : r ≠ s) : Commute eager n (r, .post) (s, .finish) := by
  intro n1 n2 h1 h2
  obtain ⟨d, st, s1, rt, get, put, rest, p1, hd1, rfl⟩ := fire_post h1
  obtain ⟨d', st', s2, rt', get', put', rest', p2, hd2, hr, hc, rfl⟩ := fire_finish h2
  refine ⟨_, finish_fires (by rw [setChan_proc, setProc_proc_ne _ _ h.symm]; exact p2)
    (by rw [setChan_proc, setProc_proc_ne _ _ h.symm]; exact hd2)
    (by rw [setChan_proc, setProc_proc_ne _ _ h.symm]; exact hr)
    (by rw [setChan_chan, if_neg (by simp [h.symm])]; exact hc), ?_⟩
  rw [post_fires (by rw [setProc_proc_ne _ _ h]; exact p1) (by rw [setProc_proc_ne _ _ h]; exact hd1)]
  simp only [setChan_proc, setProc_proc_ne _ _ h, setProc_proc_ne _ _ h.symm, setChan_setProc, setProc_chan]
  rw [setProc_comm _ _ _ h.symm]

theorem comm_receive_receive (h : r ≠ s) : Commute eager n (r, .receive) (s, .receive) := by
  intro n1 n2 h1 h2
  obtain ⟨d, st, s1, rt, get, put, rest, m1, q1, p1, hd1, hc1, rfl⟩ := fire_receive h1
  obtain ⟨d', st', s2, rt', get', put', rest', m, q, p2, hd2, hc, rfl⟩ := fire_receive h2
  refine ⟨_, receive_fires (m := m) (q := q) (by rw [setChan_proc, setProc_proc_ne _ _ h.symm]; exact p2)
      (by rw [setChan_proc, setProc_proc_ne _ _ h.symm]; exact hd2)
      (by rw [setChan_chan, if_neg (by simp [h.symm])]; exact hc), ?_⟩
  rw [receive_fires (m := m1) (q := q1) (by rw [setChan_proc, setProc_proc_ne _ _ h]; exact p1)
      (by rw [setChan_proc, setProc_proc_ne _ _ h]; exact hd1)
      (by rw [setChan_chan, if_neg (by simp [h])]; exact hc1)]
  simp only [setChan_proc, setProc_proc_ne _ _ h, setProc_proc_ne _ _ h.symm, setChan_setProc]
  rw [setChan_comm _ _ _ (by simp [h]), setProc_comm _ _ _ h.symm]

theorem comm_receive_finish (h : r ≠ s) : Commute eager n (r, .receive) (s, .finish) := by
  intro n1 n2 h1 h2
  obtain ⟨d, st, s1, rt, get, put, rest, m1, q1, p1, hd1, hc1, rfl⟩ := fire_receive h1
  obtain ⟨d', st', s2, rt', get', put', rest', p2, hd2, hr, hc, rfl⟩ := fire_finish h2
  refine ⟨_, finish_fires (by rw [setChan_proc, setProc_proc_ne _ _ h.symm]; exact p2)
    (by rw [setChan_proc, setProc_proc_ne _ _ h.symm]; exact hd2)
    (by rw [setChan_proc, setProc_proc_ne _ _ h.symm]; exact hr) ?_, ?_⟩
  · rcases hc with hc | hc
    · exact .inl hc
    · right
      rw [setChan_chan, if_neg]
      · exact hc
      · rintro ⟨rfl, rfl, rfl⟩
        rw [hc] at hc1; simp at hc1
  · rw [receive_fires (m := m1) (q := q1) (by rw [setProc_proc_ne _ _ h]; exact p1)
      (by rw [setProc_proc_ne _ _ h]; exact hd1) (by exact hc1)]
    simp only [setChan_proc, setProc_proc_ne _ _ h, setProc_proc_ne _ _ h.symm, setChan_setProc]
    rw [setProc_comm _ _ _ h.symm]

theorem comm_finish_finish (h : r ≠ s) : Commute eager n (r, .finish) (s, .finish) := by
  intro n1 n2 h1 h2
  obtain ⟨d, st, s1, rt, get, put, rest, p1, hd1, hr1, hc1, rfl⟩ := fire_finish h1
  obtain ⟨d', st', s2, rt', get', put', rest', p2, hd2, hr, hc, rfl⟩ := fire_finish h2
  refine ⟨_, finish_fires (by rw [setProc_proc_ne _ _ h.symm]; exact p2)
    (by rw [setProc_proc_ne _ _ h.symm]; exact hd2) (by rw [setProc_proc_ne _ _ h.symm]; exact hr) hc, ?_⟩
  rw [finish_fires (by rw [setProc_proc_ne _ _ h]; exact p1) (by rw [setProc_proc_ne _ _ h]; exact hd1)
    (by rw [setProc_proc_ne _ _ h]; exact hr1) (by exact hc1)]
  simp only [setProc_proc_ne _ _ h, setProc_proc_ne _ _ h.symm]
  rw [setProc_comm _ _ _ h]

/-- Posting and receiving of the same call commute, also when a rank sends to itself. -/
theorem comm_self (hok : n.Ok) : Commute eager n (r, .post) (r, .receive) := by
  intro n1 n2 h1 h2
  obtain ⟨d, st, s1, rt, get, put, rest, p1, hd1, rfl⟩ := fire_post h1
  obtain ⟨d', st', s2, rt', get', put', rest', m, q, p2, hd2, hc, rfl⟩ := fire_receive h2
  have hg := hok r _ (by rw [p1]; exact List.mem_cons_self)
  have p1' := p1
  rw [p1] at p2
  obtain ⟨⟨rfl, rfl, rfl, rfl, rfl, rfl⟩, rfl⟩ := by simpa using p2
  simp only [Instr.Ok] at hg
  by_cases e : s1 = r ∧ r = d ∧ rt = st
  · obtain ⟨rfl, rfl, rfl⟩ := e
    refine ⟨_, receive_fires (m := m) (q := q ++ [get (n.proc s1).loc]) (by rw [setChan_proc, setProc_proc]; exact p1)
      (by rw [setChan_proc, setProc_proc]; exact hd2) (by simp [setChan_chan, hc]), ?_⟩
    rw [post_fires (by rw [setChan_proc, setProc_proc]; exact p1) (by rw [setChan_proc, setProc_proc]; exact hd1)]
    simp only [setChan_proc, setProc_proc, setChan_setProc, setChan_chan, and_self, if_true, setChan_setChan, setProc_chan,
      setProc_setProc, hg]
  · refine ⟨_, receive_fires (m := m) (q := q) (by rw [setChan_proc, setProc_proc]; exact p1)
      (by rw [setChan_proc, setProc_proc]; exact hd2) (by rw [setChan_chan, if_neg e]; exact hc), ?_⟩
    rw [post_fires (by rw [setChan_proc, setProc_proc]; exact p1) (by rw [setChan_proc, setProc_proc]; exact hd1)]
    have e' : ¬ (r = s1 ∧ d = r ∧ st = rt) := fun ⟨a, b, c⟩ => e ⟨a.symm, b.symm, c.symm⟩
    simp only [setChan_proc, setProc_proc, setChan_setProc, setChan_chan, if_neg e', setProc_chan, setProc_setProc, hg]
    rw [setChan_comm _ _ _ e']

end

/-- **Diamond.** Any two different actions that are both possible commute. -/
theorem diamond {eager : ℕ → ℕ → Bool} {n : Net σ μ} (hok : n.Ok) {a b : Act} (hab : a ≠ b) : Commute eager n a b := by
  obtain ⟨r, k⟩ := a
  obtain ⟨s, k'⟩ := b
  by_cases h : r = s
  · subst h
    have hk : k ≠ k' := fun e => hab (by rw [e])
    intro n1 n2 h1 h2
    cases k <;> cases k' <;> try exact absurd rfl hk
    case post.receive => exact comm_self hok n1 n2 h1 h2
    case receive.post => exact (comm_self hok).symm n1 n2 h1 h2
    case comp.post =>
      obtain ⟨f, rest, p1, -⟩ := fire_comp h1
      obtain ⟨_, _, _, _, _, _, _, p2, -⟩ := fire_post h2
      rw [p1] at p2; simp at p2
    case comp.receive =>
      obtain ⟨f, rest, p1, -⟩ := fire_comp h1
      obtain ⟨_, _, _, _, _, _, _, _, _, p2, -⟩ := fire_receive h2
      rw [p1] at p2; simp at p2
    case comp.finish =>
      obtain ⟨f, rest, p1, -⟩ := fire_comp h1
      obtain ⟨_, _, _, _, _, _, _, p2, -⟩ := fire_finish h2
      rw [p1] at p2; simp at p2
    case post.comp =>
      obtain ⟨f, rest, p1, -⟩ := fire_comp h2
      obtain ⟨_, _, _, _, _, _, _, p2, -⟩ := fire_post h1
      rw [p1] at p2; simp at p2
    case receive.comp =>
      obtain ⟨f, rest, p1, -⟩ := fire_comp h2
      obtain ⟨_, _, _, _, _, _, _, _, _, p2, -⟩ := fire_receive h1
      rw [p1] at p2; simp at p2
    case finish.comp =>
      obtain ⟨f, rest, p1, -⟩ := fire_comp h2
      obtain ⟨_, _, _, _, _, _, _, p2, -⟩ := fire_finish h1
      rw [p1] at p2; simp at p2
    case post.finish =>
      obtain ⟨_, _, _, _, _, _, _, -, q1, -⟩ := fire_post h1
      obtain ⟨_, _, _, _, _, _, _, -, q2, -⟩ := fire_finish h2
      rw [q1] at q2; simp at q2
    case finish.post =>
      obtain ⟨_, _, _, _, _, _, _, -, q1, -⟩ := fire_post h2
      obtain ⟨_, _, _, _, _, _, _, -, q2, -⟩ := fire_finish h1
      rw [q1] at q2; simp at q2
    case receive.finish =>
      obtain ⟨_, _, _, _, _, _, _, _, _, -, q1, -⟩ := fire_receive h1
      obtain ⟨_, _, _, _, _, _, _, -, -, q2, -⟩ := fire_finish h2
      rw [q1] at q2; simp at q2
    case finish.receive =>
      obtain ⟨_, _, _, _, _, _, _, _, _, -, q1, -⟩ := fire_receive h2
      obtain ⟨_, _, _, _, _, _, _, -, -, q2, -⟩ := fire_finish h1
      rw [q1] at q2; simp at q2
  · cases k <;> cases k'
    case comp.comp => exact comm_comp_comp h
    case comp.post => exact comm_comp_post h
    case comp.receive => exact comm_comp_receive h
    case comp.finish => exact comm_comp_finish h
    case post.comp => exact (comm_comp_post (Ne.symm h)).symm
    case post.post => exact comm_post_post h
    case post.receive => exact comm_post_receive h
    case post.finish => exact comm_post_finish h
    case receive.comp => exact (comm_comp_receive (Ne.symm h)).symm
    case receive.post => exact (comm_post_receive (Ne.symm h)).symm
    case receive.receive => exact comm_receive_receive h
    case receive.finish => exact comm_receive_finish h
    case finish.comp => exact (comm_comp_finish (Ne.symm h)).symm
    case finish.post => exact (comm_post_finish (Ne.symm h)).symm
    case finish.receive => exact (comm_receive_finish (Ne.symm h)).symm
    case finish.finish => exact comm_finish_finish h

/-! ### Confluence -/

theorem fire_prog {eager : ℕ → ℕ → Bool} {n n' : Net σ μ} {a : Act} (h : fire eager n a = some n') (r : ℕ) :
    (n'.proc r).prog = (n.proc r).prog ∨ ∃ i, (n.proc r).prog = i :: (n'.proc r).prog := by
  obtain ⟨s, k⟩ := a
  by_cases e : r = s
  · subst e
    cases k with
    | comp => obtain ⟨f, rest, p1, rfl⟩ := fire_comp h; right; exact ⟨_, by simpa using p1⟩
    | post => obtain ⟨_, _, _, _, _, _, _, _, _, rfl⟩ := fire_post h; left; simp
    | receive => obtain ⟨_, _, _, _, _, _, _, _, _, _, _, _, rfl⟩ := fire_receive h; left; simp
    | finish => obtain ⟨_, _, _, _, _, _, _, p1, _, _, _, rfl⟩ := fire_finish h; right; exact ⟨_, by simpa using p1⟩
  · left
    cases k with
    | comp => obtain ⟨f, rest, p1, rfl⟩ := fire_comp h; simp [e]
    | post => obtain ⟨_, _, _, _, _, _, _, _, _, rfl⟩ := fire_post h; simp [e]
    | receive => obtain ⟨_, _, _, _, _, _, _, _, _, _, _, _, rfl⟩ := fire_receive h; simp [e]
    | finish => obtain ⟨_, _, _, _, _, _, _, p1, _, _, _, rfl⟩ := fire_finish h; simp [e]

theorem fire_ok {eager : ℕ → ℕ → Bool} {n n' : Net σ μ} {a : Act} (hok : n.Ok) (h : fire eager n a = some n') : n'.Ok := by
  intro r i hi
  rcases fire_prog h r with e | ⟨j, e⟩
  · exact hok r i (by rw [← e]; exact hi)
  · exact hok r i (by rw [e]; exact List.mem_cons_of_mem _ hi)

theorem done_stuck {eager : ℕ → ℕ → Bool} {n : Net σ μ} (h : n.Done) (a : Act) : fire eager n a = none := by
  unfold fire
  simp [h a.1]

theorem strip {eager : ℕ → ℕ → Bool} {a : Act} : ∀ {l : List Act} {n w z : Net σ μ}, n.Ok → fire eager n a = some w →
    run eager n l = some z → z.Done → ∃ l', run eager w l' = some z ∧ l'.length + 1 = l.length := by
  intro l
  induction l with
  | nil =>
    intro n w z _ h1 h2 h3
    simp only [run, Option.some.injEq] at h2
    subst h2
    rw [done_stuck h3] at h1; simp at h1
  | cons b l ih =>
    intro n w z hok h1 h2 h3
    simp only [run] at h2
    cases hb : fire eager n b with
    | none => rw [hb] at h2; simp at h2
    | some n1 =>
      rw [hb] at h2
      simp only [Option.bind_some] at h2
      by_cases hab : a = b
      · subst hab
        rw [hb] at h1
        obtain rfl : n1 = w := by simpa using h1
        exact ⟨l, h2, rfl⟩
      · obtain ⟨n', f1, f2⟩ := diamond hok hab w n1 h1 hb
        obtain ⟨l', h4, h5⟩ := ih (fire_ok hok hb) f2 h2 h3
        exact ⟨b :: l', by simp [run, f1, h4], by simp [h5]⟩

/-- **Schedule independence.** If some schedule completes all programs, then every schedule, however far it has got,
can be continued to completion (no deadlock), always reaches the same final state, and the total number of actions
is the same (termination). -/
theorem confluence {eager : ℕ → ℕ → Bool} : ∀ {l' : List Act} {l : List Act} {n z w : Net σ μ}, n.Ok →
    run eager n l = some z → z.Done → run eager n l' = some w →
    ∃ l'', run eager w l'' = some z ∧ l'.length + l''.length = l.length := by
  intro l'
  induction l' with
  | nil =>
    intro l n z w _ h1 _ h3
    simp only [run, Option.some.injEq] at h3
    subst h3
    exact ⟨l, h1, by simp⟩
  | cons a l' ih =>
    intro l n z w hok h1 h2 h3
    simp only [run] at h3
    cases ha : fire eager n a with
    | none => rw [ha] at h3; simp at h3
    | some n1 =>
      rw [ha] at h3
      obtain ⟨m, h4, h5⟩ := strip hok ha h1 h2
      obtain ⟨l'', h6, h7⟩ := ih (fire_ok hok ha) h4 h2 h3
      exact ⟨l'', h6, by simp only [List.length_cons]; omega⟩

end Mpi
end Wakis
