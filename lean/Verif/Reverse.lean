import Verif.SolverModel

/-!
# C118: a lossless run can be played backwards

Leapfrog is reversible: with the magnetic field reversed and the currents reversed and played in the opposite order, the run returns through the same fields to where it started.
-/

namespace Wakis
namespace Sol
open Sparse

variable {K : Type _} [Field K]

/-! ### Specification -/

/-- A run: before step `n` the current is set to `j n` (by a source or the user), then a step is made. -/
def drivenRun (s : Solver K) (j : ℕ → Vec K) (st : State K) : ℕ → State K
  | 0 => st
  | n + 1 => oneStep s { drivenRun s j st n with J := j n }

/-- The state from which the run is played backwards: the electric field of `a` and the reversed magnetic field of `b`. -/
def turned (a b : State K) : State K := { b with E := a.E, H := fun i => -b.H i }

/-! ### Reversal -/

theorem oneStep_flagged (s : Solver K) (st : State K) : (oneStep s st).step0 = false := by
  unfold oneStep
  split
  · rfl
  · rename_i h
    exact Bool.eq_false_iff.2 h

theorem drivenRun_started (s : Solver K) (j : ℕ → Vec K) (st : State K) (h : st.step0 = false) (n : ℕ) : (drivenRun s j st n).step0 = false := by
  cases n with
  | zero => exact h
  | succ n => exact oneStep_flagged _ _

theorem mulVec_negated (n : ℕ) (M : Mat K) (v : Vec K) (i : ℕ) : mulVec n M (fun q => -v q) i = -mulVec n M v i := by
  unfold mulVec
  rw [← Finset.sum_neg_distrib]
  exact Finset.sum_congr rfl fun q _ => mul_neg _ _

/-- One step from the turned state undoes the previous step. -/
theorem step_back (s : Solver K) (st : State K) (h0 : st.step0 = false) (x : Vec K) (b : State K) (hb0 : b.step0 = false)
    (hH : b.H = fun i => (oneStep s { st with J := x }).H i - s.dt * mulVec s.n3 s.M1 (oneStep s { st with J := x }).E i) :
    (oneStep s { turned (oneStep s { st with J := x }) b with J := fun i => -x i }).E = st.E ∧
      (oneStep s { turned (oneStep s { st with J := x }) b with J := fun i => -x i }).H = fun i => -(oneStep s { st with J := x }).H i := by
  have e1 : oneStep s { st with J := x } = advance s { st with J := x } := by
    unfold oneStep
    rw [if_neg (by rw [h0]; decide)]
  have e2 : oneStep s { turned (oneStep s { st with J := x }) b with J := fun i => -x i } = advance s { turned (oneStep s { st with J := x }) b with J := fun i => -x i } := by
    generalize hT : turned (oneStep s { st with J := x }) b = T
    have hT0 : T.step0 = false := by rw [← hT]; exact hb0
    unfold oneStep
    rw [if_neg (show ¬ T.step0 = true by rw [hT0]; decide)]
  have hH' : (advance s { turned (oneStep s { st with J := x }) b with J := fun i => -x i }).H = fun i => -(oneStep s { st with J := x }).H i := by
    funext i
    show -b.H i - s.dt * mulVec s.n3 s.M1 (oneStep s { st with J := x }).E i = _
    rw [hH]
    ring
  refine ⟨?_, by rw [e2, hH']⟩
  rw [e2]
  funext i
  have : (advance s { turned (oneStep s { st with J := x }) b with J := fun i => -x i }).E i = (oneStep s { st with J := x }).E i +
      s.dt * (mulVec s.n3 s.M2 (advance s { turned (oneStep s { st with J := x }) b with J := fun i => -x i }).H i - s.ieps i * -x i) := rfl
  rw [this, hH', mulVec_negated, e1]
  show st.E i + s.dt * (mulVec s.n3 s.M2 (advance s { st with J := x }).H i - s.ieps i * x i) + s.dt * (-mulVec s.n3 s.M2 (advance s { st with J := x }).H i - s.ieps i * -x i) = st.E i
  ring

/-- **C118 (driven).** Take any solver, any state reached after at least one step (or assigned then), and any currents, assigned to all of J before every step.  Run `N` steps, keep the electric field, make one more step (with any
current), put the kept electric field back, reverse the magnetic field, and run `N` steps with the currents reversed and in opposite order.  After `k` of these steps the electric field is the one before
step `N - k`, and the magnetic field is the negative of the one after step `N - k` (for `k = N`: the electric field of the start). -/
theorem C118_reversal (s : Solver K) (j : ℕ → Vec K) {st : State K} (h0 : st.step0 = false) (N : ℕ) :
    ∀ k ≤ N, (drivenRun s (fun n i => -j (N - 1 - n) i) (turned (drivenRun s j st N) (drivenRun s j st (N + 1))) k).E = (drivenRun s j st (N - k)).E ∧
      (drivenRun s (fun n i => -j (N - 1 - n) i) (turned (drivenRun s j st N) (drivenRun s j st (N + 1))) k).H = fun i => -(drivenRun s j st (N - k + 1)).H i := by
  intro k
  induction k with
  | zero => intro _; exact ⟨rfl, rfl⟩
  | succ k ih =>
    intro hk
    obtain ⟨iE, iH⟩ := ih (by omega)
    obtain ⟨m, hm⟩ : ∃ m, N - k = m + 1 := ⟨N - k - 1, by omega⟩
    have e1 : N - (k + 1) = m := by omega
    have e2 : N - 1 - k = m := by omega
    rw [hm] at iE iH
    set R := drivenRun s (fun n i => -j (N - 1 - n) i) (turned (drivenRun s j st N) (drivenRun s j st (N + 1))) with hR
    have hR0 : (R k).step0 = false := drivenRun_started _ _ _ (show (turned _ _).step0 = false from drivenRun_started s j st h0 (N + 1)) k
    have started : (drivenRun s j st m).step0 = false := drivenRun_started s j st h0 m
    have key := step_back s (drivenRun s j st m) started (j m) (drivenRun s j st (m + 1 + 1)) (drivenRun_started s j st h0 _) (by
      show (oneStep s { drivenRun s j st (m + 1) with J := j (m + 1) }).H = _
      unfold oneStep
      rw [if_neg (show ¬ (drivenRun s j st (m + 1)).step0 = true by rw [drivenRun_started s j st h0]; decide)]
      rfl)
    have eR : ({ R k with J := fun i => -j m i } : State K) = { turned (oneStep s { drivenRun s j st m with J := j m }) (drivenRun s j st (m + 1 + 1)) with J := fun i => -j m i } := by
      have h5 := drivenRun_started s j st h0 (m + 1 + 1)
      generalize R k = r at *
      cases r
      simp only at iE iH hR0
      subst iE iH hR0
      unfold turned
      simp only [State.mk.injEq, h5, and_true]
      rfl
    have step : R (k + 1) = oneStep s { R k with J := fun i => -j m i } := by
      rw [hR]
      show oneStep s { drivenRun _ _ _ k with J := fun i => -j (N - 1 - k) i } = _
      rw [e2]
    rw [step, eR, e1]
    exact key

/-- **C118 (back to the start).** -/
theorem C118_returns (s : Solver K) (j : ℕ → Vec K) {st : State K} (h0 : st.step0 = false) (N : ℕ) :
    (drivenRun s (fun n i => -j (N - 1 - n) i) (turned (drivenRun s j st N) (drivenRun s j st (N + 1))) N).E = st.E := by
  have := (C118_reversal s j h0 N N le_rfl).1
  rwa [Nat.sub_self] at this

/-- **C118 (free).** Without conductivity: run `N` steps, keep the electric field, make one more step, put the kept field back, reverse the magnetic field and the (constant) current, and run `N` steps.  After
`k` of these steps the electric field is that of `N - k` steps after the start and the magnetic field the negative of that of `N - k + 1` steps. -/
theorem C118_free {s : Solver K} (hc : s.useConductivity = false) {st : State K} (h0 : st.step0 = false) (N : ℕ) {r : State K}
    (hr : r = { turned ((oneStep s)^[N] st) ((oneStep s)^[N + 1] st) with J := fun i => -st.J i }) :
    ∀ k ≤ N, ((oneStep s)^[k] r).E = ((oneStep s)^[N - k] st).E ∧ ((oneStep s)^[k] r).H = fun i => -((oneStep s)^[N - k + 1] st).H i := by
  have hJ : ∀ st : State K, (oneStep s st).J = st.J := by
    intro st
    unfold oneStep
    split <;> (unfold advance; simp only [hc]; rfl)
  have eq : ∀ (st : State K) n, (oneStep s)^[n] st = drivenRun s (fun _ => st.J) st n ∧ ((oneStep s)^[n] st).J = st.J := by
    intro st n
    induction n with
    | zero => exact ⟨rfl, rfl⟩
    | succ n ih =>
      rw [Function.iterate_succ_apply']
      refine ⟨?_, by rw [hJ, ih.2]⟩
      show _ = oneStep s { drivenRun s (fun _ => st.J) st n with J := st.J }
      rw [← ih.1]
      conv_rhs => rw [← ih.2]
  have rJ : r.J = fun i => -st.J i := by rw [hr]
  have key := C118_reversal s (fun _ => st.J) h0 N
  intro k hk
  obtain ⟨kE, kH⟩ := key k hk
  rw [← (eq st N).1, ← (eq st (N + 1)).1, ← (eq st (N - k)).1] at kE
  rw [← (eq st N).1, ← (eq st (N + 1)).1, ← (eq st (N - k + 1)).1] at kH
  have er : ∀ k, 0 < k → drivenRun s (fun _ i => -st.J i) (turned ((oneStep s)^[N] st) ((oneStep s)^[N + 1] st)) k = (oneStep s)^[k] r := by
    intro k hk
    rw [(eq r k).1, rJ]
    induction k with
    | zero => omega
    | succ k ih =>
      rcases Nat.eq_zero_or_pos k with rfl | h
      · show oneStep s _ = oneStep s _
        rw [hr]
        rfl
      · show oneStep s { drivenRun _ _ _ k with J := _ } = oneStep s { drivenRun _ _ _ k with J := _ }
        rw [ih h]
  rcases Nat.eq_zero_or_pos k with rfl | h
  · rw [hr]
    exact ⟨rfl, rfl⟩
  · rw [er k h] at kE kH
    exact ⟨kE, kH⟩

/-- A box of 2×3×4 cells in which fields and currents differ from cell to cell, after its first step. -/
example (s : Solver ℚ) (hs : s = build (Grid.computeGrid 2 3 4 (fun i => (i : ℚ)) (fun i => 2 * (i : ℚ)) fun i => (i : ℚ) ^ 2) ⟨"pec", "pec", "pec", "pec", "periodic", "periodic"⟩ (fun _ => 1) (fun _ => 2) (fun _ => 0) (1 / 8) false)
    (st : State ℚ) (hst : st = ⟨fun i => (i : ℚ), fun i => (i : ℚ) ^ 2, fun i => (i : ℚ), false⟩) (N : ℕ) :
    ((oneStep s)^[N] { turned ((oneStep s)^[N] st) ((oneStep s)^[N + 1] st) with J := fun i => -st.J i }).E 5 = 5 := by
  have := (C118_free (s := s) (by rw [hs]; rfl) (st := st) (by rw [hst]) N rfl N le_rfl).1
  rw [Nat.sub_self] at this
  rw [this, hst]
  rfl

end Sol
end Wakis
