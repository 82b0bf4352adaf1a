import Verif.SaveJMpi
import Verif.MpiWake

/-!
# C146: a wake run on ranks with different numbers of steps never comes to an end

Every rank computes the number of its passes from its own time step (routines.py:344-354, 412), and ranks can have different time steps (C32).  The events of a pass are those of SaveJMpi.
-/

namespace Wakis
namespace MpiJ

theorem step_line {n k : ℕ} (h : k < n) : (program false n)[3 * k + 2]? = some .step := by
  induction n generalizing k with
  | zero => omega
  | succ n ih =>
    cases k with
    | zero => rfl
    | succ k =>
      rw [program, List.getElem?_append_right (by show 3 ≤ _; omega), show 3 * (k + 1) + 2 - (passOps false).length = 3 * k + 2 from by show 3 * (k + 1) + 2 - 3 = _; omega]
      exact ih (by omega)

/-- What stays true when rank `p` has more passes than its neighbour `q`. -/
structure Ahead (N : ℕ → ℕ) (p q : ℕ) (st : St) : Prop where
  fine : Fine (fun r => program false (N r)) st
  held : st.pc p ≤ 3 * N q + 2

theorem ahead_act {N : ℕ → ℕ} {size p q : ℕ} (hq : q < size) (hadj : q + 1 = p ∨ p + 1 = q) (hN : N q < N p) {st st' : St} {r : ℕ} (hI : Ahead N p q st)
    (h : act (fun r => program false (N r)) (bound false) size st r = some st') : Ahead N p q st' := by
  have hf := fine_act (fun r v hv => names_false (N r) v hv r) hI.fine h
  refine ⟨hf, ?_⟩
  have hle := hI.fine.le q
  rw [show (program false (N q)).length = 3 * N q from program_length false (N q)] at hle
  by_cases e : p = r
  · subst e
    have key : st' = st.next p → ¬ st.pc p = 3 * N q + 2 → st'.pc p ≤ 3 * N q + 2 := by
      rintro rfl hne
      rw [next_self]
      have := hI.held
      omega
    have hl := step_line hN
    rcases act_cases h with ⟨v, hv, ⟨-, e⟩ | ⟨-, rfl⟩⟩ | ⟨f, hv, -, e⟩ | ⟨hv, hn, e⟩
    · refine key e fun e => ?_
      rw [e, hl] at hv
      simp at hv
    · exact hI.held
    · refine key e fun e => ?_
      rw [e, hl] at hv
      simp at hv
    · refine key e fun e => ?_
      have := hn q hq hadj
      omega
  · have : st'.pc p = st.pc p := by
      rcases act_cases h with ⟨v, -, ⟨-, rfl⟩ | ⟨-, rfl⟩⟩ | ⟨f, -, -, rfl⟩ | ⟨-, -, rfl⟩
      · exact next_other e
      · rfl
      · exact next_other e
      · exact next_other e
    rw [this]
    exact hI.held

/-- **C146 (refuted for ranks with different numbers of steps).**  If two neighbouring ranks make different numbers of passes, then in whatever order the ranks act the one with more of them never gets beyond the exchange of ghost
layers in the pass in which its neighbour has ended; it waits there for ever. -/
theorem C146_neighbours_refuted {N : ℕ → ℕ} {size p q : ℕ} (hq : q < size) (hadj : q + 1 = p ∨ p + 1 = q) (hN : N q < N p) {l : List ℕ} {st : St}
    (h : run (fun r => program false (N r)) (bound false) size start l = some st) : st.pc p ≤ 3 * N q + 2 ∧ (program false (N p))[3 * N q + 2]? = some .step ∧ st.pc p < (program false (N p)).length := by
  have hI : Ahead N p q st := run_inv (I := Ahead N p q) (fun _ _ _ hI h => ahead_act hq hadj hN hI h) ⟨⟨fun _ => rfl, fun _ => Nat.zero_le _⟩, Nat.zero_le _⟩ h
  refine ⟨hI.held, step_line hN, ?_⟩
  rw [program_length]
  have := hI.held
  show _ < 3 * N p
  omega

theorem adjacent_ne {N : ℕ → ℕ} {size : ℕ} (h : ∃ r < size, N r ≠ N 0) : ∃ r, r + 1 < size ∧ N r ≠ N (r + 1) := by
  by_contra hc
  push Not at hc
  obtain ⟨r, hr, hne⟩ := h
  apply hne
  clear hne
  induction r with
  | zero => rfl
  | succ r ih => rw [← hc r hr]; exact ih (by omega)

/-- **C146 (the run ends only if all ranks make the same number of steps).** -/
theorem C146_ends {N : ℕ → ℕ} {size : ℕ} {l : List ℕ} {st : St} (h : run (fun r => program false (N r)) (bound false) size start l = some st) (hend : ∀ r < size, st.pc r = (program false (N r)).length) :
    ∀ r < size, N r = N 0 := by
  by_contra hc
  push Not at hc
  obtain ⟨r, hr, hne⟩ := adjacent_ne hc
  rcases Nat.lt_or_gt_of_ne hne with hlt | hlt
  · have := (C146_neighbours_refuted (p := r + 1) (q := r) (by omega) (.inl rfl) hlt h).2.2
    rw [hend _ hr] at this
    exact absurd this (lt_irrefl _)
  · have := (C146_neighbours_refuted (p := r) (q := r + 1) hr (.inr rfl) hlt h).2.2
    rw [hend _ (by omega)] at this
    exact absurd this (lt_irrefl _)

/-! ### A job whose ranks differ -/

noncomputable section

open Src Sol Wake

/-- The job of `C32_refuted`: a conducting background and a better conducting solid in the last layer; a step of 1 is requested. -/
def hangJob : Mpi.Job ℝ :=
  ⟨2, 1, 1, 4, fun n => n, fun n => n, 0, 1, rankBC, 1, 1, .vals ⟨.fin 1, .fin 1, some 1⟩, rankDict, rankSolids, 1, 0, fun _ _ _ _ => 0, 0, 0⟩

/-- The set-up of a rank of that job (C32). -/
def hangSetUp (r : ℕ) : Py (Mats ℝ × ℝ) :=
  rankSetUp r hangJob.size 1 hangJob.eps0 hangJob.mu0 1 (some hangJob.dt) 0 hangJob.Nx hangJob.Ny hangJob.Nz hangJob.x hangJob.y hangJob.zmin hangJob.zmax hangJob.bc hangJob.bg hangJob.dict hangJob.solids

theorem rank1_sigma {t : Mats ℝ} {d : ℝ} (h : hangSetUp 1 = .ok (t, d)) : ∀ n < 3 * t.ieps.N, t.sigma.array n = 1 ∨ t.sigma.array n = 4 := by
  obtain ⟨m, hm, h1, h2, h3, h4, h5, -⟩ := Grid.C12_local_grid (rank := 1) (size := 2) (Nz := 4) (0 : ℝ) 1 (by omega) (by omega) (by omega)
  have hNZ : m.NZ = 4 := by omega
  have hNz : m.Nz = 3 := by rw [h5, hNZ]; rfl
  have hpml : anyFace isPml (mpiBC 1 2 rankBC) = false := by decide
  obtain ⟨t', ht, hs, hu, hc⟩ := materials_ok (Nx := 1) (Ny := 1) (Nz := 3) (eps0 := (1 : ℝ)) (mu0 := 1) (use0 := false)
    (bg := .vals ⟨.fin 1, .fin 1, some 1⟩) (dict := rankDict) (solids := localSolids 1 2 4 rankSolids)
    (mb := ⟨.fin 1, .fin 1, some 1⟩) rfl (fun s _ => ⟨_, ⟨.fin 1, .fin 1, some 4⟩, rfl, rfl⟩)
  simp only [hangSetUp, hangJob, rankSetUp, hm, bind, Except.bind, setUp, hNZ, hNz, hpml, ht, pmlStage, Bool.false_eq_true, if_false, chooseDt] at h
  have ht' : t' = t := by
    cases hl : limitDt t' 1 with
    | error e => rw [hl] at h; simp at h
    | ok d' => rw [hl] at h; simp [pure, Except.pure] at h; exact h.1
  subst ht'
  refine entry_of_cell (P := fun _ a => a = 1 ∨ a = 4) hs.e hs.s fun c hc3 i hi j hj k hk => ?_
  rw [(hc c hc3 i hi j hj k hk).2.2]
  cases lastHit (fun s => s.2 i j k && ((matOf rankDict s.1).sigma.isSome || decide (0 < (some (1 : ℝ)).getD 0))) (localSolids 1 2 4 rankSolids) <;> simp [rankMat]

theorem hang_steps : (∃ t, hangSetUp 0 = .ok (t, 1)) ∧ ∃ t, hangSetUp 1 = .ok (t, 1 / 4) := by
  obtain ⟨t0, e0, u0, N0, i0, s0, -⟩ := rankDemo 0 (by omega) (some 1)
  obtain ⟨t1, e1, u1, N1, i1, -, s1⟩ := rankDemo 1 (by omega) (some 1)
  have s0 := s0 rfl
  obtain ⟨n, hn, hs⟩ := s1 rfl
  have a0 : limitDt t0 1 = .ok 1 := by
    have : pyMin (taus t0) = .ok 1 := by
      refine pyMin_const ?_ ?_
      · unfold taus
        rw [Ne, List.map_eq_nil_iff, List.filter_eq_nil_iff]
        intro h
        have := h 0 (List.mem_range.2 (by omega))
        simp [s0 0 (by omega), i0 0 (by omega)] at this
      · intro a ha
        unfold taus at ha
        obtain ⟨m, hm, rfl⟩ := List.mem_map.1 ha
        have hm := List.mem_range.1 (List.mem_filter.1 hm).1
        rw [s0 m hm, i0 m hm]; norm_num
    simp [limitDt, u0, this, bind, Except.bind, pure, Except.pure]
  have hmem : (1 / 4 : ℝ) ∈ taus t1 := by
    unfold taus
    refine List.mem_map.2 ⟨n, List.mem_filter.2 ⟨List.mem_range.2 hn, ?_⟩, ?_⟩
    · simp [hs, i1 n hn]
    · rw [hs, i1 n hn]; norm_num
  have a1 : limitDt t1 1 = .ok (1 / 4) := by
    cases hq : pyMin (taus t1) with
    | error e =>
      cases hl : taus t1 with
      | nil => rw [hl] at hmem; simp at hmem
      | cons a l => rw [hl] at hq; simp [pyMin] at hq
    | ok q =>
      obtain ⟨q1, q2⟩ := pyMin_spec hq
      have hle := q2 _ hmem
      have e1' : hangSetUp 1 = .ok (t1, q) := by
        refine e1.trans ?_
        have h1 : q < 1 := by linarith
        simp [limitDt, u1, hq, bind, Except.bind, pure, Except.pure, h1]
      have hσ := rank1_sigma e1'
      obtain rfl : q = 1 / 4 := by
        unfold taus at q1
        obtain ⟨m, hm, rfl⟩ := List.mem_map.1 q1
        have hm := List.mem_range.1 (List.mem_filter.1 hm).1
        rw [i1 m hm] at hle ⊢
        rcases hσ m hm with h | h
        · rw [h] at hle; norm_num at hle
        · rw [h]; norm_num
      have h1 : (1 / 4 : ℝ) < 1 := by norm_num
      simp only [limitDt, u1, hq, bind, Except.bind, pure, Except.pure, if_pos h1, if_true]
  exact ⟨⟨t0, by refine e0.trans ?_; rw [a0]; rfl⟩, t1, by refine e1.trans ?_; rw [a1]; rfl⟩

/-- **C146 (steps and end refuted with conductors of different conductivity).**  In the job of `C32_refuted` rank 0 steps with 1 and rank 1 with 1/4.  For every beam and wake length for which there is at least one step to make, rank 1
computes more passes than rank 0, and in whatever order the ranks act it never comes to the end of them. -/
theorem C146_steps_refuted : ∃ (t0 t1 : Mats ℝ) (d0 d1 : ℝ), hangSetUp 0 = .ok (t0, d0) ∧ hangSetUp 1 = .ok (t1, d1) ∧
    ∀ (w : WakeArgs) (wakelength : ℝ) (N0 : ℕ), mpiSteps hangJob w wakelength d0 = .ok N0 → 0 < N0 →
      ∃ N1, mpiSteps hangJob w wakelength d1 = .ok N1 ∧ N0 < N1 ∧
        ∀ l st, run (fun r => program false (if r = 0 then N0 else N1)) (bound false) hangJob.size start l = some st → st.pc 1 < (program false N1).length := by
  obtain ⟨⟨t0, e0⟩, t1, e1⟩ := hang_steps
  refine ⟨t0, t1, 1, 1 / 4, e0, e1, fun w wl N0 h0 hpos => ?_⟩
  obtain ⟨zmax, m1, -⟩ := maxOf_exists (show 0 < hangJob.NZ by decide) (globalZ hangJob)
  obtain ⟨zmin, m2, -⟩ := minOf_exists (show 0 < hangJob.NZ by decide) (globalZ hangJob)
  simp only [mpiSteps, m1, m2, bind, Except.bind, pure, Except.pure, Except.ok.injEq, div_one] at h0 ⊢
  refine ⟨_, rfl, ?_⟩
  set T := (wl + w.injection * w.v + (zmax - zmin)) / w.v with hT
  have hT0 : 0 ≤ T := by
    by_contra hc
    rw [pyInt, if_neg hc] at h0
    have : ⌈T⌉ ≤ 0 := Int.ceil_le.2 (by push_cast; linarith)
    omega
  rw [pyInt, if_pos hT0] at h0
  have h1 : 0 ≤ T / (1 / 4) := by positivity
  rw [pyInt, if_pos h1]
  have h2 : 4 * ⌊T⌋ ≤ ⌊T / (1 / 4)⌋ := Int.le_floor.2 (by
    have := Int.floor_le T
    push_cast
    linarith)
  have hlt : N0 < ⌊T / (1 / 4)⌋.toNat := by omega
  refine ⟨hlt, fun l st h => ?_⟩
  exact (C146_neighbours_refuted (N := fun r => if r = 0 then N0 else ⌊T / (1 / 4)⌋.toNat) (p := 1) (q := 0) (show 0 < 2 by decide) (.inl rfl) hlt h).2.2

/-- There are such beams and wake lengths, and the run without `save_J` does start: both ranks come to the end of the first pass. -/
example : (∃ (w : WakeArgs) (wakelength : ℝ) (N0 : ℕ), mpiSteps hangJob w wakelength 1 = .ok N0 ∧ 0 < N0) ∧
    ((run (fun r => program false (if r = 0 then 1 else 4)) (bound false) 2 start [1, 1, 0, 0, 0, 1, 1, 1]).map fun st => (List.range 2).map st.pc) = some [3, 5] := by
  refine ⟨⟨⟨1, 1, 1, 1, 1, 1, 1, some 0, 0⟩, cLight, ?_⟩, by decide⟩
  obtain ⟨zmax, m1, ⟨i, hi, rfl⟩, hle⟩ := maxOf_exists (show 0 < hangJob.NZ by decide) (globalZ hangJob)
  obtain ⟨zmin, m2, -, hle'⟩ := minOf_exists (show 0 < hangJob.NZ by decide) (globalZ hangJob)
  simp only [mpiSteps, m1, m2, bind, Except.bind, pure, Except.pure, div_one]
  refine ⟨_, rfl, ?_⟩
  have hc : 0 < cLight := by norm_num [cLight]
  set T := (cLight + WakeArgs.injection ⟨1, 1, 1, 1, 1, 1, 1, some 0, 0⟩ * WakeArgs.v ⟨1, 1, 1, 1, 1, 1, 1, some 0, 0⟩ + (globalZ hangJob i - zmin)) / WakeArgs.v ⟨1, 1, 1, 1, 1, 1, 1, some 0, 0⟩ with hT
  have h1 : 1 ≤ T := by
    have := hle' i hi
    rw [hT, WakeArgs.v, WakeArgs.injection, one_mul, le_div_iff₀ hc]
    simp only [Option.getD_some]
    linarith
  rw [pyInt, if_pos (by linarith)]
  have : 1 ≤ ⌊T⌋ := Int.le_floor.2 (by push_cast; exact h1)
  omega

end

end MpiJ
end Wakis
