import Verif.MpiJob

/-!
# C100: what the serial solver accepts, every rank accepts
-/

namespace Wakis
namespace Mpi
open Sol Sparse
variable {K : Type _} [Field K] [LinearOrder K] [IsStrictOrderedRing K]

/-! ### Specification -/

/-- Some component of a cell of layers `o`, …, `o + m - 1` conducts and is not a perfect conductor (whose inverse
permittivity is 0). -/
def ConductsIn (Nx Ny o m : ℕ) (t : Mats K) : Prop :=
  ∃ c < 3, ∃ i < Nx, ∃ j < Ny, ∃ k < m, t.sigma.at3 c i j (o + k) ≠ 0 ∧ t.ieps.at3 c i j (o + k) ≠ 0

/-! ### Proofs -/

omit [IsStrictOrderedRing K] in
/-- The relaxation times exist exactly if some cell conducts. -/
theorem taus_ne_nil {Nx Ny m : ℕ} {t : Mats K} (st : t.Sized Nx Ny m) : taus t ≠ [] ↔ ConductsIn Nx Ny 0 m t := by
  have hN : t.ieps.N = Nx * Ny * m := by unfold Fld.N; rw [st.e.1, st.e.2.1, st.e.2.2]
  have ke : ∀ c i j k, t.ieps.at3 c i j k = t.ieps.array (pos Nx Ny m c i j k) := by
    intro c i j k; unfold Fld.at3 Fld.N; rw [st.e.1, st.e.2.1, st.e.2.2]; rfl
  have ks : ∀ c i j k, t.sigma.at3 c i j k = t.sigma.array (pos Nx Ny m c i j k) := by
    intro c i j k; unfold Fld.at3 Fld.N; rw [st.s.1, st.s.2.1, st.s.2.2]; rfl
  unfold taus
  rw [Ne, List.map_eq_nil_iff, List.filter_eq_nil_iff]
  simp only [hN, List.mem_range, decide_eq_true_eq]
  push Not
  constructor
  · rintro ⟨q, hq1, h1, h2⟩
    have h0 : 0 < Nx * Ny * m := by omega
    obtain ⟨i, j, k, hi, hj, hk, he⟩ := pos_decode (show q % (Nx * Ny * m) < Nx * Ny * m from Nat.mod_lt _ h0)
    have hcl : q / (Nx * Ny * m) < 3 := Nat.div_lt_of_lt_mul (by rw [Nat.mul_comm]; exact hq1)
    have hqp : q = pos Nx Ny m (q / (Nx * Ny * m)) i j k := by
      unfold pos; rw [← he]; exact (Nat.div_add_mod' q _).symm
    refine ⟨_, hcl, i, hi, j, hj, k, hk, ?_, ?_⟩
    · rw [Nat.zero_add, ks, ← hqp]; exact h1
    · rw [Nat.zero_add, ke, ← hqp]; exact h2
  · rintro ⟨c, hc, i, hi, j, hj, k, hk, h1, h2⟩
    rw [Nat.zero_add] at h1 h2
    rw [ks] at h1
    rw [ke] at h2
    exact ⟨_, pos_lt hc hi hj hk, h1, h2⟩

omit [IsStrictOrderedRing K] in
theorem limitDt_ok {t : Mats K} {dt : K} : (∃ d, limitDt t dt = .ok d) ↔ (t.useCond = false ∨ taus t ≠ []) := by
  unfold limitDt
  cases t.useCond
  · simp
  · simp only [if_true, Bool.true_eq_false, false_or]
    cases h : taus t with
    | nil => simp [pyMin, bind, Except.bind]
    | cons a l => simp [pyMin, bind, Except.bind, pure, Except.pure]

omit [IsStrictOrderedRing K] in
theorem mpiBC_noPml {bc : Faces String} (h : anyFace isPml bc = false) (r size : ℕ) : anyFace isPml (mpiBC r size bc) = false := by
  have a : isPml "pec" = false := by decide
  have b : isPml "mpi" = false := by decide
  simp only [anyFace, Bool.or_eq_false_iff] at h
  unfold mpiBC
  split_ifs <;> simp [anyFace, h, a, b]

/-- **C100.** Without PML, let the serial solver be constructed, and let there be a layer for every rank.  Then
rank `r` can be constructed if no material has a conductivity, or if some cell of the rank's own or ghost layers
conducts; and only then. -/
theorem C100_accepted_partial (J : Job K) {r : ℕ} {S : Solver K} {tg : Mats K} (hs : 2 ≤ J.size) (hr : r < J.size) (hz : J.size ≤ J.Nz) (hp : anyFace isPml J.bc = false)
    (hg : materials J.Nx J.Ny J.NZ J.eps0 J.mu0 false J.bg J.dict J.solids = .ok tg) (hS : J.serial = .ok S) :
    (∃ s, J.rank r = .ok s) ↔ (S.useConductivity = false ∨
      ConductsIn J.Nx J.Ny (r * (J.NZ / J.size) - Grid.ghostLo r) (J.NZ / J.size + Grid.ghostLo r + Grid.ghostHi r J.size) tg) := by
  have h0 : 0 < J.size := by omega
  obtain ⟨m, hm, h1, h2, h3, h4, h5, h6⟩ := Grid.C12_local_grid (rank := r) (size := J.size) (Nz := J.Nz) J.zmin J.zmax h0 hr hz
  have hmNZ : m.NZ = J.NZ := by
    have := hm
    unfold Grid.mpiInitialize at this
    rw [if_neg (by omega)] at this
    obtain rfl := Except.ok.inj this
    rfl
  rw [hmNZ] at h4 h5
  have hpr := mpiBC_noPml hp r J.size
  obtain ⟨⟨mb, hb⟩, hkn⟩ := materials_known hg
  have hkr : ∀ s ∈ localSolids r J.size J.NZ J.solids, ∃ spec m, J.dict s.1 = some spec ∧ MeansMaterial spec m := by
    intro s hs
    unfold localSolids at hs
    obtain ⟨s', hs', rfl⟩ := List.mem_map.1 hs
    exact hkn s' hs'
  obtain ⟨t, ht, st, -, -⟩ := materials_ok (Nx := J.Nx) (Ny := J.Ny) (Nz := m.Nz) (eps0 := J.eps0) (mu0 := J.mu0)
    (use0 := false) hb hkr
  obtain ⟨tg', ht', stg, -, -⟩ := materials_ok (Nx := J.Nx) (Ny := J.Ny) (Nz := J.NZ) (eps0 := J.eps0) (mu0 := J.mu0)
    (use0 := false) hb hkn
  obtain rfl : tg = tg' := by rw [hg] at ht'; injection ht'
  obtain ⟨⟨b, hb1, hb2⟩, hc⟩ := C34_materials_restrict ht hg
  rw [Bool.false_or] at hb1 hb2
  have hrank : (∃ s, J.rank r = .ok s) ↔ ∃ d, limitDt t J.dt = .ok d := by
    rw [Job.rank, hm]
    simp only [bind, Except.bind, hmNZ, hpr, ht, Job.stage, Bool.false_eq_true, if_false]
    cases limitDt t J.dt with
    | error e => simp
    | ok d => simp [pure, Except.pure]
  have hSu : S.useConductivity = b := by
    rw [Job.serial, hp, hg] at hS
    simp only [bind, Except.bind, Job.stage, hp, Bool.false_eq_true, if_false] at hS
    cases hd : limitDt tg J.dt with
    | error e => rw [hd] at hS; simp at hS
    | ok d =>
      rw [hd] at hS
      simp only [pure, Except.pure, Except.ok.injEq] at hS
      rw [← hS]
      show (anyFace isPml J.bc || tg.useCond) = b
      rw [hp, Bool.false_or, hb2]
  rw [hrank, limitDt_ok, hb1, hSu, taus_ne_nil st]
  have hNZ : J.size * (J.NZ / J.size) = J.NZ := Nat.mul_div_cancel' (Nat.dvd_sub_mod J.Nz)
  have ho : ∀ k, r * (J.NZ / J.size) + k - (if 0 < r then 1 else 0) = r * (J.NZ / J.size) - Grid.ghostLo r + k := by
    intro k
    unfold Grid.ghostLo
    have : 0 < r → J.NZ / J.size ≤ r * (J.NZ / J.size) := fun h0 => Nat.le_mul_of_pos_left _ h0
    split_ifs with hr0
    · have := this hr0; omega
    · omega
  have hin : ∀ k < m.Nz, r * (J.NZ / J.size) - Grid.ghostLo r + k < J.NZ := by
    intro k hk
    rw [h5] at hk
    have e1 : r * (J.NZ / J.size) + J.NZ / J.size ≤ J.NZ := by
      rw [← Nat.succ_mul]; exact (Nat.mul_le_mul_right _ (by omega)).trans hNZ.le
    have e2 : r + 1 < J.size → r * (J.NZ / J.size) + J.NZ / J.size + J.NZ / J.size ≤ J.NZ := by
      intro h
      rw [← Nat.succ_mul, ← Nat.succ_mul]; exact (Nat.mul_le_mul_right _ (by omega)).trans hNZ.le
    have e3 : 0 < r → J.NZ / J.size ≤ r * (J.NZ / J.size) := fun h0 => Nat.le_mul_of_pos_left _ h0
    have g1 : Grid.ghostLo r = if 0 < r then 1 else 0 := rfl
    have g2 : Grid.ghostHi r J.size = if r + 1 < J.size then 1 else 0 := by unfold Grid.ghostHi; split_ifs <;> omega
    rw [g1, g2] at hk
    rw [g1]
    generalize r * (J.NZ / J.size) = P at *
    by_cases a : 0 < r <;> by_cases b : r + 1 < J.size <;> simp only [a, b, if_true, if_false] at hk ⊢
    · have := e2 b; have := e3 a; omega
    · have := e3 a; omega
    · have := e2 b; omega
    · omega
  have key : ∀ {f : Fld K} {N : ℕ}, (f.Nx = J.Nx ∧ f.Ny = J.Ny ∧ f.Nz = N) → ∀ c i j q, f.at3 c i j q = f.array (pos J.Nx J.Ny N c i j q) := by
    rintro f N ⟨e1, e2, e3⟩ c i j q; rw [← e1, ← e2, ← e3]; rfl
  refine or_congr Iff.rfl ?_
  unfold ConductsIn
  rw [← h5]
  refine exists_congr fun c => and_congr_right fun hc3 => exists_congr fun i => and_congr_right fun hi => exists_congr fun j => and_congr_right fun hj =>
    exists_congr fun k => and_congr_right fun hk => ?_
  have := hc c i j k hc3 hi hj hk (by rw [ho]; exact hin k hk)
  simp only [ho] at this
  rw [Nat.zero_add, key st.e, key st.s, key stg.e, key stg.s, this.1, this.2.2]

/-- Two ranks of two layers; a conducting solid in the first layer only, which the second rank does not have. -/
def lossyJob : Job ℚ := { demoJob with solids := [("a", fun _ _ k => k == 0)] }

/-- **C100, refuted.** A conducting solid that lies within one rank: the serial solver is constructed, the other rank
stops with an exception (`self.tau.min()` of no value, solverFIT3D.py:275-284). -/
theorem C100_refuted : (∃ S, lossyJob.serial = .ok S) ∧ (∃ s, lossyJob.rank 0 = .ok s) ∧ ∃ e, lossyJob.rank 1 = .error e := by
  obtain ⟨S, hS, -⟩ := okWith_spec (show okWith lossyJob.serial (1 / 4) true = true by decide +kernel)
  obtain ⟨s, hs, -⟩ := okWith_spec (show okWith (lossyJob.rank 0) (1 / 4) true = true by decide +kernel)
  refine ⟨⟨S, hS⟩, ⟨s, hs⟩, ?_⟩
  have h : okWith (lossyJob.rank 1) (1 / 4) true = false ∧ okWith (lossyJob.rank 1) (1 / 4) false = false ∧
      (match lossyJob.rank 1 with | .ok _ => false | .error _ => true) = true := by decide +kernel
  cases hr : lossyJob.rank 1 with
  | error e => exact ⟨e, rfl⟩
  | ok s => rw [hr] at h; exact absurd h.2.2 (by simp)

/-- Non-vacuity: both sides of `C100_accepted_partial` occur. -/
example : ∃ tg, materials lossyJob.Nx lossyJob.Ny lossyJob.NZ lossyJob.eps0 lossyJob.mu0 false lossyJob.bg lossyJob.dict lossyJob.solids = .ok tg ∧
    anyFace isPml lossyJob.bc = false ∧ lossyJob.size ≤ lossyJob.Nz := by
  obtain ⟨t, ht, -⟩ := materials_ok (Nx := lossyJob.Nx) (Ny := lossyJob.Ny) (Nz := lossyJob.NZ) (eps0 := lossyJob.eps0) (mu0 := lossyJob.mu0)
    (use0 := false) (show MeansMaterial lossyJob.bg ⟨.fin 1, .fin 1, none⟩ from rfl)
    (show ∀ s ∈ lossyJob.solids, ∃ spec m, lossyJob.dict s.1 = some spec ∧ MeansMaterial spec m from fun s _ => ⟨_, _, rfl, rfl⟩)
  exact ⟨t, ht, by decide, by decide⟩

end Mpi
end Wakis
