import Verif.Converge3

/-!
# C105: convergence in the closed box

On a uniform grid in a homogeneous medium with six electric walls, the fields of a fresh solver stay within a bound of second order in the cell size and the time
step of every smooth solution of Maxwell's equations with the same current, for every number of steps.
-/

namespace Wakis
namespace Conv
open Finset Sol Sparse Grid CurlBound

/-- A sum over all cells of a function that vanishes in the last layers. -/
theorem S3_inner {nx ny nz : ℕ} {f : ℕ → ℕ → ℕ → ℝ} (h : ∀ i ≤ nx, ∀ j ≤ ny, ∀ k ≤ nz, ¬(i < nx ∧ j < ny ∧ k < nz) → f i j k = 0) :
    S3 (nx + 1) (ny + 1) (nz + 1) f = S3 nx ny nz f := by
  unfold S3
  rw [sum_range_succ, sum_eq_zero (s := range (ny + 1)) (f := fun j => ∑ k ∈ range (nz + 1), f nx j k), add_zero]
  · refine sum_congr rfl fun i hi => ?_
    have hi := mem_range.1 hi
    rw [sum_range_succ, sum_eq_zero (s := range (nz + 1)) (f := fun k => f i ny k), add_zero]
    · refine sum_congr rfl fun j hj => ?_
      have hj := mem_range.1 hj
      rw [sum_range_succ, h i (by omega) j (by omega) nz le_rfl (by omega), add_zero]
    · intro k hk
      have hk := mem_range.1 hk
      exact h i (by omega) ny le_rfl k (by omega) (by omega)
  · intro j hj
    have hj := mem_range.1 hj
    refine sum_eq_zero fun k hk => ?_
    have hk := mem_range.1 hk
    exact h nx le_rfl j (by omega) k (by omega) (by omega)

theorem S3_sub {nx ny nz : ℕ} {f : ℕ → ℕ → ℕ → ℝ} (h : ∀ i j k, 0 ≤ f i j k) : S3 nx ny nz f ≤ S3 (nx + 1) (ny + 1) (nz + 1) f := by
  have e := S3_inner (nx := nx) (ny := ny) (nz := nz) (f := fun i j k => if i < nx ∧ j < ny ∧ k < nz then f i j k else 0) (fun i _ j _ k _ hn => if_neg hn)
  have e2 : S3 nx ny nz (fun i j k => if i < nx ∧ j < ny ∧ k < nz then f i j k else 0) = S3 nx ny nz f :=
    S3_congr fun i hi j hj k hk => if_pos ⟨hi, hj, hk⟩
  rw [← e2, ← e]
  refine S3_le fun i _ j _ k _ => ?_
  split_ifs
  · exact le_rfl
  · exact h i j k

theorem S3_const (nx ny nz : ℕ) (a : ℝ) : S3 nx ny nz (fun _ _ _ => a) = nx * ny * nz * a := by
  simp only [S3, sum_const, card_range, nsmul_eq_mul]; ring

theorem iter_started (s : Solver ℝ) (m : ℕ) (st : State ℝ) (h : st.step0 = false) : (oneStep s)^[m] st = (advance s)^[m] st := by
  induction m generalizing st with
  | zero => rfl
  | succ m ih => rw [Function.iterate_succ_apply, Function.iterate_succ_apply, oneStep_started _ _ h]; exact ih _ h

namespace Box
variable (G : Box) {ta tb mE mH nE nH : ℝ} (S : Maxwell G.eps G.mu G.lo G.hi ta tb mE mH nE nH) {bc : Faces String}

/-- Number of entries, volume of a cell and of the grid. -/
def n3 : ℕ := 3 * ((G.nx + 1) * (G.ny + 1) * (G.nz + 1))
def vol : ℝ := G.dx * G.dy * G.dz
def Vol : ℝ := ((G.nx + 1 : ℕ) * G.dx) * ((G.ny + 1 : ℕ) * G.dy) * ((G.nz + 1 : ℕ) * G.dz)

theorem vol_pos : 0 < G.vol := by have := G.hdx; have := G.hdy; have := G.hdz; unfold vol; positivity

/-- The weights of the field energy. -/
noncomputable def wE (bc : Faces String) (r : ℕ) : ℝ := G.geom.L.array r / (1 / G.eps * dualInvArea G.geom bc r)
noncomputable def wH (bc : Faces String) (r : ℕ) : ℝ := dualLen G.geom bc r / (G.geom.iA.array r * (1 / G.mu))

theorem wE_at (hbc : AllPec bc) {c i j k : ℕ} (hc : c < 3) (hi : i ≤ G.nx) (hj : j ≤ G.ny) (hk : k ≤ G.nz) :
    G.wE bc (G.at' c i j k) = if (c = 0 ∨ i < G.nx) ∧ (c = 1 ∨ j < G.ny) ∧ (c = 2 ∨ k < G.nz) then G.eps * G.vol else 0 := by
  obtain ⟨-, -, habc, -, hper⟩ := hbc.names
  have am := applyBC_metric G.geom bc (C0 G.geom.Nx G.geom.Ny G.geom.Nz) hper habc
  have da : dualInvArea G.geom bc = G.geom.itA.array := congrArg Fld.array am.2
  unfold wE
  rw [da, G.L_at hc hi hj hk, G.itA_at hc hi hj hk]
  have := G.hdx; have := G.hdy; have := G.hdz; have := G.heps
  by_cases h : (c = 0 ∨ i < G.nx) ∧ (c = 1 ∨ j < G.ny) ∧ (c = 2 ∨ k < G.nz)
  · rw [if_pos h, if_pos h]
    unfold vol
    split_ifs <;> field_simp
  · rw [if_neg h, if_neg h, mul_zero, div_zero]

theorem wH_at (hbc : AllPec bc) {c i j k : ℕ} (hc : c < 3) (hi : i ≤ G.nx) (hj : j ≤ G.ny) (hk : k ≤ G.nz) :
    G.wH bc (G.at' c i j k) = if (c ≠ 0 ∨ i < G.nx) ∧ (c ≠ 1 ∨ j < G.ny) ∧ (c ≠ 2 ∨ k < G.nz) then G.mu * G.vol else 0 := by
  obtain ⟨-, -, habc, -, hper⟩ := hbc.names
  have am := applyBC_metric G.geom bc (C0 G.geom.Nx G.geom.Ny G.geom.Nz) hper habc
  have da : dualLen G.geom bc = G.geom.tL.array := congrArg Fld.array am.1
  unfold wH
  rw [da, G.tL_at hc hi hj hk, G.iA_at hc hi hj hk]
  have := G.hdx; have := G.hdy; have := G.hdz; have := G.hmu
  have hc3 : c = 0 ∨ c = 1 ∨ c = 2 := by omega
  rcases hc3 with rfl | rfl | rfl
  · by_cases h : i < G.nx
    · simp [h]; unfold vol; field_simp
    · simp [h]
  · by_cases h : j < G.ny
    · simp [h]; unfold vol; field_simp
    · simp [h]
  · by_cases h : k < G.nz
    · simp [h]; unfold vol; field_simp
    · simp [h]

theorem pos_at {r : ℕ} (hr : r < G.n3) : ∃ c i j k, c < 3 ∧ i ≤ G.nx ∧ j ≤ G.ny ∧ k ≤ G.nz ∧ G.at' c i j k = r := by
  obtain ⟨c, i, j, k, hc, hi, hj, hk, e⟩ := pos_surj hr
  exact ⟨c, i, j, k, hc, by omega, by omega, by omega, e.symm⟩

theorem wE_range (hbc : AllPec bc) {r : ℕ} (hr : r < G.n3) : 0 ≤ G.wE bc r ∧ G.wE bc r ≤ G.eps * G.vol := by
  obtain ⟨c, i, j, k, hc, hi, hj, hk, rfl⟩ := G.pos_at hr
  rw [G.wE_at hbc hc hi hj hk]
  have := mul_pos G.heps G.vol_pos
  split_ifs
  · exact ⟨this.le, le_rfl⟩
  · exact ⟨le_rfl, this.le⟩

theorem wH_range (hbc : AllPec bc) {r : ℕ} (hr : r < G.n3) : 0 ≤ G.wH bc r ∧ G.wH bc r ≤ G.mu * G.vol := by
  obtain ⟨c, i, j, k, hc, hi, hj, hk, rfl⟩ := G.pos_at hr
  rw [G.wH_at hbc hc hi hj hk]
  have := mul_pos G.hmu G.vol_pos
  split_ifs
  · exact ⟨this.le, le_rfl⟩
  · exact ⟨le_rfl, this.le⟩

theorem sum_wE (hbc : AllPec bc) : ∑ r ∈ range G.n3, G.wE bc r ≤ 3 * G.eps * G.Vol := by
  refine (sum_le_sum fun r hr => (G.wE_range hbc (mem_range.1 hr)).2).trans (le_of_eq ?_)
  rw [sum_const, card_range, nsmul_eq_mul]
  unfold n3 vol Vol
  push_cast; ring

theorem sum_wH (hbc : AllPec bc) : ∑ r ∈ range G.n3, G.wH bc r ≤ 3 * G.mu * G.Vol := by
  refine (sum_le_sum fun r hr => (G.wH_range hbc (mem_range.1 hr)).2).trans (le_of_eq ?_)
  rw [sum_const, card_range, nsmul_eq_mul]
  unfold n3 vol Vol
  push_cast; ring

/-- The energy norm. -/
noncomputable def nm (bc : Faces String) (st : State ℝ) : ℝ := nrm (G.wE bc) (G.wH bc) G.n3 st

theorem nm_eq (st : State ℝ) : G.nm bc st = Real.sqrt (fieldEnergy G.geom bc (fun _ => 1 / G.eps) (fun _ => 1 / G.mu) st) := rfl

theorem nm_add (hbc : AllPec bc) (a b : State ℝ) : G.nm bc (lin 1 1 a b) ≤ G.nm bc a + G.nm bc b :=
  nrm_lin (fun _ hr => (G.wE_range hbc hr).1) (fun _ hr => (G.wH_range hbc hr).1) a b

/-- Stability (C20) in this norm. -/
theorem nm_stable (hbc : AllPec bc) {κ : ℝ} (hcfl : G.dt ^ 2 * (1 / G.dx ^ 2 + 1 / G.dy ^ 2 + 1 / G.dz ^ 2) ≤ κ * (G.eps * G.mu)) (h1 : κ < 1) (m : ℕ) (e h : ℕ → ℝ) :
    G.nm bc ((advance (G.solver bc))^[m] (eh e h)) ≤ Real.sqrt (6 / (1 - κ)) * G.nm bc (eh e h) := by
  have hk : 0 < 1 - κ := sub_pos.2 h1
  have adm : Admissible (3 * ((G.nx + 1) * (G.ny + 1) * (G.nz + 1))) G.eps G.mu (fun _ => 1 / G.eps) (fun _ => 1 / G.mu) :=
    ⟨G.heps, G.hmu, fun _ _ => by have := G.heps; positivity, fun _ _ => le_rfl, fun _ _ => by have := G.hmu; positivity, fun _ _ => le_rfl⟩
  obtain ⟨-, -, habc, -, hper⟩ := hbc.names
  have am := applyBC_metric G.geom bc (C0 G.geom.Nx G.geom.Ny G.geom.Nz) hper habc
  have da : dualInvArea G.geom bc = G.geom.itA.array := congrArg Fld.array am.2
  have dead : DeadZero G.geom bc (fun _ => 1 / G.eps) (eh e h) := by
    intro r hr h0
    right
    obtain ⟨c, i, j, k, hc, hi, hj, hk, rfl⟩ := G.pos_at hr
    rw [da, G.itA_at hc hi hj hk] at h0
    have := G.hdx; have := G.hdy; have := G.hdz; have := G.heps
    by_cases hl : (c = 0 ∨ i < G.nx) ∧ (c = 1 ∨ j < G.ny) ∧ (c = 2 ∨ k < G.nz)
    · exfalso
      rw [if_pos hl] at h0
      have : 0 < 1 / G.eps * (if c = 0 then 1 / (G.dy * G.dz) else if c = 1 then 1 / (G.dx * G.dz) else 1 / (G.dx * G.dy)) := by
        split_ifs <;> positivity
      exact this.ne' h0
    · have hx : ∃ a < 3, a ≠ c ∧ coord a i j k = coord a G.nx G.ny G.nz := by
        by_cases h1 : c = 0 ∨ i < G.nx
        · by_cases h2 : c = 1 ∨ j < G.ny
          · refine ⟨2, by omega, by omega, ?_⟩
            show k = G.nz; omega
          · refine ⟨1, by omega, by omega, ?_⟩
            show j = G.ny; omega
        · refine ⟨0, by omega, by omega, ?_⟩
          show i = G.nx; omega
      obtain ⟨a, ha, hne, hco⟩ := hx
      refine colMask_closed G.geom hbc.like hc (show i < G.nx + 1 by omega) (show j < G.ny + 1 by omega) (show k < G.nz + 1 by omega) ha hne .hi ?_
      show coord a i j k = coord a (G.nx + 1) (G.ny + 1) (G.nz + 1) - 1
      rw [hco]; unfold coord; split_ifs <;> omega
  have b := C20_bounded_energy_partial (Nx := G.nx + 1) (Ny := G.ny + 1) (Nz := G.nz + 1) (x := G.ax) (y := G.ay) (z := G.az) (bc := bc) (sigma := fun _ => 0) G.hdx G.hdy G.hdz
    (fun i _ => le_of_eq (by rw [G.ax_succ]; ring)) (fun i _ => le_of_eq (by rw [G.ay_succ]; ring)) (fun i _ => le_of_eq (by rw [G.az_succ]; ring)) hbc adm hcfl h1 (eh e h)
    (fun _ _ => rfl) dead m
  simp only at b
  rw [iter_started _ _ _ rfl] at b
  rw [nm_eq, nm_eq, ← Real.sqrt_mul (by positivity)]
  exact Real.sqrt_le_sqrt b

/-! ### the error of a run -/

/-- The difference between a state and the samples. -/
noncomputable def diff (tE tH : ℝ) (st : State ℝ) : State ℝ := eh (fun r => st.E r - G.sE S.E tE r) (fun r => st.H r - G.sH S.H tH r)

theorem nm_diff_sq (hbc : AllPec bc) (tE tH : ℝ) (st : State ℝ) : G.nm bc (G.diff S tE tH st) =
    Real.sqrt (S3 (G.nx + 1) (G.ny + 1) (G.nz + 1) fun i j k => ∑ c ∈ range 3,
      (G.wE bc (G.at' c i j k) * (st.E (G.at' c i j k) - G.sE S.E tE (G.at' c i j k)) ^ 2 + G.wH bc (G.at' c i j k) * (st.H (G.at' c i j k) - G.sH S.H tH (G.at' c i j k)) ^ 2)) := by
  unfold nm nrm n3 diff
  rw [sum_flat, sum_flat, ← S3_add]
  congr 1
  refine S3_congr fun i hi j hj k hk => ?_
  simp only [sum_range_succ, range_zero, sum_empty, eh, at']
  ring

theorem inner_term (hbc : AllPec bc) (tE tH : ℝ) (st : State ℝ) {c i j k : ℕ} (hc : c < 3) (hi : i < G.nx) (hj : j < G.ny) (hk : k < G.nz) :
    G.wE bc (G.at' c i j k) * (st.E (G.at' c i j k) - G.sE S.E tE (G.at' c i j k)) ^ 2 + G.wH bc (G.at' c i j k) * (st.H (G.at' c i j k) - G.sH S.H tH (G.at' c i j k)) ^ 2 =
    G.dx * G.dy * G.dz * (G.eps * (st.E (G.at' c i j k) - S.E c tE (G.ePt c i j k)) ^ 2 + G.mu * (st.H (G.at' c i j k) - S.H c tH (G.hPt c i j k)) ^ 2) := by
  rw [G.wE_at hbc hc hi.le hj.le hk.le, G.wH_at hbc hc hi.le hj.le hk.le, if_pos (by tauto), if_pos (by tauto), G.sE_live _ _ hi.le hj.le hk.le (by tauto),
    G.sH_live _ _ hi.le hj.le hk.le (by tauto)]
  unfold vol; ring

theorem l2err_le (hbc : AllPec bc) (tE tH : ℝ) (st : State ℝ) : G.l2err S.E S.H tE tH st ≤ G.nm bc (G.diff S tE tH st) := by
  rw [G.nm_diff_sq S hbc]
  unfold l2err
  apply Real.sqrt_le_sqrt
  refine le_trans (le_of_eq ?_) (le_trans (S3_sub (nx := G.nx) (ny := G.ny) (nz := G.nz) (f := fun i j k => if i ≤ G.nx ∧ j ≤ G.ny ∧ k ≤ G.nz then ∑ c ∈ range 3,
      (G.wE bc (G.at' c i j k) * (st.E (G.at' c i j k) - G.sE S.E tE (G.at' c i j k)) ^ 2 + G.wH bc (G.at' c i j k) * (st.H (G.at' c i j k) - G.sH S.H tH (G.at' c i j k)) ^ 2) else 0) ?_)
      (le_of_eq ?_))
  · refine S3_congr fun i hi j hj k hk => ?_
    rw [if_pos ⟨hi.le, hj.le, hk.le⟩]
    exact sum_congr rfl fun c hc => (G.inner_term S hbc tE tH st (mem_range.1 hc) hi hj hk).symm
  · intro i j k
    split_ifs with h
    · refine sum_nonneg fun c hc => ?_
      have hr : G.at' c i j k < G.n3 := pos_lt (mem_range.1 hc) (by omega) (by omega) (by omega)
      exact add_nonneg (mul_nonneg (G.wE_range hbc hr).1 (sq_nonneg _)) (mul_nonneg (G.wH_range hbc hr).1 (sq_nonneg _))
    · exact le_rfl
  · refine S3_congr fun i hi j hj k hk => if_pos (by omega)

/-- The ghost entries are zero: E along an axis and H across it in the last layer of that axis. -/
def Clean (st : State ℝ) : Prop := ∀ c < 3, ∀ i ≤ G.nx, ∀ j ≤ G.ny, ∀ k ≤ G.nz,
  (¬((c ≠ 0 ∨ i < G.nx) ∧ (c ≠ 1 ∨ j < G.ny) ∧ (c ≠ 2 ∨ k < G.nz)) → st.E (G.at' c i j k) = 0) ∧
  (¬((c = 0 ∨ i < G.nx) ∧ (c = 1 ∨ j < G.ny) ∧ (c = 2 ∨ k < G.nz)) → st.H (G.at' c i j k) = 0)

theorem nm_clean (hbc : AllPec bc) (tE tH : ℝ) (st : State ℝ) (hst : G.Clean st) : G.nm bc (G.diff S tE tH st) = G.l2err S.E S.H tE tH st := by
  rw [G.nm_diff_sq S hbc, S3_inner]
  · unfold l2err
    congr 1
    exact S3_congr fun i hi j hj k hk => sum_congr rfl fun c hc => G.inner_term S hbc tE tH st (mem_range.1 hc) hi hj hk
  · intro i hi j hj k hk hn
    refine sum_eq_zero fun c hc => ?_
    have hc := mem_range.1 hc
    rw [G.wE_at hbc hc hi hj hk, G.wH_at hbc hc hi hj hk]
    have c1 : (if (c = 0 ∨ i < G.nx) ∧ (c = 1 ∨ j < G.ny) ∧ (c = 2 ∨ k < G.nz) then G.eps * G.vol else 0) * (st.E (G.at' c i j k) - G.sE S.E tE (G.at' c i j k)) ^ 2 = 0 := by
      split_ifs with h
      · have hd : ¬((c ≠ 0 ∨ i < G.nx) ∧ (c ≠ 1 ∨ j < G.ny) ∧ (c ≠ 2 ∨ k < G.nz)) := by omega
        rw [((hst c hc i hi j hj k hk).1 hd), G.sE_dead _ _ hi hj hk hd]; ring
      · ring
    have c2 : (if (c ≠ 0 ∨ i < G.nx) ∧ (c ≠ 1 ∨ j < G.ny) ∧ (c ≠ 2 ∨ k < G.nz) then G.mu * G.vol else 0) * (st.H (G.at' c i j k) - G.sH S.H tH (G.at' c i j k)) ^ 2 = 0 := by
      split_ifs with h
      · have hd : ¬((c = 0 ∨ i < G.nx) ∧ (c = 1 ∨ j < G.ny) ∧ (c = 2 ∨ k < G.nz)) := by omega
        rw [((hst c hc i hi j hj k hk).2 hd), G.sH_dead _ _ hi hj hk hd]; ring
      · ring
    rw [c1, c2, add_zero]

/-- What the first step does to the state of a fresh solver. -/
noncomputable def start (bc : Faces String) (st : State ℝ) : State ℝ := { setGhostsTo0 (G.solver bc) st with step0 := false }

theorem start_E (st : State ℝ) {c i j k : ℕ} (hc : c < 3) (hi : i ≤ G.nx) (hj : j ≤ G.ny) (hk : k ≤ G.nz) :
    (G.start bc st).E (G.at' c i j k) = if (c = 0 ∧ i = G.nx) ∨ (c = 1 ∧ j = G.ny) ∨ (c = 2 ∧ k = G.nz) then 0 else st.E (G.at' c i j k) :=
  ghostE_at3 (f := (G.solver bc).fld st.E) (show i < G.nx + 1 by omega) (show j < G.ny + 1 by omega) (show k < G.nz + 1 by omega) hc

theorem start_H (st : State ℝ) {c i j k : ℕ} (hc : c < 3) (hi : i ≤ G.nx) (hj : j ≤ G.ny) (hk : k ≤ G.nz) :
    (G.start bc st).H (G.at' c i j k) = if (c ≠ 0 ∧ i = G.nx) ∨ (c ≠ 1 ∧ j = G.ny) ∨ (c ≠ 2 ∧ k = G.nz) then 0 else st.H (G.at' c i j k) :=
  ghostH_at3 (f := (G.solver bc).fld st.H) (show i < G.nx + 1 by omega) (show j < G.ny + 1 by omega) (show k < G.nz + 1 by omega) hc

theorem start_clean (st : State ℝ) : G.Clean (G.start bc st) := by
  intro c hc i hi j hj k hk
  constructor
  · intro h
    rw [G.start_E st hc hi hj hk, if_pos (by omega)]
  · intro h
    rw [G.start_H st hc hi hj hk, if_pos (by omega)]

theorem start_l2err (E H : ℕ → ℝ → ℝ × ℝ × ℝ → ℝ) (tE tH : ℝ) (st : State ℝ) : G.l2err E H tE tH (G.start bc st) = G.l2err E H tE tH st := by
  unfold l2err
  congr 1
  refine sum_congr rfl fun i hi => sum_congr rfl fun j hj => sum_congr rfl fun k hk => sum_congr rfl fun c hc => ?_
  have hi := mem_range.1 hi; have hj := mem_range.1 hj; have hk := mem_range.1 hk; have hc := mem_range.1 hc
  rw [G.start_E st hc hi.le hj.le hk.le, G.start_H st hc hi.le hj.le hk.le, if_neg (by omega), if_neg (by omega)]

theorem run_start (Jd : ℕ → ℕ → ℝ) (st : State ℝ) (h0 : st.step0 = true) (n : ℕ) : G.run bc Jd st (n + 1) = G.run bc Jd (G.start bc st) (n + 1) := by
  induction n with
  | zero =>
    show oneStep (G.solver bc) { st with J := Jd 0 } = oneStep (G.solver bc) { G.start bc st with J := Jd 0 }
    unfold oneStep
    rw [if_pos (show ({ st with J := Jd 0 } : State ℝ).step0 = true from h0), if_neg (show ¬(({ G.start bc st with J := Jd 0 } : State ℝ).step0 = true) from Bool.false_ne_true)]
    rfl
  | succ n ih =>
    show oneStep (G.solver bc) { G.run bc Jd st (n + 1) with J := Jd (n + 1) } = oneStep (G.solver bc) { G.run bc Jd (G.start bc st) (n + 1) with J := Jd (n + 1) }
    rw [ih]

theorem run_step0 (Jd : ℕ → ℕ → ℝ) (st : State ℝ) (h0 : st.step0 = false) (n : ℕ) : (G.run bc Jd st n).step0 = false := by
  induction n with
  | zero => exact h0
  | succ n ih =>
    show (oneStep (G.solver bc) { G.run bc Jd st n with J := Jd n }).step0 = false
    rw [oneStep_started _ _ (show ({ G.run bc Jd st n with J := Jd n } : State ℝ).step0 = false from ih)]
    exact ih

/-- The recursion of the error. -/
theorem diff_rec (hbc : AllPec bc) (Jd : ℕ → ℕ → ℝ) (st : State ℝ) (h0 : st.step0 = false) (t : ℝ) (n : ℕ) :
    G.diff S (t + G.dt) (t + G.dt / 2) (G.run bc Jd st (n + 1)) =
      lin 1 1 (advance (G.solver bc) (lin 1 1 (G.diff S t (t - G.dt / 2) (G.run bc Jd st n))
        (eh (fun _ => 0) fun r => (oneStep (G.solver bc) (eh (G.sE S.E t) (G.sH S.H (t - G.dt / 2)))).H r - G.sH S.H (t + G.dt / 2) r)))
        (eh (fun r => (advance (G.solver bc) (G.pre S bc t (Jd n))).E r - G.sE S.E (t + G.dt) r) fun _ => 0) := by
  have huc : (G.solver bc).useConductivity = false := by
    show (anyFace isPml bc || false) = false
    rw [hbc.names.2.2.2.1]; rfl
  have hrun : G.run bc Jd st (n + 1) = advance (G.solver bc) { G.run bc Jd st n with J := Jd n } :=
    oneStep_started _ _ (show ({ G.run bc Jd st n with J := Jd n } : State ℝ).step0 = false from G.run_step0 Jd st h0 n)
  set u := G.run bc Jd st n with hu
  set s := G.solver bc with hs
  have m1 : ∀ (M : Mat ℝ) (a b : ℕ → ℝ) (i : ℕ), mulVec s.n3 M (fun q => a q - b q) i = mulVec s.n3 M a i - mulVec s.n3 M b i := by
    intro M a b i
    have : (fun q => a q - b q) = fun q => a q + (-1) * b q := by funext q; ring
    rw [this, mulVec_add, mulVec_smul]; ring
  have hH : ∀ r, (advance s { u with J := Jd n }).H r = u.H r - s.dt * mulVec s.n3 s.M1 u.E r := fun r => rfl
  have hHe : (advance s (lin 1 1 (G.diff S t (t - G.dt / 2) u)
        (eh (fun _ => 0) fun r => (oneStep s (eh (G.sE S.E t) (G.sH S.H (t - G.dt / 2)))).H r - G.sH S.H (t + G.dt / 2) r))).H =
      fun r => (advance s { u with J := Jd n }).H r - G.sH S.H (t + G.dt / 2) r := by
    funext r
    rw [oneStep_started _ _ rfl]
    have e1 : (lin 1 1 (G.diff S t (t - G.dt / 2) u) (eh (fun _ => 0) fun r => (advance s (eh (G.sE S.E t) (G.sH S.H (t - G.dt / 2)))).H r - G.sH S.H (t + G.dt / 2) r)).E =
        fun q => u.E q - G.sE S.E t q := by
      funext q
      show 1 * (u.E q - G.sE S.E t q) + 1 * 0 = _
      ring
    show (1 * (u.H r - G.sH S.H (t - G.dt / 2) r) + 1 * ((G.sH S.H (t - G.dt / 2) r - s.dt * mulVec s.n3 s.M1 (G.sE S.E t) r) - G.sH S.H (t + G.dt / 2) r)) -
      s.dt * mulVec s.n3 s.M1 (lin 1 1 (G.diff S t (t - G.dt / 2) u) (eh (fun _ => 0) fun r => (advance s (eh (G.sE S.E t) (G.sH S.H (t - G.dt / 2)))).H r - G.sH S.H (t + G.dt / 2) r)).E r = _
    rw [e1, m1, hH]
    ring
  rw [hrun]
  have eqE : ∀ a : State ℝ, ∀ r, (advance s a).E r = a.E r + s.dt * (mulVec s.n3 s.M2 (advance s a).H r - s.ieps r * a.J r) := fun a r => rfl
  have eqJ : ∀ a : State ℝ, (advance s a).J = a.J := fun a => by simp [advance, huc]
  refine state_ext ?_ ?_ ?_ rfl
  · funext r
    have hp := G.pre_H S (bc := bc) t (Jd n)
    show (advance s { u with J := Jd n }).E r - G.sE S.E (t + G.dt) r = 1 * (advance s _).E r + 1 * ((advance s (G.pre S bc t (Jd n))).E r - G.sE S.E (t + G.dt) r)
    rw [eqE, eqE, eqE, hHe, hp, m1]
    show u.E r + s.dt * (_ - s.ieps r * Jd n r) - _ = 1 * (1 * (u.E r - G.sE S.E t r) + 1 * 0 + s.dt * (_ - s.ieps r * (1 * 0 + 1 * 0))) + 1 * (G.sE S.E t r + s.dt * (_ - s.ieps r * Jd n r) - _)
    ring
  · funext r
    show (advance s { u with J := Jd n }).H r - G.sH S.H (t + G.dt / 2) r = 1 * (advance s _).H r + 1 * 0
    rw [hHe]; ring
  · funext r
    show 0 = 1 * (advance s _).J r + 1 * 0
    rw [eqJ]
    show 0 = 1 * (1 * 0 + 1 * 0) + 1 * (0 : ℝ)
    ring
where
  state_ext {a b : State ℝ} (h1 : a.E = b.E) (h2 : a.H = b.H) (h3 : a.J = b.J) (h4 : a.step0 = b.step0) : a = b := by
    cases a; cases b; simp_all

/-- Bound on the local errors of one step, per unit time. -/
noncomputable def tau (mE mH nE nH : ℝ) : ℝ :=
  Real.sqrt (3 * G.eps * G.Vol) * ((nE * G.dt ^ 2 + mH / G.eps * G.h2) / 24) + Real.sqrt (3 * G.mu * G.Vol) * ((nH * G.dt ^ 2 + mE / G.mu * G.h2) / 24)

theorem converge_started (hbc : AllPec bc) (hmE : 0 ≤ mE) (hmH : 0 ≤ mH) (hnE : 0 ≤ nE) (hnH : 0 ≤ nH) {κ : ℝ}
    (hcfl : G.dt ^ 2 * (1 / G.dx ^ 2 + 1 / G.dy ^ 2 + 1 / G.dz ^ 2) ≤ κ * (G.eps * G.mu)) (h1 : κ < 1) {t0 : ℝ} {n : ℕ} (ha : ta ≤ t0 - G.dt / 2) (hb : t0 + n * G.dt ≤ tb)
    {Jd : ℕ → ℕ → ℝ} (hJ : G.Drives S.J t0 Jd) (st : State ℝ) (h0 : st.step0 = false) (hcl : G.Clean st) :
    G.l2err S.E S.H (t0 + n * G.dt) (t0 + (n - 1 / 2) * G.dt) (G.run bc Jd st n) ≤
      Real.sqrt (6 / (1 - κ)) * (G.l2err S.E S.H t0 (t0 - G.dt / 2) st + n * G.dt * G.tau mE mH nE nH) := by
  have hdt := G.hdt
  set s := G.solver bc with hs
  set err : ℕ → State ℝ := fun n => G.diff S (t0 + n * G.dt) (t0 + n * G.dt - G.dt / 2) (G.run bc Jd st n) with herr
  set rH : ℕ → ℕ → ℝ := fun n r => (oneStep s (eh (G.sE S.E (t0 + n * G.dt)) (G.sH S.H (t0 + n * G.dt - G.dt / 2)))).H r - G.sH S.H (t0 + n * G.dt + G.dt / 2) r with hrH
  set rE : ℕ → ℕ → ℝ := fun n r => (advance s (G.pre S bc (t0 + n * G.dt) (Jd n))).E r - G.sE S.E (t0 + n * G.dt + G.dt) r with hrE
  have hrec : ∀ n, err (n + 1) = lin 1 1 (advance s (lin 1 1 (err n) (eh (fun _ => 0) (rH n)))) (eh (rE n) fun _ => 0) := by
    intro m
    have := G.diff_rec S hbc Jd st h0 (t0 + m * G.dt) m
    rw [show t0 + m * G.dt + G.dt = t0 + ((m + 1 : ℕ) : ℝ) * G.dt by push_cast; ring, show t0 + m * G.dt + G.dt / 2 = t0 + ((m + 1 : ℕ) : ℝ) * G.dt - G.dt / 2 by push_cast; ring] at this
    simp only [herr, hrH, hrE]
    rw [this]
    rw [show t0 + m * G.dt + G.dt = t0 + ((m + 1 : ℕ) : ℝ) * G.dt by push_cast; ring, show t0 + m * G.dt + G.dt / 2 = t0 + ((m + 1 : ℕ) : ℝ) * G.dt - G.dt / 2 by push_cast; ring]
  have D := duhamel s (G.nm bc) (Real.sqrt (6 / (1 - κ))) (G.nm_add hbc) (G.nm_stable hbc hcfl h1) err rH rE rfl hrec n
  have e0 : G.nm bc (err 0) = G.l2err S.E S.H t0 (t0 - G.dt / 2) st := by
    simp only [herr]
    rw [Nat.cast_zero, zero_mul, add_zero]
    exact G.nm_clean S hbc _ _ _ hcl
  have en : G.l2err S.E S.H (t0 + n * G.dt) (t0 + (n - 1 / 2) * G.dt) (G.run bc Jd st n) ≤ G.nm bc (err n) := by
    rw [show t0 + ((n : ℝ) - 1 / 2) * G.dt = t0 + n * G.dt - G.dt / 2 by ring]
    exact G.l2err_le S hbc _ _ _
  have hV : 0 ≤ G.Vol := by have := G.hdx; have := G.hdy; have := G.hdz; unfold Vol; positivity
  have hh2 : 0 ≤ G.h2 := by unfold Box.h2; positivity
  have heps := G.heps
  have hmu := G.hmu
  have loc : ∀ k < n, G.nm bc (eh (fun _ => 0) (rH k)) + G.nm bc (eh (rE k) fun _ => 0) ≤ G.dt * G.tau mE mH nE nH := by
    intro k hk
    have hkn : ((k : ℝ) + 1) * G.dt ≤ n * G.dt := mul_le_mul_of_nonneg_right (by exact_mod_cast hk) hdt
    have hk0 : 0 ≤ (k : ℝ) * G.dt := by positivity
    have b1 : ∀ r < G.n3, |rH k r| ≤ G.dt * (nH / 24 * G.dt ^ 2 + mE / (24 * G.mu) * G.h2) := fun r hr =>
      G.res_H S hbc hmE hnH (by linarith) (by linarith) hr
    have b2 : ∀ r < G.n3, |rE k r| ≤ G.dt * (nE / 24 * G.dt ^ 2 + mH / (24 * G.eps) * G.h2) := fun r hr =>
      G.res_E S hbc hmH hnE (by linarith) (by linarith) (fun c hc i hi j hj l hl => by
        rw [hJ k c hc i hi j hj l hl, show t0 + ((k : ℝ) + 1 / 2) * G.dt = t0 + k * G.dt + G.dt / 2 by ring]) hr
    have sqle : ∀ {a B : ℝ}, |a| ≤ B → a ^ 2 ≤ B ^ 2 := fun {a B} h => sq_le_sq' (abs_le.1 h).1 (abs_le.1 h).2
    have n1 : G.nm bc (eh (fun _ => 0) (rH k)) ≤ Real.sqrt (3 * G.eps * G.Vol * 0 ^ 2 + 3 * G.mu * G.Vol * (G.dt * (nH / 24 * G.dt ^ 2 + mE / (24 * G.mu) * G.h2)) ^ 2) :=
      nrm_mono (fun _ hr => (G.wE_range hbc hr).1) (fun _ hr => (G.wH_range hbc hr).1) (fun _ _ => le_rfl)
        (fun r hr => mul_le_mul_of_nonneg_left (sqle (b1 r hr)) (G.wH_range hbc hr).1) (G.sum_wE hbc) (G.sum_wH hbc)
    have n2 : G.nm bc (eh (rE k) fun _ => 0) ≤ Real.sqrt (3 * G.eps * G.Vol * (G.dt * (nE / 24 * G.dt ^ 2 + mH / (24 * G.eps) * G.h2)) ^ 2 + 3 * G.mu * G.Vol * 0 ^ 2) :=
      nrm_mono (fun _ hr => (G.wE_range hbc hr).1) (fun _ hr => (G.wH_range hbc hr).1) (fun r hr => mul_le_mul_of_nonneg_left (sqle (b2 r hr)) (G.wE_range hbc hr).1)
        (fun _ _ => le_rfl) (G.sum_wE hbc) (G.sum_wH hbc)
    have z : (0 : ℝ) ^ 2 = 0 := by norm_num
    rw [z, mul_zero, zero_add, Real.sqrt_mul (by positivity), Real.sqrt_sq (by positivity)] at n1
    rw [z, mul_zero, add_zero, Real.sqrt_mul (by positivity), Real.sqrt_sq (by positivity)] at n2
    refine (add_le_add n1 n2).trans (le_of_eq ?_)
    unfold tau
    field_simp
    ring
  have sm : ∑ k ∈ range n, (G.nm bc (eh (fun _ => 0) (rH k)) + G.nm bc (eh (rE k) fun _ => 0)) ≤ n * G.dt * G.tau mE mH nE nH := by
    refine (sum_le_sum fun k hk => loc k (mem_range.1 hk)).trans (le_of_eq ?_)
    rw [sum_const, card_range, nsmul_eq_mul]; ring
  refine en.trans (D.trans ?_)
  rw [e0]
  exact mul_le_mul_of_nonneg_left (by linarith) (Real.sqrt_nonneg _)

/-- **C105.** A fresh solver on a uniform grid in a homogeneous medium with six electric walls, started from any fields and driven by the samples of a current density.
For every smooth solution of Maxwell's equations with this current in the box between the walls, every time step with `dt² (1/dx² + 1/dy² + 1/dz²) ≤ κ eps mu`, `κ < 1`,
and every number of steps, the root of the error energy (E at `t0 + n dt`, H half a step earlier) is at most `√(6/(1-κ))` times the initial error plus the elapsed time
times `tau`, which is of second order in the time step and the cell lengths. -/
theorem C105_converges (hbc : AllPec bc) (hmE : 0 ≤ mE) (hmH : 0 ≤ mH) (hnE : 0 ≤ nE) (hnH : 0 ≤ nH) {κ : ℝ}
    (hcfl : G.dt ^ 2 * (1 / G.dx ^ 2 + 1 / G.dy ^ 2 + 1 / G.dz ^ 2) ≤ κ * (G.eps * G.mu)) (h1 : κ < 1) {t0 : ℝ} {n : ℕ} (ha : ta ≤ t0 - G.dt / 2) (hb : t0 + n * G.dt ≤ tb)
    {Jd : ℕ → ℕ → ℝ} (hJ : G.Drives S.J t0 Jd) (st : State ℝ) (h0 : st.step0 = true) :
    G.l2err S.E S.H (t0 + n * G.dt) (t0 + (n - 1 / 2) * G.dt) (G.run bc Jd st n) ≤
      Real.sqrt (6 / (1 - κ)) * (G.l2err S.E S.H t0 (t0 - G.dt / 2) st + n * G.dt * G.tau mE mH nE nH) := by
  have key := G.converge_started S hbc hmE hmH hnE hnH hcfl h1 ha hb hJ (G.start bc st) rfl (G.start_clean st)
  rw [G.start_l2err] at key
  cases n with
  | succ n => rw [G.run_start Jd st h0]; exact key
  | zero =>
    have := G.start_l2err (bc := bc) S.E S.H (t0 + (0 : ℕ) * G.dt) (t0 + ((0 : ℕ) - 1 / 2) * G.dt) st
    rw [show G.run bc Jd st 0 = st from rfl, ← this]
    exact key

end Box
end Conv
end Wakis
