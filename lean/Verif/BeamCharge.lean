import Verif.Rerun
import Verif.SolverBC
import Verif.MpiSources
import Mathlib.MeasureTheory.Integral.IntervalIntegral.Basic
import Mathlib.MeasureTheory.Integral.IntervalIntegral.FundThmCalculus

/-!
# C143: the charge in the fields of a wake run is the charge of the bunch

The beam writes a current density into one column of edges.  By Gauss' law the fields carry a charge at every node (the flux of `eps E` out of its dual cell), which the current brings there
(C18).  Between two cells on the way of the beam this is the charge of the bunch between the cell centres, if the dual faces of the column have the size of the cells the current density was
computed for.
-/

namespace Wakis
namespace Wake
open Src Sol Sparse Fld MeasureTheory
noncomputable section

/-! ### Specification -/

/-- Gauss' law: the charge at node `(i,j,k)` is the flux of `eps E` out of its dual cell. -/
def nodeCharge (g0 : Grid.Geom ℝ) (bc : Faces String) (ieps : Vec ℝ) (st : State ℝ) (i j k : ℕ) : ℝ := codivAt (view3 g0.Nx g0.Ny g0.Nz (eflux g0 bc ieps st)) i j k

/-- The charge of the bunch of beam `b` with length `σ` between the positions `a` and `c` at time `t`. -/
def bunchBetween (b : Beam) (σ zmin t a c : ℝ) : ℝ := ∫ z in a..c, b.q * lineDensity σ (z - b.centre zmin t)

/-- The bunch current through position `z` at time `t`. -/
def bunchCurrent (b : Beam) (σ zmin t z : ℝ) : ℝ := b.q * b.v * lineDensity σ (z - b.centre zmin t)

/-- The six edges at node `(i,j,k)` lie in a medium that is neither a perfect nor any other conductor. -/
def Insulating (g0 : Grid.Geom ℝ) (ieps sigma : Vec ℝ) (cond : Bool) (i j k : ℕ) : Prop := ∀ r ∈ nodeEdges g0 i j k, ieps r ≠ 0 ∧ (cond = true → sigma r = 0)

/-! ### Riemann sums of the bunch current -/

theorem density_pos (σ u : ℝ) (hσ : 0 < σ) : 0 < lineDensity σ u := by
  unfold lineDensity
  have : 0 < Real.pi := Real.pi_pos
  positivity

theorem density_mono {σ : ℝ} (hσ : 0 < σ) {u w : ℝ} (h : w ^ 2 ≤ u ^ 2) : lineDensity σ u ≤ lineDensity σ w := by
  unfold lineDensity
  refine div_le_div_of_nonneg_right (Real.exp_le_exp.2 ?_) (Real.sqrt_nonneg _)
  exact div_le_div_of_nonneg_right (by linarith) (by positivity)

theorem density_le {σ : ℝ} (hσ : 0 < σ) (u : ℝ) : lineDensity σ u ≤ lineDensity σ 0 := density_mono hσ (by nlinarith [sq_nonneg u])

theorem density_continuous (σ : ℝ) : Continuous (lineDensity σ) := by unfold lineDensity; fun_prop

/-- The variation of the density from `-∞` to `u`. -/
def variation (σ u : ℝ) : ℝ := if u ≤ 0 then lineDensity σ u else 2 * lineDensity σ 0 - lineDensity σ u

theorem variation_bounds {σ : ℝ} (hσ : 0 < σ) (u : ℝ) : 0 ≤ variation σ u ∧ variation σ u ≤ 2 * lineDensity σ 0 := by
  have h1 := density_pos σ u hσ
  have h2 := density_le hσ u
  unfold variation
  split_ifs <;> constructor <;> linarith

theorem variation_le {σ : ℝ} (hσ : 0 < σ) {a c : ℝ} (h : a ≤ c) : |lineDensity σ c - lineDensity σ a| ≤ variation σ c - variation σ a := by
  have h1 := density_le hσ a
  have h2 := density_le hσ c
  unfold variation
  split_ifs with hc ha ha
  · have := density_mono hσ (u := a) (w := c) (by nlinarith)
    rw [abs_of_nonneg (by linarith)]
  · exact absurd (h.trans hc) ha
  · rw [abs_le]; constructor <;> linarith
  · have := density_mono hσ (u := c) (w := a) (by nlinarith)
    rw [abs_of_nonpos (by linarith)]; linarith

/-- The left sum of a function differs from its integral by at most the step times the variation. -/
theorem left_sum {f V : ℝ → ℝ} (hf : Continuous f) (hV : ∀ a c, a ≤ c → |f c - f a| ≤ V c - V a) {h : ℝ} (hh : 0 ≤ h) (n : ℕ) :
    |(∑ m ∈ Finset.range n, h * f (m * h)) - ∫ t in (0 : ℝ)..(n * h), f t| ≤ h * (V (n * h) - V 0) := by
  induction n with
  | zero => simp
  | succ n ih =>
    have e1 : (∫ t in (0 : ℝ)..((n + 1 : ℕ) * h), f t) = (∫ t in (0 : ℝ)..(n * h), f t) + ∫ t in (n * h)..((n + 1 : ℕ) * h), f t :=
      (intervalIntegral.integral_add_adjacent_intervals (hf.intervalIntegrable _ _) (hf.intervalIntegrable _ _)).symm
    have hle : (n : ℝ) * h ≤ (n + 1 : ℕ) * h := by push_cast; nlinarith
    have e2 : h * f (n * h) = ∫ _ in (n * h)..((n + 1 : ℕ) * h), f (n * h) := by
      rw [intervalIntegral.integral_const, smul_eq_mul]; push_cast; ring
    have e3 : |h * f (n * h) - ∫ t in (n * h)..((n + 1 : ℕ) * h), f t| ≤ h * (V ((n + 1 : ℕ) * h) - V (n * h)) := by
      rw [e2, ← intervalIntegral.integral_sub intervalIntegrable_const (hf.intervalIntegrable _ _)]
      have := intervalIntegral.norm_integral_le_of_norm_le_const (a := n * h) (b := (n + 1 : ℕ) * h) (C := V ((n + 1 : ℕ) * h) - V (n * h)) (f := fun t => f (n * h) - f t) fun t ht => by
        rw [Set.uIoc_of_le hle] at ht
        have a1 := hV _ _ ht.1.le
        have a2 := (abs_nonneg _).trans (hV _ _ ht.2)
        rw [Real.norm_eq_abs, abs_sub_comm]
        linarith
      rw [Real.norm_eq_abs] at this
      refine this.trans (le_of_eq ?_)
      rw [abs_of_nonneg (by linarith)]
      push_cast
      ring
    rw [Finset.sum_range_succ, e1]
    have := abs_add_le ((∑ m ∈ Finset.range n, h * f (m * h)) - ∫ t in (0 : ℝ)..(n * h), f t) (h * f (n * h) - ∫ t in (n * h)..((n + 1 : ℕ) * h), f t)
    rw [show (∑ m ∈ Finset.range n, h * f (m * h)) + h * f (n * h) - ((∫ t in (0 : ℝ)..(n * h), f t) + ∫ t in (n * h)..((n + 1 : ℕ) * h), f t) =
      ((∑ m ∈ Finset.range n, h * f (m * h)) - ∫ t in (0 : ℝ)..(n * h), f t) + (h * f (n * h) - ∫ t in (n * h)..((n + 1 : ℕ) * h), f t) by ring]
    refine this.trans ((add_le_add ih e3).trans (le_of_eq ?_))
    ring

/-- What the current carries through `z` up to time `T`: the part of the line density that has passed. -/
theorem passed (b : Beam) (σ zmin z T : ℝ) : b.v * (∫ t in (0 : ℝ)..T, lineDensity σ (z - b.centre zmin t)) = ∫ u in (z - b.centre zmin T)..(z - b.centre zmin 0), lineDensity σ u := by
  have e : ∀ t, z - b.centre zmin t = (z - zmin + b.v * b.ti) - b.v * t := fun t => by unfold Beam.centre; ring
  simp only [e]
  have := intervalIntegral.smul_integral_comp_sub_mul (a := 0) (b := T) (lineDensity σ) b.v (z - zmin + b.v * b.ti)
  rw [smul_eq_mul] at this
  exact this

theorem bunch_balance (b : Beam) (σ zmin T a c : ℝ) :
    b.q * (b.v * (∫ t in (0 : ℝ)..T, lineDensity σ (a - b.centre zmin t)) - b.v * (∫ t in (0 : ℝ)..T, lineDensity σ (c - b.centre zmin t))) =
      bunchBetween b σ zmin T a c - bunchBetween b σ zmin 0 a c := by
  have hc := density_continuous σ
  have i := fun x y => hc.intervalIntegrable (μ := volume) x y
  have key : ∀ x y, (∫ u in x..y, lineDensity σ u) = (∫ u in (0 : ℝ)..y, lineDensity σ u) - ∫ u in (0 : ℝ)..x, lineDensity σ u := fun x y =>
    (intervalIntegral.integral_interval_sub_left (i _ _) (i _ _)).symm
  have sh : ∀ t, bunchBetween b σ zmin t a c = b.q * ∫ u in (a - b.centre zmin t)..(c - b.centre zmin t), lineDensity σ u := fun t => by
    unfold bunchBetween
    rw [intervalIntegral.integral_const_mul, intervalIntegral.integral_comp_sub_right]
  rw [passed, passed, sh, sh, key (a - b.centre zmin T), key (c - b.centre zmin T), key (a - b.centre zmin T), key (a - b.centre zmin 0)]
  ring

/-- The charge the current brings into the space between `a` and `c` in `n` steps, sampled at the steps, and the charge of the bunch there. -/
theorem sampled_charge (b : Beam) {σ : ℝ} (hσ : 0 < σ) (hv : 0 ≤ b.v) (zmin a c : ℝ) {dt : ℝ} (hdt : 0 ≤ dt) (n : ℕ) :
    |(∑ m ∈ Finset.range n, dt * (bunchCurrent b σ zmin (m * dt) a - bunchCurrent b σ zmin (m * dt) c)) - (bunchBetween b σ zmin (n * dt) a c - bunchBetween b σ zmin 0 a c)| ≤
      4 * dt * |b.q| * b.v * lineDensity σ 0 := by
  have one : ∀ z, |(∑ m ∈ Finset.range n, dt * lineDensity σ (z - b.centre zmin (m * dt))) - ∫ t in (0 : ℝ)..(n * dt), lineDensity σ (z - b.centre zmin t)| ≤ dt * (2 * lineDensity σ 0) := by
    intro z
    have hcont : Continuous fun t => lineDensity σ (z - b.centre zmin t) := (density_continuous σ).comp (by unfold Beam.centre; fun_prop)
    refine (left_sum hcont (V := fun t => -variation σ (z - b.centre zmin t)) (fun s t hst => ?_) hdt n).trans ?_
    · have h1 : z - b.centre zmin t ≤ z - b.centre zmin s := by unfold Beam.centre; nlinarith
      have := variation_le hσ h1
      rw [abs_sub_comm]
      linarith
    · have h1 := variation_bounds hσ (z - b.centre zmin (n * dt))
      have h2 := variation_bounds hσ (z - b.centre zmin 0)
      exact mul_le_mul_of_nonneg_left (by linarith [h1.1, h2.2]) hdt
  rw [← bunch_balance]
  have e : (∑ m ∈ Finset.range n, dt * (bunchCurrent b σ zmin (m * dt) a - bunchCurrent b σ zmin (m * dt) c)) =
      b.q * b.v * ((∑ m ∈ Finset.range n, dt * lineDensity σ (a - b.centre zmin (m * dt))) - ∑ m ∈ Finset.range n, dt * lineDensity σ (c - b.centre zmin (m * dt))) := by
    rw [← Finset.sum_sub_distrib, Finset.mul_sum]
    refine Finset.sum_congr rfl fun m _ => ?_
    unfold bunchCurrent
    ring
  rw [e]
  have h1 := one a
  have h2 := one c
  set A := (∑ m ∈ Finset.range n, dt * lineDensity σ (a - b.centre zmin (m * dt)))
  set B := (∑ m ∈ Finset.range n, dt * lineDensity σ (c - b.centre zmin (m * dt)))
  set A' := ∫ t in (0 : ℝ)..(n * dt), lineDensity σ (a - b.centre zmin t)
  set B' := ∫ t in (0 : ℝ)..(n * dt), lineDensity σ (c - b.centre zmin t)
  rw [show b.q * b.v * (A - B) - b.q * (b.v * A' - b.v * B') = b.q * b.v * ((A - A') - (B - B')) by ring, abs_mul, abs_mul, abs_of_nonneg hv]
  have h3 : |(A - A') - (B - B')| ≤ 4 * dt * lineDensity σ 0 := by
    have := abs_sub (A - A') (B - B')
    linarith
  calc |b.q| * b.v * |(A - A') - (B - B')| ≤ |b.q| * b.v * (4 * dt * lineDensity σ 0) := mul_le_mul_of_nonneg_left h3 (mul_nonneg (abs_nonneg _) hv)
    _ = _ := by ring

/-! ### The run -/

section
variable {g0 : Grid.Geom ℝ} {bc : Faces String} {ieps imu sigma : Vec ℝ} {dt : ℝ} {uc : Bool} {g : Grd} {w : WakeArgs} {zmin : ℝ} {N : ℕ} {S D : ℕ → State ℝ}

theorem driven_entry {s : Solver ℝ} {t : ℝ} {a d : State ℝ} (h : Driven s g w zmin t a d) {c i j k : ℕ} (hc : c < 3) (hi : i < s.Nx) (hj : j < s.Ny) (hk : k < s.Nz)
    (hn : ¬ (c = 2 ∧ IsNearest g.Nx g.x w.xsource i ∧ IsNearest g.Ny g.y w.ysource j)) : d.J (pos s.Nx s.Ny s.Nz c i j k) = a.J (pos s.Nx s.Ny s.Nz c i j k) := by
  obtain ⟨-, -, i', l, -, -, sb, -⟩ := h.J
  have hkey : Names (.num c) c := ⟨rfl, hc⟩
  have e := sb.2.2.2 (.num c) c i j k hkey hi hj hk hn
  rw [get_at3 (f := s.fld d.J) _ hkey hi hj hk, get_at3 (f := s.fld a.J) _ hkey hi hj hk] at e
  exact Except.ok.inj e

theorem driven_beam {s : Solver ℝ} (hf : Fitting s g) {t : ℝ} {a d : State ℝ} (h : Driven s g w zmin t a d) {b : Beam} (hb : w.beam = .ok b) {i j k : ℕ} (hk : k < s.Nz)
    (hi : IsNearest g.Nx g.x w.xsource i) (hj : IsNearest g.Ny g.y w.ysource j) :
    d.J (pos s.Nx s.Ny s.Nz 2 i j k) = bunchCurrent b w.sigmaz zmin t (g.z k) / (g.dx i * g.dy j) := by
  obtain ⟨b', hb', i', l, hi', hl, -, hv⟩ := h.J
  obtain rfl : i = i' := C44_unique hi hi'
  obtain rfl : j = l := C44_unique hj hl
  obtain rfl : b' = b := Except.ok.inj (hb'.symm.trans hb)
  have hz : Names (.str "z") 2 := names_iff.2 (by decide)
  have e := hv k (by rw [hf.Nz]; exact hk)
  rw [get_at3 (f := s.fld d.J) _ hz (show i < s.Nx from hf.Nx ▸ hi.1) (show j < s.Ny from hf.Ny ▸ hj.1) hk] at e
  have e' := Except.ok.inj e
  have hq : b'.q = w.q ∧ b'.v = w.v := by
    unfold WakeArgs.beam Beam.init at hb
    cases hb
    exact ⟨rfl, by unfold Beam.v WakeArgs.v; ring⟩
  unfold bunchCurrent
  rw [hq.1, hq.2]
  exact e'

theorem oneStep_J_zero (s : Solver ℝ) (a : State ℝ) {r : ℕ} (h : a.J r = 0) (hs : s.useConductivity = true → s.sigma r = 0) : (oneStep s a).J r = 0 := by
  have key : ∀ x : State ℝ, x.J r = 0 → (advance s x).J r = 0 := fun x hx => by
    show (if s.useConductivity = true then (fun i => s.sigma i * _) else x.J) r = 0
    split_ifs with hc
    · show s.sigma r * _ = 0
      rw [hs hc, zero_mul]
    · exact hx
  unfold oneStep
  split_ifs
  · exact key _ h
  · exact key _ h

/-- Off the beam no current flows in insulating edges. -/
theorem no_current {s : Solver ℝ} (h0 : S 0 = initState) (hD : ∀ n < N, Driven s g w zmin (n * s.dt) (S n) (D n) ∧ S (n + 1) = oneStep s (D n))
    {c i j k : ℕ} (hc : c < 3) (hi : i < s.Nx) (hj : j < s.Ny) (hk : k < s.Nz) (hn : ¬ (c = 2 ∧ IsNearest g.Nx g.x w.xsource i ∧ IsNearest g.Ny g.y w.ysource j))
    (hs : s.useConductivity = true → s.sigma (pos s.Nx s.Ny s.Nz c i j k) = 0) : ∀ n < N, (D n).J (pos s.Nx s.Ny s.Nz c i j k) = 0 := by
  have hS : ∀ n ≤ N, (S n).J (pos s.Nx s.Ny s.Nz c i j k) = 0 := by
    intro n
    induction n with
    | zero => intro _; rw [h0]; rfl
    | succ n ih =>
      intro hn'
      obtain ⟨d, e⟩ := hD n (by omega)
      rw [e]
      exact oneStep_J_zero s _ ((driven_entry d hc hi hj hk hn).trans (ih (by omega))) hs
  intro n hn'
  rw [driven_entry (hD n hn').1 hc hi hj hk hn, hS n hn'.le]

theorem ghosts_zero (s : Solver ℝ) (a : State ℝ) (hE : a.E = fun _ => 0) (hH : a.H = fun _ => 0) : setGhostsTo0 s a = a := by
  obtain ⟨Z1, h1⟩ := ghostE_mask (K := ℝ) s.Nx s.Ny s.Nz
  obtain ⟨Z2, h2⟩ := ghostH_mask (K := ℝ) s.Nx s.Ny s.Nz
  have e1 : (ghostE (s.fld a.E)).array = a.E := by
    funext n
    have := h1 a.E n
    rw [hE] at this ⊢
    simpa [Solver.fld] using this
  have e2 : (ghostH (s.fld a.H)).array = a.H := by
    funext n
    have := h2 a.H n
    rw [hH] at this ⊢
    simpa [Solver.fld] using this
  unfold setGhostsTo0
  rw [e1, e2]

/-- One step of the run. -/
theorem charge_step (h0 : S 0 = initState)
    (hD : ∀ n < N, Driven (build g0 bc ieps imu sigma dt uc) g w zmin (n * dt) (S n) (D n) ∧ S (n + 1) = oneStep (build g0 bc ieps imu sigma dt uc) (D n))
    {i j k : ℕ} (hi0 : 0 < i) (hj0 : 0 < j) (hk0 : 0 < k) (hi : i < g0.Nx) (hj : j < g0.Ny) (hk : k < g0.Nz)
    (hedges : ∀ r ∈ nodeEdges g0 i j k, ieps r ≠ 0 ∧ dualInvArea g0 bc r ≠ 0 ∧ colMask g0 bc r = 1) {n : ℕ} (hn : n < N) :
    nodeCharge g0 bc ieps (S (n + 1)) i j k = nodeCharge g0 bc ieps (S n) i j k - dt * codivAt (view3 g0.Nx g0.Ny g0.Nz (current g0 bc (D n))) i j k := by
  obtain ⟨d, e⟩ := hD n hn
  have hE : nodeCharge g0 bc ieps (S n) i j k = nodeCharge g0 bc ieps (D n) i j k := by unfold nodeCharge eflux; rw [d.E]
  have hst : oneStep (build g0 bc ieps imu sigma dt uc) (D n) = oneStep (build g0 bc ieps imu sigma dt uc) { D n with step0 := false } := by
    cases n with
    | zero =>
      have e1 := ghosts_zero (build g0 bc ieps imu sigma dt uc) (D 0) (by rw [d.E, h0]; rfl) (by rw [d.H, h0]; rfl)
      unfold oneStep
      rw [if_neg (show ¬ (({ D 0 with step0 := false } : State ℝ).step0 = true) from Bool.false_ne_true)]
      split_ifs with hs
      · rw [e1]
      · congr 1
        cases hD0 : D 0
        simp_all
    | succ m =>
      have hs : (D (m + 1)).step0 = false := by rw [d.step0, (hD m (by omega)).2, oneStep_step0]
      congr 1
      cases hD0 : D (m + 1)
      simp_all
  rw [e, hst, hE]
  exact C18_continuity g0 bc ieps imu sigma dt uc { D n with step0 := false } rfl hi0 hj0 hk0 hi hj hk hedges

end

/-- The dual face of the column of edges at node `(i,j)`, compared with the cross section of cell `(i,j)`. -/
def areaRatio (x y : ℕ → ℝ) (i j : ℕ) : ℝ := (x (i + 2) - x i) / 2 * ((y (j + 2) - y j) / 2) / ((x (i + 1) - x i) * (y (j + 1) - y j))

theorem dual_column {Nx Ny Nz : ℕ} (x y z : ℕ → ℝ) {i j k : ℕ} (hi : i + 1 < Nx) (hj : j + 1 < Ny) (hk : k < Nz) :
    (Grid.computeGrid Nx Ny Nz x y z).itA.array (pos Nx Ny Nz 2 i j k) = Grid.guardedInv ((x (i + 2) - x i) / 2 * ((y (j + 2) - y j) / 2)) := by
  have h := Grid.invDualArea_at3 (c := 2) (Nx := Nx) (Ny := Ny) (Nz := Nz) (Grid.computeGrid Nx Ny Nz x y z).tL rfl rfl (by decide) (show i < Nx by omega) (show j < Ny by omega) hk
  have h0 : (Grid.computeGrid Nx Ny Nz x y z).tL.at3 0 i j k = (x (i + 2) - x i) / 2 := by
    refine (Grid.diffField_at3 (Grid.tilde x Nx) (Grid.tilde y Ny) (Grid.tilde z Nz) (c := 0) (by decide) (show i < Nx by omega) (show j < Ny by omega) hk).trans ?_
    rw [if_pos rfl, Grid.tilde_diff x Nx i two_ne_zero (by omega), if_pos hi]
    ring
  have h1 : (Grid.computeGrid Nx Ny Nz x y z).tL.at3 1 i j k = (y (j + 2) - y j) / 2 := by
    refine (Grid.diffField_at3 (Grid.tilde x Nx) (Grid.tilde y Ny) (Grid.tilde z Nz) (c := 1) (by decide) (show i < Nx by omega) (show j < Ny by omega) hk).trans ?_
    rw [if_neg (by decide), if_pos rfl, Grid.tilde_diff y Ny j two_ne_zero (by omega), if_pos hj]
    ring
  refine h.trans ?_
  show Grid.guardedInv ((Grid.computeGrid Nx Ny Nz x y z).tL.at3 0 i j k * (Grid.computeGrid Nx Ny Nz x y z).tL.at3 1 i j k) = _
  rw [h0, h1]

/-- The edges at an inner node are not on the walls. -/
theorem node_mask (g0 : Grid.Geom ℝ) (bc : Faces String) {i j k : ℕ} (hi : 0 < i ∧ i + 1 < g0.Nx) (hj : 0 < j ∧ j + 1 < g0.Ny) (hk : 0 < k ∧ k + 1 < g0.Nz) :
    ∀ r ∈ nodeEdges g0 i j k, colMask g0 bc r = 1 := by
  intro r hr
  simp only [nodeEdges, List.mem_cons, List.not_mem_nil, or_false] at hr
  have e : ∀ (lo hi' : ℝ) {n m : ℕ} (v : ℝ), 0 < m → m + 1 < n → edge lo hi' n m v = v := fun lo hi' n m v h1 h2 => by
    unfold edge
    rw [if_neg (by omega), if_neg (by omega)]
  rcases hr with rfl | rfl | rfl | rfl | rfl | rfl
  · rw [colMask_pos g0 bc (by decide) (by omega) (by omega) (by omega)]
    show edge _ _ _ _ (edge _ _ _ _ 1) = 1
    rw [e _ _ _ hk.1 hk.2, e _ _ _ hj.1 hj.2]
  · rw [colMask_pos g0 bc (by decide) (by omega) (by omega) (by omega)]
    show edge _ _ _ _ (edge _ _ _ _ 1) = 1
    rw [e _ _ _ hk.1 hk.2, e _ _ _ hj.1 hj.2]
  · rw [colMask_pos g0 bc (by decide) (by omega) (by omega) (by omega)]
    show edge _ _ _ _ (edge _ _ _ _ 1) = 1
    rw [e _ _ _ hk.1 hk.2, e _ _ _ hi.1 hi.2]
  · rw [colMask_pos g0 bc (by decide) (by omega) (by omega) (by omega)]
    show edge _ _ _ _ (edge _ _ _ _ 1) = 1
    rw [e _ _ _ hk.1 hk.2, e _ _ _ hi.1 hi.2]
  · rw [colMask_pos g0 bc (by decide) (by omega) (by omega) (by omega)]
    show edge _ _ _ _ (edge _ _ _ _ 1) = 1
    rw [e _ _ _ hj.1 hj.2, e _ _ _ hi.1 hi.2]
  · rw [colMask_pos g0 bc (by decide) (by omega) (by omega) (by omega)]
    show edge _ _ _ _ (edge _ _ _ _ 1) = 1
    rw [e _ _ _ hj.1 hj.2, e _ _ _ hi.1 hi.2]

/-- No face is periodic or of type 'abc' (these change the dual metric of the last layers). -/
def PlainFaces (bc : Faces String) : Prop := (isPeriodic bc.xlo || isPeriodic bc.ylo || isPeriodic bc.zlo) = false ∧ anyFace isAbc bc = false

/-- **C143 (what the fields carry).** A wake run from zero fields in any box with increasing axes: the charge at every insulating inner node off the way of the beam is exactly zero at the end (hence after
any number of steps); at a node of the column the beam moves in, it is what the bunch current through the centres of the two neighbouring cells, sampled at the steps, has brought, times the ratio of the dual
face to the cross section of the cell. -/
theorem C143_actual {Nx Ny Nz : ℕ} {x y z : ℕ → ℝ} (hx : Grid.Increasing x Nx) (hy : Grid.Increasing y Ny) (hz : Grid.Increasing z Nz) {bc : Faces String} (hbc : PlainFaces bc) {ieps imu sigma : Vec ℝ}
    {dt : ℝ} (hdt : 0 < dt) {uc : Bool} {w : WakeArgs} {b : Beam} (hb : w.beam = .ok b) {wakelength : ℝ} {mon : Option Monitor} {md : ℕ → Dset ℝ} {o : WakeOut}
    (ho : wakesolve (build (Grid.computeGrid Nx Ny Nz x y z) bc ieps imu sigma dt uc) (grdOf Nx Ny Nz x y z dt none) w wakelength true none mon md initState = .ok o)
    {i j k : ℕ} (hi : 0 < i ∧ i + 1 < Nx) (hj : 0 < j ∧ j + 1 < Ny) (hk : 0 < k ∧ k + 1 < Nz)
    (hfree : Insulating (Grid.computeGrid Nx Ny Nz x y z) ieps sigma (build (Grid.computeGrid Nx Ny Nz x y z) bc ieps imu sigma dt uc).useConductivity i j k) :
    let Q := nodeCharge (Grid.computeGrid Nx Ny Nz x y z) bc ieps o.st i j k
    (¬ (IsNearest Nx (fun i => x i + (x (i + 1) - x i) / 2) w.xsource i ∧ IsNearest Ny (fun i => y i + (y (i + 1) - y i) / 2) w.ysource j) → Q = 0) ∧
    (IsNearest Nx (fun i => x i + (x (i + 1) - x i) / 2) w.xsource i → IsNearest Ny (fun i => y i + (y (i + 1) - y i) / 2) w.ysource j →
      Q = areaRatio x y i j * ∑ m ∈ Finset.range o.Nt, dt * (bunchCurrent b w.sigmaz (z 0 + (z 1 - z 0) / 2) (m * dt) (z (k - 1) + (z (k - 1 + 1) - z (k - 1)) / 2) -
        bunchCurrent b w.sigmaz (z 0 + (z 1 - z 0) / 2) (m * dt) (z k + (z (k + 1) - z k) / 2))) := by
  intro Q
  set g0 := Grid.computeGrid Nx Ny Nz x y z with hg0
  set s := build g0 bc ieps imu sigma dt uc with hs
  set g := grdOf Nx Ny Nz x y z dt none with hg
  have hf : Fitting s g := ⟨rfl, rfl, rfl, show 0 < Nx by omega, show 0 < Ny by omega, show 0 < Nz by omega, rfl⟩
  obtain ⟨o', S, D, zmin, zmax, ixt, iyt, Ez, ho', -, -, hNt, h0, hfin, hD, hrec, -, hzf, -⟩ := C65_records s g w hf hdt wakelength none mon md initState
  obtain rfl : o = o' := Except.ok.inj (ho.symm.trans ho')
  have hD' : ∀ n < o.Nt, Driven s g w zmin (n * dt) (S n) (D n) ∧ S (n + 1) = oneStep s (D n) := fun n hn => hD n hn
  -- the first cell centre is the smallest
  have hzmin : zmin = z 0 + (z 1 - z 0) / 2 := by
    have h1 := hrec.least
    rw [hzf] at h1
    refine smallest_unique h1 ⟨⟨0, hf.posz, rfl⟩, fun l hl => ?_⟩
    have hl' : l < Nz := hl
    have mono : ∀ l < Nz, z 0 + z 1 ≤ z l + z (l + 1) := by
      intro l
      induction l with
      | zero => intro _; exact le_refl _
      | succ l ih =>
        intro hl
        have := ih (by omega)
        have a1 := hz l (by omega)
        have a2 := hz (l + 1) (by omega)
        linarith
    have := mono l hl'
    show z 0 + (z 1 - z 0) / 2 ≤ z l + (z (l + 1) - z l) / 2
    linarith
  -- metric
  have hd : dualInvArea g0 bc = g0.itA.array := congrArg Fld.array (applyBC_metric g0 bc _ hbc.1 hbc.2).2
  have hmask := node_mask g0 bc (i := i) (j := j) (k := k) hi hj hk
  have hedges : ∀ r ∈ nodeEdges g0 i j k, ieps r ≠ 0 ∧ dualInvArea g0 bc r ≠ 0 ∧ colMask g0 bc r = 1 := by
    intro r hr
    refine ⟨(hfree r hr).1, ?_, hmask r hr⟩
    rw [hd]
    simp only [nodeEdges, List.mem_cons, List.not_mem_nil, or_false] at hr
    rcases hr with rfl | rfl | rfl | rfl | rfl | rfl <;>
      exact itA_ne Nx Ny Nz x y z hx hy hz (by decide) (by omega) (by omega) (by omega)
  have step : ∀ n < o.Nt, _ := fun n hn => charge_step (N := o.Nt) h0 hD' hi.1 hj.1 hk.1 (show i < g0.Nx from by show i < Nx; omega) (show j < g0.Ny from by show j < Ny; omega)
    (show k < g0.Nz from by show k < Nz; omega) hedges hn
  have zero : nodeCharge g0 bc ieps (S 0) i j k = 0 := by
    rw [h0]
    simp [nodeCharge, codivAt, view3, eflux, initState]
  -- currents of edges off the beam
  have off : ∀ n < o.Nt, ∀ c a b' d, c < 3 → a < Nx → b' < Ny → d < Nz → pos Nx Ny Nz c a b' d ∈ nodeEdges g0 i j k → ¬ (c = 2 ∧ IsNearest g.Nx g.x w.xsource a ∧ IsNearest g.Ny g.y w.ysource b') →
      (D n).J (pos Nx Ny Nz c a b' d) = 0 := fun n hn c a b' d hc ha hb' hd' hm hnn =>
    no_current (s := s) (S := S) (N := o.Nt) h0 hD' hc ha hb' hd' hnn (fun h => (hfree _ hm).2 h) n hn
  have cur : ∀ n < o.Nt, codivAt (view3 g0.Nx g0.Ny g0.Nz (current g0 bc (D n))) i j k =
      (D n).J (pos Nx Ny Nz 2 i j k) / g0.itA.array (pos Nx Ny Nz 2 i j k) - (D n).J (pos Nx Ny Nz 2 i j (k - 1)) / g0.itA.array (pos Nx Ny Nz 2 i j (k - 1)) := by
    intro n hn
    have z1 := off n hn 0 i j k (by decide) (by omega) (by omega) (by omega) (by simp [nodeEdges, hg0, Grid.computeGrid]) (fun h => absurd h.1 (by decide))
    have z2 := off n hn 0 (i - 1) j k (by decide) (by omega) (by omega) (by omega) (by simp [nodeEdges, hg0, Grid.computeGrid]) (fun h => absurd h.1 (by decide))
    have z3 := off n hn 1 i j k (by decide) (by omega) (by omega) (by omega) (by simp [nodeEdges, hg0, Grid.computeGrid]) (fun h => absurd h.1 (by decide))
    have z4 := off n hn 1 i (j - 1) k (by decide) (by omega) (by omega) (by omega) (by simp [nodeEdges, hg0, Grid.computeGrid]) (fun h => absurd h.1 (by decide))
    unfold codivAt view3 current
    rw [hd]
    show (D n).J (pos Nx Ny Nz 0 i j k) / _ - (D n).J (pos Nx Ny Nz 0 (i - 1) j k) / _ + ((D n).J (pos Nx Ny Nz 1 i j k) / _ - (D n).J (pos Nx Ny Nz 1 i (j - 1) k) / _) + _ = _
    rw [z1, z2, z3, z4]
    simp only [zero_div, sub_zero, zero_add]
    rfl
  constructor
  · intro hn
    have all : ∀ n ≤ o.Nt, nodeCharge g0 bc ieps (S n) i j k = 0 := by
      intro n
      induction n with
      | zero => intro _; exact zero
      | succ n ih =>
        intro hn'
        rw [step n (by omega), ih (by omega), cur n (by omega),
          off n (by omega) 2 i j k (by decide) (by omega) (by omega) (by omega) (by simp [nodeEdges, hg0, Grid.computeGrid]) (fun h => hn h.2),
          off n (by omega) 2 i j (k - 1) (by decide) (by omega) (by omega) (by omega) (by simp [nodeEdges, hg0, Grid.computeGrid]) (fun h => hn h.2)]
        simp
    show nodeCharge g0 bc ieps o.st i j k = 0
    rw [hfin]
    exact all _ (le_refl _)
  · intro hi' hj'
    have e1 : ∀ l < Nz, g0.itA.array (pos Nx Ny Nz 2 i j l) = Grid.guardedInv ((x (i + 2) - x i) / 2 * ((y (j + 2) - y j) / 2)) := fun l hl => dual_column x y z hi.2 hj.2 hl
    have hA : (x (i + 2) - x i) / 2 * ((y (j + 2) - y j) / 2) ≠ 0 := by
      have a1 := hx i (by omega)
      have a2 := hx (i + 1) hi.2
      have a3 := hy j (by omega)
      have a4 := hy (j + 1) hj.2
      exact (mul_pos (by linarith) (by linarith)).ne'
    have all : ∀ n ≤ o.Nt, nodeCharge g0 bc ieps (S n) i j k = areaRatio x y i j * ∑ m ∈ Finset.range n, dt * (bunchCurrent b w.sigmaz zmin (m * dt) (g.z (k - 1)) -
        bunchCurrent b w.sigmaz zmin (m * dt) (g.z k)) := by
      intro n
      induction n with
      | zero => intro _; rw [zero]; simp
      | succ n ih =>
        intro hn'
        have b1 : (D n).J (pos Nx Ny Nz 2 i j k) = _ := driven_beam hf (hD' n (by omega)).1 hb (k := k) (show k < Nz by omega) hi' hj'
        have b2 : (D n).J (pos Nx Ny Nz 2 i j (k - 1)) = _ := driven_beam hf (hD' n (by omega)).1 hb (k := k - 1) (show k - 1 < Nz by omega) hi' hj'
        rw [step n (by omega), ih (by omega), cur n (by omega), b1, b2, e1 _ (by omega), e1 _ (by omega), Finset.sum_range_succ]
        show _ - dt * (bunchCurrent b w.sigmaz zmin (n * dt) (g.z k) / ((x (i + 1) - x i) * (y (j + 1) - y j)) / _ - bunchCurrent b w.sigmaz zmin (n * dt) (g.z (k - 1)) / ((x (i + 1) - x i) * (y (j + 1) - y j)) / _) = _
        unfold Grid.guardedInv areaRatio
        rw [if_pos hA, one_div, div_inv_eq_mul, div_inv_eq_mul]
        ring
    show nodeCharge g0 bc ieps o.st i j k = _
    rw [hfin, all _ (le_refl _), hzmin]
    rfl

/-- The centre of cell `k`. -/
def cellCentre (z : ℕ → ℝ) (k : ℕ) : ℝ := z k + (z (k + 1) - z k) / 2

/-- The error of first order: four times the peak current times the time step. -/
def chargeError (b : Beam) (σ dt : ℝ) : ℝ := 4 * dt * |b.q| * b.v * lineDensity σ 0

/-- A wake run from zero fields, and an insulating inner node `(i,j,k)` in the column of the beam: everything the theorems below need. -/
structure OnBeam (Nx Ny Nz : ℕ) (x y z : ℕ → ℝ) (bc : Faces String) (ieps imu sigma : Vec ℝ) (uc : Bool) (w : WakeArgs) (i j k : ℕ) : Prop where
  hx : Grid.Increasing x Nx
  hy : Grid.Increasing y Ny
  hz : Grid.Increasing z Nz
  faces : PlainFaces bc
  hsigma : 0 < w.sigmaz
  beta : 0 < w.beta
  hi : 0 < i ∧ i + 1 < Nx
  hj : 0 < j ∧ j + 1 < Ny
  hk : 0 < k ∧ k + 1 < Nz
  free : Insulating (Grid.computeGrid Nx Ny Nz x y z) ieps sigma (build (Grid.computeGrid Nx Ny Nz x y z) bc ieps imu sigma 1 uc).useConductivity i j k
  column : IsNearest Nx (cellCentre x) w.xsource i ∧ IsNearest Ny (cellCentre y) w.ysource j

/-- The charge at the node after a wake run, and the charge the bunch has brought between the two cell centres since the start, times `l`, differ by at most `e`. -/
def CarriesBunch (l e : ℝ) (Nx Ny Nz : ℕ) (x y z : ℕ → ℝ) (bc : Faces String) (ieps : Vec ℝ) (b : Beam) (σ dt : ℝ) (o : WakeOut) (i j k : ℕ) : Prop :=
  |nodeCharge (Grid.computeGrid Nx Ny Nz x y z) bc ieps o.st i j k - l * (bunchBetween b σ (cellCentre z 0) (o.Nt * dt) (cellCentre z (k - 1)) (cellCentre z k) -
    bunchBetween b σ (cellCentre z 0) 0 (cellCentre z (k - 1)) (cellCentre z k))| ≤ e

section
variable {Nx Ny Nz : ℕ} {x y z : ℕ → ℝ} {bc : Faces String} {ieps imu sigma : Vec ℝ} {uc : Bool} {w : WakeArgs} {i j k : ℕ}

theorem areaRatio_pos (h : OnBeam Nx Ny Nz x y z bc ieps imu sigma uc w i j k) : 0 < areaRatio x y i j := by
  have a1 := h.hx i (by have := h.hi; omega)
  have a2 := h.hx (i + 1) h.hi.2
  have a3 := h.hy j (by have := h.hj; omega)
  have a4 := h.hy (j + 1) h.hj.2
  exact div_pos (mul_pos (by linarith) (by linarith)) (mul_pos (by linarith) (by linarith))

theorem beam_v {b : Beam} (hb : w.beam = .ok b) (hβ : 0 < w.beta) : 0 < b.v := by
  unfold WakeArgs.beam Beam.init at hb
  cases hb
  show 0 < cLight * w.beta
  exact mul_pos (by unfold cLight; norm_num) hβ

/-- **C143 (graded meshes).** The charge at a node on the way of the beam is the charge of the bunch between the neighbouring cell centres (minus what was there at the start), *times* the ratio of the dual face
to the cross section of the cell, to first order in the time step. -/
theorem C143_graded (h : OnBeam Nx Ny Nz x y z bc ieps imu sigma uc w i j k) {dt : ℝ} (hdt : 0 < dt) {b : Beam} (hb : w.beam = .ok b) {wakelength : ℝ} {mon : Option Monitor} {md : ℕ → Dset ℝ} {o : WakeOut}
    (ho : wakesolve (build (Grid.computeGrid Nx Ny Nz x y z) bc ieps imu sigma dt uc) (grdOf Nx Ny Nz x y z dt none) w wakelength true none mon md initState = .ok o) :
    CarriesBunch (areaRatio x y i j) (areaRatio x y i j * chargeError b w.sigmaz dt) Nx Ny Nz x y z bc ieps b w.sigmaz dt o i j k := by
  have e := (C143_actual h.hx h.hy h.hz h.faces hdt hb ho h.hi h.hj h.hk h.free).2 h.column.1 h.column.2
  have hr := areaRatio_pos h
  unfold CarriesBunch
  rw [e, ← mul_sub, abs_mul, abs_of_pos hr]
  exact mul_le_mul_of_nonneg_left (sampled_charge b h.hsigma (beam_v hb h.beta).le _ _ _ hdt.le _) hr.le

/-- **C143 (partial).** If the two cells after the beam's column have the same size as its own (in x and y), the charge at a node on the way of the beam is the charge of the bunch between the neighbouring cell
centres, minus what was there at the start, up to four times the peak current times the time step, at the end of every wake run of any length. Missing: other meshes (`C143_graded_refuted`). -/
theorem C143_charge_partial (h : OnBeam Nx Ny Nz x y z bc ieps imu sigma uc w i j k) (hx : x (i + 2) - x (i + 1) = x (i + 1) - x i) (hy : y (j + 2) - y (j + 1) = y (j + 1) - y j)
    {dt : ℝ} (hdt : 0 < dt) {b : Beam} (hb : w.beam = .ok b) {wakelength : ℝ} {mon : Option Monitor} {md : ℕ → Dset ℝ} {o : WakeOut}
    (ho : wakesolve (build (Grid.computeGrid Nx Ny Nz x y z) bc ieps imu sigma dt uc) (grdOf Nx Ny Nz x y z dt none) w wakelength true none mon md initState = .ok o) :
    CarriesBunch 1 (chargeError b w.sigmaz dt) Nx Ny Nz x y z bc ieps b w.sigmaz dt o i j k := by
  have key := C143_graded h hdt hb ho
  have a1 := h.hx i (by have := h.hi; omega)
  have a3 := h.hy j (by have := h.hj; omega)
  have e : areaRatio x y i j = 1 := by
    unfold areaRatio
    rw [show x (i + 2) - x i = 2 * (x (i + 1) - x i) by linarith, show y (j + 2) - y j = 2 * (y (j + 1) - y j) by linarith, mul_div_cancel_left₀ _ two_ne_zero, mul_div_cancel_left₀ _ two_ne_zero]
    exact div_self (mul_pos (by linarith) (by linarith)).ne'
  rw [e, one_mul] at key
  exact key

/-- Once the bunch centre has reached the left cell centre, more charge is between the two centres than at the start. -/
theorem bunch_arrives {b : Beam} {σ : ℝ} (hσ : 0 < σ) (hv : 0 < b.v) (hti : 0 < b.ti) (hq : b.q ≠ 0) {zmin a c : ℝ} (ha : zmin ≤ a) (hac : a < c) :
    ∃ T, 0 < T ∧ bunchBetween b σ zmin T a c ≠ bunchBetween b σ zmin 0 a c := by
  refine ⟨(a - zmin) / b.v + b.ti, by have := div_nonneg (sub_nonneg.2 ha) hv.le; linarith, ?_⟩
  have e1 : b.centre zmin ((a - zmin) / b.v + b.ti) = a := by unfold Beam.centre; field_simp; ring
  have e0 : b.centre zmin 0 < a := by unfold Beam.centre; nlinarith
  unfold bunchBetween
  rw [e1, intervalIntegral.integral_const_mul, intervalIntegral.integral_const_mul]
  intro h
  have h' := mul_left_cancel₀ hq h
  refine absurd h'.symm (ne_of_lt (intervalIntegral.integral_lt_integral_of_continuousOn_of_le_of_exists_lt hac ?_ ?_ ?_ ⟨a, ⟨le_refl _, hac.le⟩, ?_⟩))
  · exact ((density_continuous σ).comp (continuous_id.sub continuous_const)).continuousOn
  · exact ((density_continuous σ).comp (continuous_id.sub continuous_const)).continuousOn
  · intro z hz
    exact density_mono hσ (by nlinarith [hz.1])
  · unfold lineDensity
    refine div_lt_div_of_pos_right (Real.exp_lt_exp.2 ?_) (Real.sqrt_pos.2 (by have := Real.pi_pos; positivity))
    exact div_lt_div_of_pos_right (by nlinarith) (by positivity)

/-- **C143 refuted on graded meshes.** If the dual face of the beam's column differs from the cross section of its cell, then for no constant `C` is the charge at a node on the way of the beam within `C dt` of the
charge of the bunch: with ever smaller time steps the fields carry the wrong charge. -/
theorem C143_graded_refuted (h : OnBeam Nx Ny Nz x y z bc ieps imu sigma uc w i j k) (hg : areaRatio x y i j ≠ 1) {b : Beam} (hb : w.beam = .ok b) (hq : w.q ≠ 0) (md : ℕ → Dset ℝ) :
    ¬ ∃ C, ∀ (dt wakelength : ℝ) (o : WakeOut), 0 < dt →
      wakesolve (build (Grid.computeGrid Nx Ny Nz x y z) bc ieps imu sigma dt uc) (grdOf Nx Ny Nz x y z dt none) w wakelength true none none md initState = .ok o →
      CarriesBunch 1 (C * dt) Nx Ny Nz x y z bc ieps b w.sigmaz dt o i j k := by
  rintro ⟨C, hC⟩
  have hv := beam_v hb h.beta
  have hbq : b.q = w.q ∧ 0 < b.ti ∧ b.v = w.v := by
    have hs := h.hsigma
    have hβ := h.beta
    unfold WakeArgs.beam Beam.init at hb
    cases hb
    refine ⟨rfl, ?_, by unfold Beam.v WakeArgs.v; ring⟩
    show 0 < 8.548921333333334 * w.sigmaz / (cLight * w.beta)
    have : (0 : ℝ) < cLight := by unfold cLight; norm_num
    positivity
  have hzc : ∀ l, l + 1 < Nz → cellCentre z l < cellCentre z (l + 1) := fun l hl => by
    have a1 := h.hz l (by omega)
    have a2 := h.hz (l + 1) hl
    unfold cellCentre
    linarith
  have hz0 : ∀ l, l < Nz → cellCentre z 0 ≤ cellCentre z l := fun l => by
    induction l with
    | zero => intro _; exact le_refl _
    | succ l ih => intro hl; exact (ih (by omega)).trans (hzc l hl).le
  have hk := h.hk
  obtain ⟨T, hT, hne⟩ := bunch_arrives (b := b) h.hsigma hv hbq.2.1 (by rw [hbq.1]; exact hq) (hz0 (k - 1) (by omega)) (show cellCentre z (k - 1) < cellCentre z k by
    have := hzc (k - 1) (by omega); rwa [show k - 1 + 1 = k by omega] at this)
  obtain ⟨zmax, -, hzx⟩ := maxOf_exists (show 0 < Nz by omega) (cellCentre z)
  set B := bunchBetween b w.sigmaz (cellCentre z 0) T (cellCentre z (k - 1)) (cellCentre z k) - bunchBetween b w.sigmaz (cellCentre z 0) 0 (cellCentre z (k - 1)) (cellCentre z k) with hB
  have hB0 : B ≠ 0 := sub_ne_zero.2 hne
  set ρ := areaRatio x y i j with hρ
  -- a run of n steps over the time T
  have run : ∀ n : ℕ, 0 < n → |ρ - 1| * |B| ≤ (ρ * (4 * |b.q| * b.v * lineDensity w.sigmaz 0) + C) * (T / n) := by
    intro n hn
    have hn' : (0 : ℝ) < n := by exact_mod_cast hn
    have hdt : 0 < T / n := div_pos hT hn'
    have hf : Fitting (build (Grid.computeGrid Nx Ny Nz x y z) bc ieps imu sigma (T / n) uc) (grdOf Nx Ny Nz x y z (T / n) none) :=
      ⟨rfl, rfl, rfl, show 0 < Nx by have := h.hi; omega, show 0 < Ny by have := h.hj; omega, show 0 < Nz by omega, rfl⟩
    obtain ⟨o, S, D, zmin', zmax', ixt, iyt, Ez, ho, -, -, hNt, -, -, -, hrec, -, hzf, -⟩ := C65_records _ (grdOf Nx Ny Nz x y z (T / n) none) w hf hdt
      (w.v * T - w.injection * w.v - (zmax - cellCentre z 0)) none none md initState
    have e1 : zmin' = cellCentre z 0 := by
      have h1 := hrec.least
      rw [hzf] at h1
      exact smallest_unique h1 ⟨⟨0, by show 0 < Nz; omega, rfl⟩, fun l hl => hz0 l hl⟩
    have e2 : zmax' = zmax := by
      have h1 := hrec.greatest
      rw [hzf] at h1
      obtain ⟨⟨l, hl, hl'⟩, h2⟩ := h1
      obtain ⟨⟨l', hl2, hl2'⟩, h3⟩ := hzx
      refine le_antisymm ?_ ?_
      · rw [hl']; exact h3 l hl
      · rw [hl2']; exact h2 l' hl2
    have eN : o.Nt = n := by
      rw [hNt, e1, e2]
      show (stepsFor _ w.injection w.v (cellCentre z 0) zmax (T / n)).toNat = n
      unfold stepsFor
      have hv' : w.v ≠ 0 := by rw [← hbq.2.2]; exact hv.ne'
      have hT' := hT.ne'
      have : (w.v * T - w.injection * w.v - (zmax - cellCentre z 0) + w.injection * w.v + (zmax - cellCentre z 0)) / w.v / (T / n) = n := by
        rw [show w.v * T - w.injection * w.v - (zmax - cellCentre z 0) + w.injection * w.v + (zmax - cellCentre z 0) = w.v * T by ring]
        field_simp
      rw [this]
      unfold pyInt
      rw [if_pos (Nat.cast_nonneg n), Int.floor_natCast]
      rfl
    have c1 := C143_graded h hdt hb ho
    have c2 := hC _ _ o hdt ho
    unfold CarriesBunch at c1 c2
    rw [eN, show (n : ℝ) * (T / n) = T by field_simp, ← hB] at c1 c2
    set Q := nodeCharge (Grid.computeGrid Nx Ny Nz x y z) bc ieps o.st i j k
    have : |ρ - 1| * |B| ≤ |Q - ρ * B| + |Q - 1 * B| := by
      rw [← abs_mul, show (ρ - 1) * B = (Q - 1 * B) - (Q - ρ * B) by ring]
      have := abs_sub (Q - 1 * B) (Q - ρ * B)
      linarith
    refine this.trans ((add_le_add c1 c2).trans (le_of_eq ?_))
    unfold chargeError
    ring
  have hpos : 0 < |ρ - 1| * |B| := mul_pos (abs_pos.2 (sub_ne_zero.2 hg)) (abs_pos.2 hB0)
  obtain ⟨n, hn⟩ := exists_nat_gt ((ρ * (4 * |b.q| * b.v * lineDensity w.sigmaz 0) + C) * T / (|ρ - 1| * |B|))
  have h1 := run (n + 1) (by omega)
  rw [div_lt_iff₀ hpos] at hn
  have hn1 : (0 : ℝ) < (n + 1 : ℕ) := by positivity
  rw [← mul_div_assoc, le_div_iff₀ hn1] at h1
  push_cast at h1
  nlinarith

end

/-! ### Concrete cases: an empty box of perfect conductors, a beam aimed at the centre of a cell -/

/-- A beam of charge 1, length 1 and the speed of light, aimed at the centre of cell `(i,j)`. -/
def aimed (x y : ℕ → ℝ) (i j : ℕ) : WakeArgs := ⟨1, 1, 1, cellCentre x i, cellCentre y j, cellCentre x i, cellCentre y j, none, 0⟩

theorem centre_nearest {n : ℕ} {x : ℕ → ℝ} (h : Grid.Increasing x n) {i : ℕ} (hi : i < n) : IsNearest n (cellCentre x) (cellCentre x i) i := by
  refine ⟨hi, fun l _ => by rw [sub_self, abs_zero]; exact abs_nonneg _, fun l hl => ?_⟩
  rw [sub_self, abs_zero]
  refine abs_pos.2 (sub_ne_zero.2 (ne_of_lt ?_))
  have mono : ∀ d, l + d < n → x l ≤ x (l + d) := fun d => by
    induction d with
    | zero => intro _; exact le_refl _
    | succ d ih => intro hd; exact (ih (by omega)).trans (h (l + d) (by omega)).le
  have a1 := mono (i - l) (by omega)
  have a2 := mono (i - l - 1) (by omega)
  rw [show l + (i - l) = i by omega] at a1
  have a3 := h i hi
  have a4 := h l (by omega)
  have a5 : x (l + 1) ≤ x i := by
    have mono' : ∀ d, l + 1 + d < n → x (l + 1) ≤ x (l + 1 + d) := fun d => by
      induction d with
      | zero => intro _; exact le_refl _
      | succ d ih => intro hd; exact (ih (by omega)).trans (h (l + 1 + d) (by omega)).le
    have := mono' (i - (l + 1)) (by omega)
    rwa [show l + 1 + (i - (l + 1)) = i by omega] at this
  unfold cellCentre
  linarith

theorem empty_box {Nx Ny Nz : ℕ} {x y z : ℕ → ℝ} (hx : Grid.Increasing x Nx) (hy : Grid.Increasing y Ny) (hz : Grid.Increasing z Nz) {i j k : ℕ} (hi : 0 < i ∧ i + 1 < Nx) (hj : 0 < j ∧ j + 1 < Ny)
    (hk : 0 < k ∧ k + 1 < Nz) :
    OnBeam Nx Ny Nz x y z ⟨"pec", "pec", "pec", "pec", "pec", "pec"⟩ (fun _ => 1) (fun _ => 1) (fun _ => 0) false (aimed x y i j) i j k where
  hx := hx
  hy := hy
  hz := hz
  faces := ⟨by decide, by decide⟩
  hsigma := one_pos
  beta := one_pos
  hi := hi
  hj := hj
  hk := hk
  free := fun _ _ => ⟨one_ne_zero, fun _ => rfl⟩
  column := ⟨centre_nearest hx (by omega), centre_nearest hy (by omega)⟩

/-- A box of 4 x 4 x 5 unit cells: a run of every length exists, and its fields carry the charge of the bunch. -/
example (wakelength : ℝ) (md : ℕ → Dset ℝ) : ∃ o, wakesolve (build (Grid.computeGrid 4 4 5 (fun n => (n : ℝ)) (fun n => (n : ℝ)) (fun n => (n : ℝ))) ⟨"pec", "pec", "pec", "pec", "pec", "pec"⟩ (fun _ => 1) (fun _ => 1) (fun _ => 0) 1 false)
      (grdOf 4 4 5 (fun n => (n : ℝ)) (fun n => (n : ℝ)) (fun n => (n : ℝ)) 1 none) (aimed (fun n => (n : ℝ)) (fun n => (n : ℝ)) 1 2) wakelength true none none md initState = .ok o ∧
    ∃ b, CarriesBunch 1 (chargeError b 1 1) 4 4 5 (fun n => (n : ℝ)) (fun n => (n : ℝ)) (fun n => (n : ℝ)) ⟨"pec", "pec", "pec", "pec", "pec", "pec"⟩ (fun _ => 1) b 1 1 o 1 2 3 := by
  have hI : ∀ n, Grid.Increasing (fun n : ℕ => (n : ℝ)) n := fun n i _ => by push_cast; linarith
  obtain ⟨o, -, -, -, -, -, -, -, ho, -⟩ := C65_records (build (Grid.computeGrid 4 4 5 (fun n => (n : ℝ)) (fun n => (n : ℝ)) (fun n => (n : ℝ))) ⟨"pec", "pec", "pec", "pec", "pec", "pec"⟩ (fun _ => 1) (fun _ => 1)
      (fun _ => 0) 1 false) (grdOf 4 4 5 (fun n => (n : ℝ)) (fun n => (n : ℝ)) (fun n => (n : ℝ)) 1 none) (aimed (fun n => (n : ℝ)) (fun n => (n : ℝ)) 1 2)
      ⟨rfl, rfl, rfl, show 0 < 4 by omega, show 0 < 4 by omega, show 0 < 5 by omega, rfl⟩ one_pos wakelength none none md initState
  exact ⟨o, ho, _, C143_charge_partial (empty_box (hI 4) (hI 4) (hI 5) ⟨by omega, by omega⟩ ⟨by omega, by omega⟩ ⟨by omega, by omega⟩) (by norm_num) (by norm_num) one_pos rfl ho⟩

/-- An axis of cells of sizes 1, 3, 5, 7: the dual face in x is 4/3 of the cell, and the fields carry 4/3 of the charge. -/
example : areaRatio (fun n : ℕ => (n : ℝ) ^ 2) (fun n => (n : ℝ)) 1 2 = 4 / 3 := by
  unfold areaRatio
  norm_num

example (md : ℕ → Dset ℝ) (b : Beam) (hb : (aimed (fun n : ℕ => (n : ℝ) ^ 2) (fun n => (n : ℝ)) 1 2).beam = .ok b) :
    ¬ ∃ C, ∀ (dt wakelength : ℝ) (o : WakeOut), 0 < dt →
      wakesolve (build (Grid.computeGrid 4 4 5 (fun n : ℕ => (n : ℝ) ^ 2) (fun n => (n : ℝ)) (fun n => (n : ℝ))) ⟨"pec", "pec", "pec", "pec", "pec", "pec"⟩ (fun _ => 1) (fun _ => 1) (fun _ => 0) dt false)
        (grdOf 4 4 5 (fun n : ℕ => (n : ℝ) ^ 2) (fun n => (n : ℝ)) (fun n => (n : ℝ)) dt none) (aimed (fun n : ℕ => (n : ℝ) ^ 2) (fun n => (n : ℝ)) 1 2) wakelength true none none md initState = .ok o →
      CarriesBunch 1 (C * dt) 4 4 5 (fun n : ℕ => (n : ℝ) ^ 2) (fun n => (n : ℝ)) (fun n => (n : ℝ)) ⟨"pec", "pec", "pec", "pec", "pec", "pec"⟩ (fun _ => 1) b 1 dt o 1 2 3 := by
  have hI : ∀ n, Grid.Increasing (fun n : ℕ => (n : ℝ)) n := fun n i _ => by push_cast; linarith
  have hS : Grid.Increasing (fun n : ℕ => (n : ℝ) ^ 2) 4 := fun i _ => by
    have : (0 : ℝ) ≤ i := Nat.cast_nonneg i
    push_cast
    nlinarith
  exact C143_graded_refuted (empty_box hS (hI 4) (hI 5) ⟨by omega, by omega⟩ ⟨by omega, by omega⟩ ⟨by omega, by omega⟩) (by unfold areaRatio; norm_num) hb one_ne_zero md

end
end Wake
end Wakis
