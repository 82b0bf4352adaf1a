import Verif.Rerun
import Verif.SourceProps2

/-!
# C126: starting the sources later only delays the fields

`wakis/solverFIT3D.py:379-400` `one_step` clears the last layers in the first step only (`_set_ghosts_to_0`, 1102-1122).
-/

namespace Wakis
namespace Sol
open Sparse Grid
variable {K : Type _} [Field K]

/-! ### Specification -/

/-- One assignment: the field, the position in its flat array and the value. -/
abbrev Write (K : Type _) := Which × ℕ × K

/-- The fields after `n` steps of a fresh solver, when the assignments `src m` are made before step `m`. -/
def fedRun (s : Solver K) (src : ℕ → List (Write K)) : ℕ → State K
  | 0 => initState
  | n + 1 => oneStep s (runEv s (fedRun s src n) ((src n).map fun w => .write w.1 w.2.1 w.2.2))

/-- `src'` is `src` started `k` steps later: before, it assigns nothing but zeros. -/
structure Delays (k : ℕ) (src src' : ℕ → List (Write K)) : Prop where
  quiet : ∀ m < k, ∀ w ∈ src' m, w.2.2 = 0
  later : ∀ m, src' (k + m) = src m

/-- The entries cleared in the first step: of E the component along an axis in the last layer of this axis, of H the components across an axis in its last layer. -/
def Ghost (Nx Ny Nz : ℕ) : Which → ℕ → Prop
  | .E, r => ∃ c i j k, c < 3 ∧ i < Nx ∧ j < Ny ∧ k < Nz ∧ r = pos Nx Ny Nz c i j k ∧ coord c i j k + 1 = coord c Nx Ny Nz
  | .H, r => ∃ c i j k a, c < 3 ∧ i < Nx ∧ j < Ny ∧ k < Nz ∧ r = pos Nx Ny Nz c i j k ∧ a < 3 ∧ a ≠ c ∧ coord a i j k + 1 = coord a Nx Ny Nz
  | .J, _ => False

/-- The two states hold the same fields in every cell. -/
def Same (s : Solver K) (a b : State K) : Prop := ∀ q < s.n3, a.E q = b.E q ∧ a.H q = b.H q ∧ a.J q = b.J q

/-! ### The clearing of the last layers -/

theorem ghostE_at (Nx Ny Nz : ℕ) (arr : Vec K) {c i j k : ℕ} (hc : c < 3) (hi : i < Nx) (hj : j < Ny) (hk : k < Nz) :
    (ghostE (⟨Nx, Ny, Nz, arr⟩ : Fld K)).array (pos Nx Ny Nz c i j k) = if coord c i j k + 1 = coord c Nx Ny Nz then 0 else arr (pos Nx Ny Nz c i j k) := by
  show (ghostE (⟨Nx, Ny, Nz, arr⟩ : Fld K)).at3 c i j k = if coord c i j k + 1 = coord c Nx Ny Nz then 0 else (⟨Nx, Ny, Nz, arr⟩ : Fld K).at3 c i j k
  unfold ghostE
  rw [setPlane_at3 (by exact hi) (by exact hj) (by exact hk), setPlane_at3 (by exact hi) (by exact hj) (by exact hk), setPlane_at3 (by exact hi) (by exact hj) (by exact hk)]
  have e : ∀ a b : ℕ, a < b → ((a + 1 = b) ↔ a = b - 1) := fun a b h => by omega
  rcases (by omega : c = 0 ∨ c = 1 ∨ c = 2) with rfl | rfl | rfl
  · simp [coord, e i Nx hi]
  · simp [coord, e j Ny hj]
  · simp [coord, e k Nz hk]

theorem ghostH_at (Nx Ny Nz : ℕ) (arr : Vec K) {c i j k : ℕ} (hc : c < 3) (hi : i < Nx) (hj : j < Ny) (hk : k < Nz) :
    (∃ a < 3, a ≠ c ∧ coord a i j k + 1 = coord a Nx Ny Nz) ∧ (ghostH (⟨Nx, Ny, Nz, arr⟩ : Fld K)).array (pos Nx Ny Nz c i j k) = 0 ∨
      (¬ ∃ a < 3, a ≠ c ∧ coord a i j k + 1 = coord a Nx Ny Nz) ∧ (ghostH (⟨Nx, Ny, Nz, arr⟩ : Fld K)).array (pos Nx Ny Nz c i j k) = arr (pos Nx Ny Nz c i j k) := by
  show _ ∧ (ghostH (⟨Nx, Ny, Nz, arr⟩ : Fld K)).at3 c i j k = 0 ∨ _ ∧ (ghostH (⟨Nx, Ny, Nz, arr⟩ : Fld K)).at3 c i j k = (⟨Nx, Ny, Nz, arr⟩ : Fld K).at3 c i j k
  have e : ∀ a b : ℕ, a < b → ((a + 1 = b) ↔ a = b - 1) := fun a b h => by omega
  have ex : (∃ a < 3, a ≠ c ∧ coord a i j k + 1 = coord a Nx Ny Nz) ↔ (0 ≠ c ∧ i = Nx - 1) ∨ (1 ≠ c ∧ j = Ny - 1) ∨ (2 ≠ c ∧ k = Nz - 1) := by
    rw [← e i Nx hi, ← e j Ny hj, ← e k Nz hk]
    constructor
    · rintro ⟨a, ha, hn, h⟩
      rcases (by omega : a = 0 ∨ a = 1 ∨ a = 2) with rfl | rfl | rfl
      · exact .inl ⟨hn, h⟩
      · exact .inr (.inl ⟨hn, h⟩)
      · exact .inr (.inr ⟨hn, h⟩)
    · rintro (⟨hn, h⟩ | ⟨hn, h⟩ | ⟨hn, h⟩)
      · exact ⟨0, by decide, hn, h⟩
      · exact ⟨1, by decide, hn, h⟩
      · exact ⟨2, by decide, hn, h⟩
  rw [ex]
  unfold ghostH
  simp only [ne_eq, not_true_eq_false, one_ne_zero, not_false_eq_true, if_true, if_false, OfNat.ofNat_ne_zero,
      OfNat.ofNat_ne_one, OfNat.zero_ne_ofNat, zero_ne_one, OfNat.one_ne_ofNat]
  rw [setPlane_at3 (by exact hi) (by exact hj) (by exact hk), setPlane_at3 (by exact hi) (by exact hj) (by exact hk), setPlane_at3 (by exact hi) (by exact hj) (by exact hk),
    setPlane_at3 (by exact hi) (by exact hj) (by exact hk), setPlane_at3 (by exact hi) (by exact hj) (by exact hk), setPlane_at3 (by exact hi) (by exact hj) (by exact hk)]
  rcases (by omega : c = 0 ∨ c = 1 ∨ c = 2) with rfl | rfl | rfl
  · by_cases h1 : j = Ny - 1 <;> by_cases h2 : k = Nz - 1 <;> simp [coord, h1, h2]
  · by_cases h1 : i = Nx - 1 <;> by_cases h2 : k = Nz - 1 <;> simp [coord, h1, h2]
  · by_cases h1 : i = Nx - 1 <;> by_cases h2 : j = Ny - 1 <;> simp [coord, h1, h2]

/-- Where the last layers are zero, clearing them changes no cell. -/
theorem clear_id (s : Solver K) {b : State K} (hE : ∀ r, Ghost s.Nx s.Ny s.Nz .E r → b.E r = 0) (hH : ∀ r, Ghost s.Nx s.Ny s.Nz .H r → b.H r = 0) :
    Same s (setGhostsTo0 s b) b := by
  intro q hq
  obtain ⟨c, i, j, k, hc, hi, hj, hk, rfl⟩ := pos_surj hq
  refine ⟨?_, ?_, rfl⟩
  · refine (ghostE_at s.Nx s.Ny s.Nz b.E hc hi hj hk).trans ?_
    split_ifs with h
    · exact (hE _ ⟨c, i, j, k, hc, hi, hj, hk, rfl, h⟩).symm
    · rfl
  · rcases ghostH_at s.Nx s.Ny s.Nz b.H hc hi hj hk with ⟨⟨a, h1, h2, h3⟩, e⟩ | ⟨-, e⟩
    · exact e.trans (hH _ ⟨c, i, j, k, a, hc, hi, hj, hk, rfl, h1, h2, h3⟩).symm
    · exact e

/-! ### Steps and assignments -/

theorem advance_same' (s : Solver K) {a b : State K} (h : Same s a b) : Same s (advance s a) (advance s b) := by
  have hH : ∀ q < s.n3, (advance s a).H q = (advance s b).H q := by
    intro q hq
    show a.H q - s.dt * mulVec s.n3 s.M1 a.E q = b.H q - s.dt * mulVec s.n3 s.M1 b.E q
    rw [(h q hq).2.1, mulVec_congr (fun j _ => rfl) fun j hj => (h j hj).1]
  have hE : ∀ q < s.n3, (advance s a).E q = (advance s b).E q := by
    intro q hq
    show a.E q + s.dt * (mulVec s.n3 s.M2 (advance s a).H q - s.ieps q * a.J q) = b.E q + s.dt * (mulVec s.n3 s.M2 (advance s b).H q - s.ieps q * b.J q)
    rw [(h q hq).1, (h q hq).2.2, mulVec_congr (fun j _ => rfl) fun j hj => hH j hj]
  intro q hq
  refine ⟨hE q hq, hH q hq, ?_⟩
  show (if s.useConductivity then fun i => s.sigma i * (advance s a).E i else a.J) q = (if s.useConductivity then fun i => s.sigma i * (advance s b).E i else b.J) q
  split_ifs
  · simp only [hE q hq]
  · exact (h q hq).2.2

theorem oneStep_flag (s : Solver K) (a : State K) : (oneStep s a).step0 = false := by
  unfold oneStep
  split_ifs with h
  · rfl
  · show a.step0 = false; simpa using h

/-- A step of a solver that has stepped before, and a first step from zero last layers, agree. -/
theorem fed_first_step (s : Solver K) {a b : State K} (h : Same s a b) (ha : a.step0 = false) (hE : ∀ r, Ghost s.Nx s.Ny s.Nz .E r → b.E r = 0)
    (hH : ∀ r, Ghost s.Nx s.Ny s.Nz .H r → b.H r = 0) : Same s (oneStep s a) (oneStep s b) := by
  have ea : oneStep s a = advance s a := by unfold oneStep; rw [ha]; rfl
  rw [ea]
  by_cases hb : b.step0 = true
  · have eb : oneStep s b = advance s { setGhostsTo0 s b with step0 := false } := by unfold oneStep; rw [hb]; rfl
    rw [eb]
    refine advance_same' s fun q hq => ?_
    have := clear_id s hE hH q hq
    exact ⟨(h q hq).1.trans this.1.symm, (h q hq).2.1.trans this.2.1.symm, (h q hq).2.2.trans this.2.2.symm⟩
  · have eb : oneStep s b = advance s b := by unfold oneStep; rw [if_neg hb]
    rw [eb]
    exact advance_same' s h

theorem later_step (s : Solver K) {a b : State K} (h : Same s a b) (ha : a.step0 = false) (hb : b.step0 = false) : Same s (oneStep s a) (oneStep s b) := by
  have ea : oneStep s a = advance s a := by unfold oneStep; rw [ha]; rfl
  have eb : oneStep s b = advance s b := by unfold oneStep; rw [hb]; rfl
  rw [ea, eb]
  exact advance_same' s h

theorem writes_same (s : Solver K) (l : List (Write K)) {a b : State K} (h : Same s a b) :
    Same s (runEv s a (l.map fun w => .write w.1 w.2.1 w.2.2)) (runEv s b (l.map fun w => .write w.1 w.2.1 w.2.2)) := by
  induction l generalizing a b with
  | nil => exact h
  | cons w l ih =>
    refine ih ?_
    obtain ⟨f, n, v⟩ := w
    intro q hq
    cases f
    · refine ⟨?_, (h q hq).2⟩
      show Function.update a.E n v q = Function.update b.E n v q
      by_cases e : q = n
      · subst e; rw [Function.update_self, Function.update_self]
      · rw [Function.update_of_ne e, Function.update_of_ne e, (h q hq).1]
    · refine ⟨(h q hq).1, ?_, (h q hq).2.2⟩
      show Function.update a.H n v q = Function.update b.H n v q
      by_cases e : q = n
      · subst e; rw [Function.update_self, Function.update_self]
      · rw [Function.update_of_ne e, Function.update_of_ne e, (h q hq).2.1]
    · refine ⟨(h q hq).1, (h q hq).2.1, ?_⟩
      show Function.update a.J n v q = Function.update b.J n v q
      by_cases e : q = n
      · subst e; rw [Function.update_self, Function.update_self]
      · rw [Function.update_of_ne e, Function.update_of_ne e, (h q hq).2.2]

theorem writes_flag (s : Solver K) (l : List (Write K)) (a : State K) : (runEv s a (l.map fun w => .write w.1 w.2.1 w.2.2)).step0 = a.step0 := by
  induction l generalizing a with
  | nil => rfl
  | cons w l ih =>
    refine (ih _).trans ?_
    obtain ⟨f, n, v⟩ := w
    cases f <;> rfl

/-- Assignments that give no other value than zero to the entries `P` keep them at zero. -/
theorem writes_zero (s : Solver K) (P : Which → ℕ → Prop) (l : List (Write K)) (hl : ∀ w ∈ l, P w.1 w.2.1 → w.2.2 = 0) {a : State K} (hE : ∀ r, P .E r → a.E r = 0)
    (hH : ∀ r, P .H r → a.H r = 0) (hJ : ∀ r, P .J r → a.J r = 0) :
    (∀ r, P .E r → (runEv s a (l.map fun w => .write w.1 w.2.1 w.2.2)).E r = 0) ∧ (∀ r, P .H r → (runEv s a (l.map fun w => .write w.1 w.2.1 w.2.2)).H r = 0) ∧
      (∀ r, P .J r → (runEv s a (l.map fun w => .write w.1 w.2.1 w.2.2)).J r = 0) := by
  induction l generalizing a with
  | nil => exact ⟨hE, hH, hJ⟩
  | cons w l ih =>
    obtain ⟨f, n, v⟩ := w
    have hv : P f n → v = 0 := hl _ (List.mem_cons_self ..)
    have key : ∀ (x : Vec K) (r : ℕ), (P f r → x r = 0) → P f r → Function.update x n v r = 0 := by
      intro x r hx hr
      by_cases e : r = n
      · subst e; rw [Function.update_self]; exact hv hr
      · rw [Function.update_of_ne e]; exact hx hr
    refine ih (fun w hw => hl w (List.mem_cons_of_mem _ hw)) ?_ ?_ ?_ <;> cases f <;> intro r hr
    all_goals first | exact hE r hr | exact hH r hr | exact hJ r hr | exact key _ r (hE r) hr | exact key _ r (hH r) hr | exact key _ r (hJ r) hr

theorem fedRun_flag (s : Solver K) (src : ℕ → List (Write K)) (n : ℕ) : (fedRun s src (n + 1)).step0 = false := oneStep_flag s _

/-- Before the delayed source starts nothing happens. -/
theorem quiet_zero (s : Solver K) {k : ℕ} {src src' : ℕ → List (Write K)} (h : Delays k src src') (m : ℕ) (hm : m ≤ k) : AllZero s (fedRun s src' m) := by
  induction m with
  | zero => exact fun _ _ => ⟨rfl, rfl, rfl⟩
  | succ m ih =>
    refine allZero_oneStep s _ ?_
    have z := ih (by omega)
    obtain ⟨z1, z2, z3⟩ := writes_zero s (fun _ r => r < s.n3) (src' m) (fun w hw _ => h.quiet m (by omega) w hw) (fun r hr => (z r hr).1) (fun r hr => (z r hr).2.1) fun r hr => (z r hr).2.2
    exact fun r hr => ⟨z1 r hr, z2 r hr, z3 r hr⟩

/-! ### C126 -/

/-- **C126 (partial).** If the source, in its first step, gives no other value than zero to the entries of the last layers that the first step clears, then starting it `k` steps later delays the
fields by `k` steps and changes nothing else: for every solver (grid, boundary, materials, conductivity) and number of steps.  Missing: sources acting on the last layers, `C126_last_layer_refuted`. -/
theorem C126_delay_partial (s : Solver K) {k : ℕ} {src src' : ℕ → List (Write K)} (h : Delays k src src') (hg : ∀ w ∈ src 0, Ghost s.Nx s.Ny s.Nz w.1 w.2.1 → w.2.2 = 0) (n : ℕ) :
    Same s (fedRun s src' (k + n)) (fedRun s src n) := by
  induction n with
  | zero => exact quiet_zero s h k le_rfl
  | succ n ih =>
    show Same s (oneStep s (runEv s (fedRun s src' (k + n)) ((src' (k + n)).map fun w => .write w.1 w.2.1 w.2.2))) (oneStep s (runEv s (fedRun s src n) ((src n).map fun w => .write w.1 w.2.1 w.2.2)))
    rw [h.later n]
    have hw := writes_same s (src n) ih
    cases n with
    | zero =>
      obtain ⟨z1, z2, -⟩ := writes_zero s (Ghost s.Nx s.Ny s.Nz) (src 0) hg (a := initState) (fun _ _ => rfl) (fun _ _ => rfl) fun _ _ => rfl
      cases k with
      | zero =>
        have e : fedRun s src' (0 + 0) = fedRun s src 0 := rfl
        rw [e]
        exact fun q _ => ⟨rfl, rfl, rfl⟩
      | succ k =>
        refine fed_first_step s hw ?_ z1 z2
        rw [writes_flag]
        exact fedRun_flag s src' k
    | succ n =>
      refine later_step s hw ?_ ?_
      · rw [writes_flag]; exact fedRun_flag s src' (k + n)
      · rw [writes_flag]; exact fedRun_flag s src n

/-- **C126 (currents).** A source that assigns J only (the beam; a dipole or pulse on J) can be started later without any other change of the fields. -/
theorem C126_currents (s : Solver K) {k : ℕ} {src src' : ℕ → List (Write K)} (h : Delays k src src') (hJ : ∀ w ∈ src 0, w.1 = .J) (n : ℕ) :
    Same s (fedRun s src' (k + n)) (fedRun s src n) := by
  refine C126_delay_partial s h (fun w hw hg => ?_) n
  rw [hJ w hw] at hg
  exact hg.elim

/-- The property for sources of any kind. -/
def DelayOnly (s : Solver K) : Prop := ∀ (k : ℕ) (src src' : ℕ → List (Write K)), Delays k src src' → ∀ n, Same s (fedRun s src' (k + n)) (fedRun s src n)

/-- **C126 (refuted on the last layers).** For every solver: a source that sets, before the first step only, the H across x in the last layer in x, has no effect; started one step later it does. -/
theorem C126_last_layer_refuted (s : Solver K) (hx : 0 < s.Nx) (hy : 0 < s.Ny) (hz : 0 < s.Nz) : ¬ DelayOnly s := by
  intro H
  have hN : 0 < s.Nx * s.Ny * s.Nz := Nat.mul_pos (Nat.mul_pos hx hy) hz
  set r := pos s.Nx s.Ny s.Nz 1 (s.Nx - 1) 0 0 with hr
  have hlt : r < s.n3 := pos_lt (by decide) (by omega) hy hz
  let src : ℕ → List (Write K) := fun m => if m = 0 then [(.H, r, 1)] else []
  let src' : ℕ → List (Write K) := fun m => if m = 1 then [(.H, r, 1)] else []
  have hd : Delays 1 src src' := by
    refine ⟨fun m hm w hw => ?_, fun m => ?_⟩
    · obtain rfl : m = 0 := by omega
      exact absurd hw (by simp [src'])
    · by_cases h : m = 0
      · subst h; rfl
      · have : ¬ (1 + m = 1) := by omega
        simp only [src, src', if_neg h, if_neg this]
  have h := (H 1 src src' hd 1 r hlt).2.1
  have zero : ∀ x : Vec K, (∀ q < s.n3, x q = 0) → ∀ q, mulVec s.n3 s.M1 x q = 0 := by
    intro x hx q
    rw [mulVec_congr (v' := fun _ => 0) (fun j _ => rfl) hx]
    exact mulVec_zero _ _ _
  have hz0 := quiet_zero s hd 1 le_rfl
  -- the delayed source
  have e1 : (fedRun s src' (1 + 1)).H r = 1 := by
    show (oneStep s { fedRun s src' 1 with H := Function.update (fedRun s src' 1).H r 1 }).H r = 1
    have : oneStep s { fedRun s src' 1 with H := Function.update (fedRun s src' 1).H r 1 } = advance s { fedRun s src' 1 with H := Function.update (fedRun s src' 1).H r 1 } := by
      unfold oneStep
      rw [if_neg]
      show ¬ (fedRun s src' 1).step0 = true
      rw [fedRun_flag]
      decide
    rw [this]
    show Function.update (fedRun s src' 1).H r 1 r - s.dt * mulVec s.n3 s.M1 (fedRun s src' 1).E r = 1
    rw [Function.update_self, zero _ fun q hq => (hz0 q hq).1, mul_zero, sub_zero]
  have e2 : (fedRun s src 1).H r = 0 := by
    have step : ∀ st : State K, st.step0 = true → (oneStep s st).H r = (ghostH (s.fld st.H)).array r - s.dt * mulVec s.n3 s.M1 (ghostE (s.fld st.E)).array r := by
      intro st h0
      unfold oneStep
      rw [h0]
      rfl
    refine (step ⟨fun _ => 0, Function.update (fun _ => 0) r 1, fun _ => 0, true⟩ rfl).trans ?_
    obtain ⟨ZE, hZE⟩ := ghostE_mask (K := K) s.Nx s.Ny s.Nz
    have hzE : ∀ q < s.n3, (ghostE (s.fld (fun _ => (0 : K)))).array q = 0 := by
      intro q _
      rw [Solver.fld, hZE, ite_self]
    rw [zero _ hzE, mul_zero, sub_zero]
    rcases ghostH_at s.Nx s.Ny s.Nz (Function.update (fun _ => (0 : K)) r 1) (c := 1) (i := s.Nx - 1) (j := 0) (k := 0) (by decide) (by omega) hy hz with ⟨-, e⟩ | ⟨n, -⟩
    · exact e
    · exact absurd ⟨0, by decide, by decide, by show s.Nx - 1 + 1 = s.Nx; omega⟩ n
  rw [e1, e2] at h
  exact one_ne_zero h

/-! ### Pulses -/

/-- What a pulse assigns before step `m` (`wakis/sources.py:714-761` with `t = m*dt`): the cells `cells` of the field `f` get `amplitude` times the profile. -/
noncomputable def pulseWrites (sh : Src.Shape) (L delay amplitude dt : ℝ) (f : Which) (cells : List ℕ) (m : ℕ) : List (Write ℝ) :=
  cells.map fun r => (f, r, amplitude * sh.profile L delay (m * dt))

/-- Adding `c*k*dt` to the delay shifts the profile of every shape by `k` steps. -/
theorem C126_profile (sh : Src.Shape) (L delay dt : ℝ) (k m : ℕ) : sh.profile L (delay + Src.cLight * (k * dt)) ((k + m : ℕ) * dt) = sh.profile L delay (m * dt) := by
  have e : ((k + m : ℕ) : ℝ) * dt * Src.cLight - (delay + Src.cLight * (k * dt)) = m * dt * Src.cLight - delay := by push_cast; ring
  cases sh
  · show Src.harrisPulse _ _ _ = Src.harrisPulse _ _ _
    unfold Src.harrisPulse
    rw [e]
  · show Src.gaussianPulse _ _ _ = Src.gaussianPulse _ _ _
    unfold Src.gaussianPulse
    rw [e]
  · show Src.rectangularPulse _ _ _ = Src.rectangularPulse _ _ _
    unfold Src.rectangularPulse
    rw [e]

/-- **C126 (rectangular pulses).** A rectangular pulse with delay `d ≥ 0` on any field and cells, the last layers included: with the delay `d + c*k*dt` the fields are those of the original run,
`k` steps later. -/
theorem C126_rectangular (s : Solver ℝ) {L delay amplitude : ℝ} (hd : 0 ≤ delay) (hdt : 0 ≤ s.dt) (f : Which) (cells : List ℕ) (k n : ℕ) :
    Same s (fedRun s (pulseWrites .rectangular L (delay + Src.cLight * (k * s.dt)) amplitude s.dt f cells) (k + n)) (fedRun s (pulseWrites .rectangular L delay amplitude s.dt f cells) n) := by
  refine C126_delay_partial s ⟨fun m hm w hw => ?_, fun m => ?_⟩ (fun w hw _ => ?_) n
  · obtain ⟨r, -, rfl⟩ := List.mem_map.1 hw
    show amplitude * Src.rectangularPulse L _ _ = 0
    rw [Src.C45_before_rectangular, mul_zero]
    have h1 : (m : ℝ) * s.dt ≤ k * s.dt := mul_le_mul_of_nonneg_right (by exact_mod_cast hm.le) hdt
    have h2 : (0 : ℝ) ≤ Src.cLight := by unfold Src.cLight; norm_num
    have h3 := mul_le_mul_of_nonneg_left h1 h2
    linarith
  · unfold pulseWrites
    simp only [C126_profile]
  · obtain ⟨r, -, rfl⟩ := List.mem_map.1 hw
    show amplitude * Src.rectangularPulse L _ _ = 0
    rw [Src.C45_before_rectangular, mul_zero]
    simpa using hd

/-- The hypotheses are met by a source that acts: a current of one cell before steps 0 and 2, started three steps later, in a solver of 2 x 2 x 2 cells. -/
example : ∃ (src src' : ℕ → List (Write ℚ)), Delays 3 src src' ∧ src 0 = [(.J, 0, 1)] ∧ src 2 = [(.J, 0, 5)] ∧ src' 3 = [(.J, 0, 1)] ∧ src' 0 = [(.J, 1, 0)] ∧
    (∀ w ∈ src 0, w.1 = .J) ∧ (fedRun ⟨2, 2, 2, fun _ _ => 0, fun _ _ => 0, fun _ => 1, fun _ => 0, 1, false⟩ src 1).E 0 = -1 := by
  refine ⟨fun m => if m = 0 then [(.J, 0, 1)] else if m = 2 then [(.J, 0, 5)] else [], fun m => if m < 3 then [(.J, 1, 0)] else if m = 3 then [(.J, 0, 1)] else if m = 5 then [(.J, 0, 5)] else [],
    ⟨fun m hm w hw => ?_, fun m => ?_⟩, rfl, rfl, rfl, rfl, fun w hw => ?_, ?_⟩
  · simp only [hm, if_true, List.mem_singleton] at hw
    rw [hw]
  · have h1 : ¬ 3 + m < 3 := by omega
    simp only [h1, if_false]
    by_cases h2 : m = 0
    · subst h2; rfl
    · by_cases h3 : m = 2
      · subst h3; rfl
      · rw [if_neg (by omega), if_neg (by omega), if_neg h2, if_neg h3]
  · simp only [if_true, List.mem_singleton] at hw
    rw [hw]
  · decide +kernel

end Sol
end Wakis
