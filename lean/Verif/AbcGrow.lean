import Verif.Stability3
import Verif.AbcFirst

/-!
# C20: absorbing faces between the steps of `emsolve`

`emsolve` (routines.py:170-212) copies, after every step, the layer next to an absorbing face onto the face (C38_cpu_actual).  The copy is
not part of the scheme whose stability C20 proves, and it destroys it: in a closed metal box with one absorbing face and a dielectric the
field grows without bound, although the time step respects the CFL limit.
-/

namespace Wakis
namespace Sol
open Finset Sparse Grid

/-! ### The box -/

/-- 4×2×3 cells of unit size. -/
def aG : Geom ℚ := computeGrid 4 2 3 (fun i => (i : ℚ)) (fun i => (i : ℚ)) (fun i => (i : ℚ))
/-- Absorbing at the low x face, perfectly conducting elsewhere. -/
def aBc : Faces String := ⟨"abc", "pec", "pec", "pec", "pec", "pec"⟩
/-- Vacuum on two edges, relative permittivity 35/16 on the next one along x, perfect conductor elsewhere. -/
def aEps : Vec ℚ := fun r => if r = pos 4 2 3 1 0 0 1 ∨ r = pos 4 2 3 1 1 0 1 then 1 else if r = pos 4 2 3 1 2 0 1 then 16 / 35 else 0
/-- The solver with `dt = 1/2`. -/
def aS : Solver ℚ := build aG aBc aEps (fun _ => 1) (fun _ => 0) (1 / 2) false

/-! ### Two fields that the step and the copy map to combinations of themselves -/

/-- The value of `r` in a table. -/
def tab (l : List (ℕ × ℚ)) (r : ℕ) : ℚ := (l.lookup r).getD 0

/-- First field, before the step and after it (before the copy). -/
def bE0 : Vec ℚ := tab [(32, 5/2), (33, 5/2), (34, 24/5)]
def bH0 : Vec ℚ := tab [(0, 1), (1, 1), (8, -1), (9, -1), (55, -1), (56, 1), (57, 1)]
def mE0 : Vec ℚ := tab [(32, 5/2), (33, 33/40), (34, 78/25)]
def mH0 : Vec ℚ := tab [(0, 9/4), (1, 9/4), (2, 12/5), (8, -9/4), (9, -9/4), (10, -12/5), (55, -9/4), (56, 1), (57, -3/20), (58, 12/5)]
/-- Second field, before the step and after it (before the copy). -/
def bE1 : Vec ℚ := tab [(32, 1/2), (33, 1/2), (34, 8/5)]
def bH1 : Vec ℚ := tab [(0, 1), (1, 1), (2, 1), (8, -1), (9, -1), (10, -1), (55, -1), (58, 1)]
def mE1 : Vec ℚ := tab [(32, 1/2), (33, -19/40), (34, 6/25)]
def mH1 : Vec ℚ := tab [(0, 5/4), (1, 5/4), (2, 9/5), (8, -5/4), (9, -5/4), (10, -9/5), (55, -5/4), (57, -11/20), (58, 9/5)]
/-- The one entry the first step clears. -/
def bX : Vec ℚ := tab [(55, 1)]

/-- `a` times the first field plus `b` times the second. -/
structure Mix (a b : ℚ) (c : ℚ) (st : State ℚ) : Prop where
  E : ∀ r < 72, st.E r = a * bE0 r + b * bE1 r
  H : ∀ r < 72, st.H r = a * bH0 r + b * bH1 r + c * bX r
  J : ∀ r < 72, st.J r = 0

/-! ### The step -/

theorem aColMask : ∀ q < 72, colMask aG aBc q = if q ∈ [32, 33, 34, 36, 37, 38] then 1 else 0 := by decide +kernel
theorem aL : ∀ q < 72, aG.L.array q = 1 := by decide +kernel
theorem aIA : ∀ q < 72, aG.iA.array q = 1 := by decide +kernel

/-- The circulation of a field. -/
def aCurl (v : Vec ℚ) : Vec ℚ := mulVec 72 (C0 4 2 3) fun q => (if q ∈ [32, 33, 34, 36, 37, 38] then 1 else 0) * v q

theorem aCurl0 : ∀ r < 72, bH0 r - 1 / 2 * aCurl bE0 r = mH0 r := by decide +kernel
theorem aCurl1 : ∀ r < 72, bH1 r - 1 / 2 * aCurl bE1 r = mH1 r := by decide +kernel

theorem aCurl_lin (a b : ℚ) {u v w : Vec ℚ} (h : ∀ q < 72, u q = a * v q + b * w q) (r : ℕ) : aCurl u r = a * aCurl v r + b * aCurl w r := by
  unfold aCurl mulVec
  rw [mul_sum, mul_sum, ← sum_add_distrib]
  refine sum_congr rfl fun q hq => ?_
  beta_reduce
  rw [h q (mem_range.1 hq)]
  ring

/-- The dual circulation of a field. -/
def aDual (v : Vec ℚ) : Vec ℚ := mulVec 72 (transpose (C0 4 2 3)) fun q => dualLen aG aBc q * v q

theorem aDual_lin (a b c : ℚ) {u v w x : Vec ℚ} (h : ∀ q < 72, u q = a * v q + b * w q + c * x q) (r : ℕ) :
    aDual u r = a * aDual v r + b * aDual w r + c * aDual x r := by
  unfold aDual mulVec
  rw [mul_sum, mul_sum, mul_sum, ← sum_add_distrib, ← sum_add_distrib]
  refine sum_congr rfl fun q hq => ?_
  beta_reduce
  rw [h q (mem_range.1 hq)]
  ring

theorem aDual33 : aDual mH0 33 = -67/20 ∧ aDual mH1 33 = -39/20 ∧ aDual bX 33 = 0 := by decide +kernel
theorem aDual34 : aDual mH0 34 = -147/20 ∧ aDual mH1 34 = -119/20 ∧ aDual bX 34 = 0 := by decide +kernel


theorem aNoCond : aS.useConductivity = false := by
  show (anyFace isPml aBc || false) = false
  decide

/-- Entries after one step, before the copy. -/
theorem mix_advance {a b c : ℚ} {st : State ℚ} (h : Mix a b c st) :
    (∀ r < 72, r ≠ 32 → (advance aS st).E r = a * mE0 r + b * mE1 r) ∧ (∀ r < 72, (advance aS st).H r = a * mH0 r + b * mH1 r + c * bX r) ∧
      ∀ r < 72, (advance aS st).J r = 0 := by
  have hH : ∀ r < 72, (advance aS st).H r = a * mH0 r + b * mH1 r + c * bX r := by
    intro r hr
    have e : (advance aS st).H r = _ := advance_H aG aBc aEps (fun _ => 1) (fun _ => 0) (1 / 2) false st hr
    have hc : mulVec (3 * (aG.Nx * aG.Ny * aG.Nz)) (C0 aG.Nx aG.Ny aG.Nz) (fun q => colMask aG aBc q * (aG.L.array q * st.E q)) r = aCurl st.E r := by
      unfold aCurl mulVec
      refine sum_congr rfl fun q hq => ?_
      have hq' : q < 72 := mem_range.1 hq
      beta_reduce
      rw [aColMask q hq', aL q hq', one_mul]
      rfl
    rw [e, hc, rowMask_one aG aBc (by decide), aIA r hr, aCurl_lin a b h.E, h.H r hr, ← aCurl0 r hr, ← aCurl1 r hr]
    ring
  refine ⟨fun r hr h32 => ?_, hH, fun r hr => ?_⟩
  · have e : (advance aS st).E r = _ := advance_E aG aBc aEps (fun _ => 1) (fun _ => 0) (1 / 2) false st hr
    have hc : mulVec (3 * (aG.Nx * aG.Ny * aG.Nz)) (transpose (C0 aG.Nx aG.Ny aG.Nz)) (fun q => rowMask aG aBc q * ((applyBC aG aBc (C0 aG.Nx aG.Ny aG.Nz)).tL.array q *
        (advance aS st).H q)) r = a * aDual mH0 r + b * aDual mH1 r + c * aDual bX r := by
      rw [← aDual_lin a b c hH]
      unfold aDual mulVec
      refine sum_congr rfl fun q _ => ?_
      beta_reduce
      rw [rowMask_one aG aBc (by decide), one_mul]
      rfl
    have e2 : (advance (build aG aBc aEps (fun _ => 1) (fun _ => 0) (1 / 2) false) st) = advance aS st := rfl
    rw [e, e2, hc, h.E r hr, h.J r hr]
    by_cases h33 : r = 33
    · subst h33
      have k1 : aEps 33 * (applyBC aG aBc (C0 aG.Nx aG.Ny aG.Nz)).itA.array 33 = 1 := by decide +kernel
      have k2 : bE0 33 = 5/2 ∧ bE1 33 = 1/2 ∧ mE0 33 = 33/40 ∧ mE1 33 = -19/40 := by decide +kernel
      rw [k1, aColMask 33 (by decide), if_pos (by decide), aDual33.1, aDual33.2.1, aDual33.2.2, k2.1, k2.2.1, k2.2.2.1, k2.2.2.2]
      ring
    · by_cases h34 : r = 34
      · subst h34
        have k1 : aEps 34 * (applyBC aG aBc (C0 aG.Nx aG.Ny aG.Nz)).itA.array 34 = 16 / 35 := by decide +kernel
        have k2 : bE0 34 = 24/5 ∧ bE1 34 = 8/5 ∧ mE0 34 = 78/25 ∧ mE1 34 = 6/25 := by decide +kernel
        rw [k1, aColMask 34 (by decide), if_pos (by decide), aDual34.1, aDual34.2.1, aDual34.2.2, k2.1, k2.2.1, k2.2.2.1, k2.2.2.2]
        ring
      · have k : ∀ r < 72, r ≠ 32 → r ≠ 33 → r ≠ 34 → aEps r = 0 ∧ bE0 r = mE0 r ∧ bE1 r = mE1 r := by decide +kernel
        obtain ⟨k1, k2, k3⟩ := k r hr h32 h33 h34
        rw [k1, k2, k3]
        ring
  · have : (advance aS st).J = st.J := by
      unfold advance
      simp [aNoCond]
    rw [this]; exact h.J r hr

/-- The copy brings the result back to a combination of the two fields. -/
theorem copyE0 : ∀ d < 3, ∀ i < 4, ∀ j < 2, ∀ k < 3, mE0 (pos 4 2 3 d (inward aBc 0 i) j k) = -3/20 * bE0 (pos 4 2 3 d i j k) + 12/5 * bE1 (pos 4 2 3 d i j k) := by decide +kernel
theorem copyE1 : ∀ d < 3, ∀ i < 4, ∀ j < 2, ∀ k < 3, mE1 (pos 4 2 3 d (inward aBc 0 i) j k) = -11/20 * bE0 (pos 4 2 3 d i j k) + 9/5 * bE1 (pos 4 2 3 d i j k) := by decide +kernel
theorem copyH0 : ∀ d < 3, ∀ i < 4, ∀ j < 2, ∀ k < 3, mH0 (pos 4 2 3 d (inward aBc 0 i) j k) = -3/20 * bH0 (pos 4 2 3 d i j k) + 12/5 * bH1 (pos 4 2 3 d i j k) := by decide +kernel
theorem copyH1 : ∀ d < 3, ∀ i < 4, ∀ j < 2, ∀ k < 3, mH1 (pos 4 2 3 d (inward aBc 0 i) j k) = -11/20 * bH0 (pos 4 2 3 d i j k) + 9/5 * bH1 (pos 4 2 3 d i j k) := by decide +kernel
theorem copyX : ∀ d < 3, ∀ i < 4, ∀ j < 2, ∀ k < 3, bX (pos 4 2 3 d (inward aBc 0 i) j k) = bX (pos 4 2 3 d i j k) := by decide +kernel
theorem copyI : ∀ i < 4, inward aBc 0 i < 4 ∧ 0 < inward aBc 0 i := by decide +kernel
theorem copyJK (m : ℕ) : inward aBc 1 m = m ∧ inward aBc 2 m = m := by
  have h1 : ¬ (isAbc (faceName aBc 1 .lo) = true ∧ m = 0) := fun h => absurd h.1 (by decide)
  have h2 : ¬ (isAbc (faceName aBc 2 .lo) = true ∧ m = 0) := fun h => absurd h.1 (by decide)
  exact ⟨if_neg h1, if_neg h2⟩
theorem not32 {d i j k : ℕ} (hd : d < 3) (hi : i < 4) (hj : j < 2) (hk : k < 3) (h0 : 0 < i) : pos 4 2 3 d i j k < 72 ∧ pos 4 2 3 d i j k ≠ 32 := by
  unfold pos fl
  constructor <;> omega

/-- The first step of a fresh solver clears nothing in these fields. -/
theorem mix_oneStep {a b c : ℚ} {st : State ℚ} (h : Mix a b c st) (hc : st.step0 = true → ∀ r < 72, (setGhostsTo0 aS st).E r = st.E r ∧ (setGhostsTo0 aS st).H r = st.H r) :
    (∀ r < 72, r ≠ 32 → (oneStep aS st).E r = a * mE0 r + b * mE1 r) ∧ (∀ r < 72, (oneStep aS st).H r = a * mH0 r + b * mH1 r + c * bX r) ∧
      ∀ r < 72, (oneStep aS st).J r = 0 := by
  cases h0 : st.step0 with
  | false => rw [oneStep_started _ _ h0]; exact mix_advance h
  | true =>
    have e : oneStep aS st = advance aS { setGhostsTo0 aS st with step0 := false } := by
      unfold oneStep; rw [if_pos h0]
    rw [e]
    exact mix_advance ⟨fun r hr => ((hc h0 r hr).1.trans (h.E r hr) : (setGhostsTo0 aS st).E r = _), fun r hr => ((hc h0 r hr).2.trans (h.H r hr) : (setGhostsTo0 aS st).H r = _), fun r hr => h.J r hr⟩


theorem aTwo : ¬ TwoSided aBc := by
  rintro ⟨a, ha, h1, h2⟩
  have : a = 0 ∨ a = 1 ∨ a = 2 := by omega
  rcases this with rfl | rfl | rfl <;> revert h1 h2 <;> decide

/-- No source, no callback, fields on the CPU. -/
def aArgs : EmArgs ℚ := ⟨none, none, false⟩

/-- One pass of the loop. -/
theorem mix_pass {a b c : ℚ} {n : ℕ} {st : State ℚ} {L0 L1 : Loop ℚ} (h0 : emsolve aS aBc aArgs n st = .ok L0) (h1 : emsolve aS aBc aArgs (n + 1) st = .ok L1)
    (h : Mix a b c L0.st) (hc : L0.st.step0 = true → ∀ r < 72, (setGhostsTo0 aS L0.st).E r = L0.st.E r ∧ (setGhostsTo0 aS L0.st).H r = L0.st.H r) :
    Mix (-3/20 * a - 11/20 * b) (12/5 * a + 9/5 * b) c L1.st ∧ L1.st.step0 = false := by
  obtain ⟨mE, mH, mJ⟩ := mix_oneStep h hc
  have act : ∀ {d i j k : ℕ}, d < 3 → i < 4 → j < 2 → k < 3 → _ := fun {d i j k} hd hi hj hk =>
    C38_cpu_actual (s := aS) aTwo (by decide) (by decide) (a := aArgs) rfl rfl h0 h1 (d := d) (i := i) (j := j) (k := k) hd hi hj hk
  have mid : midStep aS aArgs n L0.st = oneStep aS L0.st := rfl
  have cell : ∀ (v : Vec ℚ) (d i j k : ℕ), aS.cellOf v d i j k = v (pos 4 2 3 d i j k) := fun _ _ _ _ _ => rfl
  refine ⟨⟨fun r hr => ?_, fun r hr => ?_, fun r hr => ?_⟩, ?_⟩
  · obtain ⟨d, i, j, k, hd, hi, hj, hk, rfl⟩ := pos_surj (show r < 3 * (4 * 2 * 3) from hr)
    obtain ⟨e, -⟩ := act hd hi hj hk
    obtain ⟨i1, i2⟩ := copyI i hi
    rw [cell, cell, mid, (copyJK j).1, (copyJK k).2, mE _ (not32 hd i1 hj hk i2).1 (not32 hd i1 hj hk i2).2, copyE0 d hd i hi j hj k hk, copyE1 d hd i hi j hj k hk] at e
    rw [e]; ring
  · obtain ⟨d, i, j, k, hd, hi, hj, hk, rfl⟩ := pos_surj (show r < 3 * (4 * 2 * 3) from hr)
    obtain ⟨-, e, -⟩ := act hd hi hj hk
    obtain ⟨i1, i2⟩ := copyI i hi
    rw [cell, cell, mid, (copyJK j).1, (copyJK k).2, mH _ (not32 hd i1 hj hk i2).1, copyH0 d hd i hi j hj k hk, copyH1 d hd i hi j hj k hk, copyX d hd i hi j hj k hk] at e
    rw [e]; ring
  · obtain ⟨-, -, e, -⟩ := act (d := 0) (i := 0) (j := 0) (k := 0) (by decide) (by decide) (by decide) (by decide)
    rw [e, mid]; exact mJ r hr
  · obtain ⟨-, -, -, e⟩ := act (d := 0) (i := 0) (j := 0) (k := 0) (by decide) (by decide) (by decide) (by decide)
    rw [e, mid]; unfold oneStep
    cases h : L0.st.step0 with
    | true => rfl
    | false => exact h

/-- The coefficients after `n` steps. -/
def mixAt : ℕ → ℚ × ℚ
  | 0 => (1, 0)
  | n + 1 => (-3/20 * (mixAt n).1 - 11/20 * (mixAt n).2, 12/5 * (mixAt n).1 + 9/5 * (mixAt n).2)

/-- The start: the first field, zero where the first step of a fresh solver clears the fields. -/
def aStart : State ℚ := ⟨bE0, fun r => bH0 r + bX r, fun _ => 0, true⟩

theorem aStart_clear : ∀ r < 72, (setGhostsTo0 aS aStart).E r = aStart.E r ∧ (setGhostsTo0 aS aStart).H r = aStart.H r := by
  have h1 : ∀ r < 72, (setGhostsTo0 aS aStart).E r = bE0 r := by decide +kernel
  have h2 : ∀ r < 72, (setGhostsTo0 aS aStart).H r = bH0 r + bX r := by decide +kernel
  exact fun r hr => ⟨h1 r hr, h2 r hr⟩

theorem mix_run (n : ℕ) : ∃ L, emsolve aS aBc aArgs n aStart = .ok L ∧ Mix (mixAt n).1 (mixAt n).2 1 L.st ∧
    (L.st.step0 = true → ∀ r < 72, (setGhostsTo0 aS L.st).E r = L.st.E r ∧ (setGhostsTo0 aS L.st).H r = L.st.H r) := by
  induction n with
  | zero =>
    refine ⟨emStart aS aBc aArgs aStart, rfl, ⟨fun r _ => ?_, fun r _ => ?_, fun _ _ => rfl⟩, fun _ => aStart_clear⟩
    · show bE0 r = 1 * bE0 r + 0 * bE1 r
      ring
    · show bH0 r + bX r = 1 * bH0 r + 0 * bH1 r + 1 * bX r
      ring
  | succ n ih =>
    obtain ⟨L, h1, h2, h3⟩ := ih
    obtain ⟨L', p, -⟩ := C38_completes (s := aS) aTwo (by decide) aArgs (n + 1) aStart
    obtain ⟨q1, q2⟩ := mix_pass h1 p h2 h3
    exact ⟨L', p, q1, fun h => by rw [q2] at h; cases h⟩

/-- The field on the first vacuum edge next to the absorbing face. -/
def mixE (n : ℕ) : ℚ := 5/2 * (mixAt n).1 + 1/2 * (mixAt n).2

theorem mixE_growth (n : ℕ) : mixE (n + 1) ^ 2 - 33/20 * (mixE n * mixE (n + 1)) + 21/20 * mixE n ^ 2 = 96/25 * (21/20) ^ n := by
  induction n with
  | zero => norm_num [mixE, mixAt]
  | succ n ih =>
    rw [show (96/25 : ℚ) * (21/20) ^ (n + 1) = 96/25 * (21/20) ^ n * (21/20) by ring, ← ih]
    simp only [mixE, mixAt]
    ring

theorem mixE_unbounded (B : ℚ) : ∃ n, B < |mixE n| := by
  by_contra hn
  push Not at hn
  have hB : 0 ≤ B := (abs_nonneg _).trans (hn 0)
  obtain ⟨n, h⟩ := pow_unbounded_of_one_lt (4 * B ^ 2) (show (1 : ℚ) < 21/20 by norm_num)
  have g := mixE_growth n
  have s1 : mixE (n + 1) ^ 2 ≤ B ^ 2 := sq_le_sq' (by linarith [neg_abs_le (mixE (n + 1)), hn (n + 1)]) ((le_abs_self _).trans (hn _))
  have s0 : mixE n ^ 2 ≤ B ^ 2 := sq_le_sq' (by linarith [neg_abs_le (mixE n), hn n]) ((le_abs_self _).trans (hn _))
  have hp : (0 : ℚ) < (21/20) ^ n := by positivity
  nlinarith [sq_nonneg (mixE n + mixE (n + 1)), sq_nonneg B]

/-- **C20, refuted for absorbing faces.** A box of 4×2×3 unit cells with an absorbing low x face and metal walls elsewhere, vacuum and a
dielectric on three edges, perfect conductor elsewhere; `dt = 1/2` satisfies the CFL bound with the factor 3/4.  From a fresh solver with the
given initial field, without source and callback, `emsolve` exceeds every bound. -/
theorem C20_abc_refuted :
    ∃ (ieps : Vec ℚ) (st : State ℚ),
      Admissible (3 * (4 * 2 * 3)) 1 1 ieps (fun _ => 1) ∧ (1 / 2 : ℚ) ^ 2 * (1 / 1 ^ 2 + 1 / 1 ^ 2 + 1 / 1 ^ 2) ≤ 3 / 4 * (1 * 1) ∧
      (∀ r, st.J r = 0) ∧ st.step0 = true ∧ DeadZero aG aBc ieps st ∧
      ∀ B : ℚ, ∃ n L, emsolve (build aG aBc ieps (fun _ => 1) (fun _ => 0) (1 / 2) false) aBc ⟨none, none, false⟩ n st = .ok L ∧
        B < |L.st.E (pos 4 2 3 1 1 0 1)| := by
  refine ⟨aEps, aStart, ⟨one_pos, one_pos, fun r _ => ?_, fun r _ => ?_, fun _ _ => one_pos, fun _ _ => by norm_num⟩, by norm_num, fun _ => rfl, rfl, ?_, fun B => ?_⟩
  · unfold aEps; split_ifs <;> norm_num
  · unfold aEps; split_ifs <;> norm_num
  · intro r hr h0
    left
    have k : ∀ r < 72, aEps r * dualInvArea aG aBc r = 0 → bE0 r = 0 := by decide +kernel
    exact k r hr h0
  · obtain ⟨n, hn⟩ := mixE_unbounded B
    obtain ⟨L, p, q, -⟩ := mix_run n
    refine ⟨n, L, p, ?_⟩
    have e := q.E 33 (by decide)
    have k2 : bE0 33 = 5/2 ∧ bE1 33 = 1/2 := by decide +kernel
    rw [k2.1, k2.2] at e
    have e3 : L.st.E (pos 4 2 3 1 1 0 1) = mixE n := by
      show L.st.E 33 = _
      rw [e]; unfold mixE; ring
    rw [e3]; exact hn

end Sol
end Wakis
