import Verif.WakeRun
import Verif.SolverProps
import Mathlib.Analysis.SpecialFunctions.Trigonometric.Bounds

/-!
# C137: the field patterns of a monitor obey Maxwell's equations in the frequency domain

A wake run with a field monitor (`wakis/routines.py:413-437`, `wakis/field_monitors.py`), as modelled in `WakeRun`.  The time steps are summed by parts.
-/

namespace Wakis
namespace Wake
open Sol Sparse Fld Src

noncomputable section

/-! ### Specification -/

/-- The kernel of a monitor at frequency `f` and time `t`. -/
def kernelAt (f t : ℝ) : ℂ := Complex.exp (-2 * Complex.I * Real.pi * f * (t : ℝ))

/-- The angular frequency at which time steps of length `dt` turn when `f` is monitored: `2 sin(π f dt) / dt`, which tends to `2π f` with the step (`C137_frequency`). -/
def gridOmega (f dt : ℝ) : ℝ := 2 * Real.sin (Real.pi * f * dt) / dt

/-- The pattern at frequency number `f`, as a flat array in the order of the fields. -/
def pattern (s : Solver ℝ) (m : Monitor) (f : ℕ) : ℕ → ℂ := fun q =>
  let N := s.Nx * s.Ny * s.Nz
  m.acc (q / N) f (q % N % s.Nx) (q % N / s.Nx % s.Ny) (q % N / s.Nx / s.Ny)

/-- `ε⁻¹ curl μ⁻¹ curl` of a complex field: first the operator of the magnetic update, then that of the electric one. -/
def curlCurl (s : Solver ℝ) (v : ℕ → ℂ) : ℕ → ℂ := mulVec s.n3 (fun i j => (s.M2 i j : ℂ)) (mulVec s.n3 (fun i j => (s.M1 i j : ℂ)) v)

/-- E after one more step without any current. -/
def nextE (s : Solver ℝ) (st : State ℝ) : ℕ → ℝ := (oneStep s { st with J := fun _ => 0 }).E

/-! ### Summation by parts -/

theorem sum_shift (w : ℂ) (x : ℕ → ℂ) (h0 : x 0 = 0) (N : ℕ) : ∑ n ∈ Finset.range N, w ^ n * x n = w * ∑ n ∈ Finset.range N, w ^ n * x (n + 1) - w ^ N * x N := by
  induction N with
  | zero => simp [h0]
  | succ N ih => rw [Finset.sum_range_succ, Finset.sum_range_succ, ih]; ring

theorem mulVec_sum (n : ℕ) (M : ℕ → ℕ → ℂ) (w : ℂ) (v : ℕ → ℕ → ℂ) (N i : ℕ) :
    mulVec n M (fun q => ∑ l ∈ Finset.range N, w ^ l * v l q) i = ∑ l ∈ Finset.range N, w ^ l * mulVec n M (v l) i := by
  unfold mulVec
  simp only [Finset.mul_sum]
  rw [Finset.sum_comm]
  refine Finset.sum_congr rfl fun l _ => Finset.sum_congr rfl fun j _ => by ring

theorem mulVec_cast (n : ℕ) (M : Mat ℝ) (v : Vec ℝ) (i : ℕ) : mulVec n (fun i j => (M i j : ℂ)) (fun j => (v j : ℂ)) i = ((mulVec n M v i : ℝ) : ℂ) := by
  unfold mulVec
  push_cast
  rfl

theorem mulVec_sub' (n : ℕ) (M : ℕ → ℕ → ℂ) (a b : ℂ) (u v : ℕ → ℂ) (i : ℕ) : mulVec n M (fun q => a * u q - b * v q) i = a * mulVec n M u i - b * mulVec n M v i := by
  unfold mulVec
  rw [Finset.mul_sum, Finset.mul_sum, ← Finset.sum_sub_distrib]
  exact Finset.sum_congr rfl fun j _ => by ring

/-- The two update equations, summed with powers of any number: the second-order equation with the remainder at the end. -/
theorem summed {n : ℕ} {M1 M2 : ℕ → ℕ → ℂ} {dt w : ℂ} {a : ℕ → ℂ} {e h j : ℕ → ℕ → ℂ} {N : ℕ} (e0 : ∀ q, e 0 q = 0) (h0 : ∀ q, h 0 q = 0)
    (hh : ∀ l < N, ∀ q, h (l + 1) q = h l q - dt * mulVec n M1 (e l) q) (he : ∀ l < N, ∀ q, e (l + 1) q = e l q + dt * (mulVec n M2 (h (l + 1)) q - a q * j l q)) (q : ℕ) :
    (1 - w) ^ 2 * (∑ l ∈ Finset.range N, w ^ l * e (l + 1) q) + dt ^ 2 * w * mulVec n M2 (mulVec n M1 fun p => ∑ l ∈ Finset.range N, w ^ l * e (l + 1) p) q +
      dt * (1 - w) * a q * (∑ l ∈ Finset.range N, w ^ l * j l q) =
    -w ^ N * (e N q + dt * mulVec n M2 (fun p => h N p - dt * mulVec n M1 (e N) p) q - w * e N q) := by
  -- the magnetic equation
  have A : ∀ p, (1 - w) * (∑ l ∈ Finset.range N, w ^ l * h (l + 1) p) = (-w ^ N) * (h N p - dt * mulVec n M1 (e N) p) - (dt * w) * mulVec n M1 (fun p => ∑ l ∈ Finset.range N, w ^ l * e (l + 1) p) p := by
    intro p
    have h1 : ∑ l ∈ Finset.range N, w ^ l * h (l + 1) p = ∑ l ∈ Finset.range N, w ^ l * h l p - dt * mulVec n M1 (fun p => ∑ l ∈ Finset.range N, w ^ l * e l p) p := by
      rw [mulVec_sum, Finset.mul_sum, ← Finset.sum_sub_distrib]
      refine Finset.sum_congr rfl fun l hl => ?_
      rw [hh l (Finset.mem_range.1 hl)]
      ring
    have h2 : (fun p => ∑ l ∈ Finset.range N, w ^ l * e l p) = fun p => w * (∑ l ∈ Finset.range N, w ^ l * e (l + 1) p) - w ^ N * e N p := funext fun p => sum_shift w (fun l => e l p) (e0 p) N
    rw [h2, mulVec_sub', sum_shift w (fun l => h l p) (h0 p) N] at h1
    linear_combination h1
  -- the electric equation
  have B : (1 - w) * (∑ l ∈ Finset.range N, w ^ l * e (l + 1) q) = -w ^ N * e N q + dt * (mulVec n M2 (fun p => ∑ l ∈ Finset.range N, w ^ l * h (l + 1) p) q - a q * ∑ l ∈ Finset.range N, w ^ l * j l q) := by
    have h1 : ∑ l ∈ Finset.range N, w ^ l * e (l + 1) q = ∑ l ∈ Finset.range N, w ^ l * e l q +
        dt * (mulVec n M2 (fun p => ∑ l ∈ Finset.range N, w ^ l * h (l + 1) p) q - a q * ∑ l ∈ Finset.range N, w ^ l * j l q) := by
      rw [mulVec_sum, Finset.mul_sum, ← Finset.sum_sub_distrib, Finset.mul_sum, ← Finset.sum_add_distrib]
      refine Finset.sum_congr rfl fun l hl => ?_
      rw [he l (Finset.mem_range.1 hl)]
      ring
    rw [sum_shift w (fun l => e l q) (e0 q) N] at h1
    linear_combination h1
  have C : (1 - w) * mulVec n M2 (fun p => ∑ l ∈ Finset.range N, w ^ l * h (l + 1) p) q =
      (-w ^ N) * mulVec n M2 (fun p => h N p - dt * mulVec n M1 (e N) p) q - (dt * w) * mulVec n M2 (mulVec n M1 fun p => ∑ l ∈ Finset.range N, w ^ l * e (l + 1) p) q := by
    rw [← mulVec_sub', ← mulVec_smul]
    exact congrArg (fun v => mulVec n M2 v q) (funext A)
  linear_combination (1 - w) * B + dt * C

/-! ### The steps of a run -/

theorem oneStep_flag (s : Solver ℝ) (st : State ℝ) : (oneStep s st).step0 = false := by
  unfold oneStep
  by_cases h : st.step0 = true
  · rw [if_pos h]; rfl
  · rw [if_neg h]; simpa [advance] using h

/-- Where the fields are zero or the first step is over, a step is the two updates. -/
theorem step_eq (s : Solver ℝ) (st : State ℝ) (h : st.step0 = false ∨ (∀ q, st.E q = 0) ∧ ∀ q, st.H q = 0) :
    (∀ q, (oneStep s st).H q = st.H q - s.dt * mulVec s.n3 s.M1 st.E q) ∧ ∀ q, (oneStep s st).E q = st.E q + s.dt * (mulVec s.n3 s.M2 (oneStep s st).H q - s.ieps q * st.J q) := by
  unfold oneStep
  by_cases h0 : st.step0 = true
  · rw [if_pos h0]
    have hz := h.resolve_left (by rw [h0]; decide)
    have eE : (setGhostsTo0 s st).E = st.E := funext fun q => (ghostE_zero (s.fld st.E) hz.1 q).trans (hz.1 q).symm
    have eH : (setGhostsTo0 s st).H = st.H := funext fun q => (ghostH_zero (s.fld st.H) hz.2 q).trans (hz.2 q).symm
    refine ⟨fun q => ?_, fun q => ?_⟩
    · show (setGhostsTo0 s st).H q - s.dt * mulVec s.n3 s.M1 (setGhostsTo0 s st).E q = _
      rw [eE, eH]
    · show (setGhostsTo0 s st).E q + s.dt * (mulVec s.n3 s.M2 (advance s { setGhostsTo0 s st with step0 := false }).H q - s.ieps q * st.J q) = _
      rw [eE]
  · rw [if_neg h0]
    exact ⟨fun _ => rfl, fun _ => rfl⟩

/-- The fields of a run that starts with zero fields. -/
structure FromRest (s : Solver ℝ) (S D : ℕ → State ℝ) (N : ℕ) : Prop where
  E0 : ∀ q, (S 0).E q = 0
  H0 : ∀ q, (S 0).H q = 0
  E : ∀ n < N, (D n).E = (S n).E
  H : ∀ n < N, (D n).H = (S n).H
  step0 : ∀ n < N, (D n).step0 = (S n).step0
  step : ∀ n < N, S (n + 1) = oneStep s (D n)

theorem FromRest.ready {s : Solver ℝ} {S D : ℕ → State ℝ} {N : ℕ} (h : FromRest s S D N) {n : ℕ} (hn : n ≤ N) : (S n).step0 = false ∨ (∀ q, (S n).E q = 0) ∧ ∀ q, (S n).H q = 0 := by
  cases n with
  | zero => exact .inr ⟨h.E0, h.H0⟩
  | succ n => rw [h.step n hn]; exact .inl (oneStep_flag _ _)

theorem FromRest.updates {s : Solver ℝ} {S D : ℕ → State ℝ} {N : ℕ} (h : FromRest s S D N) {n : ℕ} (hn : n < N) :
    (∀ q, (S (n + 1)).H q = (S n).H q - s.dt * mulVec s.n3 s.M1 (S n).E q) ∧ ∀ q, (S (n + 1)).E q = (S n).E q + s.dt * (mulVec s.n3 s.M2 (S (n + 1)).H q - s.ieps q * (D n).J q) := by
  have hr := h.ready hn.le
  rw [← h.step0 n hn, ← h.E n hn, ← h.H n hn] at hr
  obtain ⟨h1, h2⟩ := step_eq s (D n) hr
  rw [h.step n hn, ← h.E n hn, ← h.H n hn]
  exact ⟨h1, h2⟩

/-! ### The kernel -/

theorem kernelAt_pow (f dt : ℝ) (n : ℕ) : kernelAt f (n * dt) = kernelAt f dt ^ n := by
  unfold kernelAt
  rw [← Complex.exp_nat_mul]
  congr 1
  push_cast
  ring

theorem kernelAt_add (f t u : ℝ) : kernelAt f (t + u) = kernelAt f t * kernelAt f u := by
  unfold kernelAt
  rw [← Complex.exp_add]
  congr 1
  push_cast
  ring

theorem kernelAt_ne (f t : ℝ) : kernelAt f t ≠ 0 := Complex.exp_ne_zero _

theorem norm_kernelAt (f t : ℝ) : ‖kernelAt f t‖ = 1 := by
  unfold kernelAt
  rw [show (-2 * Complex.I * Real.pi * f * (t : ℝ) : ℂ) = ((-2 * Real.pi * f * t : ℝ) : ℂ) * Complex.I by push_cast; ring]
  exact Complex.norm_exp_ofReal_mul_I _

theorem one_sub_kernelAt (f : ℝ) {dt : ℝ} (hdt : dt ≠ 0) : 1 - kernelAt f dt = kernelAt f dt * (Complex.I * (dt * gridOmega f dt) * kernelAt f (-(dt / 2))) := by
  have h1 : ((dt : ℂ) * (gridOmega f dt : ℂ)) = 2 * Complex.sin ((Real.pi * f * dt : ℝ) : ℂ) := by
    rw [← Complex.ofReal_mul]
    unfold gridOmega
    rw [mul_div_cancel₀ _ hdt]
    push_cast
    ring
  rw [h1, Complex.sin]
  unfold kernelAt
  have a : Complex.exp (-2 * Complex.I * Real.pi * f * ((dt : ℝ) : ℂ)) = Complex.exp (-((Real.pi * f * dt : ℝ) : ℂ) * Complex.I) * Complex.exp (-((Real.pi * f * dt : ℝ) : ℂ) * Complex.I) := by
    rw [← Complex.exp_add]; congr 1; push_cast; ring
  have b : Complex.exp (-2 * Complex.I * Real.pi * f * ((-(dt / 2) : ℝ) : ℂ)) = Complex.exp (((Real.pi * f * dt : ℝ) : ℂ) * Complex.I) := by
    congr 1; push_cast; ring
  have c : Complex.exp (-((Real.pi * f * dt : ℝ) : ℂ) * Complex.I) * Complex.exp (((Real.pi * f * dt : ℝ) : ℂ) * Complex.I) = 1 := by
    rw [← Complex.exp_add, neg_mul, neg_add_cancel, Complex.exp_zero]
  rw [a, b]
  generalize Complex.exp (-((Real.pi * f * dt : ℝ) : ℂ) * Complex.I) = x at c ⊢
  generalize Complex.exp (((Real.pi * f * dt : ℝ) : ℂ) * Complex.I) = y at c ⊢
  linear_combination (x ^ 2 - x * y - 1) * c - x * x * (x - y) * y * Complex.I_sq

theorem kernelAt_half (f dt : ℝ) : kernelAt f dt * kernelAt f (-(dt / 2)) * kernelAt f (-(dt / 2)) = 1 := by
  rw [← kernelAt_add, ← kernelAt_add]
  unfold kernelAt
  rw [show dt + -(dt / 2) + -(dt / 2) = 0 by ring]
  simp

/-- The equation of the Fourier sums of a run from rest. -/
theorem FromRest.wave {s : Solver ℝ} {S D : ℕ → State ℝ} {N : ℕ} (h : FromRest s S D N) (hdt : s.dt ≠ 0) (f : ℝ) (q : ℕ) :
    curlCurl s (fun p => ∑ n ∈ Finset.range N, ((S (n + 1)).E p : ℂ) * kernelAt f (n * s.dt)) q =
      (gridOmega f s.dt : ℂ) ^ 2 * (∑ n ∈ Finset.range N, ((S (n + 1)).E q : ℂ) * kernelAt f (n * s.dt)) -
      Complex.I * gridOmega f s.dt * kernelAt f (-(s.dt / 2)) * s.ieps q * (∑ n ∈ Finset.range N, ((D n).J q : ℂ) * kernelAt f (n * s.dt)) -
      kernelAt f ((N - 1) * s.dt) / (s.dt : ℂ) ^ 2 * ((nextE s (S N) q : ℂ) - kernelAt f s.dt * ((S N).E q : ℂ)) := by
  have key := summed (n := s.n3) (M1 := fun i j => (s.M1 i j : ℂ)) (M2 := fun i j => (s.M2 i j : ℂ)) (dt := (s.dt : ℂ)) (w := kernelAt f s.dt) (a := fun q => (s.ieps q : ℂ))
    (e := fun n q => ((S n).E q : ℂ)) (h := fun n q => ((S n).H q : ℂ)) (j := fun n q => ((D n).J q : ℂ)) (N := N)
    (fun q => by simp only [h.E0 q, Complex.ofReal_zero]) (fun q => by simp only [h.H0 q, Complex.ofReal_zero])
    (fun l hl q => by rw [mulVec_cast, (h.updates hl).1 q]; push_cast; rfl)
    (fun l hl q => by rw [mulVec_cast, (h.updates hl).2 q]; push_cast; rfl) q
  -- one more step without current
  have hn : (nextE s (S N) q : ℂ) = ((S N).E q : ℂ) + s.dt * mulVec s.n3 (fun i j => (s.M2 i j : ℂ)) (fun p => ((S N).H p : ℂ) - s.dt * mulVec s.n3 (fun i j => (s.M1 i j : ℂ)) (fun q => ((S N).E q : ℂ)) p) q := by
    obtain ⟨h1, h2⟩ := step_eq s { S N with J := fun _ => 0 } (h.ready le_rfl)
    have e1 : (fun p => ((S N).H p : ℂ) - s.dt * mulVec s.n3 (fun i j => (s.M1 i j : ℂ)) (fun q => ((S N).E q : ℂ)) p) = fun p => (((oneStep s { S N with J := fun _ => 0 }).H p : ℝ) : ℂ) := by
      funext p
      rw [mulVec_cast, h1 p]
      push_cast
      rfl
    rw [e1, mulVec_cast]
    unfold nextE
    rw [h2 q]
    push_cast
    ring
  simp only [neg_mul] at key
  rw [← hn] at key
  have eF : ∀ x : ℕ → ℂ, ∑ n ∈ Finset.range N, x n * kernelAt f (n * s.dt) = ∑ n ∈ Finset.range N, kernelAt f s.dt ^ n * x n := fun x =>
    Finset.sum_congr rfl fun n _ => by rw [kernelAt_pow, mul_comm]
  have eN : kernelAt f ((N - 1) * s.dt) * kernelAt f s.dt = kernelAt f s.dt ^ N := by
    rw [← kernelAt_add, ← kernelAt_pow]
    congr 1
    ring
  simp only [eF]
  have hw := kernelAt_ne f s.dt
  have hd : (s.dt : ℂ) ≠ 0 := Complex.ofReal_ne_zero.2 hdt
  have e1 := one_sub_kernelAt f hdt
  have e2 := kernelAt_half f s.dt
  unfold curlCurl
  generalize mulVec s.n3 (fun i j => (s.M2 i j : ℂ)) (mulVec s.n3 (fun i j => (s.M1 i j : ℂ)) fun p => ∑ n ∈ Finset.range N, kernelAt f s.dt ^ n * ((S (n + 1)).E p : ℂ)) q = X at key ⊢
  generalize ∑ n ∈ Finset.range N, kernelAt f s.dt ^ n * ((S (n + 1)).E q : ℂ) = F at key ⊢
  generalize ∑ n ∈ Finset.range N, kernelAt f s.dt ^ n * ((D n).J q : ℂ) = G at key ⊢
  generalize (nextE s (S N) q : ℂ) - kernelAt f s.dt * ((S N).E q : ℂ) = R at key ⊢
  rw [← eN] at key
  generalize kernelAt f ((N - 1) * s.dt) = v at key ⊢
  generalize kernelAt f (-(s.dt / 2)) = u at e1 e2 ⊢
  generalize kernelAt f s.dt = w at key e1 e2 hw ⊢
  generalize (gridOmega f s.dt : ℂ) = om at e1 ⊢
  have e3 : (1 - w) ^ 2 = -(w * (s.dt * om) ^ 2) := by
    rw [e1]
    linear_combination (w * s.dt ^ 2 * om ^ 2 * Complex.I ^ 2) * e2 + (w * s.dt ^ 2 * om ^ 2) * Complex.I_sq
  rw [e3, e1] at key
  have hwd : w * (s.dt : ℂ) ^ 2 ≠ 0 := mul_ne_zero hw (pow_ne_zero 2 hd)
  apply mul_left_cancel₀ hwd
  have e4 : w * (s.dt : ℂ) ^ 2 * (v / (s.dt : ℂ) ^ 2 * R) = w * v * R := by field_simp
  rw [mul_sub, mul_sub, e4]
  linear_combination key

/-! ### C137 -/

theorem pattern_sum (s : Solver ℝ) (m : Monitor) (f : ℕ) (x : ℕ → Vec ℝ) (k : ℕ → ℂ) (N : ℕ) (h : ∀ c i j l, m.acc c f i j l = ∑ n ∈ Finset.range N, ((s.fld (x n)).at3 c i j l : ℂ) * k n) :
    pattern s m f = fun q => ∑ n ∈ Finset.range N, (x n q : ℂ) * k n := by
  funext q
  unfold pattern
  simp only [h]
  refine Finset.sum_congr rfl fun n _ => ?_
  have e : (s.fld (x n)).at3 (q / (s.Nx * s.Ny * s.Nz)) (q % (s.Nx * s.Ny * s.Nz) % s.Nx) (q % (s.Nx * s.Ny * s.Nz) / s.Nx % s.Ny) (q % (s.Nx * s.Ny * s.Nz) / s.Nx / s.Ny) = x n q := by
    show x n (q / (s.Nx * s.Ny * s.Nz) * (s.Nx * s.Ny * s.Nz) + (q % (s.Nx * s.Ny * s.Nz) % s.Nx + s.Nx * (q % (s.Nx * s.Ny * s.Nz) / s.Nx % s.Ny + s.Ny * (q % (s.Nx * s.Ny * s.Nz) / s.Nx / s.Ny)))) = x n q
    rw [Nat.mod_add_div, Nat.mod_add_div, Nat.div_add_mod']
  rw [e]

/-- A wake run from rest: the fields `S`, the driven fields `D` and the monitor it leaves. -/
structure Monitored (s : Solver ℝ) (g : Grd) (w : WakeArgs) (zmin : ℝ) (S D : ℕ → State ℝ) (out : WakeOut) (m : Monitor) : Prop where
  start : S 0 = initState
  last : out.st = S out.Nt
  steps : ∀ n < out.Nt, Driven s g w zmin (n * s.dt) (S n) (D n) ∧ S (n + 1) = oneStep s (D n)
  mon : out.mon = some m

theorem Monitored.rest {s : Solver ℝ} {g : Grd} {w : WakeArgs} {zmin : ℝ} {S D : ℕ → State ℝ} {out : WakeOut} {m : Monitor} (h : Monitored s g w zmin S D out m) : FromRest s S D out.Nt where
  E0 := fun q => by rw [h.start]; rfl
  H0 := fun q => by rw [h.start]; rfl
  E := fun n hn => (h.steps n hn).1.E
  H := fun n hn => (h.steps n hn).1.H
  step0 := fun n hn => (h.steps n hn).1.step0
  step := fun n hn => (h.steps n hn).2

/-- **C137.** The pattern a new monitor has collected in a wake run from rest satisfies, at each monitored frequency and each entry, the discrete wave equation at the angular frequency of the
time steps, driven by the Fourier sum of the current (the beam's and, in conductors, the conduction current), up to the fields left at the end of the run: E of the last and of one further
step. -/
theorem C137_wave (s : Solver ℝ) (g : Grd) (w : WakeArgs) (hf : Fitting s g) (hdt : 0 < s.dt) (wakelength : ℝ) (freqs : List ℝ) (md : ℕ → Dset ℝ) :
    ∃ (out : WakeOut) (S D : ℕ → State ℝ) (zmin : ℝ) (m : Monitor), wakesolve s g w wakelength true none (some (Monitor.new freqs)) md initState = .ok out ∧ Monitored s g w zmin S D out m ∧
      ∀ l q, curlCurl s (pattern s m l) q = (gridOmega (freqs.getD l 0) s.dt : ℂ) ^ 2 * pattern s m l q -
        Complex.I * gridOmega (freqs.getD l 0) s.dt * kernelAt (freqs.getD l 0) (-(s.dt / 2)) * s.ieps q * (∑ n ∈ Finset.range out.Nt, ((D n).J q : ℂ) * kernelAt (freqs.getD l 0) (n * s.dt)) -
        kernelAt (freqs.getD l 0) ((out.Nt - 1) * s.dt) / (s.dt : ℂ) ^ 2 * ((nextE s out.st q : ℂ) - kernelAt (freqs.getD l 0) s.dt * (out.st.E q : ℂ)) := by
  obtain ⟨out, S, D, zmin, zmax, m, h1, -, -, -, h5, h6, h7, h8, h9⟩ := C68_actual s g w hf hdt wakelength freqs md initState
  have hm : Monitored s g w zmin S D out m := ⟨h5, h6, h7, h8⟩
  refine ⟨out, S, D, zmin, m, h1, hm, fun l q => ?_⟩
  have hp : pattern s m l = fun q => ∑ n ∈ Finset.range out.Nt, ((S (n + 1)).E q : ℂ) * kernelAt (freqs.getD l 0) (n * s.dt) := by
    refine pattern_sum s m l (fun n => (S (n + 1)).E) (fun n => kernelAt (freqs.getD l 0) (n * s.dt)) out.Nt fun c i j k => ?_
    have h := h9 c l i j k
    have hne := kernelAt_ne (freqs.getD l 0) s.dt
    apply mul_right_cancel₀ hne
    refine (h.trans ?_)
    rw [Finset.sum_mul]
    refine Finset.sum_congr rfl fun n _ => ?_
    rw [mul_assoc _ (kernelAt (freqs.getD l 0) (n * s.dt)) _, ← kernelAt_add]
    unfold kernelAt
    congr 2
    push_cast
    ring
  rw [hp, h6]
  exact hm.rest.wave hdt.ne' _ q

/-- The entry is not in the column of the beam. -/
def OffBeam (s : Solver ℝ) (g : Grd) (w : WakeArgs) (q : ℕ) : Prop :=
  ∃ c i j k, c < 3 ∧ i < s.Nx ∧ j < s.Ny ∧ k < s.Nz ∧ q = flatPos s.Nx s.Ny s.Nz c i j k ∧ ¬ (c = 2 ∧ IsNearest g.Nx g.x w.xsource i ∧ IsNearest g.Ny g.y w.ysource j)

theorem Driven.off {s : Solver ℝ} {g : Grd} {w : WakeArgs} {zmin t : ℝ} {st st' : State ℝ} (h : Driven s g w zmin t st st') {q : ℕ} (hq : OffBeam s g w q) : st'.J q = st.J q := by
  obtain ⟨c, i, j, k, hc, hi, hj, hk, rfl, hn⟩ := hq
  obtain ⟨b, -, _, _, -, -, hsb, -⟩ := h.J
  have hkey : ∃ key, Names key c := by
    interval_cases c
    · exact ⟨.str "x", by simp [Names]⟩
    · exact ⟨.str "y", by simp [Names]⟩
    · exact ⟨.str "z", by simp [Names]⟩
  obtain ⟨key, hkey⟩ := hkey
  have h1 := hsb.2.2.2 key c i j k hkey hi hj hk hn
  rw [C02_layout _ hkey hi hj hk, C02_layout _ hkey hi hj hk] at h1
  exact Except.ok.inj h1

/-- **C137 (no current).** Outside the column of the beam, without conductive materials, the pattern satisfies the source-free wave equation: the defect is at most the sum of the last E and the
next one, over `dt²`.  In particular there is none if both have decayed to zero. -/
theorem C137_free (s : Solver ℝ) (g : Grd) (w : WakeArgs) (hf : Fitting s g) (hdt : 0 < s.dt) (hc : s.useConductivity = false) (wakelength : ℝ) (freqs : List ℝ) (md : ℕ → Dset ℝ) :
    ∃ (out : WakeOut) (m : Monitor), wakesolve s g w wakelength true none (some (Monitor.new freqs)) md initState = .ok out ∧ out.mon = some m ∧
      ∀ l q, OffBeam s g w q → ‖curlCurl s (pattern s m l) q - (gridOmega (freqs.getD l 0) s.dt : ℂ) ^ 2 * pattern s m l q‖ ≤ (|nextE s out.st q| + |out.st.E q|) / s.dt ^ 2 := by
  obtain ⟨out, S, D, zmin, m, h1, hm, h⟩ := C137_wave s g w hf hdt wakelength freqs md
  refine ⟨out, m, h1, hm.mon, fun l q hq => ?_⟩
  have hJ : ∀ n ≤ out.Nt, (S n).J q = 0 := by
    intro n
    induction n with
    | zero => intro _; rw [hm.start]; rfl
    | succ n ih =>
      intro hn
      rw [(hm.steps n hn).2]
      have e : (oneStep s (D n)).J = (D n).J := by
        unfold oneStep advance
        by_cases h0 : (D n).step0 = true
        · rw [if_pos h0]; simp only [hc]; rfl
        · rw [if_neg h0]; simp only [hc]; rfl
      rw [e, (hm.steps n hn).1.off hq]
      exact ih (by omega)
  have hs : ∑ n ∈ Finset.range out.Nt, ((D n).J q : ℂ) * kernelAt (freqs.getD l 0) (n * s.dt) = 0 := by
    refine Finset.sum_eq_zero fun n hn => ?_
    have hn := Finset.mem_range.1 hn
    rw [(hm.steps n hn).1.off hq, hJ n hn.le, Complex.ofReal_zero, zero_mul]
  rw [h l q, hs, mul_zero, sub_zero, sub_sub_cancel_left, norm_neg, norm_mul, norm_div, norm_kernelAt, norm_pow, Complex.norm_real, Real.norm_eq_abs, abs_of_pos hdt, one_div, div_eq_inv_mul]
  refine mul_le_mul_of_nonneg_left ((norm_sub_le _ _).trans ?_) (by positivity)
  rw [norm_mul, norm_kernelAt, one_mul, Complex.norm_real, Complex.norm_real, Real.norm_eq_abs, Real.norm_eq_abs]

/-- **C137 (conductors).** With conductive materials, outside the column of the beam, the pattern satisfies the wave equation with the conductivity `σ` as loss term, up to the fields left at the end. -/
theorem C137_lossy (s : Solver ℝ) (g : Grd) (w : WakeArgs) (hf : Fitting s g) (hdt : 0 < s.dt) (hc : s.useConductivity = true) (wakelength : ℝ) (freqs : List ℝ) (md : ℕ → Dset ℝ) :
    ∃ (out : WakeOut) (m : Monitor), wakesolve s g w wakelength true none (some (Monitor.new freqs)) md initState = .ok out ∧ out.mon = some m ∧
      ∀ l q, OffBeam s g w q → ‖curlCurl s (pattern s m l) q - ((gridOmega (freqs.getD l 0) s.dt : ℂ) ^ 2 -
          Complex.I * gridOmega (freqs.getD l 0) s.dt * kernelAt (freqs.getD l 0) (s.dt / 2) * s.ieps q * s.sigma q) * pattern s m l q‖ ≤
        (|nextE s out.st q| + |out.st.E q|) / s.dt ^ 2 + |gridOmega (freqs.getD l 0) s.dt * (s.ieps q * s.sigma q)| * |out.st.E q| := by
  obtain ⟨out, S, D, zmin, zmax, m, h1, -, -, -, h5, h6, h7, h8, h9⟩ := C68_actual s g w hf hdt wakelength freqs md initState
  have hm : Monitored s g w zmin S D out m := ⟨h5, h6, h7, h8⟩
  refine ⟨out, m, h1, h8, fun l q hq => ?_⟩
  have hp : pattern s m l = fun q => ∑ n ∈ Finset.range out.Nt, ((S (n + 1)).E q : ℂ) * kernelAt (freqs.getD l 0) (n * s.dt) := by
    refine pattern_sum s m l (fun n => (S (n + 1)).E) (fun n => kernelAt (freqs.getD l 0) (n * s.dt)) out.Nt fun c i j k => ?_
    apply mul_right_cancel₀ (kernelAt_ne (freqs.getD l 0) s.dt)
    refine ((h9 c l i j k).trans ?_)
    rw [Finset.sum_mul]
    refine Finset.sum_congr rfl fun n _ => ?_
    rw [mul_assoc _ (kernelAt (freqs.getD l 0) (n * s.dt)) _, ← kernelAt_add]
    unfold kernelAt
    congr 2
    push_cast
    ring
  have hJ : ∀ n ≤ out.Nt, (S n).J q = s.sigma q * (S n).E q := by
    intro n hn
    cases n with
    | zero => rw [hm.start]; show (0 : ℝ) = s.sigma q * 0; rw [mul_zero]
    | succ n =>
      rw [(hm.steps n hn).2]
      unfold oneStep advance
      by_cases h0 : (D n).step0 = true
      · rw [if_pos h0]; simp only [hc]; rfl
      · rw [if_neg h0]; simp only [hc]; rfl
  have hs : ∑ n ∈ Finset.range out.Nt, ((D n).J q : ℂ) * kernelAt (freqs.getD l 0) (n * s.dt) =
      s.sigma q * (kernelAt (freqs.getD l 0) s.dt * ∑ n ∈ Finset.range out.Nt, ((S (n + 1)).E q : ℂ) * kernelAt (freqs.getD l 0) (n * s.dt) -
        kernelAt (freqs.getD l 0) s.dt ^ out.Nt * (out.st.E q : ℂ)) := by
    have e1 : ∑ n ∈ Finset.range out.Nt, ((D n).J q : ℂ) * kernelAt (freqs.getD l 0) (n * s.dt) = s.sigma q * ∑ n ∈ Finset.range out.Nt, kernelAt (freqs.getD l 0) s.dt ^ n * ((S n).E q : ℂ) := by
      rw [Finset.mul_sum]
      refine Finset.sum_congr rfl fun n hn => ?_
      have hn := Finset.mem_range.1 hn
      rw [(hm.steps n hn).1.off hq, hJ n hn.le, kernelAt_pow]
      push_cast
      ring
    rw [e1, sum_shift (kernelAt (freqs.getD l 0) s.dt) (fun n => ((S n).E q : ℂ)) (by simp only [hm.rest.E0 q, Complex.ofReal_zero]), h6]
    congr 3
    exact Finset.sum_congr rfl fun n _ => by rw [kernelAt_pow, mul_comm]
  have key := hm.rest.wave hdt.ne' (freqs.getD l 0) q
  rw [hs, ← h6] at key
  have e3 : kernelAt (freqs.getD l 0) (-(s.dt / 2)) * kernelAt (freqs.getD l 0) s.dt = kernelAt (freqs.getD l 0) (s.dt / 2) := by
    rw [← kernelAt_add]; congr 1; ring
  have e4 : curlCurl s (pattern s m l) q - ((gridOmega (freqs.getD l 0) s.dt : ℂ) ^ 2 -
      Complex.I * gridOmega (freqs.getD l 0) s.dt * kernelAt (freqs.getD l 0) (s.dt / 2) * s.ieps q * s.sigma q) * pattern s m l q =
      Complex.I * kernelAt (freqs.getD l 0) (-(s.dt / 2)) * kernelAt (freqs.getD l 0) s.dt ^ out.Nt * ((gridOmega (freqs.getD l 0) s.dt * (s.ieps q * s.sigma q) : ℝ) : ℂ) * (out.st.E q : ℂ) -
      kernelAt (freqs.getD l 0) ((out.Nt - 1) * s.dt) / (s.dt : ℂ) ^ 2 * ((nextE s out.st q : ℂ) - kernelAt (freqs.getD l 0) s.dt * (out.st.E q : ℂ)) := by
    rw [hp, key, ← e3]
    push_cast
    ring
  rw [e4]
  refine (norm_sub_le _ _).trans ?_
  rw [add_comm]
  refine add_le_add ?_ ?_
  · rw [norm_mul, norm_div, norm_kernelAt, norm_pow, Complex.norm_real, Real.norm_eq_abs, abs_of_pos hdt, one_div, div_eq_inv_mul]
    refine mul_le_mul_of_nonneg_left ((norm_sub_le _ _).trans ?_) (by positivity)
    rw [norm_mul, norm_kernelAt, one_mul, Complex.norm_real, Complex.norm_real, Real.norm_eq_abs, Real.norm_eq_abs]
  · rw [norm_mul, norm_mul, norm_mul, norm_mul, norm_pow, norm_kernelAt, norm_kernelAt, Complex.norm_I, one_pow, one_mul, one_mul, one_mul, Complex.norm_real, Complex.norm_real, Real.norm_eq_abs, Real.norm_eq_abs]

/-- **C137 (frequency).** The angular frequency of the steps is the monitored one, `2π f`, up to an error of second order in the step. -/
theorem C137_frequency (f : ℝ) {dt : ℝ} (hf : 0 ≤ f) (hdt : 0 < dt) : gridOmega f dt ≤ 2 * Real.pi * f ∧ 2 * Real.pi * f - gridOmega f dt ≤ (2 * Real.pi * f) ^ 3 * dt ^ 2 / 24 := by
  have hx : 0 ≤ Real.pi * f * dt := by positivity
  have h1 := Real.sin_le hx
  have h2 := Real.sin_ge_sub_cube hx
  unfold gridOmega
  refine ⟨?_, ?_⟩
  · rw [div_le_iff₀ hdt]; linarith
  · have e : 2 * Real.pi * f - (2 * Real.pi * f) ^ 3 * dt ^ 2 / 24 = 2 * (Real.pi * f * dt - (Real.pi * f * dt) ^ 3 / 6) / dt := by field_simp; ring
    have h3 : 2 * (Real.pi * f * dt - (Real.pi * f * dt) ^ 3 / 6) / dt ≤ 2 * Real.sin (Real.pi * f * dt) / dt := by gcongr
    linarith

/-! ### Cases -/

/-- The hypotheses of the theorems: a grid of one cell with a nonzero curl operator. -/
example : ∃ (s : Solver ℝ) (g : Grd), Fitting s g ∧ 0 < s.dt ∧ s.useConductivity = false ∧ s.M1 0 1 ≠ 0 := by
  refine ⟨⟨1, 1, 1, fun _ _ => 1, fun _ _ => 1, fun _ => 1, fun _ => 0, 1 / 2, false⟩, ⟨1, 1, 1, fun _ => 0, fun _ => 0, fun _ => 0, fun _ => 1, fun _ => 1, fun _ => 1, 1 / 2, none⟩, ⟨rfl, rfl, rfl, one_pos, one_pos, one_pos, rfl⟩, ?_, rfl, ?_⟩
  · show (0 : ℝ) < 1 / 2; norm_num
  · exact one_ne_zero

/-- The same with losses, for `C137_lossy`. -/
example : ∃ (s : Solver ℝ) (g : Grd), Fitting s g ∧ 0 < s.dt ∧ s.useConductivity = true ∧ s.sigma 0 ≠ 0 := by
  refine ⟨⟨1, 1, 1, fun _ _ => 1, fun _ _ => 1, fun _ => 1, fun _ => 2, 1 / 2, true⟩, ⟨1, 1, 1, fun _ => 0, fun _ => 0, fun _ => 0, fun _ => 1, fun _ => 1, fun _ => 1, 1 / 2, none⟩, ⟨rfl, rfl, rfl, one_pos, one_pos, one_pos, rfl⟩, ?_, rfl, ?_⟩
  · show (0 : ℝ) < 1 / 2; norm_num
  · exact two_ne_zero

/-- The x component is never in the column of the beam. -/
example (s : Solver ℝ) (g : Grd) (w : WakeArgs) (hf : Fitting s g) : OffBeam s g w (flatPos s.Nx s.Ny s.Nz 0 0 0 0) :=
  ⟨0, 0, 0, 0, by decide, hf.posx, hf.posy, hf.posz, rfl, fun h => absurd h.1 (by decide)⟩

end
end Wake
end Wakis
