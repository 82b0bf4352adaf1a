import Verif.Stability

/-!
# Accumulation of local errors

A perturbed run of the linear time stepping: the norm of the perturbation after `n` steps is bounded by the initial one plus the sum of the local ones, times
the stability constant of C20.
-/

namespace Wakis
namespace Conv
open Finset Sol Sparse

/-- A state with no current in a started solver. -/
def eh (e h : ℕ → ℝ) : State ℝ := ⟨e, h, fun _ => 0, false⟩

/-- The weighted norm of the fields. -/
noncomputable def nrm (w v : ℕ → ℝ) (n : ℕ) (st : State ℝ) : ℝ := Real.sqrt (∑ r ∈ range n, w r * st.E r ^ 2 + ∑ r ∈ range n, v r * st.H r ^ 2)

theorem sqrt_add_le_of {A B C : ℝ} (hA : 0 ≤ A) (hB : 0 ≤ B) (h : C ^ 2 ≤ A * B) : Real.sqrt (A + 2 * C + B) ≤ Real.sqrt A + Real.sqrt B := by
  apply Real.sqrt_le_iff.2 ⟨by positivity, ?_⟩
  have e1 := Real.sq_sqrt hA
  have e2 := Real.sq_sqrt hB
  have : C ≤ Real.sqrt A * Real.sqrt B := by
    apply le_of_sq_le_sq' h hA hB
  nlinarith
where
  le_of_sq_le_sq' {A B C : ℝ} (h : C ^ 2 ≤ A * B) (hA : 0 ≤ A) (hB : 0 ≤ B) : C ≤ Real.sqrt A * Real.sqrt B := by
    rw [← Real.sqrt_mul hA]
    exact Real.le_sqrt_of_sq_le h

theorem nrm_lin {w v : ℕ → ℝ} {n : ℕ} (hw : ∀ r < n, 0 ≤ w r) (hv : ∀ r < n, 0 ≤ v r) (a b : State ℝ) :
    nrm w v n (lin 1 1 a b) ≤ nrm w v n a + nrm w v n b := by
  unfold nrm
  have nn : ∀ st : State ℝ, 0 ≤ ∑ r ∈ range n, w r * st.E r ^ 2 + ∑ r ∈ range n, v r * st.H r ^ 2 := fun st =>
    add_nonneg (sum_nonneg fun r hr => mul_nonneg (hw r (mem_range.1 hr)) (sq_nonneg _)) (sum_nonneg fun r hr => mul_nonneg (hv r (mem_range.1 hr)) (sq_nonneg _))
  have e : ∑ r ∈ range n, w r * (lin 1 1 a b).E r ^ 2 + ∑ r ∈ range n, v r * (lin 1 1 a b).H r ^ 2 =
      (∑ r ∈ range n, w r * a.E r ^ 2 + ∑ r ∈ range n, v r * a.H r ^ 2) +
        2 * (∑ r ∈ range n, w r * (a.E r * b.E r) + ∑ r ∈ range n, v r * (a.H r * b.H r)) +
      (∑ r ∈ range n, w r * b.E r ^ 2 + ∑ r ∈ range n, v r * b.H r ^ 2) := by
    rw [mul_add, mul_sum, mul_sum]
    have e1 : ∑ r ∈ range n, w r * (lin 1 1 a b).E r ^ 2 = ∑ r ∈ range n, w r * a.E r ^ 2 + ∑ r ∈ range n, 2 * (w r * (a.E r * b.E r)) + ∑ r ∈ range n, w r * b.E r ^ 2 := by
      rw [← sum_add_distrib, ← sum_add_distrib]
      refine sum_congr rfl fun r _ => ?_
      simp only [lin]; ring
    have e2 : ∑ r ∈ range n, v r * (lin 1 1 a b).H r ^ 2 = ∑ r ∈ range n, v r * a.H r ^ 2 + ∑ r ∈ range n, 2 * (v r * (a.H r * b.H r)) + ∑ r ∈ range n, v r * b.H r ^ 2 := by
      rw [← sum_add_distrib, ← sum_add_distrib]
      refine sum_congr rfl fun r _ => ?_
      simp only [lin]; ring
    rw [e1, e2]; ring
  rw [e]
  refine sqrt_add_le_of (nn a) (nn b) ?_
  -- Cauchy-Schwarz on the two families together
  have cs := sum_mul_sq_le_sq_mul_sq (range n ×ˢ (range 2)) (fun q => Real.sqrt (if q.2 = 0 then w q.1 else v q.1) * (if q.2 = 0 then a.E q.1 else a.H q.1))
    (fun q => Real.sqrt (if q.2 = 0 then w q.1 else v q.1) * (if q.2 = 0 then b.E q.1 else b.H q.1))
  have flat : ∀ f g : ℕ → ℝ, ∑ q ∈ range n ×ˢ range 2, (if q.2 = 0 then f q.1 else g q.1) = ∑ r ∈ range n, f r + ∑ r ∈ range n, g r := by
    intro f g
    rw [sum_product, ← sum_add_distrib]
    refine sum_congr rfl fun r _ => ?_
    simp [sum_range_succ]
  have t1 : ∀ x y : ℕ → ℝ, ∀ x' y' : ℕ → ℝ, ∑ q ∈ range n ×ˢ range 2, (Real.sqrt (if q.2 = 0 then w q.1 else v q.1) * (if q.2 = 0 then x q.1 else y q.1)) *
      (Real.sqrt (if q.2 = 0 then w q.1 else v q.1) * (if q.2 = 0 then x' q.1 else y' q.1)) = ∑ r ∈ range n, w r * (x r * x' r) + ∑ r ∈ range n, v r * (y r * y' r) := by
    intro x y x' y'
    rw [← flat]
    refine sum_congr rfl fun q hq => ?_
    have hq1 : q.1 < n := mem_range.1 (mem_product.1 hq).1
    split_ifs
    · have := Real.mul_self_sqrt (hw _ hq1)
      linear_combination (x q.1 * x' q.1) * this
    · have := Real.mul_self_sqrt (hv _ hq1)
      linear_combination (y q.1 * y' q.1) * this
  simp only [sq] at cs ⊢
  rw [t1, t1, t1] at cs
  exact cs

theorem nrm_mono {w v : ℕ → ℝ} {n : ℕ} (hw : ∀ r < n, 0 ≤ w r) (hv : ∀ r < n, 0 ≤ v r) {e h : ℕ → ℝ} {B C : ℝ} {WE WH : ℝ}
    (he : ∀ r < n, w r * e r ^ 2 ≤ w r * B ^ 2) (hh : ∀ r < n, v r * h r ^ 2 ≤ v r * C ^ 2) (hWE : ∑ r ∈ range n, w r ≤ WE) (hWH : ∑ r ∈ range n, v r ≤ WH) :
    nrm w v n (eh e h) ≤ Real.sqrt (WE * B ^ 2 + WH * C ^ 2) := by
  unfold nrm
  apply Real.sqrt_le_sqrt
  refine add_le_add ?_ ?_
  · calc ∑ r ∈ range n, w r * e r ^ 2 ≤ ∑ r ∈ range n, w r * B ^ 2 := sum_le_sum fun r hr => he r (mem_range.1 hr)
      _ = (∑ r ∈ range n, w r) * B ^ 2 := by rw [sum_mul]
      _ ≤ _ := mul_le_mul_of_nonneg_right hWE (sq_nonneg _)
  · calc ∑ r ∈ range n, v r * h r ^ 2 ≤ ∑ r ∈ range n, v r * C ^ 2 := sum_le_sum fun r hr => hh r (mem_range.1 hr)
      _ = (∑ r ∈ range n, v r) * C ^ 2 := by rw [sum_mul]
      _ ≤ _ := mul_le_mul_of_nonneg_right hWH (sq_nonneg _)

theorem iter_lin (s : Solver ℝ) (m : ℕ) (a b : State ℝ) : (advance s)^[m] (lin 1 1 a b) = lin 1 1 ((advance s)^[m] a) ((advance s)^[m] b) := by
  induction m generalizing a b with
  | zero => rfl
  | succ m ih => rw [Function.iterate_succ_apply, Function.iterate_succ_apply, Function.iterate_succ_apply, advance_lin, ih]

/-- Perturbed linear recursion. -/
theorem duhamel (s : Solver ℝ) (N : State ℝ → ℝ) (Q : ℝ) (hadd : ∀ a b, N (lin 1 1 a b) ≤ N a + N b)
    (hstab : ∀ m e h, N ((advance s)^[m] (eh e h)) ≤ Q * N (eh e h)) (err : ℕ → State ℝ) (rH rE : ℕ → ℕ → ℝ) (h0 : err 0 = eh (err 0).E (err 0).H)
    (hrec : ∀ n, err (n + 1) = lin 1 1 (advance s (lin 1 1 (err n) (eh (fun _ => 0) (rH n)))) (eh (rE n) fun _ => 0)) (n : ℕ) :
    N (err n) ≤ Q * (N (err 0) + ∑ k ∈ range n, (N (eh (fun _ => 0) (rH k)) + N (eh (rE k) fun _ => 0))) := by
  have key : ∀ n m, N ((advance s)^[m] (err n)) ≤ Q * (N (err 0) + ∑ k ∈ range n, (N (eh (fun _ => 0) (rH k)) + N (eh (rE k) fun _ => 0))) := by
    intro n
    induction n with
    | zero => intro m; simpa [← h0] using hstab m (err 0).E (err 0).H
    | succ n ih =>
      intro m
      rw [hrec, iter_lin, ← Function.iterate_succ_apply, iter_lin, sum_range_succ]
      have a1 := hadd (lin 1 1 ((advance s)^[m.succ] (err n)) ((advance s)^[m.succ] (eh (fun _ => 0) (rH n)))) ((advance s)^[m] (eh (rE n) fun _ => 0))
      have a2 := hadd ((advance s)^[m.succ] (err n)) ((advance s)^[m.succ] (eh (fun _ => 0) (rH n)))
      have b1 := ih m.succ
      have b2 := hstab m.succ (fun _ => 0) (rH n)
      have b3 := hstab m (rE n) (fun _ => 0)
      nlinarith
  exact key n 0

end Conv
end Wakis
