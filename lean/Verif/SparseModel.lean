import Mathlib.Algebra.BigOperators.Ring.Finset
import Mathlib.Algebra.BigOperators.Intervals
import Mathlib.Tactic.Ring
import Mathlib.Tactic.Linarith

/-!
# Model of the `scipy.sparse` operations used by `solverFIT3D.py`

A matrix is a function of row and column, a vector a function; sizes are passed where they matter.
The `dtype=np.int8` of the topological matrices is not modelled: their entries are -1, 0, 1.
-/

namespace Wakis
namespace Sparse
open Finset
variable {K : Type _} [CommRing K]

abbrev Mat (K : Type _) := ℕ → ℕ → K
abbrev Vec (K : Type _) := ℕ → K

/-- `M * v` for an `n × n` matrix. -/
def mulVec (n : ℕ) (M : Mat K) (v : Vec K) : Vec K := fun i => ∑ j ∈ range n, M i j * v j

/-- `A * B` for `n × n` matrices. -/
def mmul (n : ℕ) (A B : Mat K) : Mat K := fun i j => ∑ k ∈ range n, A i k * B k j

/-- `diags(d, shape=(n, n))`. -/
def diagM (d : Vec K) : Mat K := fun i j => if i = j then d i else 0

/-- `diags([-1, 1], [0, off], shape=(N, N))`, `off > 0`. -/
def diags2 (off : ℕ) : Mat K := fun i j => if j = i then -1 else if j = i + off then 1 else 0

/-- `vstack([hstack([b00, b01, b02]), ...])` of nine `N × N` blocks. -/
def block3 (N : ℕ) (b : ℕ → ℕ → Mat K) : Mat K := fun r c => b (r / N) (c / N) (r % N) (c % N)

/-- `M.transpose()`. -/
def transpose (M : Mat K) : Mat K := fun i j => M j i

/-! ### lemmas -/

theorem mmul_diag_left {n : ℕ} (d : Vec K) (B : Mat K) {i : ℕ} (hi : i < n) (j : ℕ) :
    mmul n (diagM d) B i j = d i * B i j := by
  unfold mmul diagM
  rw [sum_eq_single i]
  · simp
  · intro b _ hb; simp [hb.symm]
  · intro h; exact absurd (mem_range.2 hi) h

theorem mmul_diag_right {n : ℕ} (A : Mat K) (d : Vec K) (i : ℕ) {j : ℕ} (hj : j < n) :
    mmul n A (diagM d) i j = A i j * d j := by
  unfold mmul diagM
  rw [sum_eq_single j]
  · simp
  · intro b _ hb; simp [hb]
  · intro h; exact absurd (mem_range.2 hj) h

theorem mulVec_congr {n : ℕ} {M M' : Mat K} {v v' : Vec K} {i : ℕ}
    (hM : ∀ j < n, M i j = M' i j) (hv : ∀ j < n, v j = v' j) : mulVec n M v i = mulVec n M' v' i :=
  sum_congr rfl fun j hj => by rw [hM j (mem_range.1 hj), hv j (mem_range.1 hj)]

theorem mulVec_add (n : ℕ) (M : Mat K) (v w : Vec K) (i : ℕ) :
    mulVec n M (fun j => v j + w j) i = mulVec n M v i + mulVec n M w i := by
  unfold mulVec; rw [← sum_add_distrib]; exact sum_congr rfl fun j _ => by ring

theorem mulVec_smul (n : ℕ) (M : Mat K) (a : K) (v : Vec K) (i : ℕ) :
    mulVec n M (fun j => a * v j) i = a * mulVec n M v i := by
  unfold mulVec; rw [mul_sum]; exact sum_congr rfl fun j _ => by ring

theorem mulVec_zero (n : ℕ) (M : Mat K) (i : ℕ) : mulVec n M (fun _ => 0) i = 0 := by
  unfold mulVec; simp

/-- Summation by parts in matrix form: `⟨h, M e⟩ = ⟨Mᵀ h, e⟩`. -/
theorem inner_transpose (n : ℕ) (M : Mat K) (h e : Vec K) :
    ∑ i ∈ range n, h i * mulVec n M e i = ∑ j ∈ range n, mulVec n (transpose M) h j * e j := by
  unfold mulVec transpose
  simp only [mul_sum, sum_mul]
  rw [sum_comm]
  exact sum_congr rfl fun i _ => sum_congr rfl fun j _ => by ring

/-- The two-diagonal matrix is the forward difference with zero beyond the end. -/
theorem diags2_mulVec {N off p : ℕ} (ho : 0 < off) (hp : p < N) (v : Vec K) :
    mulVec N (diags2 off) v p = (if p + off < N then v (p + off) else 0) - v p := by
  unfold mulVec diags2
  have : ∀ j, (if j = p then (-1 : K) else if j = p + off then 1 else 0) * v j =
      (if j = p + off then v (p + off) else 0) - (if j = p then v p else 0) := by
    intro j
    by_cases h1 : j = p
    · subst h1; rw [if_pos rfl, if_neg (by omega), if_pos rfl]; ring
    · rw [if_neg h1, if_neg h1]
      by_cases h2 : j = p + off
      · subst h2; simp
      · rw [if_neg h2, if_neg h2]; ring
  simp only [this, sum_sub_distrib, sum_ite_eq', mem_range, hp, if_true]

/-- The transposed two-diagonal matrix is the negative backward difference. -/
theorem diags2_transpose_mulVec {N off p : ℕ} (ho : 0 < off) (hp : p < N) (v : Vec K) :
    mulVec N (transpose (diags2 off)) v p = (if off ≤ p then v (p - off) else 0) - v p := by
  unfold mulVec transpose diags2
  have : ∀ j, (if p = j then (-1 : K) else if p = j + off then 1 else 0) * v j =
      (if off ≤ p then (if j = p - off then v (p - off) else 0) else 0) - (if j = p then v p else 0) := by
    intro j
    by_cases h1 : p = j
    · subst h1
      rw [if_pos rfl, if_pos rfl]
      split_ifs with h2 h3
      · omega
      · ring
      · ring
    · rw [if_neg h1, if_neg (show ¬ j = p from fun h => h1 h.symm)]
      by_cases h2 : p = j + off
      · rw [if_pos h2, if_pos (by omega), if_pos (by omega)]
        have : j = p - off := by omega
        rw [this]; ring
      · rw [if_neg h2]
        split_ifs with h3 h4
        · omega
        · ring
        · ring
  simp only [this, sum_sub_distrib, sum_ite_eq', mem_range, hp, if_true]
  split_ifs with h
  · simp only [sum_ite_eq', mem_range]
    rw [if_pos (by omega)]
  · simp

/-- Splitting a sum over `3N` into the three blocks. -/
theorem sum_range_three (N : ℕ) (f : ℕ → K) :
    ∑ c ∈ range (3 * N), f c = ∑ b ∈ range 3, ∑ q ∈ range N, f (b * N + q) := by
  have h : 3 * N = N + N + N := by ring
  rw [h, sum_range_add, sum_range_add]
  simp only [sum_range_succ, range_zero, sum_empty, zero_add, Nat.zero_mul, Nat.one_mul]
  congr 1
  exact sum_congr rfl fun q _ => by rw [show 2 * N + q = N + N + q by ring]

/-- A block matrix acts block by block. -/
theorem block3_mulVec {N : ℕ} (b : ℕ → ℕ → Mat K) (v : Vec K) {a p : ℕ} (hp : p < N) :
    mulVec (3 * N) (block3 N b) v (a * N + p) =
      ∑ c ∈ range 3, mulVec N (b a c) (fun q => v (c * N + q)) p := by
  unfold mulVec block3
  rw [sum_range_three]
  refine sum_congr rfl fun c _ => sum_congr rfl fun q hq => ?_
  have hq := mem_range.1 hq
  have e1 : ∀ a p, p < N → (a * N + p) / N = a := fun a p hp => by
    rw [Nat.mul_comm, Nat.mul_add_div (by omega), Nat.div_eq_of_lt hp, Nat.add_zero]
  have e2 : ∀ a p, p < N → (a * N + p) % N = p := fun a p hp => by
    rw [Nat.mul_comm, Nat.mul_add_mod, Nat.mod_eq_of_lt hp]
  rw [e1 a p hp, e1 c q hq, e2 a p hp, e2 c q hq]

omit [CommRing K] in
theorem block3_transpose (N : ℕ) (b : ℕ → ℕ → Mat K) :
    transpose (block3 N b) = block3 N (fun a c => transpose (b c a)) := rfl

theorem mulVec_neg (n : ℕ) (M : Mat K) (v : Vec K) (i : ℕ) :
    mulVec n (fun i j => - M i j) v i = - mulVec n M v i := by
  unfold mulVec; rw [← sum_neg_distrib]; exact sum_congr rfl fun j _ => by ring

theorem mulVec_zeroMat (n : ℕ) (v : Vec K) (i : ℕ) : mulVec n (fun _ _ => 0) v i = 0 := by
  unfold mulVec; simp

end Sparse
end Wakis
