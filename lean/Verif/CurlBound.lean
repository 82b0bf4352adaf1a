import Verif.SolverSpec
import Mathlib.Algebra.Order.BigOperators.Ring.Finset
import Mathlib.Algebra.Order.BigOperators.Group.Finset
import Mathlib.Algebra.BigOperators.Field
import Mathlib.Algebra.Order.Field.Basic
import Mathlib.Tactic.Linarith
import Mathlib.Tactic.FieldSimp
import Mathlib.Tactic.Ring
import Mathlib.Tactic.Positivity

/-!
# A sharp bound of the discrete curl on a tensor-product grid

Pure inequalities about sums, used for the time-step stability of C20.  On an axis, `d` are the edge
lengths and `t` the dual lengths, both at least `m` where they matter.  `curl_bound`: for a field that
vanishes tangentially on the six faces, the weighted sum of squares of its circulation is at most
`4 (1/mx^2 + 1/my^2 + 1/mz^2)` times the weighted sum of its squares.  The factor is the one of the
Courant limit; it needs the (discrete) divergence to be discarded, not only the triangle inequality.
-/

namespace Wakis
namespace Sol
namespace CurlBound
open Finset
variable {K : Type _} [Field K] [LinearOrder K] [IsStrictOrderedRing K]

/-- The index is strictly inside the axis. -/
def Inner (N i : ℕ) : Prop := 0 < i ∧ i + 1 < N

instance (N i : ℕ) : Decidable (Inner N i) := by unfold Inner; infer_instance

/-! ### one axis -/

omit [LinearOrder K] [IsStrictOrderedRing K] in
theorem sum_shift (P : ℕ → K) (N : ℕ) (h0 : P 0 = 0) (hN : P N = 0) :
    ∑ j ∈ range N, P (j + 1) = ∑ j ∈ range N, P j := by
  have h1 := sum_range_succ P N
  have h2 := sum_range_succ' P N
  rw [h1, h0, hN] at h2
  simpa using h2.symm

omit [LinearOrder K] [IsStrictOrderedRing K] in
/-- Summation by parts. -/
theorem by_parts (P Q : ℕ → K) (N : ℕ) (h0 : P 0 = 0) (hN : P N = 0) :
    ∑ j ∈ range N, (P (j + 1) - P j) * Q j = ∑ j ∈ range N, P j * (Q (j - 1) - Q j) := by
  have h := sum_shift (fun j => P j * Q (j - 1)) N (by simp [h0]) (by simp [hN])
  simp only [Nat.add_sub_cancel] at h
  simp only [sub_mul, mul_sub, sum_sub_distrib, h]

theorem sq_sub_le (a b : K) : (a - b) ^ 2 ≤ 2 * a ^ 2 + 2 * b ^ 2 := by nlinarith [sq_nonneg (a + b)]

/-- Forward differences of node values. -/
theorem node_diff_le (u d t : ℕ → K) (N : ℕ) (m : K) (hm : 0 < m) (hu : ∀ j, ¬Inner N j → u j = 0)
    (hd : ∀ j < N, d j = 0 ∨ m ≤ d j) (ht : ∀ j, Inner N j → m ≤ t j) :
    ∑ j ∈ range N, (u (j + 1) - u j) ^ 2 / d j ≤ 4 / m ^ 2 * ∑ j ∈ range N, t j * u j ^ 2 := by
  have hs := sum_shift (fun j => u j ^ 2) N (by simp [hu 0 (by unfold Inner; omega)]) (by simp [hu N (by unfold Inner; omega)])
  have h1 : ∑ j ∈ range N, (u (j + 1) - u j) ^ 2 / d j ≤ ∑ j ∈ range N, (2 * u (j + 1) ^ 2 + 2 * u j ^ 2) / m := by
    refine sum_le_sum fun j hj => ?_
    rcases hd j (mem_range.1 hj) with hdj | hdj
    · rw [hdj, div_zero]; positivity
    · exact div_le_div₀ (by positivity) (sq_sub_le _ _) hm hdj
  have h2 : ∑ j ∈ range N, (2 * u (j + 1) ^ 2 + 2 * u j ^ 2) / m = 4 / m ^ 2 * ∑ j ∈ range N, m * u j ^ 2 := by
    simp only [add_div, sum_add_distrib]
    rw [← mul_sum, ← sum_div, ← sum_div, ← mul_sum, ← mul_sum, hs]
    field_simp; ring
  rw [h2] at h1
  refine h1.trans (mul_le_mul_of_nonneg_left (sum_le_sum fun j _ => ?_) (by positivity))
  by_cases hj : Inner N j
  · exact mul_le_mul_of_nonneg_right (ht j hj) (sq_nonneg _)
  · simp [hu j hj]

/-- Backward differences of edge values. -/
theorem edge_diff_le (e d t : ℕ → K) (N : ℕ) (m : K) (hm : 0 < m) (hd : ∀ j < N, d j = 0 ∨ m ≤ d j)
    (he : ∀ j < N, d j = 0 → e j = 0) (ht : ∀ j, Inner N j → m ≤ t j) :
    ∑ j ∈ range N, (if Inner N j then (e j - e (j - 1)) ^ 2 / t j else 0) ≤ 4 / m ^ 2 * ∑ j ∈ range N, d j * e j ^ 2 := by
  have h1 : ∑ j ∈ range N, (if Inner N j then (e j - e (j - 1)) ^ 2 / t j else 0) ≤
      ∑ j ∈ range N, (2 / m * e j ^ 2 + if 0 < j then 2 / m * e (j - 1) ^ 2 else 0) := by
    refine sum_le_sum fun j _ => ?_
    split_ifs with hj h0 h0
    · have h := div_le_div₀ (by positivity) (sq_sub_le (e j) (e (j - 1))) hm (ht j hj)
      refine h.trans (le_of_eq ?_)
      ring
    · exact absurd hj.1 h0
    · positivity
    · positivity
  have h2 : ∑ j ∈ range N, (if 0 < j then 2 / m * e (j - 1) ^ 2 else 0) ≤ ∑ j ∈ range N, 2 / m * e j ^ 2 := by
    cases N with
    | zero => simp
    | succ n =>
      rw [sum_range_succ', sum_range_succ (fun j => 2 / m * e j ^ 2)]
      simp only [Nat.zero_lt_succ, if_true, Nat.add_sub_cancel, lt_irrefl, if_false, add_zero]
      have : 0 ≤ 2 / m * e n ^ 2 := by positivity
      linarith
  rw [sum_add_distrib] at h1
  have h3 : ∑ j ∈ range N, 2 / m * e j ^ 2 ≤ 2 / m ^ 2 * ∑ j ∈ range N, d j * e j ^ 2 := by
    rw [mul_sum]
    refine sum_le_sum fun j hj => ?_
    rcases hd j (mem_range.1 hj) with hdj | hdj
    · rw [he j (mem_range.1 hj) hdj]; simp
    have : 2 / m * e j ^ 2 = 2 / m ^ 2 * (m * e j ^ 2) := by field_simp
    rw [this]
    exact mul_le_mul_of_nonneg_left (mul_le_mul_of_nonneg_right hdj (sq_nonneg _)) (by positivity)
  have : 4 / m ^ 2 * ∑ j ∈ range N, d j * e j ^ 2 = 2 / m ^ 2 * ∑ j ∈ range N, d j * e j ^ 2 + 2 / m ^ 2 * ∑ j ∈ range N, d j * e j ^ 2 := by
    ring
  linarith

omit [LinearOrder K] [IsStrictOrderedRing K] in
/-- Mixed differences can be moved from edges pairs to nodes. -/
theorem cross (p q : ℕ → ℕ → K) (N M : ℕ) (hp : ∀ j k, ¬Inner N j → p j k = 0) (hq : ∀ j k, ¬Inner M k → q j k = 0) :
    ∑ j ∈ range N, ∑ k ∈ range M, (p (j + 1) k - p j k) * (q j (k + 1) - q j k) =
      ∑ j ∈ range N, ∑ k ∈ range M, (p j k - p j (k - 1)) * (q j k - q (j - 1) k) := by
  have hN : ¬Inner N N := by unfold Inner; omega
  have hM : ¬Inner M M := by unfold Inner; omega
  have h00 : ∀ n, ¬Inner n 0 := by intro n; unfold Inner; omega
  have h1 : ∀ k, ∑ j ∈ range N, (p (j + 1) k - p j k) * (q j (k + 1) - q j k) =
      ∑ j ∈ range N, p j k * ((q (j - 1) (k + 1) - q (j - 1) k) - (q j (k + 1) - q j k)) :=
    fun k => by_parts (fun j => p j k) (fun j => q j (k + 1) - q j k) N (hp _ _ (h00 _)) (hp _ _ hN)
  have h2 : ∀ j, ∑ k ∈ range M, ((q j (k + 1) - q (j - 1) (k + 1)) - (q j k - q (j - 1) k)) * p j k =
      ∑ k ∈ range M, (q j k - q (j - 1) k) * (p j (k - 1) - p j k) :=
    fun j => by_parts (fun k => q j k - q (j - 1) k) (fun k => p j k) M
      (by rw [hq _ _ (h00 _), hq _ _ (h00 _), sub_zero]) (by rw [hq _ _ hM, hq _ _ hM, sub_zero])
  rw [sum_comm]
  simp only [h1]
  rw [sum_comm]
  refine sum_congr rfl fun j _ => ?_
  have := h2 j
  have e : ∀ k, p j k * ((q (j - 1) (k + 1) - q (j - 1) k) - (q j (k + 1) - q j k)) =
      -(((q j (k + 1) - q (j - 1) (k + 1)) - (q j k - q (j - 1) k)) * p j k) := fun k => by ring
  simp only [e, sum_neg_distrib, this]
  rw [← sum_neg_distrib]
  exact sum_congr rfl fun k _ => by ring

/-! ### three axes -/

/-- Sum over the cells. -/
def S3 (Nx Ny Nz : ℕ) (f : ℕ → ℕ → ℕ → K) : K := ∑ i ∈ range Nx, ∑ j ∈ range Ny, ∑ k ∈ range Nz, f i j k

section
variable {Nx Ny Nz : ℕ}

omit [LinearOrder K] [IsStrictOrderedRing K] in
theorem S3_add (f g : ℕ → ℕ → ℕ → K) : S3 Nx Ny Nz (fun i j k => f i j k + g i j k) = S3 Nx Ny Nz f + S3 Nx Ny Nz g := by
  simp only [S3, sum_add_distrib]

omit [LinearOrder K] [IsStrictOrderedRing K] in
theorem S3_mul (a : K) (f : ℕ → ℕ → ℕ → K) : S3 Nx Ny Nz (fun i j k => a * f i j k) = a * S3 Nx Ny Nz f := by
  simp only [S3, mul_sum]

omit [LinearOrder K] [IsStrictOrderedRing K] in
theorem S3_congr {f g : ℕ → ℕ → ℕ → K} (h : ∀ i < Nx, ∀ j < Ny, ∀ k < Nz, f i j k = g i j k) :
    S3 Nx Ny Nz f = S3 Nx Ny Nz g :=
  sum_congr rfl fun i hi => sum_congr rfl fun j hj => sum_congr rfl fun k hk =>
    h i (mem_range.1 hi) j (mem_range.1 hj) k (mem_range.1 hk)

theorem S3_le {f g : ℕ → ℕ → ℕ → K} (h : ∀ i < Nx, ∀ j < Ny, ∀ k < Nz, f i j k ≤ g i j k) :
    S3 Nx Ny Nz f ≤ S3 Nx Ny Nz g :=
  sum_le_sum fun i hi => sum_le_sum fun j hj => sum_le_sum fun k hk =>
    h i (mem_range.1 hi) j (mem_range.1 hj) k (mem_range.1 hk)

omit [LinearOrder K] [IsStrictOrderedRing K] in
/-- x summed last. -/
theorem S3_x (f : ℕ → ℕ → ℕ → K) : S3 Nx Ny Nz f = ∑ j ∈ range Ny, ∑ k ∈ range Nz, ∑ i ∈ range Nx, f i j k := by
  unfold S3
  rw [sum_comm]
  exact sum_congr rfl fun j _ => sum_comm

omit [LinearOrder K] [IsStrictOrderedRing K] in
/-- y summed last. -/
theorem S3_y (f : ℕ → ℕ → ℕ → K) : S3 Nx Ny Nz f = ∑ i ∈ range Nx, ∑ k ∈ range Nz, ∑ j ∈ range Ny, f i j k := by
  unfold S3
  exact sum_congr rfl fun i _ => sum_comm

/-- Bound along x. -/
theorem S3_le_x {f g : ℕ → ℕ → ℕ → K} (h : ∀ j < Ny, ∀ k < Nz, ∑ i ∈ range Nx, f i j k ≤ ∑ i ∈ range Nx, g i j k) :
    S3 Nx Ny Nz f ≤ S3 Nx Ny Nz g := by
  rw [S3_x, S3_x]
  exact sum_le_sum fun j hj => sum_le_sum fun k hk => h j (mem_range.1 hj) k (mem_range.1 hk)

theorem S3_le_y {f g : ℕ → ℕ → ℕ → K} (h : ∀ i < Nx, ∀ k < Nz, ∑ j ∈ range Ny, f i j k ≤ ∑ j ∈ range Ny, g i j k) :
    S3 Nx Ny Nz f ≤ S3 Nx Ny Nz g := by
  rw [S3_y, S3_y]
  exact sum_le_sum fun j hj => sum_le_sum fun k hk => h j (mem_range.1 hj) k (mem_range.1 hk)

theorem S3_le_z {f g : ℕ → ℕ → ℕ → K} (h : ∀ i < Nx, ∀ j < Ny, ∑ k ∈ range Nz, f i j k ≤ ∑ k ∈ range Nz, g i j k) :
    S3 Nx Ny Nz f ≤ S3 Nx Ny Nz g :=
  sum_le_sum fun j hj => sum_le_sum fun k hk => h j (mem_range.1 hj) k (mem_range.1 hk)
end

/-- An axis: edge lengths `d`, dual lengths `t`, lower bound `m`.  An edge may have length zero (the last dual
edge of an axis of the grid has); everything divided by it is then zero. -/
structure Axis (K : Type _) [Field K] [LinearOrder K] where
  N : ℕ
  d : ℕ → K
  t : ℕ → K
  m : K
  hm : 0 < m
  hd : ∀ i < N, d i = 0 ∨ m ≤ d i
  ht : ∀ i, Inner N i → m ≤ t i
  h0 : ∀ i < N, 0 ≤ t i

omit [IsStrictOrderedRing K] in
theorem Axis.dnn (A : Axis K) {i : ℕ} (h : i < A.N) : 0 ≤ A.d i := by
  rcases A.hd i h with h' | h'
  · exact h'.ge
  · exact A.hm.le.trans h'
omit [IsStrictOrderedRing K] in
theorem Axis.tpos (A : Axis K) {i : ℕ} (h : Inner A.N i) : 0 < A.t i := lt_of_lt_of_le A.hm (A.ht i h)

theorem Axis.node (A : Axis K) (w : K) (hw : 0 ≤ w) (u : ℕ → K) (hu : ∀ j, ¬Inner A.N j → u j = 0) :
    ∑ j ∈ range A.N, w * ((u (j + 1) - u j) ^ 2 / A.d j) ≤ ∑ j ∈ range A.N, 4 / A.m ^ 2 * (w * (A.t j * u j ^ 2)) := by
  have := mul_le_mul_of_nonneg_left (node_diff_le u A.d A.t A.N A.m A.hm hu A.hd A.ht) hw
  rw [← mul_sum]
  refine this.trans (le_of_eq ?_)
  rw [← mul_sum, ← mul_sum]; ring

theorem Axis.edge (A : Axis K) (w : K) (hw : 0 ≤ w) (e : ℕ → K) (he : ∀ j < A.N, A.d j = 0 → e j = 0) :
    ∑ j ∈ range A.N, w * (if Inner A.N j then (e j - e (j - 1)) ^ 2 / A.t j else 0) ≤
      ∑ j ∈ range A.N, 4 / A.m ^ 2 * (w * (A.d j * e j ^ 2)) := by
  have := mul_le_mul_of_nonneg_left (edge_diff_le e A.d A.t A.N A.m A.hm A.hd he A.ht) hw
  rw [← mul_sum]
  refine this.trans (le_of_eq ?_)
  rw [← mul_sum, ← mul_sum]; ring

/-- Weighted square of a field of edge values. -/
def edgeSq (X Y Z : Axis K) (v : ℕ → ℕ → ℕ → ℕ → K) (i j k : ℕ) : K :=
  Y.t j * Z.t k / X.d i * v 0 i j k ^ 2 + X.t i * Z.t k / Y.d j * v 1 i j k ^ 2 + X.t i * Y.t j / Z.d k * v 2 i j k ^ 2

/-- Weighted square of the circulation. -/
def faceSq (X Y Z : Axis K) (v : ℕ → ℕ → ℕ → ℕ → K) (i j k : ℕ) : K :=
  X.t i / (Y.d j * Z.d k) * circ v 0 i j k ^ 2 + Y.t j / (X.d i * Z.d k) * circ v 1 i j k ^ 2 +
    Z.t k / (X.d i * Y.d j) * circ v 2 i j k ^ 2

/-- The field vanishes tangentially on the six faces (and outside). -/
structure Closed (X Y Z : Axis K) (v : ℕ → ℕ → ℕ → ℕ → K) : Prop where
  x1 : ∀ i j k, ¬Inner Y.N j → v 0 i j k = 0
  x2 : ∀ i j k, ¬Inner Z.N k → v 0 i j k = 0
  y0 : ∀ i j k, ¬Inner X.N i → v 1 i j k = 0
  y2 : ∀ i j k, ¬Inner Z.N k → v 1 i j k = 0
  z0 : ∀ i j k, ¬Inner X.N i → v 2 i j k = 0
  z1 : ∀ i j k, ¬Inner Y.N j → v 2 i j k = 0

section
variable (X Y Z : Axis K) (v : ℕ → ℕ → ℕ → ℕ → K)

/-- The six pure squares of the circulation. -/
def pureSq (i j k : ℕ) : K :=
  (X.t i / (Y.d j * Z.d k) * (v 2 i (j + 1) k - v 2 i j k) ^ 2 + X.t i / (Y.d j * Z.d k) * (v 1 i j (k + 1) - v 1 i j k) ^ 2) +
  (Y.t j / (X.d i * Z.d k) * (v 0 i j (k + 1) - v 0 i j k) ^ 2 + Y.t j / (X.d i * Z.d k) * (v 2 (i + 1) j k - v 2 i j k) ^ 2) +
  (Z.t k / (X.d i * Y.d j) * (v 1 (i + 1) j k - v 1 i j k) ^ 2 + Z.t k / (X.d i * Y.d j) * (v 0 i (j + 1) k - v 0 i j k) ^ 2)

/-- Backward differences of the edge values divided by the edge lengths. -/
def bx (i j k : ℕ) : K := v 0 i j k / X.d i - v 0 (i - 1) j k / X.d (i - 1)
def by' (i j k : ℕ) : K := v 1 i j k / Y.d j - v 1 i (j - 1) k / Y.d (j - 1)
def bz (i j k : ℕ) : K := v 2 i j k / Z.d k - v 2 i j (k - 1) / Z.d (k - 1)

/-- Cross terms at the nodes. -/
def crossSq (i j k : ℕ) : K :=
  X.t i * (by' Y v i j k * bz Z v i j k) + Y.t j * (bx X v i j k * bz Z v i j k) + Z.t k * (bx X v i j k * by' Y v i j k)

/-- The divergence squares. -/
def divSq (i j k : ℕ) : K :=
  Y.t j * Z.t k * (if Inner X.N i then bx X v i j k ^ 2 / X.t i else 0) +
  X.t i * Z.t k * (if Inner Y.N j then by' Y v i j k ^ 2 / Y.t j else 0) +
  X.t i * Y.t j * (if Inner Z.N k then bz Z v i j k ^ 2 / Z.t k else 0)

omit [IsStrictOrderedRing K] in
theorem face_split (h : Closed X Y Z v) :
    S3 X.N Y.N Z.N (faceSq X Y Z v) = S3 X.N Y.N Z.N (pureSq X Y Z v) - 2 * S3 X.N Y.N Z.N (crossSq X Y Z v) := by
  have hx : S3 X.N Y.N Z.N (fun i j k => X.t i * ((v 2 i (j + 1) k / Z.d k - v 2 i j k / Z.d k) * (v 1 i j (k + 1) / Y.d j - v 1 i j k / Y.d j))) =
      S3 X.N Y.N Z.N (fun i j k => X.t i * (by' Y v i j k * bz Z v i j k)) := by
    unfold S3
    refine sum_congr rfl fun i _ => ?_
    simp only [← mul_sum]
    congr 1
    rw [cross (fun j k => v 2 i j k / Z.d k) (fun j k => v 1 i j k / Y.d j) Y.N Z.N
      (fun j k hj => by simp only [h.z1 i j k hj, zero_div]) (fun j k hk => by simp only [h.y2 i j k hk, zero_div])]
    exact sum_congr rfl fun j _ => sum_congr rfl fun k _ => by unfold by' bz; ring
  have hy : S3 X.N Y.N Z.N (fun i j k => Y.t j * ((v 2 (i + 1) j k / Z.d k - v 2 i j k / Z.d k) * (v 0 i j (k + 1) / X.d i - v 0 i j k / X.d i))) =
      S3 X.N Y.N Z.N (fun i j k => Y.t j * (bx X v i j k * bz Z v i j k)) := by
    unfold S3
    rw [sum_comm]
    conv_rhs => rw [sum_comm]
    refine sum_congr rfl fun j _ => ?_
    simp only [← mul_sum]
    congr 1
    rw [cross (fun i k => v 2 i j k / Z.d k) (fun i k => v 0 i j k / X.d i) X.N Z.N
      (fun i k hj => by simp only [h.z0 i j k hj, zero_div]) (fun i k hk => by simp only [h.x2 i j k hk, zero_div])]
    exact sum_congr rfl fun i _ => sum_congr rfl fun k _ => by unfold bx bz; ring
  have hz : S3 X.N Y.N Z.N (fun i j k => Z.t k * ((v 1 (i + 1) j k / Y.d j - v 1 i j k / Y.d j) * (v 0 i (j + 1) k / X.d i - v 0 i j k / X.d i))) =
      S3 X.N Y.N Z.N (fun i j k => Z.t k * (bx X v i j k * by' Y v i j k)) := by
    have e : ∀ f : ℕ → ℕ → ℕ → K, S3 X.N Y.N Z.N f = ∑ k ∈ range Z.N, ∑ i ∈ range X.N, ∑ j ∈ range Y.N, f i j k := by
      intro f
      rw [S3_y]
      exact sum_comm
    rw [e, e]
    refine sum_congr rfl fun k _ => ?_
    simp only [← mul_sum]
    congr 1
    rw [cross (fun i j => v 1 i j k / Y.d j) (fun i j => v 0 i j k / X.d i) X.N Y.N
      (fun i j hi => by simp only [h.y0 i j k hi, zero_div]) (fun i j hj => by simp only [h.x1 i j k hj, zero_div])]
    exact sum_congr rfl fun i _ => sum_congr rfl fun j _ => by unfold bx by'; ring
  have e1 : S3 X.N Y.N Z.N (crossSq X Y Z v) =
      S3 X.N Y.N Z.N (fun i j k => X.t i * ((v 2 i (j + 1) k / Z.d k - v 2 i j k / Z.d k) * (v 1 i j (k + 1) / Y.d j - v 1 i j k / Y.d j)) +
        Y.t j * ((v 2 (i + 1) j k / Z.d k - v 2 i j k / Z.d k) * (v 0 i j (k + 1) / X.d i - v 0 i j k / X.d i)) +
        Z.t k * ((v 1 (i + 1) j k / Y.d j - v 1 i j k / Y.d j) * (v 0 i (j + 1) k / X.d i - v 0 i j k / X.d i))) := by
    rw [S3_add, S3_add, hx, hy, hz, ← S3_add, ← S3_add]
    rfl
  rw [e1, ← S3_mul, sub_eq_add_neg, ← neg_one_mul, ← S3_mul, ← S3_add]
  refine S3_congr fun i hi j hj k hk => ?_
  unfold faceSq pureSq circ
  simp only [if_true, one_ne_zero, if_false, OfNat.ofNat_ne_zero, OfNat.ofNat_ne_one]
  ring

theorem cross_le (h : Closed X Y Z v) :
    -(2 * S3 X.N Y.N Z.N (crossSq X Y Z v)) ≤ S3 X.N Y.N Z.N (divSq X Y Z v) := by
  rw [← S3_mul, ← neg_one_mul, ← S3_mul]
  refine S3_le fun i hi j hj k hk => ?_
  have zx : ¬Inner Y.N j ∨ ¬Inner Z.N k → bx X v i j k = 0 := by
    rintro (h' | h')
    · simp [bx, h.x1 _ _ _ h']
    · simp [bx, h.x2 _ _ _ h']
  have zy : ¬Inner X.N i ∨ ¬Inner Z.N k → by' Y v i j k = 0 := by
    rintro (h' | h')
    · simp [by', h.y0 _ _ _ h']
    · simp [by', h.y2 _ _ _ h']
  have zz : ¬Inner X.N i ∨ ¬Inner Y.N j → bz Z v i j k = 0 := by
    rintro (h' | h')
    · simp [bz, h.z0 _ _ _ h']
    · simp [bz, h.z1 _ _ _ h']
  by_cases hI : Inner X.N i ∧ Inner Y.N j ∧ Inner Z.N k
  · obtain ⟨h1, h2, h3⟩ := hI
    unfold divSq crossSq
    rw [if_pos h1, if_pos h2, if_pos h3]
    have p1 := X.tpos h1
    have p2 := Y.tpos h2
    have p3 := Z.tpos h3
    have key : 0 ≤ X.t i * Y.t j * Z.t k * (bx X v i j k / X.t i + by' Y v i j k / Y.t j + bz Z v i j k / Z.t k) ^ 2 := by positivity
    have e : X.t i * Y.t j * Z.t k * (bx X v i j k / X.t i + by' Y v i j k / Y.t j + bz Z v i j k / Z.t k) ^ 2 =
        Y.t j * Z.t k * (bx X v i j k ^ 2 / X.t i) + X.t i * Z.t k * (by' Y v i j k ^ 2 / Y.t j) + X.t i * Y.t j * (bz Z v i j k ^ 2 / Z.t k) +
        2 * (X.t i * (by' Y v i j k * bz Z v i j k) + Y.t j * (bx X v i j k * bz Z v i j k) + Z.t k * (bx X v i j k * by' Y v i j k)) := by
      field_simp
      ring
    linarith
  · have c0 : crossSq X Y Z v i j k = 0 := by
      unfold crossSq
      by_cases h1 : Inner X.N i
      · by_cases h2 : Inner Y.N j
        · have h3 : ¬Inner Z.N k := fun h3 => hI ⟨h1, h2, h3⟩
          rw [zx (.inr h3), zy (.inr h3)]; ring
        · rw [zx (.inl h2), zz (.inr h2)]; ring
      · rw [zy (.inl h1), zz (.inl h1)]; ring
    rw [c0, mul_zero, mul_zero]
    have t1 := X.h0 i hi
    have t2 := Y.h0 j hj
    have t3 := Z.h0 k hk
    unfold divSq
    have q : ∀ {p : Prop} [Decidable p] {a b : K}, 0 ≤ b → 0 ≤ (if p then a ^ 2 / b else 0) := by
      intro p _ a b hb
      split_ifs
      · positivity
      · exact le_rfl
    have := q (p := Inner X.N i) (a := bx X v i j k) t1
    have := q (p := Inner Y.N j) (a := by' Y v i j k) t2
    have := q (p := Inner Z.N k) (a := bz Z v i j k) t3
    positivity

/-- **Curl bound.** -/
theorem curl_bound (h : Closed X Y Z v) :
    S3 X.N Y.N Z.N (faceSq X Y Z v) ≤
      4 * (1 / X.m ^ 2 + 1 / Y.m ^ 2 + 1 / Z.m ^ 2) * S3 X.N Y.N Z.N (edgeSq X Y Z v) := by
  rw [face_split X Y Z v h]
  have h1 := cross_le X Y Z v h
  -- names for the three parts of the right hand side
  set ex := S3 X.N Y.N Z.N (fun i j k => Y.t j * Z.t k / X.d i * v 0 i j k ^ 2) with hex
  set ey := S3 X.N Y.N Z.N (fun i j k => X.t i * Z.t k / Y.d j * v 1 i j k ^ 2) with hey
  set ez := S3 X.N Y.N Z.N (fun i j k => X.t i * Y.t j / Z.d k * v 2 i j k ^ 2) with hez
  have he : S3 X.N Y.N Z.N (edgeSq X Y Z v) = ex + ey + ez := by
    rw [hex, hey, hez, ← S3_add, ← S3_add]; rfl
  have hp : S3 X.N Y.N Z.N (pureSq X Y Z v) =
      (S3 X.N Y.N Z.N (fun i j k => X.t i / (Y.d j * Z.d k) * (v 2 i (j + 1) k - v 2 i j k) ^ 2) +
        S3 X.N Y.N Z.N (fun i j k => X.t i / (Y.d j * Z.d k) * (v 1 i j (k + 1) - v 1 i j k) ^ 2)) +
      (S3 X.N Y.N Z.N (fun i j k => Y.t j / (X.d i * Z.d k) * (v 0 i j (k + 1) - v 0 i j k) ^ 2) +
        S3 X.N Y.N Z.N (fun i j k => Y.t j / (X.d i * Z.d k) * (v 2 (i + 1) j k - v 2 i j k) ^ 2)) +
      (S3 X.N Y.N Z.N (fun i j k => Z.t k / (X.d i * Y.d j) * (v 1 (i + 1) j k - v 1 i j k) ^ 2) +
        S3 X.N Y.N Z.N (fun i j k => Z.t k / (X.d i * Y.d j) * (v 0 i (j + 1) k - v 0 i j k) ^ 2)) := by
    simp only [← S3_add]; rfl
  have hd : S3 X.N Y.N Z.N (divSq X Y Z v) =
      S3 X.N Y.N Z.N (fun i j k => Y.t j * Z.t k * (if Inner X.N i then bx X v i j k ^ 2 / X.t i else 0)) +
      S3 X.N Y.N Z.N (fun i j k => X.t i * Z.t k * (if Inner Y.N j then by' Y v i j k ^ 2 / Y.t j else 0)) +
      S3 X.N Y.N Z.N (fun i j k => X.t i * Y.t j * (if Inner Z.N k then bz Z v i j k ^ 2 / Z.t k else 0)) := by
    simp only [← S3_add]; rfl
  -- node differences
  have a1 : S3 X.N Y.N Z.N (fun i j k => X.t i / (Y.d j * Z.d k) * (v 2 i (j + 1) k - v 2 i j k) ^ 2) ≤ 4 / Y.m ^ 2 * ez := by
    rw [hez, ← S3_mul]
    refine S3_le_y fun i hi k hk => ?_
    have := Y.node (X.t i / Z.d k) (div_nonneg (X.h0 i hi) (Z.dnn hk)) (fun j => v 2 i j k) (fun j hj => h.z1 i j k hj)
    refine (le_of_eq (sum_congr rfl fun j hj => ?_)).trans (this.trans (le_of_eq (sum_congr rfl fun j hj => ?_)))
    · ring
    · ring
  have a2 : S3 X.N Y.N Z.N (fun i j k => X.t i / (Y.d j * Z.d k) * (v 1 i j (k + 1) - v 1 i j k) ^ 2) ≤ 4 / Z.m ^ 2 * ey := by
    rw [hey, ← S3_mul]
    refine S3_le_z fun i hi j hj => ?_
    have := Z.node (X.t i / Y.d j) (div_nonneg (X.h0 i hi) (Y.dnn hj)) (fun k => v 1 i j k) (fun k hk => h.y2 i j k hk)
    refine (le_of_eq (sum_congr rfl fun k hk => ?_)).trans (this.trans (le_of_eq (sum_congr rfl fun k hk => ?_)))
    · ring
    · ring
  have a3 : S3 X.N Y.N Z.N (fun i j k => Y.t j / (X.d i * Z.d k) * (v 0 i j (k + 1) - v 0 i j k) ^ 2) ≤ 4 / Z.m ^ 2 * ex := by
    rw [hex, ← S3_mul]
    refine S3_le_z fun i hi j hj => ?_
    have := Z.node (Y.t j / X.d i) (div_nonneg (Y.h0 j hj) (X.dnn hi)) (fun k => v 0 i j k) (fun k hk => h.x2 i j k hk)
    refine (le_of_eq (sum_congr rfl fun k hk => ?_)).trans (this.trans (le_of_eq (sum_congr rfl fun k hk => ?_)))
    · ring
    · ring
  have a4 : S3 X.N Y.N Z.N (fun i j k => Y.t j / (X.d i * Z.d k) * (v 2 (i + 1) j k - v 2 i j k) ^ 2) ≤ 4 / X.m ^ 2 * ez := by
    rw [hez, ← S3_mul]
    refine S3_le_x fun j hj k hk => ?_
    have := X.node (Y.t j / Z.d k) (div_nonneg (Y.h0 j hj) (Z.dnn hk)) (fun i => v 2 i j k) (fun i hi => h.z0 i j k hi)
    refine (le_of_eq (sum_congr rfl fun i hi => ?_)).trans (this.trans (le_of_eq (sum_congr rfl fun i hi => ?_)))
    · ring
    · ring
  have a5 : S3 X.N Y.N Z.N (fun i j k => Z.t k / (X.d i * Y.d j) * (v 1 (i + 1) j k - v 1 i j k) ^ 2) ≤ 4 / X.m ^ 2 * ey := by
    rw [hey, ← S3_mul]
    refine S3_le_x fun j hj k hk => ?_
    have := X.node (Z.t k / Y.d j) (div_nonneg (Z.h0 k hk) (Y.dnn hj)) (fun i => v 1 i j k) (fun i hi => h.y0 i j k hi)
    refine (le_of_eq (sum_congr rfl fun i hi => ?_)).trans (this.trans (le_of_eq (sum_congr rfl fun i hi => ?_)))
    · ring
    · ring
  have a6 : S3 X.N Y.N Z.N (fun i j k => Z.t k / (X.d i * Y.d j) * (v 0 i (j + 1) k - v 0 i j k) ^ 2) ≤ 4 / Y.m ^ 2 * ex := by
    rw [hex, ← S3_mul]
    refine S3_le_y fun i hi k hk => ?_
    have := Y.node (Z.t k / X.d i) (div_nonneg (Z.h0 k hk) (X.dnn hi)) (fun j => v 0 i j k) (fun j hj => h.x1 i j k hj)
    refine (le_of_eq (sum_congr rfl fun j hj => ?_)).trans (this.trans (le_of_eq (sum_congr rfl fun j hj => ?_)))
    · ring
    · ring
  -- divergence squares
  have d1 : S3 X.N Y.N Z.N (fun i j k => Y.t j * Z.t k * (if Inner X.N i then bx X v i j k ^ 2 / X.t i else 0)) ≤ 4 / X.m ^ 2 * ex := by
    rw [hex, ← S3_mul]
    refine S3_le_x fun j hj k hk => ?_
    have := X.edge (Y.t j * Z.t k) (mul_nonneg (Y.h0 j hj) (Z.h0 k hk)) (fun i => v 0 i j k / X.d i)
      (fun i _ h0 => by simp only [h0, div_zero])
    refine this.trans (le_of_eq (sum_congr rfl fun i hi => ?_))
    rcases eq_or_ne (X.d i) 0 with h0 | h0
    · simp only [h0, div_zero, zero_mul, mul_zero]
    · field_simp
  have d2 : S3 X.N Y.N Z.N (fun i j k => X.t i * Z.t k * (if Inner Y.N j then by' Y v i j k ^ 2 / Y.t j else 0)) ≤ 4 / Y.m ^ 2 * ey := by
    rw [hey, ← S3_mul]
    refine S3_le_y fun i hi k hk => ?_
    have := Y.edge (X.t i * Z.t k) (mul_nonneg (X.h0 i hi) (Z.h0 k hk)) (fun j => v 1 i j k / Y.d j)
      (fun j _ h0 => by simp only [h0, div_zero])
    refine this.trans (le_of_eq (sum_congr rfl fun j hj => ?_))
    rcases eq_or_ne (Y.d j) 0 with h0 | h0
    · simp only [h0, div_zero, zero_mul, mul_zero]
    · field_simp
  have d3 : S3 X.N Y.N Z.N (fun i j k => X.t i * Y.t j * (if Inner Z.N k then bz Z v i j k ^ 2 / Z.t k else 0)) ≤ 4 / Z.m ^ 2 * ez := by
    rw [hez, ← S3_mul]
    refine S3_le_z fun i hi j hj => ?_
    have := Z.edge (X.t i * Y.t j) (mul_nonneg (X.h0 i hi) (Y.h0 j hj)) (fun k => v 2 i j k / Z.d k)
      (fun k _ h0 => by simp only [h0, div_zero])
    refine this.trans (le_of_eq (sum_congr rfl fun k hk => ?_))
    rcases eq_or_ne (Z.d k) 0 with h0 | h0
    · simp only [h0, div_zero, zero_mul, mul_zero]
    · field_simp
  rw [hd] at h1
  rw [hp, he]
  have e : 4 * (1 / X.m ^ 2 + 1 / Y.m ^ 2 + 1 / Z.m ^ 2) * (ex + ey + ez) =
      (4 / X.m ^ 2 * ex + 4 / Y.m ^ 2 * ex + 4 / Z.m ^ 2 * ex) + (4 / X.m ^ 2 * ey + 4 / Y.m ^ 2 * ey + 4 / Z.m ^ 2 * ey) +
      (4 / X.m ^ 2 * ez + 4 / Y.m ^ 2 * ez + 4 / Z.m ^ 2 * ez) := by ring
  rw [e]
  linarith
end
end CurlBound
end Sol
end Wakis
