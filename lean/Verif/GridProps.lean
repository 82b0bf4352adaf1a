import Verif.GridModel
import Mathlib.Algebra.BigOperators.Intervals
import Mathlib.Algebra.Order.BigOperators.Group.Finset
import Mathlib.Algebra.Field.Rat
import Mathlib.Algebra.Order.Ring.Rat
import Mathlib.Tactic.FieldSimp
import Mathlib.Tactic.NormNum
import Mathlib.Tactic.Positivity

/-!
# Grid properties C09-C12
-/

namespace Wakis
namespace Grid
open Fld Finset
variable {K : Type _} [Field K]

/-! ### helpers -/

theorem diffField_at3 {Nx Ny Nz c i j k : ℕ} (x y z : ℕ → K) (hc : c < 3) (hi : i < Nx) (hj : j < Ny)
    (hk : k < Nz) : (diffField Nx Ny Nz x y z).at3 c i j k =
      if c = 0 then x (i + 1) - x i else if c = 1 then y (j + 1) - y j else z (k + 1) - z k := by
  unfold diffField
  have := three_parts_at3 (K := K) (Nx := Nx) (Ny := Ny) (Nz := Nz)
    (fun c => if c = 0 then ravelF Nx Ny fun i _ _ => x (i + 1) - x i
      else if c = 1 then ravelF Nx Ny fun _ j _ => y (j + 1) - y j
      else ravelF Nx Ny fun _ _ k => z (k + 1) - z k) hc hi hj hk
  simp only [if_true, one_ne_zero, if_false, OfNat.ofNat_ne_zero, OfNat.ofNat_ne_one] at this
  rw [this]
  split_ifs <;> rw [ravelF_idx _ hi hj]

/-- The two transverse components of component `c`, in the order used by the code. -/
def others (c : ℕ) : ℕ × ℕ := if c = 0 then (1, 2) else if c = 1 then (0, 2) else (0, 1)

theorem part_at3 (f : Fld K) (c i j k : ℕ) : f.part c (i + f.Nx * (j + f.Ny * k)) = f.at3 c i j k := rfl

theorem invArea_at3 {Nx Ny Nz c i j k : ℕ} (L : Fld K) (hx : L.Nx = Nx) (hy : L.Ny = Ny) (hc : c < 3)
    (hi : i < Nx) (hj : j < Ny) (hk : k < Nz) : (invArea Nx Ny Nz L).at3 c i j k =
      1 / (L.at3 (others c).1 i j k * L.at3 (others c).2 i j k) := by
  unfold invArea
  have := three_parts_at3 (K := K) (Nx := Nx) (Ny := Ny) (Nz := Nz)
    (fun c p => 1 / (L.part (others c).1 p * L.part (others c).2 p)) hc hi hj hk
  subst hx hy
  exact this

theorem invDualArea_at3 [DecidableEq K] {Nx Ny Nz c i j k : ℕ} (L : Fld K) (hx : L.Nx = Nx) (hy : L.Ny = Ny) (hc : c < 3)
    (hi : i < Nx) (hj : j < Ny) (hk : k < Nz) : (invDualArea Nx Ny Nz L).at3 c i j k =
      guardedInv (L.at3 (others c).1 i j k * L.at3 (others c).2 i j k) := by
  unfold invDualArea
  have := three_parts_at3 (K := K) (Nx := Nx) (Ny := Ny) (Nz := Nz)
    (fun c p => guardedInv (L.part (others c).1 p * L.part (others c).2 p)) hc hi hj hk
  subst hx hy
  exact this

/-- The axis is strictly increasing on its nodes `0..n`. -/
def Increasing [LT K] (x : ℕ → K) (n : ℕ) : Prop := ∀ i < n, x i < x (i + 1)

/-! ### C09 -/

/-- **C09.** On every grid built from increasing axes, the three stored cell lengths are the
distances between consecutive nodes and positive. -/
theorem C09_lengths [LinearOrder K] [IsStrictOrderedRing K] (Nx Ny Nz : ℕ) (x y z : ℕ → K)
    (hx : Increasing x Nx) (hy : Increasing y Ny) (hz : Increasing z Nz) {i j k : ℕ}
    (hi : i < Nx) (hj : j < Ny) (hk : k < Nz) :
    let g := computeGrid Nx Ny Nz x y z
    g.L.get i j k (.str "x") = .ok (x (i + 1) - x i) ∧ g.L.get i j k (.str "y") = .ok (y (j + 1) - y j) ∧
    g.L.get i j k (.str "z") = .ok (z (k + 1) - z k) ∧
    0 < x (i + 1) - x i ∧ 0 < y (j + 1) - y j ∧ 0 < z (k + 1) - z k := by
  intro g
  refine ⟨?_, ?_, ?_, by linarith [hx i hi], by linarith [hy j hj], by linarith [hz k hk]⟩
  · rw [get_at3 (c := 0) (.str "x") (by simp [Names]) hi hj hk]
    show Except.ok ((diffField Nx Ny Nz x y z).at3 0 i j k) = _
    rw [diffField_at3 x y z (by omega) hi hj hk]; simp
  · rw [get_at3 (c := 1) (.str "y") (by simp [Names]) hi hj hk]
    show Except.ok ((diffField Nx Ny Nz x y z).at3 1 i j k) = _
    rw [diffField_at3 x y z (by omega) hi hj hk]; simp
  · rw [get_at3 (c := 2) (.str "z") (by simp [Names]) hi hj hk]
    show Except.ok ((diffField Nx Ny Nz x y z).at3 2 i j k) = _
    rw [diffField_at3 x y z (by omega) hi hj hk]; simp

/-- **C09.** Along every line of cells the stored lengths add up to the domain extent. -/
theorem C09_tile [DecidableEq K] (Nx Ny Nz : ℕ) (x y z : ℕ → K) {i j k : ℕ} (hi : i < Nx) (hj : j < Ny) (hk : k < Nz) :
    let g := computeGrid Nx Ny Nz x y z
    ∑ a ∈ range Nx, g.L.at3 0 a j k = x Nx - x 0 ∧ ∑ b ∈ range Ny, g.L.at3 1 i b k = y Ny - y 0 ∧
    ∑ c ∈ range Nz, g.L.at3 2 i j c = z Nz - z 0 := by
  intro g
  refine ⟨?_, ?_, ?_⟩
  · rw [← sum_range_sub x Nx]
    refine sum_congr rfl fun a ha => ?_
    exact (diffField_at3 x y z (by omega) (mem_range.1 ha) hj hk).trans (by simp)
  · rw [← sum_range_sub y Ny]
    refine sum_congr rfl fun a ha => ?_
    exact (diffField_at3 x y z (by omega) hi (mem_range.1 ha) hk).trans (by simp)
  · rw [← sum_range_sub z Nz]
    refine sum_congr rfl fun a ha => ?_
    exact (diffField_at3 x y z (by omega) hi hj (mem_range.1 ha)).trans (by simp)

/-- **C09.** For extents plus a positive number of cells the nodes start at the lower bound, end at the upper bound,
are equally spaced, and increase. -/
theorem C09_uniform [LinearOrder K] [IsStrictOrderedRing K] (a b : K) (hab : a < b) (n : ℕ) (hn : 0 < n) :
    linspace a b n 0 = a ∧ linspace a b n n = b ∧
    (∀ i < n, linspace a b n (i + 1) - linspace a b n i = (b - a) / n) ∧ Increasing (linspace a b n) n := by
  have hn' : (n : K) ≠ 0 := by exact_mod_cast hn.ne'
  have hstep : ∀ i < n, linspace a b n (i + 1) - linspace a b n i = (b - a) / n := by
    intro i hi
    unfold linspace
    rw [if_neg (by omega : ¬ (i = n ∧ 0 < n))]
    split_ifs with h
    · have : (i : K) = n - 1 := by
        have : (n : K) = i + 1 := by exact_mod_cast h.1.symm
        rw [this]; ring
      rw [this]; field_simp; ring
    · push_cast; ring
  refine ⟨?_, ?_, hstep, ?_⟩
  · unfold linspace; rw [if_neg (by omega)]; simp
  · unfold linspace; rw [if_pos ⟨rfl, hn⟩]
  · intro i hi
    have h1 := hstep i hi
    have : 0 < (b - a) / n := div_pos (by linarith) (by exact_mod_cast hn)
    linarith

/-- Non-vacuity for C09-C11: a non-uniform axis. -/
def demoAxis : ℕ → ℚ := fun i => (i : ℚ) ^ 2
example : Increasing demoAxis 5 := by
  intro i _; simp only [demoAxis]; push_cast; nlinarith [(Nat.cast_nonneg i : (0 : ℚ) ≤ i)]
example : linspace (1 : ℚ) 3 4 1 = 3 / 2 := by norm_num [linspace]

/-! ### C10 -/

/-- **C10.** The stored inverse primary area times the product of the two transverse lengths is one. -/
theorem C10_primary [LinearOrder K] [IsStrictOrderedRing K] (Nx Ny Nz : ℕ) (x y z : ℕ → K)
    (hx : Increasing x Nx) (hy : Increasing y Ny) (hz : Increasing z Nz) {i j k : ℕ}
    (hi : i < Nx) (hj : j < Ny) (hk : k < Nz) :
    let g := computeGrid Nx Ny Nz x y z
    g.iA.at3 0 i j k * (g.L.at3 1 i j k * g.L.at3 2 i j k) = 1 ∧
    g.iA.at3 1 i j k * (g.L.at3 0 i j k * g.L.at3 2 i j k) = 1 ∧
    g.iA.at3 2 i j k * (g.L.at3 0 i j k * g.L.at3 1 i j k) = 1 ∧
    0 < g.iA.at3 0 i j k ∧ 0 < g.iA.at3 1 i j k ∧ 0 < g.iA.at3 2 i j k := by
  intro g
  have h0 : 0 < g.L.at3 0 i j k := by
    show 0 < (diffField Nx Ny Nz x y z).at3 0 i j k
    rw [diffField_at3 x y z (by omega) hi hj hk]; simpa using hx i hi
  have h1 : 0 < g.L.at3 1 i j k := by
    show 0 < (diffField Nx Ny Nz x y z).at3 1 i j k
    rw [diffField_at3 x y z (by omega) hi hj hk]; simpa using hy j hj
  have h2 : 0 < g.L.at3 2 i j k := by
    show 0 < (diffField Nx Ny Nz x y z).at3 2 i j k
    rw [diffField_at3 x y z (by omega) hi hj hk]; simpa using hz k hk
  have e : ∀ c < 3, g.iA.at3 c i j k = 1 / (g.L.at3 (others c).1 i j k * g.L.at3 (others c).2 i j k) :=
    fun c hc => invArea_at3 (Nx := Nx) (Ny := Ny) (Nz := Nz) g.L rfl rfl hc hi hj hk
  rw [e 0 (by omega), e 1 (by omega), e 2 (by omega)]
  simp only [others, if_true, one_ne_zero, if_false, OfNat.ofNat_ne_zero, OfNat.ofNat_ne_one]
  refine ⟨one_div_mul_cancel (by positivity), one_div_mul_cancel (by positivity),
    one_div_mul_cancel (by positivity), by positivity, by positivity, by positivity⟩

/-- **C10.** The stored inverse dual area is the inverse of the product of the two transverse dual
lengths where that product is non-zero, and zero where it is zero, on every grid. -/
theorem C10_dual [DecidableEq K] (Nx Ny Nz : ℕ) (x y z : ℕ → K) {i j k : ℕ}
    (hi : i < Nx) (hj : j < Ny) (hk : k < Nz) :
    let g := computeGrid Nx Ny Nz x y z
    ∀ c c1 c2 : ℕ, (c, c1, c2) = (0, 1, 2) ∨ (c, c1, c2) = (1, 0, 2) ∨ (c, c1, c2) = (2, 0, 1) →
      let a := g.tL.at3 c1 i j k * g.tL.at3 c2 i j k
      (a ≠ 0 → g.itA.at3 c i j k * a = 1) ∧ (a = 0 → g.itA.at3 c i j k = 0) := by
  intro g c c1 c2 hc a
  have e : ∀ c < 3, g.itA.at3 c i j k = guardedInv (g.tL.at3 (others c).1 i j k * g.tL.at3 (others c).2 i j k) :=
    fun c hc => invDualArea_at3 (Nx := Nx) (Ny := Ny) (Nz := Nz) g.tL rfl rfl hc hi hj hk
  have e' : g.itA.at3 c i j k = guardedInv a := by
    rcases hc with h | h | h <;> obtain ⟨rfl, h'⟩ := Prod.ext_iff.1 h <;>
      obtain ⟨rfl, rfl⟩ := Prod.ext_iff.1 h' <;> exact e _ (by simp)
  rw [e']
  refine ⟨fun h => ?_, fun h => ?_⟩
  · rw [guardedInv, if_pos h, one_div_mul_cancel h]
  · rw [guardedInv, if_neg (by simpa using h)]

/-! ### C11 -/

/-- What the dual length of layer `i` of an axis with nodes `x` and `n` cells has to be. -/
theorem tilde_diff (x : ℕ → K) (n i : ℕ) (h2 : (2 : K) ≠ 0) (hi : i < n) :
    tilde x n (i + 1) - tilde x n i =
      if i + 1 < n then ((x (i + 1) - x i) + (x (i + 2) - x (i + 1))) / 2 else 0 := by
  unfold tilde
  rw [if_pos hi]
  split_ifs with h
  · field_simp; ring
  · have : i = n - 1 := by omega
    subst this
    rw [Nat.sub_add_cancel (by omega), sub_self]

/-- **C11.** Dual lengths: half the sum of the two adjacent cell lengths inside, exactly zero in the
last layer of the axis. -/
theorem C11_dual_lengths [LinearOrder K] [IsStrictOrderedRing K] (Nx Ny Nz : ℕ) (x y z : ℕ → K) {i j k : ℕ}
    (hi : i < Nx) (hj : j < Ny) (hk : k < Nz) :
    let g := computeGrid Nx Ny Nz x y z
    (g.tL.at3 0 i j k = if i + 1 < Nx then (g.L.at3 0 i j k + g.L.at3 0 (i + 1) j k) / 2 else 0) ∧
    (g.tL.at3 1 i j k = if j + 1 < Ny then (g.L.at3 1 i j k + g.L.at3 1 i (j + 1) k) / 2 else 0) ∧
    (g.tL.at3 2 i j k = if k + 1 < Nz then (g.L.at3 2 i j k + g.L.at3 2 i j (k + 1)) / 2 else 0) := by
  intro g
  have eL : ∀ c < 3, ∀ i < Nx, ∀ j < Ny, ∀ k < Nz, g.L.at3 c i j k = _ :=
    fun c hc i hi j hj k hk => diffField_at3 x y z hc hi hj hk
  have et : ∀ c < 3, g.tL.at3 c i j k = _ := fun c hc =>
    diffField_at3 (tilde x Nx) (tilde y Ny) (tilde z Nz) hc hi hj hk
  refine ⟨?_, ?_, ?_⟩
  · rw [et 0 (by omega), if_pos rfl, tilde_diff x Nx i two_ne_zero hi]
    split_ifs with h
    · rw [eL 0 (by omega) i hi j hj k hk, eL 0 (by omega) (i + 1) h j hj k hk]; simp
    · rfl
  · rw [et 1 (by omega), if_neg one_ne_zero, if_pos rfl, tilde_diff y Ny j two_ne_zero hj]
    split_ifs with h
    · rw [eL 1 (by omega) i hi j hj k hk, eL 1 (by omega) i hi (j + 1) h k hk]; simp
    · rfl
  · rw [et 2 (by omega), if_neg two_ne_zero, if_neg (by omega), tilde_diff z Nz k two_ne_zero hk]
    split_ifs with h
    · rw [eL 2 (by omega) i hi j hj k hk, eL 2 (by omega) i hi j hj (k + 1) h]; simp
    · rfl

/-- **C11.** Dual lengths are positive except in the last layer. -/
theorem C11_positive [LinearOrder K] [IsStrictOrderedRing K] (Nx Ny Nz : ℕ) (x y z : ℕ → K)
    (hx : Increasing x Nx) (hy : Increasing y Ny) (hz : Increasing z Nz) {i j k : ℕ}
    (hi : i < Nx) (hj : j < Ny) (hk : k < Nz) :
    let g := computeGrid Nx Ny Nz x y z
    (0 < g.tL.at3 0 i j k ↔ i + 1 < Nx) ∧ (0 < g.tL.at3 1 i j k ↔ j + 1 < Ny) ∧
    (0 < g.tL.at3 2 i j k ↔ k + 1 < Nz) := by
  intro g
  have et : ∀ c < 3, g.tL.at3 c i j k = _ := fun c hc =>
    diffField_at3 (tilde x Nx) (tilde y Ny) (tilde z Nz) hc hi hj hk
  refine ⟨?_, ?_, ?_⟩
  · rw [et 0 (by omega), if_pos rfl, tilde_diff x Nx i two_ne_zero hi]
    split_ifs with h
    · have h1 := hx i hi; have h2 := hx (i + 1) h
      exact ⟨fun _ => h, fun _ => by apply div_pos <;> linarith⟩
    · simp [h]
  · rw [et 1 (by omega), if_neg one_ne_zero, if_pos rfl, tilde_diff y Ny j two_ne_zero hj]
    split_ifs with h
    · have h1 := hy j hj; have h2 := hy (j + 1) h
      exact ⟨fun _ => h, fun _ => by apply div_pos <;> linarith⟩
    · simp [h]
  · rw [et 2 (by omega), if_neg two_ne_zero, if_neg (by omega), tilde_diff z Nz k two_ne_zero hk]
    split_ifs with h
    · have h1 := hz k hk; have h2 := hz (k + 1) h
      exact ⟨fun _ => h, fun _ => by apply div_pos <;> linarith⟩
    · simp [h]

/-- **C11.** The dual lengths of an axis add up to the distance between the first and the last cell
centre (stated for x; the other axes are the same computation). -/
theorem C11_sum [DecidableEq K] (Nx Ny Nz : ℕ) (x y z : ℕ → K) {i j k : ℕ}
    (hi : i < Nx) (hj : j < Ny) (hk : k < Nz) :
    let g := computeGrid Nx Ny Nz x y z
    ∑ a ∈ range Nx, g.tL.at3 0 a j k = (x Nx + x (Nx - 1)) / 2 - (x 1 + x 0) / 2 ∧
    ∑ b ∈ range Ny, g.tL.at3 1 i b k = (y Ny + y (Ny - 1)) / 2 - (y 1 + y 0) / 2 ∧
    ∑ c ∈ range Nz, g.tL.at3 2 i j c = (z Nz + z (Nz - 1)) / 2 - (z 1 + z 0) / 2 := by
  intro g
  have ends : ∀ (x : ℕ → K) (n : ℕ), 0 < n →
      tilde x n n - tilde x n 0 = (x n + x (n - 1)) / 2 - (x 1 + x 0) / 2 := by
    intro x n hn
    unfold tilde
    rw [if_neg (lt_irrefl n), if_pos hn]
  refine ⟨?_, ?_, ?_⟩
  · rw [← ends x Nx (by omega), ← sum_range_sub]
    refine sum_congr rfl fun a ha => ?_
    exact (diffField_at3 _ _ _ (by omega) (mem_range.1 ha) hj hk).trans (by simp)
  · rw [← ends y Ny (by omega), ← sum_range_sub]
    refine sum_congr rfl fun a ha => ?_
    exact (diffField_at3 _ _ _ (by omega) hi (mem_range.1 ha) hk).trans (by simp)
  · rw [← ends z Nz (by omega), ← sum_range_sub]
    refine sum_congr rfl fun a ha => ?_
    exact (diffField_at3 _ _ _ (by omega) hi hj (mem_range.1 ha)).trans (by simp)

/-- Non-vacuity: concrete numbers on the non-uniform axis 0,1,4,9 with 3 cells. -/
example : (computeGrid 3 2 2 demoAxis demoAxis demoAxis).tL.at3 0 1 0 0 = 4 ∧
    (computeGrid 3 2 2 demoAxis demoAxis demoAxis).tL.at3 0 2 0 0 = 0 ∧
    (computeGrid 3 2 2 demoAxis demoAxis demoAxis).itA.at3 1 1 0 0 = 1 / 8 := by
  have h := C11_dual_lengths 3 2 2 demoAxis demoAxis demoAxis (i := 1) (j := 0) (k := 0) (by omega) (by omega) (by omega)
  refine ⟨?_, ?_, ?_⟩ <;>
    norm_num [computeGrid, diffField, invDualArea, guardedInv, Fld.at3, Fld.part, Fld.setPart, Fld.new, Fld.N, ravelF, tilde, demoAxis]

/-! ### C12 -/

/-- Number of low ghost layers of a rank. -/
def ghostLo (rank : ℕ) : ℕ := if 0 < rank then 1 else 0
/-- Number of high ghost layers of a rank. -/
def ghostHi (rank size : ℕ) : ℕ := if rank + 1 < size ∨ size = 1 then 1 else 0

/-- **C12.** Fewer layers than ranks are refused. -/
theorem C12_refused (rank size Nz : ℕ) (zmin zmax : K) (h : Nz < size) :
    mpiInitialize rank size Nz zmin zmax = .error .valueError := by
  simp [mpiInitialize, h]

/-- **C12.** For every rank count and every accepted `Nz`, the rank's grid exists, `NZ` is the largest
multiple of the rank count not above `Nz`, every rank owns the same number `NZ/size` of layers plus
its ghosts, and local node `l` has the coordinate of global node `rank*(NZ/size) + l - ghostLo` of an
equally spaced grid of `NZ` cells over the whole domain. -/
theorem C12_local_grid [CharZero K] {rank size Nz : ℕ} (zmin zmax : K) (hs : 0 < size) (hr : rank < size)
    (h : size ≤ Nz) : ∃ m : MpiZ K, mpiInitialize rank size Nz zmin zmax = .ok m ∧
      size ∣ m.NZ ∧ m.NZ ≤ Nz ∧ Nz < m.NZ + size ∧ 0 < m.NZ / size ∧
      m.Nz = m.NZ / size + ghostLo rank + ghostHi rank size ∧
      ∀ l ≤ m.Nz, m.z l =
        zmin + ((rank * (m.NZ / size) + l : ℕ) - (ghostLo rank : K)) * ((zmax - zmin) / m.NZ) := by
  have hdiv : size ∣ Nz - Nz % size := Nat.dvd_sub_mod Nz
  have hlt : Nz % size < size := Nat.mod_lt _ hs
  have hle : Nz % size ≤ Nz := Nat.mod_le _ _
  have hpos : 0 < Nz - Nz % size := by
    have := Nat.mod_lt Nz hs
    omega
  have hn : 0 < (Nz - Nz % size) / size := Nat.div_pos (Nat.le_of_dvd hpos hdiv) hs
  set NZ := Nz - Nz % size with hNZ
  set n := NZ / size with hn'
  set dz := (zmax - zmin) / (NZ : K) with hdz
  have lin : ∀ (a : K) (m : ℕ) (l : ℕ), 0 < m → l ≤ m → linspace a (a + m * dz) m l = a + l * dz := by
    intro a m l hm hl
    unfold linspace
    have hm' : (m : K) ≠ 0 := by exact_mod_cast hm.ne'
    split_ifs with hh
    · rw [hh.1]
    · rw [add_sub_cancel_left, mul_div_cancel_left₀ _ hm']
  refine ⟨_, by unfold mpiInitialize; rw [if_neg (by omega)], ?_⟩
  simp only [ghostLo, ghostHi]
  rcases Nat.eq_zero_or_pos rank with h0 | h0
  · subst h0
    by_cases h1 : size = 1
    · subst h1
      refine ⟨hdiv, by omega, by omega, hn, by simp [NZ], ?_⟩
      intro l hl
      simp only [lt_irrefl, if_false, if_true, and_self, Nat.lt_irrefl, zero_add] at hl ⊢
      have := lin zmin (n + 1) l (by omega) hl
      simp only [Nat.cast_zero, zero_mul, zero_add, sub_zero, Nat.cast_add, Nat.cast_one] at this ⊢
      rw [← this]; congr 1; simp only [n, NZ]; ring
    · refine ⟨hdiv, by omega, by omega, hn, by simp [h1, show 1 < size by omega], ?_⟩
      intro l hl
      simp only [lt_irrefl, if_false, show 0 + 1 < size by omega, if_true, h1, and_false, Nat.lt_irrefl, zero_add,
        true_or] at hl ⊢
      have := lin zmin (n + 1) l (by omega) hl
      simp only [Nat.cast_zero, zero_mul, zero_add, sub_zero, Nat.cast_add, Nat.cast_one] at this ⊢
      rw [← this]; congr 1; ring
  · have hne : ¬ (rank = 0 ∧ size = 1) := by omega
    have hs1 : size ≠ 1 := by omega
    by_cases h2 : rank + 1 < size
    · refine ⟨hdiv, by omega, by omega, hn, by simp [h0, h2, hne], ?_⟩
      intro l hl
      simp only [h0, h2, hne, if_true, if_false, true_or] at hl ⊢
      have := lin (rank * n * dz + zmin - dz) (n + 1 + 1) l (by omega) hl
      simp only [Nat.cast_add, Nat.cast_one, Nat.cast_mul] at this ⊢
      calc _ = linspace (rank * n * dz + zmin - dz) (rank * n * dz + zmin - dz + ((n : K) + 1 + 1) * dz) (n + 1 + 1) l := by
              congr 1; ring
        _ = _ := by rw [this]; ring
    · refine ⟨hdiv, by omega, by omega, hn, by simp [h0, h2, hs1, hne], ?_⟩
      intro l hl
      simp only [h0, h2, hs1, and_false, if_true, if_false, or_self] at hl ⊢
      have := lin (rank * n * dz + zmin - dz) (n + 1) l (by omega) hl
      simp only [Nat.cast_add, Nat.cast_one, Nat.cast_mul] at this ⊢
      calc _ = linspace (rank * n * dz + zmin - dz) (rank * n * dz + zmin - dz + ((n : K) + 1) * dz) (n + 1) l := by
              congr 1; ring
        _ = _ := by rw [this]; ring

/-- **C12.** Owned layers partition the global layers: each global layer `g < NZ` is owned by exactly
one rank at exactly one owned position. -/
theorem C12_partition {size NZ : ℕ} (hs : 0 < size) (hd : size ∣ NZ) :
    ∀ g < NZ, ∃! p : ℕ × ℕ, p.1 < size ∧ p.2 < NZ / size ∧ p.1 * (NZ / size) + p.2 = g := by
  intro g hg
  obtain ⟨n, rfl⟩ := hd
  rw [Nat.mul_div_cancel_left n hs]
  have hn : 0 < n := by
    rcases Nat.eq_zero_or_pos n with h | h
    · subst h; simp at hg
    · exact h
  refine ⟨(g / n, g % n), ⟨?_, Nat.mod_lt _ hn, ?_⟩, ?_⟩
  · exact Nat.div_lt_of_lt_mul (by rwa [Nat.mul_comm] at hg)
  · simp only; rw [Nat.mul_comm]; exact Nat.div_add_mod g n
  · rintro ⟨r, l⟩ ⟨_, hl, rfl⟩
    simp only at hl ⊢
    have h1 : (r * n + l) / n = r := by
      rw [Nat.mul_comm, Nat.mul_add_div hn, Nat.div_eq_of_lt hl, Nat.add_zero]
    have h2 : (r * n + l) % n = l := by
      rw [Nat.mul_comm, Nat.mul_add_mod, Nat.mod_eq_of_lt hl]
    rw [h1, h2]

/-- **C12 (refutation for one rank).** With a single MPI process the grid is one layer longer than the
requested domain: its last node lies one cell beyond `zmax`. -/
theorem C12_single_rank_exceeds [LinearOrder K] [IsStrictOrderedRing K] {Nz : ℕ} (zmin zmax : K)
    (hz : zmin < zmax) (hN : 0 < Nz) :
    ∃ m : MpiZ K, mpiInitialize 0 1 Nz zmin zmax = .ok m ∧ m.Nz = Nz + 1 ∧ zmax < m.z m.Nz := by
  obtain ⟨m, hm, _, h2, h3, _, h5, h6⟩ := C12_local_grid (rank := 0) (size := 1) (Nz := Nz) zmin zmax (by omega) (by omega) (by omega)
  have hNZ : m.NZ = Nz := by omega
  simp only [ghostLo, ghostHi, Nat.div_one, hNZ, lt_irrefl, if_false, or_true, if_true, Nat.add_zero] at h5 h6
  refine ⟨m, hm, h5, ?_⟩
  rw [h6 m.Nz le_rfl, h5]
  have hN' : (0 : K) < Nz := by exact_mod_cast hN
  push_cast
  rw [zero_mul, zero_add, sub_zero, add_mul, mul_div_cancel₀ _ hN'.ne', one_mul]
  have : 0 < (zmax - zmin) / Nz := div_pos (by linarith) hN'
  linarith

/-- **C12 (ghosts inside).** With two or more ranks every local layer, ghosts included, is a layer of the
global grid. -/
theorem C12_ghosts_inside {rank size NZ l : ℕ} (hs : 2 ≤ size) (hr : rank < size) (hd : size ∣ NZ)
    (hp : 0 < NZ) (hl : l < NZ / size + ghostLo rank + ghostHi rank size) :
    ghostLo rank ≤ rank * (NZ / size) + l ∧ rank * (NZ / size) + l - ghostLo rank < NZ := by
  obtain ⟨n, rfl⟩ := hd
  rw [Nat.mul_div_cancel_left n (by omega)] at *
  have hn : 0 < n := by
    rcases Nat.eq_zero_or_pos n with h | h
    · subst h; simp at hp
    · exact h
  unfold ghostLo ghostHi at *
  split_ifs at * with h0 h1 h1
  · have : n ≤ rank * n := Nat.le_mul_of_pos_left n h0
    refine ⟨by omega, ?_⟩
    rcases h1 with h1 | h1
    · have : (rank + 2) * n ≤ size * n := Nat.mul_le_mul_right n (by omega)
      have e : (rank + 2) * n = rank * n + 2 * n := by ring
      omega
    · omega
  · have : n ≤ rank * n := Nat.le_mul_of_pos_left n h0
    have : (rank + 1) * n ≤ size * n := Nat.mul_le_mul_right n (by omega)
    have e : (rank + 1) * n = rank * n + n := by ring
    omega
  · have : 2 * n ≤ size * n := Nat.mul_le_mul_right n (by omega)
    have h0 : rank = 0 := by omega
    subst h0
    omega
  · omega

/-- Non-vacuity: 10 layers on 3 ranks: NZ = 9, middle rank has 3 owned layers and 2 ghosts. -/
example : (mpiInitialize 1 3 10 (0 : ℚ) 9).toOption.map (fun m => (m.NZ, m.Nz, m.z 0, m.z 5)) = some (9, 5, 2, 7) := by
  norm_num [mpiInitialize, Except.toOption, linspace]

end Grid
end Wakis
