import Verif.Stability2
import Mathlib.Data.ZMod.Basic

/-!
# C20: stability on uniform grids, for every choice of boundary names

On a grid with equal cells the curl of the code, with the couplings from the end of a row to the start of the next that open, periodic
and absorbing faces leave in it, is bounded as on a periodic line: every combination of names is stable below the CFL limit.
-/

namespace Wakis
namespace Sol
open Finset Sparse Grid
variable {K : Type _} [Field K] [LinearOrder K] [IsStrictOrderedRing K]

/-! ### the curl on a finite commutative group -/

section
variable {G : Type} [AddCommGroup G] [Fintype G]

omit [Fintype G] in
theorem shift_apply (s p : G) : (Equiv.addRight s) p = p + s := rfl

theorem sum_shift (F : G → K) (s : G) : ∑ p, F (p + s) = ∑ p, F p := Equiv.sum_comp (Equiv.addRight s) F

theorem diff_sq (f : G → K) (s : G) : ∑ p, (f (p + s) - f p) ^ 2 ≤ 4 * ∑ p, f p ^ 2 := by
  have h : ∀ p ∈ (univ : Finset G), (f (p + s) - f p) ^ 2 ≤ 2 * f (p + s) ^ 2 + 2 * f p ^ 2 := fun p _ => by
    nlinarith [sq_nonneg (f (p + s) + f p)]
  refine (sum_le_sum h).trans (le_of_eq ?_)
  rw [sum_add_distrib, ← mul_sum, ← mul_sum, sum_shift (fun p => f p ^ 2)]
  ring

/-- The product of two differences, carried over to the other side. -/
theorem diff_cross (g h : G → K) (t u : G) : ∑ p, (h (p + t) - h p) * (g (p + u) - g p) = ∑ p, (g (p + -t) - g p) * (h (p + -u) - h p) := by
  have e1 : ∑ p, h (p + t) * g (p + u) = ∑ p, g (p + -t) * h (p + -u) := by
    rw [← sum_shift (fun p => h (p + t) * g (p + u)) (-t + -u)]
    refine sum_congr rfl fun p _ => ?_
    rw [show p + (-t + -u) + t = p + -u by abel, show p + (-t + -u) + u = p + -t by abel, mul_comm]
  have e2 : ∑ p, h (p + t) * g p = ∑ p, g (p + -t) * h p := by
    rw [← sum_shift (fun p => h (p + t) * g p) (-t)]
    refine sum_congr rfl fun p _ => ?_
    rw [show p + -t + t = p by abel, mul_comm]
  have e3 : ∑ p, h p * g (p + u) = ∑ p, g p * h (p + -u) := by
    rw [← sum_shift (fun p => h p * g (p + u)) (-u)]
    refine sum_congr rfl fun p _ => ?_
    rw [show p + -u + u = p by abel, mul_comm]
  have l : ∑ p, (h (p + t) - h p) * (g (p + u) - g p) =
      ∑ p, h (p + t) * g (p + u) - ∑ p, h (p + t) * g p - ∑ p, h p * g (p + u) + ∑ p, g p * h p := by
    rw [← sum_sub_distrib, ← sum_sub_distrib, ← sum_add_distrib]
    exact sum_congr rfl fun p _ => by ring
  have r : ∑ p, (g (p + -t) - g p) * (h (p + -u) - h p) =
      ∑ p, g (p + -t) * h (p + -u) - ∑ p, g (p + -t) * h p - ∑ p, g p * h (p + -u) + ∑ p, g p * h p := by
    rw [← sum_sub_distrib, ← sum_sub_distrib, ← sum_add_distrib]
    exact sum_congr rfl fun p _ => by ring
  rw [l, r, e1, e2, e3]

/-- The curl of three functions with differences along `s`, `t`, `u`: the divergence is what is missing to the sum of all differences. -/
theorem group_curl (a b c : K) (s t u : G) (f g h : G → K) :
    ∑ p, ((b * (h (p + t) - h p) - c * (g (p + u) - g p)) ^ 2 + (c * (f (p + u) - f p) - a * (h (p + s) - h p)) ^ 2 +
      (a * (g (p + s) - g p) - b * (f (p + t) - f p)) ^ 2) ≤ 4 * (a ^ 2 + b ^ 2 + c ^ 2) * ∑ p, (f p ^ 2 + g p ^ 2 + h p ^ 2) := by
  have c1 := diff_cross g h t u
  have c2 := diff_cross h f u s
  have c3 := diff_cross f g s t
  have hdiv : 0 ≤ ∑ p, (a * (f (p + -s) - f p) + b * (g (p + -t) - g p) + c * (h (p + -u) - h p)) ^ 2 :=
    sum_nonneg fun p _ => sq_nonneg _
  have l : ∑ p, ((b * (h (p + t) - h p) - c * (g (p + u) - g p)) ^ 2 + (c * (f (p + u) - f p) - a * (h (p + s) - h p)) ^ 2 +
      (a * (g (p + s) - g p) - b * (f (p + t) - f p)) ^ 2) =
      b ^ 2 * ∑ p, (h (p + t) - h p) ^ 2 + c ^ 2 * ∑ p, (g (p + u) - g p) ^ 2 + c ^ 2 * ∑ p, (f (p + u) - f p) ^ 2 +
      a ^ 2 * ∑ p, (h (p + s) - h p) ^ 2 + a ^ 2 * ∑ p, (g (p + s) - g p) ^ 2 + b ^ 2 * ∑ p, (f (p + t) - f p) ^ 2 -
      2 * b * c * ∑ p, (h (p + t) - h p) * (g (p + u) - g p) - 2 * c * a * ∑ p, (f (p + u) - f p) * (h (p + s) - h p) -
      2 * a * b * ∑ p, (g (p + s) - g p) * (f (p + t) - f p) := by
    simp only [mul_sum, ← sum_add_distrib, ← sum_sub_distrib]
    exact sum_congr rfl fun p _ => by ring
  have d : ∑ p, (a * (f (p + -s) - f p) + b * (g (p + -t) - g p) + c * (h (p + -u) - h p)) ^ 2 =
      a ^ 2 * ∑ p, (f (p + -s) - f p) ^ 2 + b ^ 2 * ∑ p, (g (p + -t) - g p) ^ 2 + c ^ 2 * ∑ p, (h (p + -u) - h p) ^ 2 +
      2 * b * c * ∑ p, (g (p + -t) - g p) * (h (p + -u) - h p) + 2 * c * a * ∑ p, (h (p + -u) - h p) * (f (p + -s) - f p) +
      2 * a * b * ∑ p, (f (p + -s) - f p) * (g (p + -t) - g p) := by
    simp only [mul_sum, ← sum_add_distrib]
    exact sum_congr rfl fun p _ => by ring
  rw [l, c1, c2, c3]
  rw [d] at hdiv
  rw [sum_add_distrib, sum_add_distrib]
  have a2 := sq_nonneg a
  have b2 := sq_nonneg b
  have c2' := sq_nonneg c
  have m : ∀ {k x y : K}, 0 ≤ k → x ≤ y → k * x ≤ k * y := fun h1 h2 => mul_le_mul_of_nonneg_left h2 h1
  linarith [m b2 (diff_sq h t), m c2' (diff_sq g u), m c2' (diff_sq f u), m a2 (diff_sq h s), m a2 (diff_sq g s), m b2 (diff_sq f t),
    m a2 (diff_sq f (-s)), m b2 (diff_sq g (-t)), m c2' (diff_sq h (-u))]
end

/-! ### the flat arrays as a part of a long periodic line -/

/-- A component of a flat array, continued by zero to a periodic line of length `M`. -/
def line (M N : ℕ) (v : Vec K) (c : ℕ) : ZMod M → K := fun q => ext N v c q.val

omit [LinearOrder K] [IsStrictOrderedRing K] in
theorem line_cast {M N : ℕ} (v : Vec K) (c : ℕ) {p : ℕ} (hp : p < M) : line M N v c (p : ZMod M) = ext N v c p := by
  unfold line
  rw [ZMod.val_cast_of_lt hp]

/-- The curl of the code along the flat index, with the factors of a uniform grid. -/
theorem flat_curl (a b c : K) (Nx Ny Nz : ℕ) (w : Vec K) :
    ∑ p ∈ range (Nx * Ny * Nz),
      ((b * (ext (Nx * Ny * Nz) w 2 (p + Nx) - ext (Nx * Ny * Nz) w 2 p) -
          c * (ext (Nx * Ny * Nz) w 1 (p + Nx * Ny) - ext (Nx * Ny * Nz) w 1 p)) ^ 2 +
        (c * (ext (Nx * Ny * Nz) w 0 (p + Nx * Ny) - ext (Nx * Ny * Nz) w 0 p) -
          a * (ext (Nx * Ny * Nz) w 2 (p + 1) - ext (Nx * Ny * Nz) w 2 p)) ^ 2 +
        (a * (ext (Nx * Ny * Nz) w 1 (p + 1) - ext (Nx * Ny * Nz) w 1 p) -
          b * (ext (Nx * Ny * Nz) w 0 (p + Nx) - ext (Nx * Ny * Nz) w 0 p)) ^ 2) ≤
      4 * (a ^ 2 + b ^ 2 + c ^ 2) * ∑ p ∈ range (Nx * Ny * Nz), (ext (Nx * Ny * Nz) w 0 p ^ 2 + ext (Nx * Ny * Nz) w 1 p ^ 2 +
        ext (Nx * Ny * Nz) w 2 p ^ 2) := by
  set N := Nx * Ny * Nz with hN
  set M := N + Nx * Ny + Nx + 1 + 1 with hM
  haveI : NeZero M := ⟨by omega⟩
  have key := group_curl a b c (1 : ZMod M) (Nx : ZMod M) ((Nx * Ny : ℕ) : ZMod M) (line M N w 0) (line M N w 1) (line M N w 2)
  have inj : Set.InjOn (fun p : ℕ => (p : ZMod M)) (range N : Finset ℕ) := by
    intro p hp q hq h
    have hp : p < N := by simpa using hp
    have hq : q < N := by simpa using hq
    have := congrArg ZMod.val h
    rwa [ZMod.val_cast_of_lt (by omega), ZMod.val_cast_of_lt (by omega)] at this
  have e0 : ∀ cc, ∀ p < N, line M N w cc (p : ZMod M) = ext N w cc p := fun cc p hp => line_cast w cc (by omega)
  have e1 : ∀ cc, ∀ p < N, line M N w cc ((p : ZMod M) + 1) = ext N w cc (p + 1) := fun cc p hp => by
    rw [← line_cast (M := M) w cc (by omega)]; push_cast; rfl
  have e2 : ∀ cc, ∀ p < N, line M N w cc ((p : ZMod M) + (Nx : ZMod M)) = ext N w cc (p + Nx) := fun cc p hp => by
    rw [← line_cast (M := M) w cc (by omega)]; push_cast; rfl
  have e3 : ∀ cc, ∀ p < N, line M N w cc ((p : ZMod M) + ((Nx * Ny : ℕ) : ZMod M)) = ext N w cc (p + Nx * Ny) := fun cc p hp => by
    rw [← line_cast (M := M) w cc (by omega), ← Nat.cast_add]
  have rhs : ∑ p : ZMod M, (line M N w 0 p ^ 2 + line M N w 1 p ^ 2 + line M N w 2 p ^ 2) =
      ∑ p ∈ range N, (ext N w 0 p ^ 2 + ext N w 1 p ^ 2 + ext N w 2 p ^ 2) := by
    rw [← sum_subset (subset_univ ((range N).image fun p : ℕ => (p : ZMod M)))]
    · rw [sum_image inj]
      refine sum_congr rfl fun p hp => ?_
      have hp := mem_range.1 hp
      rw [e0 0 p hp, e0 1 p hp, e0 2 p hp]
    · intro q _ hq
      have : ¬ q.val < N := fun h => hq (mem_image.2 ⟨q.val, mem_range.2 h, ZMod.natCast_zmod_val q⟩)
      simp only [line, ext, if_neg this]; ring
  rw [rhs] at key
  refine le_trans ?_ key
  refine le_trans (le_of_eq ?_) (sum_le_sum_of_subset_of_nonneg (subset_univ ((range N).image fun p : ℕ => (p : ZMod M)))
    fun p _ _ => by positivity)
  rw [sum_image inj]
  refine sum_congr rfl fun p hp => ?_
  have hp := mem_range.1 hp
  rw [e0 0 p hp, e0 1 p hp, e0 2 p hp, e1 1 p hp, e1 2 p hp, e2 0 p hp, e2 2 p hp, e3 0 p hp, e3 1 p hp]

/-! ### the metric of a uniform grid under any boundary names -/

/-- The length of the cells along an axis. -/
def pick (dx dy dz : K) (c : ℕ) : K := if c = 0 then dx else if c = 1 then dy else dz

/-- Dual lengths are those of the cells or zero, inverse dual areas those of the faces or zero. -/
structure UMetric (Nx Ny Nz : ℕ) (dx dy dz : K) (m : Fld K × Fld K) : Prop where
  s1 : m.1.Nx = Nx ∧ m.1.Ny = Ny ∧ m.1.Nz = Nz
  s2 : m.2.Nx = Nx ∧ m.2.Ny = Ny ∧ m.2.Nz = Nz
  len : ∀ c < 3, ∀ i < Nx, ∀ j < Ny, ∀ k < Nz, m.1.at3 c i j k = 0 ∨ m.1.at3 c i j k = pick dx dy dz c
  area : ∀ c < 3, ∀ i < Nx, ∀ j < Ny, ∀ k < Nz, m.2.at3 c i j k = 0 ∨
    m.2.at3 c i j k = 1 / (pick dx dy dz (others c).1 * pick dx dy dz (others c).2)

section
variable {Nx Ny Nz : ℕ} {x y z : ℕ → K} {dx dy dz : K}

omit [LinearOrder K] [IsStrictOrderedRing K] in
theorem UMetric.put {L iA : Fld K} {m : Fld K × Fld K} (h : UMetric Nx Ny Nz dx dy dz m)
    (hL : ∀ c < 3, ∀ i < Nx, ∀ j < Ny, ∀ k < Nz, L.at3 c i j k = pick dx dy dz c)
    (hA : ∀ c < 3, ∀ i < Nx, ∀ j < Ny, ∀ k < Nz, iA.at3 c i j k = 1 / (pick dx dy dz (others c).1 * pick dx dy dz (others c).2))
    {axis : ℕ} (ha : axis < 3) : UMetric Nx Ny Nz dx dy dz (wrapMetric L iA m axis) := by
  have in0 : ∀ {c i n : ℕ}, i < n → (if axis = c then 0 else i) < n := fun {c i n} h => by split_ifs <;> omega
  obtain ⟨⟨a1, a2, a3⟩, ⟨b1, b2, b3⟩, hl, hr⟩ := h
  refine ⟨⟨a1, a2, a3⟩, ⟨b1, b2, b3⟩, ?_, ?_⟩
  · intro c hc i hi j hj k hk
    show (setPlane m.1 axis (lastIdx m.1 axis) axis _).at3 c i j k = 0 ∨ (setPlane m.1 axis (lastIdx m.1 axis) axis _).at3 c i j k = _
    rw [setPlane_at3 (by omega) (by omega) (by omega)]
    by_cases hp : c = axis ∧ coord axis i j k = lastIdx m.1 axis
    · rw [if_pos hp]
      right
      rw [hp.1]
      exact hL axis ha _ (in0 (c := 0) hi) _ (in0 (c := 1) hj) _ (in0 (c := 2) hk)
    · rw [if_neg hp]; exact hl c hc i hi j hj k hk
  · intro c hc i hi j hj k hk
    have two : ∀ c1 c2, c1 < 3 → c2 < 3 → (setPlane (setPlane m.2 axis (lastIdx m.2 axis) c1 fun i j k =>
          iA.at3 c1 (if axis = 0 then 0 else i) (if axis = 1 then 0 else j) (if axis = 2 then 0 else k)) axis (lastIdx m.2 axis) c2 fun i j k =>
          iA.at3 c2 (if axis = 0 then 0 else i) (if axis = 1 then 0 else j) (if axis = 2 then 0 else k)).at3 c i j k = 0 ∨
        (setPlane (setPlane m.2 axis (lastIdx m.2 axis) c1 fun i j k =>
          iA.at3 c1 (if axis = 0 then 0 else i) (if axis = 1 then 0 else j) (if axis = 2 then 0 else k)) axis (lastIdx m.2 axis) c2 fun i j k =>
          iA.at3 c2 (if axis = 0 then 0 else i) (if axis = 1 then 0 else j) (if axis = 2 then 0 else k)).at3 c i j k =
          1 / (pick dx dy dz (others c).1 * pick dx dy dz (others c).2) := by
      intro c1 c2 h1 h2
      rw [setPlane_at3 (by exact b1 ▸ hi) (by exact b2 ▸ hj) (by exact b3 ▸ hk), setPlane_at3 (by omega) (by omega) (by omega)]
      by_cases hp : c = c2 ∧ coord axis i j k = lastIdx m.2 axis
      · rw [if_pos hp]; right; rw [hp.1]; exact hA c2 h2 _ (in0 (c := 0) hi) _ (in0 (c := 1) hj) _ (in0 (c := 2) hk)
      · rw [if_neg hp]
        by_cases hq : c = c1 ∧ coord axis i j k = lastIdx m.2 axis
        · rw [if_pos hq]; right; rw [hq.1]; exact hA c1 h1 _ (in0 (c := 0) hi) _ (in0 (c := 1) hj) _ (in0 (c := 2) hk)
        · rw [if_neg hq]; exact hr c hc i hi j hj k hk
    have h3 : axis = 0 ∨ axis = 1 ∨ axis = 2 := by omega
    rcases h3 with rfl | rfl | rfl
    · exact two 1 2 (by decide) (by decide)
    · exact two 0 2 (by decide) (by decide)
    · exact two 0 1 (by decide) (by decide)

variable (hdx : 0 < dx) (hdy : 0 < dy) (hdz : 0 < dz)
  (hx : ∀ i < Nx, x (i + 1) - x i = dx) (hy : ∀ i < Ny, y (i + 1) - y i = dy) (hz : ∀ i < Nz, z (i + 1) - z i = dz)

omit [LinearOrder K] [IsStrictOrderedRing K] in
include hx hy hz in
theorem uniform_L [DecidableEq K] : ∀ c < 3, ∀ i < Nx, ∀ j < Ny, ∀ k < Nz, (computeGrid Nx Ny Nz x y z).L.at3 c i j k = pick dx dy dz c := by
  intro c hc i hi j hj k hk
  refine (diffField_at3 x y z hc hi hj hk).trans ?_
  unfold pick
  rw [hx i hi, hy j hj, hz k hk]

omit [LinearOrder K] [IsStrictOrderedRing K] in
include hx hy hz in
theorem uniform_iA [DecidableEq K] : ∀ c < 3, ∀ i < Nx, ∀ j < Ny, ∀ k < Nz,
    (computeGrid Nx Ny Nz x y z).iA.at3 c i j k = 1 / (pick dx dy dz (others c).1 * pick dx dy dz (others c).2) := by
  intro c hc i hi j hj k hk
  refine (invArea_at3 (Nx := Nx) (Ny := Ny) (Nz := Nz) (computeGrid Nx Ny Nz x y z).L rfl rfl hc hi hj hk).trans ?_
  have ho : (others c).1 < 3 ∧ (others c).2 < 3 := by
    have : c = 0 ∨ c = 1 ∨ c = 2 := by omega
    rcases this with rfl | rfl | rfl <;> decide
  rw [uniform_L hx hy hz _ ho.1 i hi j hj k hk, uniform_L hx hy hz _ ho.2 i hi j hj k hk]

include hx hy hz in
theorem uniform_metric0 : UMetric Nx Ny Nz dx dy dz ((computeGrid Nx Ny Nz x y z).tL, (computeGrid Nx Ny Nz x y z).itA) := by
  have ax : ∀ {x : ℕ → K} {n : ℕ} {d : K}, (∀ i < n, x (i + 1) - x i = d) → ∀ i < n, tilde x n (i + 1) - tilde x n i = 0 ∨
      tilde x n (i + 1) - tilde x n i = d := by
    intro x n d h i hi
    rw [tilde_diff x n i two_ne_zero hi]
    split_ifs with h'
    · right
      rw [h i hi, show x (i + 2) - x (i + 1) = d from h (i + 1) h']; ring
    · exact .inl rfl
  have len : ∀ c < 3, ∀ i < Nx, ∀ j < Ny, ∀ k < Nz, (computeGrid Nx Ny Nz x y z).tL.at3 c i j k = 0 ∨
      (computeGrid Nx Ny Nz x y z).tL.at3 c i j k = pick dx dy dz c := by
    intro c hc i hi j hj k hk
    have e : (computeGrid Nx Ny Nz x y z).tL.at3 c i j k = _ := diffField_at3 (tilde x Nx) (tilde y Ny) (tilde z Nz) hc hi hj hk
    rw [e]
    unfold pick
    split_ifs
    · exact ax hx i hi
    · exact ax hy j hj
    · exact ax hz k hk
  refine ⟨⟨rfl, rfl, rfl⟩, ⟨rfl, rfl, rfl⟩, len, ?_⟩
  intro c hc i hi j hj k hk
  have e : (computeGrid Nx Ny Nz x y z).itA.at3 c i j k = _ :=
    invDualArea_at3 (Nx := Nx) (Ny := Ny) (Nz := Nz) (computeGrid Nx Ny Nz x y z).tL rfl rfl hc hi hj hk
  rw [e]
  have ho : (others c).1 < 3 ∧ (others c).2 < 3 := by
    have : c = 0 ∨ c = 1 ∨ c = 2 := by omega
    rcases this with rfl | rfl | rfl <;> decide
  unfold guardedInv
  split_ifs with h0
  · right
    have g1 := (len _ ho.1 i hi j hj k hk).resolve_left (fun h => h0 (by rw [h, zero_mul]))
    have g2 := (len _ ho.2 i hi j hj k hk).resolve_left (fun h => h0 (by rw [h, mul_zero]))
    rw [g1, g2]
  · exact .inl rfl

include hx hy hz in
theorem uniform_metric (bc : Faces String) : UMetric Nx Ny Nz dx dy dz
    ((applyBC (computeGrid Nx Ny Nz x y z) bc (C0 Nx Ny Nz)).tL, (applyBC (computeGrid Nx Ny Nz x y z) bc (C0 Nx Ny Nz)).itA) := by
  set g := computeGrid Nx Ny Nz x y z with hg
  have P : ∀ {m : Fld K × Fld K} {axis : ℕ} (b : Bool), axis < 3 → UMetric Nx Ny Nz dx dy dz m →
      UMetric Nx Ny Nz dx dy dz (if b then wrapMetric g.L g.iA m axis else m) := by
    intro m axis b ha hm
    cases b
    · exact hm
    · exact hm.put (uniform_L hx hy hz) (uniform_iA hx hy hz) ha
  have h0 : UMetric Nx Ny Nz dx dy dz (g.tL, g.itA) := uniform_metric0 hx hy hz
  have h1 : UMetric Nx Ny Nz dx dy dz (periodicMetric g bc) := by
    unfold periodicMetric
    by_cases hp : (isPeriodic bc.xlo || isPeriodic bc.ylo || isPeriodic bc.zlo) = true
    · rw [if_pos hp]
      exact P _ (by decide) (P _ (by decide) (P _ (by decide) h0))
    · rw [if_neg hp]; exact h0
  show UMetric Nx Ny Nz dx dy dz (abcMetric g bc (periodicMetric g bc))
  unfold abcMetric
  by_cases hp : anyFace isAbc bc = true
  · rw [if_pos hp]
    exact P _ (by decide) (P _ (by decide) (P _ (by decide) h1))
  · rw [if_neg hp]; exact h1

include hdx hdy hdz hx hy hz in
/-- A uniform grid fulfils the bound under all boundary names. -/
theorem uniform_ok (bc : Faces String) : CurlOK (computeGrid Nx Ny Nz x y z) bc (1 / dx ^ 2 + 1 / dy ^ 2 + 1 / dz ^ 2) := by
  set g := computeGrid Nx Ny Nz x y z with hg
  set N := Nx * Ny * Nz with hN
  have hm : UMetric Nx Ny Nz dx dy dz ((applyBC g bc (C0 Nx Ny Nz)).tL, (applyBC g bc (C0 Nx Ny Nz)).itA) := uniform_metric hx hy hz bc
  have hL := uniform_L hx hy hz (Nx := Nx) (Ny := Ny) (Nz := Nz)
  have hA := uniform_iA hx hy hz (Nx := Nx) (Ny := Ny) (Nz := Nz)
  have pk : ∀ c, 0 < pick dx dy dz c := by intro c; unfold pick; split_ifs <;> assumption
  -- by component and flat cell
  have at_ : ∀ c < 3, ∀ p < N, g.L.array (c * N + p) = pick dx dy dz c ∧
      g.iA.array (c * N + p) = 1 / (pick dx dy dz (others c).1 * pick dx dy dz (others c).2) ∧
      (dualLen g bc (c * N + p) = 0 ∨ dualLen g bc (c * N + p) = pick dx dy dz c) ∧
      (dualInvArea g bc (c * N + p) = 0 ∨ dualInvArea g bc (c * N + p) = 1 / (pick dx dy dz (others c).1 * pick dx dy dz (others c).2)) := by
    intro c hc p hp
    obtain ⟨i, j, k, hi, hj, hk, rfl⟩ := pos_decode hp
    refine ⟨hL c hc i hi j hj k hk, hA c hc i hi j hj k hk, ?_, ?_⟩
    · have := hm.len c hc i hi j hj k hk
      unfold Fld.at3 Fld.N at this
      rw [hm.s1.1, hm.s1.2.1, hm.s1.2.2] at this
      exact this
    · have := hm.area c hc i hi j hj k hk
      unfold Fld.at3 Fld.N at this
      rw [hm.s2.1, hm.s2.2.1, hm.s2.2.2] at this
      exact this
  have split : ∀ r < 3 * N, ∃ c < 3, ∃ p < N, r = c * N + p := by
    intro r hr
    have hN0 : 0 < N := by
      rcases Nat.eq_zero_or_pos N with h | h
      · rw [h] at hr; omega
      · exact h
    exact ⟨r / N, Nat.div_lt_of_lt_mul (by rwa [Nat.mul_comm] at hr), r % N, Nat.mod_lt r hN0, by rw [Nat.mul_comm, Nat.div_add_mod]⟩
  refine ⟨by positivity, ?_, ?_⟩
  · intro r hr
    obtain ⟨c, hc, p, hp, rfl⟩ := split r hr
    obtain ⟨e1, e2, e3, e4⟩ := at_ c hc p hp
    rw [e1, e2]
    refine ⟨pk c, ?_, by have := pk (others c).1; have := pk (others c).2; positivity, ?_⟩
    · rcases e3 with h | h <;> rw [h]; exact (pk c).le
    · rcases e4 with h | h <;> rw [h]; have := pk (others c).1; have := pk (others c).2; positivity
  · intro e he
    set v : Vec K := fun q => colMask g bc q * e q with hv
    set w : Vec K := fun r => v r / pick dx dy dz (r / N) with hw
    have wv : ∀ c p, p < N → w (c * N + p) = v (c * N + p) / pick dx dy dz c := by
      intro c p hp
      simp only [hw]
      rw [show (c * N + p) / N = c from by
        rw [Nat.mul_comm, Nat.mul_add_div (by omega), Nat.div_eq_of_lt hp, Nat.add_zero]]
    have ev : ∀ c p, ext N v c p = pick dx dy dz c * ext N w c p := by
      intro c p
      unfold ext
      split_ifs with h
      · rw [wv c p h, mul_div_cancel₀ _ (pk c).ne']
      · rw [mul_zero]
    have key := flat_curl (1 / dx) (1 / dy) (1 / dz) Nx Ny Nz w
    rw [← hN] at key
    have vol : 0 < dx * dy * dz := by positivity
    -- the right side
    have rhs : ∑ r ∈ range (3 * N), 1 / dualInvArea g bc r / g.L.array r * v r ^ 2 =
        dx * dy * dz * ∑ p ∈ range N, (ext N w 0 p ^ 2 + ext N w 1 p ^ 2 + ext N w 2 p ^ 2) := by
      rw [sum_range_three]
      simp only [sum_range_succ, range_zero, sum_empty, zero_add]
      rw [← sum_add_distrib, ← sum_add_distrib, mul_sum]
      refine sum_congr rfl fun p hp => ?_
      have hp := mem_range.1 hp
      have one : ∀ c < 3, 1 / dualInvArea g bc (c * N + p) / g.L.array (c * N + p) * v (c * N + p) ^ 2 =
          pick dx dy dz (others c).1 * pick dx dy dz (others c).2 * pick dx dy dz c * ext N w c p ^ 2 := by
        intro c hc
        obtain ⟨e1, e2, e3, e4⟩ := at_ c hc p hp
        have ew : ext N w c p = v (c * N + p) / pick dx dy dz c := by unfold ext; rw [if_pos hp, wv c p hp]
        have p1 := (pk c).ne'
        rw [ew, e1]
        rcases e4 with h | h
        · have : v (c * N + p) = 0 := he _ (by
            show c * N + p < 3 * N
            have : c * N + N ≤ 3 * N := by rw [← Nat.succ_mul]; exact Nat.mul_le_mul_right _ hc
            omega) h
          rw [this]; simp
        · rw [h]
          have p2 := (pk (others c).1).ne'
          have p3 := (pk (others c).2).ne'
          field_simp
      rw [one 0 (by decide), one 1 (by decide), one 2 (by decide)]
      simp only [others, pick, if_true, if_false, one_ne_zero, OfNat.ofNat_ne_zero, OfNat.ofNat_ne_one]
      ring
    have lhs : ∑ r ∈ range (3 * N), dualLen g bc r * g.iA.array r * (rowMask g bc r * mulVec (3 * N) (C0 Nx Ny Nz) v r) ^ 2 ≤
        dx * dy * dz * ∑ p ∈ range N, ((1 / dy * (ext N w 2 (p + Nx) - ext N w 2 p) - 1 / dz * (ext N w 1 (p + Nx * Ny) - ext N w 1 p)) ^ 2 +
          (1 / dz * (ext N w 0 (p + Nx * Ny) - ext N w 0 p) - 1 / dx * (ext N w 2 (p + 1) - ext N w 2 p)) ^ 2 +
          (1 / dx * (ext N w 1 (p + 1) - ext N w 1 p) - 1 / dy * (ext N w 0 (p + Nx) - ext N w 0 p)) ^ 2) := by
      rw [sum_range_three]
      simp only [sum_range_succ, range_zero, sum_empty, zero_add]
      rw [← sum_add_distrib, ← sum_add_distrib, mul_sum]
      refine sum_le_sum fun p hp => ?_
      have hp := mem_range.1 hp
      have one : ∀ c < 3, ∀ X, dualLen g bc (c * N + p) * g.iA.array (c * N + p) * (rowMask g bc (c * N + p) * X) ^ 2 ≤
          pick dx dy dz c / (pick dx dy dz (others c).1 * pick dx dy dz (others c).2) * X ^ 2 := by
        intro c hc X
        obtain ⟨e1, e2, e3, e4⟩ := at_ c hc p hp
        have p1 := pk c
        have p2 := pk (others c).1
        have p3 := pk (others c).2
        have hr : c * N + p < 3 * (g.Nx * g.Ny * g.Nz) := by
          show c * N + p < 3 * N
          have : c * N + N ≤ 3 * N := by rw [← Nat.succ_mul]; exact Nat.mul_le_mul_right _ hc
          omega
        have p0 : 0 ≤ pick dx dy dz c / (pick dx dy dz (others c).1 * pick dx dy dz (others c).2) * X ^ 2 := by positivity
        rw [e2]
        rcases (mask_01 g bc hr).2 with h | h
        · rw [h, zero_mul, zero_pow two_ne_zero, mul_zero]; exact p0
        · rw [h, one_mul]
          rcases e3 with h' | h'
          · rw [h', zero_mul, zero_mul]; exact p0
          · rw [h', mul_one_div]
      refine (add_le_add (add_le_add (one 0 (by decide) _) (one 1 (by decide) _)) (one 2 (by decide) _)).trans (le_of_eq ?_)
      rw [C0_x hp, C0_y hp, C0_z hp]
      simp only [← hN, ev]
      simp only [others, pick, if_true, if_false, one_ne_zero, OfNat.ofNat_ne_zero, OfNat.ofNat_ne_one]
      field_simp
    refine lhs.trans ?_
    have e : 4 * (1 / dx ^ 2 + 1 / dy ^ 2 + 1 / dz ^ 2) * ∑ r ∈ range (3 * N), 1 / dualInvArea g bc r / g.L.array r * v r ^ 2 =
        dx * dy * dz * (4 * ((1 / dx) ^ 2 + (1 / dy) ^ 2 + (1 / dz) ^ 2) *
          ∑ p ∈ range N, (ext N w 0 p ^ 2 + ext N w 1 p ^ 2 + ext N w 2 p ^ 2)) := by
      rw [rhs]; simp only [one_div, inv_pow]; ring
    exact (mul_le_mul_of_nonneg_left key vol.le).trans (le_of_eq e.symm)
end
/-! ### Theorems -/

section
variable {Nx Ny Nz : ℕ} {x y z : ℕ → K} {dx dy dz : K} (hdx : 0 < dx) (hdy : 0 < dy) (hdz : 0 < dz)
  (hx : ∀ i < Nx, x (i + 1) - x i = dx) (hy : ∀ i < Ny, y (i + 1) - y i = dy) (hz : ∀ i < Nz, z (i + 1) - z i = dz)

include hdx hdy hdz hx hy hz in
/-- **C20 (uniform grids, every boundary).** Equal cells `dx`, `dy`, `dz`, any six boundary names, relative permittivity and permeability at least one
or PEC, conductivity with `0 ≤ dt sigma / eps ≤ α` where it is in use, and no current but that of the conductivity.  If
`dt² c² (1/dx² + 1/dy² + 1/dz²) ≤ κ` and `κ + α/2 < 1`, the field energy after every number of steps is at most `6 / (1 - κ - α/2)` times
the initial one.  Partial: the extra assignments to the faces that `emsolve` and `wakesolve` make between steps for `abc` faces are not part of
a step. -/
theorem C20_uniform_bounded_partial (bc : Faces String) {ieps imu sigma : Vec K} {dt eps0 mu0 κ α : K} {uc : Bool}
    (hm : Admissible (3 * (Nx * Ny * Nz)) eps0 mu0 ieps imu)
    (hdt : dt ^ 2 * (1 / dx ^ 2 + 1 / dy ^ 2 + 1 / dz ^ 2) ≤ κ * (eps0 * mu0)) (hα : 0 ≤ α) (h1 : κ + α / 2 < 1)
    (hσ : (build (computeGrid Nx Ny Nz x y z) bc ieps imu sigma dt uc).useConductivity = true → ∀ r < 3 * (Nx * Ny * Nz),
      0 ≤ dt * ieps r * sigma r ∧ dt * ieps r * sigma r ≤ α) (st : State K)
    (hJ : OwnCurrent (build (computeGrid Nx Ny Nz x y z) bc ieps imu sigma dt uc) st)
    (hd : DeadZero (computeGrid Nx Ny Nz x y z) bc ieps st) (n : ℕ) :
    let g := computeGrid Nx Ny Nz x y z
    let s := build g bc ieps imu sigma dt uc
    fieldEnergy g bc ieps imu ((oneStep s)^[n] st) ≤ 6 / (1 - (κ + α / 2)) * fieldEnergy g bc ieps imu st :=
  bounded_of (uniform_ok hdx hdy hdz hx hy hz bc) hm hdt hα h1 hσ st hJ hd n
end

/-- **C20 (whole set-up, uniform grids, every boundary).** A solver built on a uniform grid from passive materials with any boundary names and the
automatic time step with `cfln² < 1` (`cfln² < 1/2` if conductivity is in use): after every number of steps, from every initial state without a
foreign current, the field energy is at most a constant times its initial value.  Partial as `C20_uniform_bounded_partial`. -/
theorem C20_setUp_uniform_partial {c eps0 mu0 cfln : ℝ} {nPml Nx Ny Nz : ℕ} {x y z : ℕ → ℝ} {dx dy dz : ℝ} (hdx : 0 < dx) (hdy : 0 < dy) (hdz : 0 < dz)
    (hx : ∀ i < Nx, x (i + 1) - x i = dx) (hy : ∀ i < Ny, y (i + 1) - y i = dy) (hz : ∀ i < Nz, z (i + 1) - z i = dz) {bc : Faces String}
    {bg : MatSpec ℝ} {dict : String → Option (MatSpec ℝ)} {solids : List Solid} {t : Mats ℝ} {dt : ℝ}
    (he : 0 < eps0) (hu : 0 < mu0) (hc : 0 < c) (hcc : c ^ 2 * (eps0 * mu0) = 1) (h0 : 0 ≤ cfln)
    (hbg : ∀ m, MeansMaterial bg m → m.Passive)
    (hsol : ∀ s ∈ solids, ∀ spec m, dict s.1 = some spec → MeansMaterial spec m → m.Passive)
    (h : setUp c eps0 mu0 cfln none nPml Nx Ny Nz x y z bc bg dict solids = .ok (t, dt))
    (hq : cfln ^ 2 + (if t.useCond then 1 / 2 else 0) < 1) (st : State ℝ)
    (hJ : OwnCurrent (build (computeGrid Nx Ny Nz x y z) bc t.ieps.array t.imu.array t.sigma.array dt t.useCond) st)
    (hd : DeadZero (computeGrid Nx Ny Nz x y z) bc t.ieps.array st) (n : ℕ) :
    let g := computeGrid Nx Ny Nz x y z
    let s := build g bc t.ieps.array t.imu.array t.sigma.array dt t.useCond
    fieldEnergy g bc t.ieps.array t.imu.array ((oneStep s)^[n] st) ≤
      6 / (1 - (cfln ^ 2 + if t.useCond then 1 / 2 else 0)) * fieldEnergy g bc t.ieps.array t.imu.array st := by
  intro g s
  have ne : 0 < Nx ∧ 0 < Ny ∧ 0 < Nz := setUp_nonempty h
  have inc : ∀ {x : ℕ → ℝ} {n : ℕ} {d : ℝ}, 0 < d → (∀ i < n, x (i + 1) - x i = d) → Increasing x n := fun hd h i hi => by
    have := h i hi; linarith
  obtain ⟨hN, hpml, hm, hs, hch⟩ := setUp_tensors ne.1 ne.2.1 ne.2.2 he hu hbg hsol h
  obtain ⟨hd0, mx, my, mz, px, py, pz, lx, ly, lz, key⟩ := chooseDt_cfl (inc hdx hx) (inc hdy hy) (inc hdz hz) he hu
    (fun r hr => by rw [hN] at hr; exact ⟨hm.ieps_nonneg r hr, hs r hr⟩) hc hcc h0 hch
  have kx : mx ≤ dx := (lx 0 ne.1).trans (le_of_eq (hx 0 ne.1))
  have ky : my ≤ dy := (ly 0 ne.2.1).trans (le_of_eq (hy 0 ne.2.1))
  have kz : mz ≤ dz := (lz 0 ne.2.2).trans (le_of_eq (hz 0 ne.2.2))
  have inv : ∀ {a b : ℝ}, 0 < a → a ≤ b → 1 / b ^ 2 ≤ 1 / a ^ 2 := fun ha hab =>
    one_div_le_one_div_of_le (by positivity) (pow_le_pow_left₀ ha.le hab 2)
  have key' : dt ^ 2 * (1 / dx ^ 2 + 1 / dy ^ 2 + 1 / dz ^ 2) ≤ cfln ^ 2 * (eps0 * mu0) :=
    le_trans (mul_le_mul_of_nonneg_left (add_le_add (add_le_add (inv px kx) (inv py ky)) (inv pz kz)) (sq_nonneg _)) key
  have huc : s.useConductivity = t.useCond := by
    show (anyFace isPml bc || t.useCond) = t.useCond
    cases hp : anyFace isPml bc with
    | false => rfl
    | true => rw [hpml hp]; rfl
  have e : (if t.useCond then 1 / 2 else 0 : ℝ) = (if t.useCond then 1 else 0 : ℝ) / 2 := by split_ifs <;> norm_num
  rw [e] at hq ⊢
  refine C20_uniform_bounded_partial (sigma := t.sigma.array) (uc := t.useCond) hdx hdy hdz hx hy hz bc hm key' (by split_ifs <;> norm_num) hq ?_ st hJ hd n
  intro hu' r hr
  have hu2 : t.useCond = true := by rw [← huc]; exact hu'
  have := C30_damping hch hu2 hd0 (n := r) (by rw [hN]; exact hr) (hm.ieps_nonneg r hr) (hs r hr)
  rw [if_pos hu2]
  constructor <;> nlinarith

/-- A 4×4×4 box of unit cells with periodic, open and absorbing faces and one excited edge on an open face meets the hypotheses of
`C20_uniform_bounded_partial` with `κ = 3/4`. -/
example : let g := computeGrid 4 4 4 (fun i => (i : ℚ)) (fun i => (i : ℚ)) (fun i => (i : ℚ))
    let bc : Faces String := ⟨"open", "pmC", "periodic", "Periodic", "abc", "abc"⟩
    let st : State ℚ := ⟨fun r => if r = pos 4 4 4 1 0 1 1 then 1 else 0, fun _ => 0, fun _ => 0, true⟩
    (∀ i < 4, ((i + 1 : ℕ) : ℚ) - (i : ℕ) = 1) ∧ Admissible (3 * (4 * 4 * 4)) (1 : ℚ) 1 (fun _ => 1) (fun _ => 1) ∧
    (1 / 2 : ℚ) ^ 2 * (1 / 1 ^ 2 + 1 / 1 ^ 2 + 1 / 1 ^ 2) ≤ 3 / 4 * (1 * 1) ∧ DeadZero g bc (fun _ => 1) st ∧
    st.E (pos 4 4 4 1 0 1 1) = 1 := by
  intro g bc st
  refine ⟨fun i _ => by push_cast; ring, ⟨one_pos, one_pos, fun _ _ => zero_le_one, fun _ _ => by norm_num, fun _ _ => one_pos, fun _ _ => by norm_num⟩,
    by norm_num, ?_, by simp [st]⟩
  intro r hr h0
  by_cases h : r = pos 4 4 4 1 0 1 1
  · subst h
    exfalso
    revert h0
    show (1 : ℚ) * dualInvArea (computeGrid 4 4 4 (fun i => (i : ℚ)) (fun i => (i : ℚ)) (fun i => (i : ℚ))) ⟨"open", "pmC", "periodic", "Periodic", "abc", "abc"⟩ _ = 0 → False
    decide +kernel
  · left; exact if_neg h

/-! ### The claim is false for open faces on non-uniform grids -/

/-- No condition on any face. -/
def oBc : Faces String := ⟨"open", "open", "open", "open", "open", "open"⟩
/-- The solver of the counterexample, `dt = 1/2`. -/
def oS : Solver ℚ := build uG oBc uEps (fun _ => 1) (fun _ => 0) (1 / 2) false

theorem fol_step_open {c : ℚ} {st : State ℚ} (h : Fol c st) : Fol (-2 * c) (oneStep oS st) := by
  obtain ⟨h0, h⟩ := h
  rw [oneStep_started _ _ h0]
  have mv : ∀ r < 24, mulVec (3 * (uG.Nx * uG.Ny * uG.Nz)) (C0 uG.Nx uG.Ny uG.Nz)
      (fun q => colMask uG oBc q * (uG.L.array q * st.E q)) r =
      c * mulVec (3 * (2 * 2 * 2)) (C0 2 2 2) (fun q => uG.L.array q * uE q) r := by
    intro r hr
    unfold mulVec
    rw [mul_sum]
    refine sum_congr rfl fun q hq => ?_
    have hq' : q < 24 := mem_range.1 hq
    beta_reduce
    rw [colMask_one uG oBc (by decide), (h q hq').1]
    show C0 2 2 2 r q * _ = c * (C0 2 2 2 r q * _)
    ring
  have hH : ∀ r < 24, (advance oS st).H r = -2 * c * uH r := by
    intro r hr
    have e : (advance oS st).H r = _ := advance_H uG oBc uEps (fun _ => 1) (fun _ => 0) (1 / 2) false st hr
    rw [e, mv r hr, rowMask_one uG oBc (by decide), (h r hr).2.1]
    unfold uH
    ring
  refine ⟨h0, fun r hr => ⟨?_, hH r hr, ?_⟩⟩
  · have e : (advance oS st).E r = _ := advance_E uG oBc uEps (fun _ => 1) (fun _ => 0) (1 / 2) false st hr
    rw [e, (h r hr).1, (h r hr).2.2]
    by_cases hP : r = pos 2 2 2 1 0 1 0
    · have hc : mulVec (3 * (uG.Nx * uG.Ny * uG.Nz)) (transpose (C0 uG.Nx uG.Ny uG.Nz)) (fun q => rowMask uG oBc q *
          ((applyBC uG oBc (C0 uG.Nx uG.Ny uG.Nz)).tL.array q * (advance oS st).H q)) r =
          c * mulVec (3 * (2 * 2 * 2)) (transpose (C0 2 2 2)) (fun q => dualLen uG oBc q * (-2 * uH q)) r := by
        unfold mulVec
        rw [mul_sum]
        refine sum_congr rfl fun q hq => ?_
        have hq' : q < 24 := mem_range.1 hq
        beta_reduce
        rw [rowMask_one uG oBc (by decide), hH q hq']
        show transpose (C0 2 2 2) r q * (1 * (dualLen uG oBc q * _)) = c * (transpose (C0 2 2 2) r q * _)
        ring
      have key : mulVec (3 * (2 * 2 * 2)) (transpose (C0 2 2 2)) (fun q => dualLen uG oBc q * (-2 * uH q)) (pos 2 2 2 1 0 1 0) = -6 := by
        decide +kernel
      have key2 : (applyBC uG oBc (C0 uG.Nx uG.Ny uG.Nz)).itA.array (pos 2 2 2 1 0 1 0) = 1 := by decide +kernel
      have e2 : (advance (build uG oBc uEps (fun _ => 1) (fun _ => 0) (1 / 2) false) st) = advance oS st := rfl
      rw [e2, hc, colMask_one uG oBc (by decide), hP, key, key2]
      simp only [uE, uEps, if_true]
      ring
    · simp only [uE, uEps, if_neg hP]; ring
  · have : (advance oS st).J = st.J := by
      unfold advance
      have : oS.useConductivity = false := by decide
      simp [this]
    rw [this]; exact (h r hr).2.2

/-- **C20, refuted on non-uniform grids.** The grid of `C20_periodic_unstable` (x, z nodes 0, 1, 2 and y nodes 0, 1, 17) with no boundary condition on any
face: `dt = 1/2` satisfies the CFL bound with the smallest cell lengths, and the field doubles in every step. -/
theorem C20_open_refuted :
    ∃ (ieps : Vec ℚ) (st : State ℚ),
      Admissible (3 * (2 * 2 * 2)) 1 1 ieps (fun _ => 1) ∧ (∀ i < 2, (1 : ℚ) ≤ uAx (i + 1) - uAx i) ∧
      (∀ i < 2, (1 : ℚ) ≤ uAy (i + 1) - uAy i) ∧ (1 / 2 : ℚ) ^ 2 * (1 / 1 ^ 2 + 1 / 1 ^ 2 + 1 / 1 ^ 2) ≤ 3 / 4 * (1 * 1) ∧
      (∀ r, st.J r = 0) ∧ DeadZero uG oBc ieps st ∧
      ∀ n, ((oneStep (build uG oBc ieps (fun _ => 1) (fun _ => 0) (1 / 2) false))^[n] st).E (pos 2 2 2 1 0 1 0) = (-2) ^ n := by
  refine ⟨uEps, ⟨uE, uH, fun _ => 0, false⟩, ?_, by decide +kernel, by decide +kernel, by norm_num, fun _ => rfl, ?_, ?_⟩
  · refine ⟨one_pos, one_pos, fun r _ => ?_, fun r _ => ?_, fun _ _ => one_pos, fun _ _ => by norm_num⟩ <;>
      · unfold uEps; split_ifs <;> norm_num
  · intro r hr h0
    left
    by_cases hP : r = pos 2 2 2 1 0 1 0
    · subst hP
      have : uEps (pos 2 2 2 1 0 1 0) * dualInvArea uG oBc (pos 2 2 2 1 0 1 0) = 1 := by decide +kernel
      rw [this] at h0; exact absurd h0 one_ne_zero
    · show uE r = 0
      unfold uE
      rw [if_neg hP]
  · intro n
    have inv : ∀ n, Fol ((-2) ^ n) ((oneStep oS)^[n] ⟨uE, uH, fun _ => 0, false⟩) := by
      intro n
      induction n with
      | zero => exact ⟨rfl, fun r _ => ⟨by simp, by simp, rfl⟩⟩
      | succ n ih =>
        rw [Function.iterate_succ_apply', pow_succ, mul_comm]
        exact fol_step_open ih
    have := ((inv n).2 (pos 2 2 2 1 0 1 0) (by decide)).1
    rw [show uE (pos 2 2 2 1 0 1 0) = 1 from if_pos rfl, mul_one] at this
    exact this

end Sol
end Wakis
