import Mathlib.Analysis.Calculus.MeanValue
import Mathlib.Analysis.Calculus.Deriv.Comp
import Mathlib.Analysis.Calculus.Deriv.Pow
import Mathlib.Tactic.Linarith

/-!
# The midpoint rule for a difference

One-variable calculus used by the convergence theorem: the difference of a three times differentiable function over an interval is the length times the
derivative at the middle, up to a cubic error.
-/

namespace Wakis
namespace Conv
open Set

/-- `f'` is the derivative of `f` on `[a, b]`, and `f` has a third derivative on `[a, b]` that is at most `M` in absolute value (one-sided at the ends). -/
def ThirdBound (f f' : ℝ → ℝ) (a b M : ℝ) : Prop := ∃ f2 f3 : ℝ → ℝ,
  (∀ s ∈ Icc a b, HasDerivWithinAt f (f' s) (Icc a b) s) ∧ (∀ s ∈ Icc a b, HasDerivWithinAt f' (f2 s) (Icc a b) s) ∧
  (∀ s ∈ Icc a b, HasDerivWithinAt f2 (f3 s) (Icc a b) s) ∧ ∀ s ∈ Icc a b, |f3 s| ≤ M

theorem ThirdBound.mono {f f' : ℝ → ℝ} {a b c d M : ℝ} (h : ThirdBound f f' a b M) (hc : a ≤ c) (hd : d ≤ b) : ThirdBound f f' c d M := by
  obtain ⟨f2, f3, h1, h2, h3, h4⟩ := h
  have hs : Icc c d ⊆ Icc a b := Icc_subset_Icc hc hd
  exact ⟨f2, f3, fun s hs' => (h1 s (hs hs')).mono hs, fun s hs' => (h2 s (hs hs')).mono hs, fun s hs' => (h3 s (hs hs')).mono hs, fun s hs' => h4 s (hs hs')⟩

/-- A function that vanishes at `a` and whose derivative is bounded by that of `B` is bounded by `B`. -/
theorem abs_le_of_deriv {g g' B B' : ℝ → ℝ} {a b : ℝ} (hg : ∀ s ∈ Icc a b, HasDerivWithinAt g (g' s) (Icc a b) s) (ha : g a = 0) (hB0 : B a = 0)
    (hB : ∀ s, HasDerivAt B (B' s) s) (h : ∀ s ∈ Icc a b, |g' s| ≤ B' s) : ∀ s ∈ Icc a b, |g s| ≤ B s := by
  intro s hs
  have := image_norm_le_of_norm_deriv_right_le_deriv_boundary (f := g) (f' := g') (a := a) (b := b) (B := B) (B' := B')
    (fun s hs => (hg s hs).continuousWithinAt)
    (fun s hs => ((hg s (Ico_subset_Icc_self hs)).mono_of_mem_nhdsWithin (Icc_mem_nhdsGE_of_mem hs)))
    (by rw [ha, hB0]; simp) hB (fun s hs => h s (Ico_subset_Icc_self hs)) hs
  exact this

theorem hasDeriv_pow (M a : ℝ) (n : ℕ) (s : ℝ) : HasDerivAt (fun s => M * (s - a) ^ (n + 1)) (M * ((n + 1 : ℕ) * (s - a) ^ n)) s := by
  have := (((hasDerivAt_id s).sub_const a).pow (n + 1)).const_mul M
  simpa using this

/-- Taylor's formula of second order at the left end. -/
theorem taylor_right {f f' : ℝ → ℝ} {a b M : ℝ} (hab : a ≤ b) {f2 f3 : ℝ → ℝ}
    (h1 : ∀ s ∈ Icc a b, HasDerivWithinAt f (f' s) (Icc a b) s) (h2 : ∀ s ∈ Icc a b, HasDerivWithinAt f' (f2 s) (Icc a b) s)
    (h3 : ∀ s ∈ Icc a b, HasDerivWithinAt f2 (f3 s) (Icc a b) s) (hM : ∀ s ∈ Icc a b, |f3 s| ≤ M) :
    |f b - f a - (b - a) * f' a - (b - a) ^ 2 / 2 * f2 a| ≤ M / 6 * (b - a) ^ 3 := by
  have lin : ∀ s : ℝ, HasDerivAt (fun s : ℝ => s - a) 1 s := fun s => (hasDerivAt_id s).sub_const a
  have k2 : ∀ s ∈ Icc a b, |f2 s - f2 a| ≤ M * (s - a) ^ 1 :=
    abs_le_of_deriv (fun s hs => (h3 s hs).sub_const (f2 a)) (by simp) (by simp) (fun s => hasDeriv_pow M a 0 s)
      (fun s hs => by simpa using hM s hs)
  have k1 : ∀ s ∈ Icc a b, |f' s - f' a - (s - a) * f2 a| ≤ M / 2 * (s - a) ^ 2 := by
    refine abs_le_of_deriv (g' := fun s => f2 s - 1 * f2 a) (fun s hs => ((h2 s hs).sub_const (f' a)).sub ((lin s).mul_const (f2 a)).hasDerivWithinAt) (by simp) (by simp)
      (fun s => hasDeriv_pow (M / 2) a 1 s) (fun s hs => ?_)
    have := k2 s hs
    rw [one_mul]
    calc |f2 s - f2 a| ≤ M * (s - a) ^ 1 := this
      _ = _ := by push_cast; ring
  have q : ∀ s : ℝ, HasDerivAt (fun s : ℝ => (s - a) ^ 2 / 2 * f2 a) ((s - a) * f2 a) s := by
    intro s
    have := ((((lin s).pow 2).div_const 2).mul_const (f2 a))
    refine HasDerivAt.congr_deriv this ?_
    simp
  have k0 : ∀ s ∈ Icc a b, |f s - f a - (s - a) * f' a - (s - a) ^ 2 / 2 * f2 a| ≤ M / 6 * (s - a) ^ 3 := by
    refine abs_le_of_deriv (g' := fun s => f' s - 1 * f' a - (s - a) * f2 a)
      (fun s hs => (((h1 s hs).sub_const (f a)).sub ((lin s).mul_const (f' a)).hasDerivWithinAt).sub (q s).hasDerivWithinAt) (by simp) (by simp)
      (fun s => hasDeriv_pow (M / 6) a 2 s) (fun s hs => ?_)
    have := k1 s hs
    rw [one_mul]
    calc |f' s - f' a - (s - a) * f2 a| ≤ M / 2 * (s - a) ^ 2 := this
      _ = _ := by push_cast; ring
  exact k0 b (right_mem_Icc.2 hab)

/-- Taylor's formula of second order at the right end. -/
theorem taylor_left {f f' : ℝ → ℝ} {a b M : ℝ} (hab : a ≤ b) {f2 f3 : ℝ → ℝ}
    (h1 : ∀ s ∈ Icc a b, HasDerivWithinAt f (f' s) (Icc a b) s) (h2 : ∀ s ∈ Icc a b, HasDerivWithinAt f' (f2 s) (Icc a b) s)
    (h3 : ∀ s ∈ Icc a b, HasDerivWithinAt f2 (f3 s) (Icc a b) s) (hM : ∀ s ∈ Icc a b, |f3 s| ≤ M) :
    |f a - f b + (b - a) * f' b - (b - a) ^ 2 / 2 * f2 b| ≤ M / 6 * (b - a) ^ 3 := by
  have mem : ∀ s ∈ Icc (-b) (-a), -s ∈ Icc a b := fun s hs => ⟨by linarith [hs.2], by linarith [hs.1]⟩
  have neg : ∀ {g g' : ℝ → ℝ}, (∀ s ∈ Icc a b, HasDerivWithinAt g (g' s) (Icc a b) s) →
      ∀ s ∈ Icc (-b) (-a), HasDerivWithinAt (fun s => g (-s)) (-g' (-s)) (Icc (-b) (-a)) s := by
    intro g g' h s hs
    have := (h (-s) (mem s hs)).comp s ((hasDerivAt_neg s).hasDerivWithinAt (s := Icc (-b) (-a))) mem
    simpa [Function.comp_def] using this
  have nn : ∀ {g g' : ℝ → ℝ}, (∀ s ∈ Icc (-b) (-a), HasDerivWithinAt g (g' s) (Icc (-b) (-a)) s) →
      ∀ s ∈ Icc (-b) (-a), HasDerivWithinAt (fun s => -g s) (-g' s) (Icc (-b) (-a)) s := fun h s hs => (h s hs).neg
  have := taylor_right (f := fun s => f (-s)) (f' := fun s => -f' (-s)) (f2 := fun s => f2 (-s)) (f3 := fun s => -f3 (-s)) (M := M) (a := -b) (b := -a) (by linarith)
    (neg h1) (fun s hs => by simpa using nn (neg h2) s hs) (neg h3) (fun s hs => by rw [abs_neg]; exact hM _ (mem s hs))
  simp only [neg_neg] at this
  have e : f a - f b - (-a - -b) * -f' b - (-a - -b) ^ 2 / 2 * f2 b = f a - f b + (b - a) * f' b - (b - a) ^ 2 / 2 * f2 b := by ring
  rw [e] at this
  calc _ ≤ _ := this
    _ = _ := by ring

/-- The midpoint rule. -/
theorem midpoint {f f' : ℝ → ℝ} {a b M : ℝ} (hab : a ≤ b) (h : ThirdBound f f' a b M) :
    |f b - f a - (b - a) * f' ((a + b) / 2)| ≤ M / 24 * (b - a) ^ 3 := by
  obtain ⟨f2, f3, h1, h2, h3, hM⟩ := h
  set m := (a + b) / 2 with hm
  have am : a ≤ m := by rw [hm]; linarith
  have mb : m ≤ b := by rw [hm]; linarith
  have s1 : Icc m b ⊆ Icc a b := Icc_subset_Icc am le_rfl
  have s2 : Icc a m ⊆ Icc a b := Icc_subset_Icc le_rfl mb
  have r := taylor_right mb (fun s hs => (h1 s (s1 hs)).mono s1) (fun s hs => (h2 s (s1 hs)).mono s1) (fun s hs => (h3 s (s1 hs)).mono s1) (fun s hs => hM s (s1 hs))
  have l := taylor_left am (fun s hs => (h1 s (s2 hs)).mono s2) (fun s hs => (h2 s (s2 hs)).mono s2) (fun s hs => (h3 s (s2 hs)).mono s2) (fun s hs => hM s (s2 hs))
  have d1 : b - m = (b - a) / 2 := by rw [hm]; ring
  have d2 : m - a = (b - a) / 2 := by rw [hm]; ring
  rw [d1] at r
  rw [d2] at l
  have e : f b - f a - (b - a) * f' m = (f b - f m - (b - a) / 2 * f' m - ((b - a) / 2) ^ 2 / 2 * f2 m) -
      (f a - f m + (b - a) / 2 * f' m - ((b - a) / 2) ^ 2 / 2 * f2 m) := by ring
  rw [e]
  refine (abs_sub _ _).trans ((add_le_add r l).trans (le_of_eq ?_))
  ring

end Conv
end Wakis
