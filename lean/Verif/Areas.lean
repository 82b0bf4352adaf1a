import Verif.Edges
import Mathlib.MeasureTheory.Measure.Lebesgue.Integral
import Mathlib.Analysis.SpecialFunctions.Integrals.Basic
import Mathlib.Tactic.FinCases

/-!
# C86: cell areas and stability marks of the conformal FDTD grids

Model of `compute_areas` and `mark_cells` of `wakis/grid2D.py` (called plane by plane by `wakis/grid3D.py`).
-/

namespace Wakis
namespace Cond
noncomputable section
open Set Classical MeasureTheory

/-! ### Model -/

/-- grid2D.py:10-12. -/
def eqT (a b : ℝ) : Prop := |a - b| < 1e-8

/-- `np.sum` of the four flags (grid2D.py:681-691). -/
def fullEdges (b l t r : ℝ) : ℕ := (if eqT b 1 then 1 else 0) + (if eqT l 1 then 1 else 0) + (if eqT t 1 then 1 else 0) + (if eqT r 1 then 1 else 0)

/-- Body of the loop of `compute_areas` (grid2D.py:673-786; the same in grid3D.py): `b`, `l`, `t`, `r` are the normalised lengths of the
bottom edge `l_x[i, j]`, the left edge `l_y[i, j]`, the top edge `l_x[i, j+1]` and the right edge `l_y[i+1, j]`. If no branch applies the
entry keeps the 0 it was created with (grid2D.py:45). -/
def cellArea (b l t r : ℝ) : ℝ :=
  if 3 ≤ fullEdges b l t r then 1
  else if eqT b 0 ∧ ¬ eqT l 0 ∧ ¬ eqT t 0 ∧ ¬ eqT r 0 then 0.5 * (l + r) * t
  else if eqT t 0 ∧ ¬ eqT l 0 ∧ ¬ eqT b 0 ∧ ¬ eqT r 0 then 0.5 * (l + r) * b
  else if eqT l 0 ∧ ¬ eqT b 0 ∧ ¬ eqT t 0 ∧ ¬ eqT r 0 then 0.5 * (b + t) * r
  else if eqT r 0 ∧ ¬ eqT b 0 ∧ ¬ eqT l 0 ∧ ¬ eqT t 0 then 0.5 * (b + t) * l
  else if eqT b 0 ∧ eqT l 0 ∧ ¬ eqT t 0 ∧ ¬ eqT r 0 then 0.5 * t * r
  else if eqT b 0 ∧ eqT r 0 ∧ ¬ eqT t 0 ∧ ¬ eqT l 0 then 0.5 * t * l
  else if eqT t 0 ∧ eqT r 0 ∧ ¬ eqT b 0 ∧ ¬ eqT l 0 then 0.5 * b * l
  else if eqT t 0 ∧ eqT l 0 ∧ ¬ eqT b 0 ∧ ¬ eqT r 0 then 0.5 * b * r
  else if (0 < b ∧ b ≤ 1) ∧ (0 < l ∧ l ≤ 1) ∧ eqT t 1 ∧ eqT r 1 then 1 - 0.5 * (1 - b) * (1 - l)
  else if (0 < b ∧ b ≤ 1) ∧ (0 < r ∧ r ≤ 1) ∧ eqT t 1 ∧ eqT l 1 then 1 - 0.5 * (1 - b) * (1 - r)
  else if (0 < t ∧ t ≤ 1) ∧ (0 < r ∧ r ≤ 1) ∧ eqT b 1 ∧ eqT l 1 then 1 - 0.5 * (1 - t) * (1 - r)
  else if (0 < t ∧ t ≤ 1) ∧ (0 < l ∧ l ≤ 1) ∧ eqT b 1 ∧ eqT r 1 then 1 - 0.5 * (1 - t) * (1 - l)
  else 0

/-- `compute_areas` (grid2D.py:667-790): the lengths are normalised by the cell size, the area is not multiplied back. -/
def areas (lx ly : ℕ → ℕ → ℝ) (dx dy : ℝ) (i j : ℕ) : ℝ := cellArea (lx i j / dx) (ly i j / dy) (lx i (j + 1) / dx) (ly (i + 1) j / dy)

/-! ### Specification -/

/-- Fraction of a line segment `(0, 1)` where `α u < γ`. -/
def seg (α γ : ℝ) : ℝ := (volume {u : ℝ | u ∈ Ioo (0 : ℝ) 1 ∧ α * u < γ}).toReal

/-- The part of the unit cell where `α u + β v < γ`. -/
def cut (α β γ : ℝ) : Set (ℝ × ℝ) := {p | (p.1 ∈ Ioo (0 : ℝ) 1 ∧ p.2 ∈ Ioo (0 : ℝ) 1) ∧ α * p.1 + β * p.2 < γ}

/-- A fraction that the tolerance of the routine does not confuse with 0 or 1. -/
def Clear (f : ℝ) : Prop := f = 0 ∨ f = 1 ∨ (1e-8 ≤ f ∧ f ≤ 1 - 1e-8)

/-! ### Proof -/

lemma eqT_zero {f : ℝ} (h : Clear f) : eqT f 0 ↔ f = 0 := by
  unfold eqT
  constructor
  · intro h'
    rcases h with h | h | h
    · exact h
    · subst h; norm_num at h'
    · rw [sub_zero, abs_of_nonneg (by linarith)] at h'; linarith
  · rintro rfl; norm_num

lemma eqT_one {f : ℝ} (h : Clear f) : eqT f 1 ↔ f = 1 := by
  unfold eqT
  constructor
  · intro h'
    rcases h with h | h | h
    · subst h; norm_num at h'
    · exact h
    · rw [abs_sub_comm, abs_of_nonneg (by linarith)] at h'; linarith
  · rintro rfl; norm_num

/-- On clear fractions the tolerance plays no role. -/
lemma cellArea_clear {b l t r : ℝ} (hb : Clear b) (hl : Clear l) (ht : Clear t) (hr : Clear r) : cellArea b l t r =
    if 3 ≤ (if b = 1 then 1 else 0) + (if l = 1 then 1 else 0) + (if t = 1 then 1 else 0) + (if r = 1 then 1 else 0) then 1
    else if b = 0 ∧ ¬ l = 0 ∧ ¬ t = 0 ∧ ¬ r = 0 then 0.5 * (l + r) * t
    else if t = 0 ∧ ¬ l = 0 ∧ ¬ b = 0 ∧ ¬ r = 0 then 0.5 * (l + r) * b
    else if l = 0 ∧ ¬ b = 0 ∧ ¬ t = 0 ∧ ¬ r = 0 then 0.5 * (b + t) * r
    else if r = 0 ∧ ¬ b = 0 ∧ ¬ l = 0 ∧ ¬ t = 0 then 0.5 * (b + t) * l
    else if b = 0 ∧ l = 0 ∧ ¬ t = 0 ∧ ¬ r = 0 then 0.5 * t * r
    else if b = 0 ∧ r = 0 ∧ ¬ t = 0 ∧ ¬ l = 0 then 0.5 * t * l
    else if t = 0 ∧ r = 0 ∧ ¬ b = 0 ∧ ¬ l = 0 then 0.5 * b * l
    else if t = 0 ∧ l = 0 ∧ ¬ b = 0 ∧ ¬ r = 0 then 0.5 * b * r
    else if (0 < b ∧ b ≤ 1) ∧ (0 < l ∧ l ≤ 1) ∧ t = 1 ∧ r = 1 then 1 - 0.5 * (1 - b) * (1 - l)
    else if (0 < b ∧ b ≤ 1) ∧ (0 < r ∧ r ≤ 1) ∧ t = 1 ∧ l = 1 then 1 - 0.5 * (1 - b) * (1 - r)
    else if (0 < t ∧ t ≤ 1) ∧ (0 < r ∧ r ≤ 1) ∧ b = 1 ∧ l = 1 then 1 - 0.5 * (1 - t) * (1 - r)
    else if (0 < t ∧ t ≤ 1) ∧ (0 < l ∧ l ≤ 1) ∧ b = 1 ∧ r = 1 then 1 - 0.5 * (1 - t) * (1 - l)
    else 0 := by
  unfold cellArea fullEdges
  simp only [eqT_zero hb, eqT_zero hl, eqT_zero ht, eqT_zero hr, eqT_one hb, eqT_one hl, eqT_one ht, eqT_one hr]

/-- The three kinds of a clear fraction, in a form the simplifier uses. -/
lemma Clear.kinds {f : ℝ} (h : Clear f) : f = 0 ∨ f = 1 ∨ (f ≠ 0 ∧ f ≠ 1 ∧ 0 < f ∧ f ≤ 1) := by
  rcases h with h | h | h
  · exact Or.inl h
  · exact Or.inr (Or.inl h)
  · refine Or.inr (Or.inr ⟨?_, ?_, ?_, ?_⟩)
    · rintro rfl; norm_num at h
    · rintro rfl; norm_num at h
    · linarith [h.1]
    · linarith [h.2]

lemma cellArea_flipU {b l t r : ℝ} (hb : Clear b) (hl : Clear l) (ht : Clear t) (hr : Clear r) : cellArea b r t l = cellArea b l t r := by
  rw [cellArea_clear hb hr ht hl, cellArea_clear hb hl ht hr]
  rcases hb.kinds with rfl | rfl | hb' <;> rcases hl.kinds with rfl | rfl | hl' <;> rcases ht.kinds with rfl | rfl | ht' <;>
    rcases hr.kinds with rfl | rfl | hr' <;> simp [*, -mul_eq_mul_left_iff, -mul_eq_mul_right_iff] <;> ring

lemma cellArea_flipV {b l t r : ℝ} (hb : Clear b) (hl : Clear l) (ht : Clear t) (hr : Clear r) : cellArea t l b r = cellArea b l t r := by
  rw [cellArea_clear ht hl hb hr, cellArea_clear hb hl ht hr]
  rcases hb.kinds with rfl | rfl | hb' <;> rcases hl.kinds with rfl | rfl | hl' <;> rcases ht.kinds with rfl | rfl | ht' <;>
    rcases hr.kinds with rfl | rfl | hr' <;> simp [*, -mul_eq_mul_left_iff, -mul_eq_mul_right_iff] <;> ring

lemma cellArea_swap {b l t r : ℝ} (hb : Clear b) (hl : Clear l) (ht : Clear t) (hr : Clear r) : cellArea l b r t = cellArea b l t r := by
  rw [cellArea_clear hl hb hr ht, cellArea_clear hb hl ht hr]
  rcases hb.kinds with rfl | rfl | hb' <;> rcases hl.kinds with rfl | rfl | hl' <;> rcases ht.kinds with rfl | rfl | ht' <;>
    rcases hr.kinds with rfl | rfl | hr' <;> simp [*, -mul_eq_mul_left_iff, -mul_eq_mul_right_iff] <;> ring

lemma cellArea_three {b l t r : ℝ} (hb : Clear b) (hl : Clear l) (ht : Clear t) (hr : Clear r) (h1 : b = 1) (h2 : l = 1) (h3 : t = 1 ∨ r = 1) :
    cellArea b l t r = 1 := by
  rw [cellArea_clear hb hl ht hr, if_pos]
  rw [if_pos h1, if_pos h2]
  rcases h3 with h | h <;> rw [if_pos h] <;> omega

lemma cellArea_tri {b l t r : ℝ} (hb : Clear b) (hl : Clear l) (ht : Clear t) (hr : Clear r) (h1 : b ≠ 0) (h2 : l ≠ 0) (h3 : t = 0) (h4 : r = 0) :
    cellArea b l t r = 0.5 * b * l := by
  rw [cellArea_clear hb hl ht hr, if_neg]
  · simp [h1, h2, h3, h4]
  · rw [show (if t = 1 then 1 else 0) = 0 from if_neg (by rw [h3]; exact zero_ne_one),
      show (if r = 1 then 1 else 0) = 0 from if_neg (by rw [h4]; exact zero_ne_one)]
    split_ifs <;> omega

lemma cellArea_trap {b l t r : ℝ} (hb : Clear b) (hl : Clear l) (ht : Clear t) (hr : Clear r) (h1 : b ≠ 0) (h2 : l ≠ 0) (h3 : t = 0) (h4 : r ≠ 0)
    (h4' : r ≠ 1) : cellArea b l t r = 0.5 * (l + r) * b := by
  rw [cellArea_clear hb hl ht hr, if_neg]
  · simp [h1, h2, h3, h4]
  · rw [if_neg h4', show (if t = 1 then 1 else 0) = 0 from if_neg (by rw [h3]; exact zero_ne_one)]
    split_ifs <;> omega

lemma cellArea_corner {b l t r : ℝ} (hb : Clear b) (hl : Clear l) (ht : Clear t) (hr : Clear r) (h1 : b = 1) (h2 : l = 1) (h3 : 0 < t) (h3' : t < 1)
    (h4 : 0 < r) (h4' : r < 1) : cellArea b l t r = 1 - 0.5 * (1 - t) * (1 - r) := by
  rw [cellArea_clear hb hl ht hr, if_neg]
  · simp [h1, h2, h3, h4, h3.ne', h4.ne', h3'.le, h4'.le, h3'.ne, h4'.ne]
  · rw [if_neg h4'.ne, if_neg h3'.ne]
    split_ifs; omega

/-! #### Segments -/

lemma seg_pos {α γ : ℝ} (hα : 0 < α) (h0 : 0 ≤ γ) (h1 : γ ≤ α) : seg α γ = γ / α := by
  unfold seg
  have hle : γ / α ≤ 1 := (div_le_one hα).2 h1
  rw [show {u : ℝ | u ∈ Ioo (0 : ℝ) 1 ∧ α * u < γ} = Ioo 0 (γ / α) by
    ext u
    simp only [mem_ofPred_eq, mem_Ioo, lt_div_iff₀ hα]
    constructor
    · rintro ⟨⟨h1, h2⟩, h3⟩; exact ⟨h1, by linarith⟩
    · rintro ⟨h2, h3⟩; exact ⟨⟨h2, by nlinarith⟩, by linarith⟩]
  rw [Real.volume_Ioo, ENNReal.toReal_ofReal (by rw [sub_zero]; positivity), sub_zero]

lemma seg_full {α γ : ℝ} (h : ∀ u, 0 < u → u < 1 → α * u < γ) : seg α γ = 1 := by
  unfold seg
  rw [show {u : ℝ | u ∈ Ioo (0 : ℝ) 1 ∧ α * u < γ} = Ioo 0 1 by
    ext u; simp only [mem_ofPred_eq, mem_Ioo]; exact ⟨fun h => h.1, fun h' => ⟨h', h u h'.1 h'.2⟩⟩]
  simp

lemma seg_none {α γ : ℝ} (h : ∀ u, 0 < u → u < 1 → γ ≤ α * u) : seg α γ = 0 := by
  unfold seg
  rw [show {u : ℝ | u ∈ Ioo (0 : ℝ) 1 ∧ α * u < γ} = ∅ by
    ext u; simp only [mem_ofPred_eq, mem_Ioo, mem_empty_iff_false, iff_false]; exact fun h' => absurd h'.2 (not_lt.2 (h u h'.1.1 h'.1.2))]
  simp

lemma seg_flip (α γ : ℝ) : seg (-α) (γ - α) = seg α γ := by
  unfold seg
  have hmp := Measure.measurePreserving_sub_left (volume : Measure ℝ) 1
  have hm : MeasurableSet {u : ℝ | u ∈ Ioo (0 : ℝ) 1 ∧ α * u < γ} :=
    measurableSet_Ioo.inter (measurableSet_lt (f := fun u : ℝ => α * u) (g := fun _ => γ) (by fun_prop) (by fun_prop))
  rw [← hmp.measure_preimage hm.nullMeasurableSet]
  congr 2
  ext u
  simp only [mem_ofPred_eq, mem_preimage, mem_Ioo]
  constructor
  · rintro ⟨⟨h1, h2⟩, h3⟩; exact ⟨⟨by linarith, by linarith⟩, by linarith⟩
  · rintro ⟨⟨h1, h2⟩, h3⟩; exact ⟨⟨by linarith, by linarith⟩, by linarith⟩

/-! #### Regions -/

lemma cut_measurable (α β γ : ℝ) : MeasurableSet (cut α β γ) := by
  unfold cut
  exact ((measurable_fst measurableSet_Ioo).inter (measurable_snd measurableSet_Ioo)).inter
    (measurableSet_lt (f := fun p : ℝ × ℝ => α * p.1 + β * p.2) (g := fun _ => γ) (by fun_prop) (by fun_prop))

lemma cut_flipU (α β γ : ℝ) : volume (cut (-α) β (γ - α)) = volume (cut α β γ) := by
  have hmp := (Measure.measurePreserving_sub_left (volume : Measure ℝ) 1).prod (MeasurePreserving.id (volume : Measure ℝ))
  rw [Measure.volume_eq_prod, ← hmp.measure_preimage (cut_measurable α β γ).nullMeasurableSet]
  congr 1
  ext p
  simp only [cut, mem_ofPred_eq, mem_preimage, mem_Ioo, Prod.map_fst, Prod.map_snd, id]
  constructor
  · rintro ⟨⟨⟨h1, h2⟩, h4⟩, h3⟩; exact ⟨⟨⟨by linarith, by linarith⟩, h4⟩, by linarith⟩
  · rintro ⟨⟨⟨h1, h2⟩, h4⟩, h3⟩; exact ⟨⟨⟨by linarith, by linarith⟩, h4⟩, by linarith⟩

lemma cut_swap (α β γ : ℝ) : volume (cut β α γ) = volume (cut α β γ) := by
  have hmp : MeasurePreserving Prod.swap ((volume : Measure ℝ).prod volume) ((volume : Measure ℝ).prod volume) := Measure.measurePreserving_swap
  rw [Measure.volume_eq_prod, ← hmp.measure_preimage (cut_measurable α β γ).nullMeasurableSet]
  congr 1
  ext p
  simp only [cut, mem_ofPred_eq, mem_preimage, mem_Ioo, Prod.fst_swap, Prod.snd_swap]
  constructor
  · rintro ⟨⟨h1, h2⟩, h3⟩; exact ⟨⟨h2, h1⟩, by linarith⟩
  · rintro ⟨⟨h1, h2⟩, h3⟩; exact ⟨⟨h2, h1⟩, by linarith⟩

lemma integral_line {c e p q : ℝ} (hce : c ≤ e) : ∫ u in Ioo c e, (p - q * u) = (e - c) * ((p - q * c) + (p - q * e)) / 2 := by
  rw [← integral_Ioc_eq_integral_Ioo, ← intervalIntegral.integral_of_le hce, intervalIntegral.integral_sub (by simp) (by
      apply Continuous.intervalIntegrable; fun_prop), intervalIntegral.integral_const_mul, integral_id]
  simp
  ring

lemma under_line {c e p q : ℝ} (hce : c ≤ e) (h : ∀ u ∈ Ioo c e, 0 ≤ p - q * u) :
    volume (regionBetween (fun _ => (0 : ℝ)) (fun u => p - q * u) (Ioo c e)) = ENNReal.ofReal ((e - c) * ((p - q * c) + (p - q * e)) / 2) := by
  rw [Measure.volume_eq_prod, volume_regionBetween_eq_integral (by simp) (by
    apply (Continuous.integrableOn_Icc (a := c) (b := e) (by fun_prop)).mono_set Ioo_subset_Icc_self) measurableSet_Ioo h]
  congr 1
  rw [← integral_line hce]
  congr 1
  funext u
  simp

lemma cut_none {α β γ : ℝ} (h : ∀ u v, 0 < u → u < 1 → 0 < v → v < 1 → γ ≤ α * u + β * v) : (volume (cut α β γ)).toReal = 0 := by
  rw [show cut α β γ = ∅ by
    ext p
    simp only [cut, mem_ofPred_eq, mem_Ioo, mem_empty_iff_false, iff_false]
    rintro ⟨⟨h1, h2⟩, h3⟩
    linarith [h p.1 p.2 h1.1 h1.2 h2.1 h2.2]]
  simp

lemma unit_square : volume {p : ℝ × ℝ | p.1 ∈ Ioo (0 : ℝ) 1 ∧ p.2 ∈ Ioo (0 : ℝ) 1} = 1 := by
  rw [show {p : ℝ × ℝ | p.1 ∈ Ioo (0 : ℝ) 1 ∧ p.2 ∈ Ioo (0 : ℝ) 1} = Ioo (0 : ℝ) 1 ×ˢ Ioo (0 : ℝ) 1 from rfl, Measure.volume_eq_prod, Measure.prod_prod]
  simp

lemma cut_full {α β γ : ℝ} (h : ∀ u v, 0 < u → u < 1 → 0 < v → v < 1 → α * u + β * v < γ) : (volume (cut α β γ)).toReal = 1 := by
  rw [show cut α β γ = {p : ℝ × ℝ | p.1 ∈ Ioo (0 : ℝ) 1 ∧ p.2 ∈ Ioo (0 : ℝ) 1} by
    ext p
    simp only [cut, mem_ofPred_eq, mem_Ioo]
    exact ⟨fun h => h.1, fun h' => ⟨h', h p.1 p.2 h'.1.1 h'.1.2 h'.2.1 h'.2.2⟩⟩, unit_square]
  rfl

/-- Triangle or trapezoid: the cut line stays below the top of the cell. -/
lemma cut_low {α β γ e : ℝ} (hα : 0 ≤ α) (hβ : 0 < β) (hγ : γ ≤ β) (he0 : 0 ≤ e) (he1 : e ≤ 1) (he : α * e ≤ γ) (hend : e = 1 ∨ α * e = γ) :
    (volume (cut α β γ)).toReal = e * (γ / β + (γ - α * e) / β) / 2 := by
  have hreg : cut α β γ = regionBetween (fun _ => (0 : ℝ)) (fun u => γ / β - α / β * u) (Ioo 0 e) := by
    ext ⟨u, v⟩
    simp only [cut, regionBetween, mem_ofPred_eq, mem_Ioo]
    rw [show γ / β - α / β * u = (γ - α * u) / β by ring, lt_div_iff₀ hβ]
    constructor
    · rintro ⟨⟨⟨h1, h2⟩, h3, h4⟩, h5⟩
      refine ⟨⟨h1, ?_⟩, h3, by linarith⟩
      rcases hend with rfl | h
      · exact h2
      · by_contra hlt
        have := mul_le_mul_of_nonneg_left (not_lt.1 hlt) hα
        nlinarith [mul_pos hβ h3]
    · rintro ⟨⟨h1, h2⟩, h3, h5⟩
      refine ⟨⟨⟨h1, by linarith⟩, h3, ?_⟩, by linarith⟩
      by_contra h4
      nlinarith [mul_nonneg hα h1.le, not_lt.1 h4]
  rw [hreg, under_line he0, ENNReal.toReal_ofReal]
  · rw [show γ / β - α / β * e = (γ - α * e) / β by ring]; ring
  · rw [show γ / β - α / β * e = (γ - α * e) / β by ring]
    have h1 : 0 ≤ (γ - α * e) / β := div_nonneg (by linarith) hβ.le
    have h2 : 0 ≤ γ / β := div_nonneg (by nlinarith [mul_nonneg hα he0]) hβ.le
    simp only [mul_zero, sub_zero]
    positivity
  · intro u hu
    rw [show γ / β - α / β * u = (γ - α * u) / β by ring]
    exact div_nonneg (by nlinarith [mul_le_mul_of_nonneg_left hu.2.le hα]) hβ.le

/-- A corner is cut off. -/
lemma cut_corner {α β γ : ℝ} (hα : 0 < α) (hβ : 0 < β) (h1 : α < γ) (h2 : β < γ) (h3 : γ < α + β) :
    (volume (cut α β γ)).toReal = (γ - β) / α + (1 - (γ - β) / α) * (1 + (γ - α) / β) / 2 := by
  set u0 := (γ - β) / α with hu0
  have h0 : 0 < u0 := div_pos (by linarith) hα
  have h1' : u0 < 1 := (div_lt_one hα).2 (by linarith)
  have hau : α * u0 = γ - β := by rw [hu0]; field_simp
  have hreg : cut α β γ =ᵐ[volume] (regionBetween (fun _ => (0 : ℝ)) (fun u => 1 - 0 * u) (Ioo 0 u0) ∪
      regionBetween (fun _ => (0 : ℝ)) (fun u => γ / β - α / β * u) (Ioo u0 1) : Set (ℝ × ℝ)) := by
    have hnull : volume ((Prod.fst : ℝ × ℝ → ℝ) ⁻¹' {u0}) = 0 := by
      rw [show (Prod.fst : ℝ × ℝ → ℝ) ⁻¹' {u0} = {u0} ×ˢ univ by ext; simp, Measure.volume_eq_prod, Measure.prod_prod]; simp
    have : ∀ᵐ p : ℝ × ℝ, p.1 ≠ u0 := by
      rw [ae_iff, show {a : ℝ × ℝ | ¬ a.1 ≠ u0} = Prod.fst ⁻¹' {u0} by ext; simp]; exact hnull
    filter_upwards [this] with p hp
    obtain ⟨u, v⟩ := p
    apply propext
    show (u, v) ∈ cut α β γ ↔ (u, v) ∈ (_ ∪ _ : Set (ℝ × ℝ))
    simp only [cut, regionBetween, mem_union, mem_ofPred_eq, mem_Ioo]
    rw [show γ / β - α / β * u = (γ - α * u) / β by ring, lt_div_iff₀ hβ]
    constructor
    · rintro ⟨⟨⟨a1, a2⟩, a3, a4⟩, a5⟩
      rcases lt_or_gt_of_ne hp with h | h
      · left; exact ⟨⟨a1, h⟩, a3, by linarith⟩
      · right; exact ⟨⟨h, a2⟩, a3, by linarith⟩
    · rintro (⟨⟨a1, a2⟩, a3, a4⟩ | ⟨⟨a1, a2⟩, a3, a4⟩)
      · refine ⟨⟨⟨a1, by linarith⟩, a3, by linarith⟩, ?_⟩
        have e1 : α * u < α * u0 := mul_lt_mul_of_pos_left a2 hα
        have e2 : β * v < β * 1 := mul_lt_mul_of_pos_left (by linarith) hβ
        linarith
      · refine ⟨⟨⟨by linarith, a2⟩, a3, ?_⟩, by linarith⟩
        have e1 : α * u0 < α * u := mul_lt_mul_of_pos_left a1 hα
        by_contra hv
        have : β * 1 ≤ β * v := mul_le_mul_of_nonneg_left (not_lt.1 hv) hβ.le
        linarith
  have hpos : ∀ u ∈ Ioo u0 1, 0 ≤ γ / β - α / β * u := by
    intro u hu
    rw [show γ / β - α / β * u = (γ - α * u) / β by ring]
    exact div_nonneg (by nlinarith [mul_lt_mul_of_pos_left hu.2 hα]) hβ.le
  have hm : ∀ f : ℝ → ℝ, Continuous f → ∀ c e : ℝ, MeasurableSet (regionBetween (fun _ => (0 : ℝ)) f (Ioo c e)) := fun f hf c e =>
    measurableSet_regionBetween measurable_const hf.measurable measurableSet_Ioo
  rw [measure_congr hreg, measure_union ?_ (hm _ (by fun_prop) _ _), under_line h0.le (fun _ _ => by norm_num), under_line h1'.le hpos,
    ← ENNReal.ofReal_add, ENNReal.toReal_ofReal]
  · rw [show γ / β - α / β * 1 = (γ - α) / β by ring, show γ / β - α / β * u0 = (γ - α * u0) / β by ring, hau]
    have : (γ - (γ - β)) / β = 1 := by field_simp; ring
    rw [this]; ring
  · rw [show γ / β - α / β * 1 = (γ - α) / β by ring, show γ / β - α / β * u0 = (γ - α * u0) / β by ring, hau]
    have e1 : (γ - (γ - β)) / β = 1 := by field_simp; ring
    have e2 : 0 ≤ (γ - α) / β := div_nonneg (by linarith) hβ.le
    have e3 : 0 ≤ 1 - u0 := by linarith
    rw [e1]
    have : 0 ≤ (1 - u0) * (1 + (γ - α) / β) / 2 := by positivity
    linarith [h0]
  · norm_num; exact h0.le
  · rw [show γ / β - α / β * 1 = (γ - α) / β by ring, show γ / β - α / β * u0 = (γ - α * u0) / β by ring, hau]
    have e1 : (γ - (γ - β)) / β = 1 := by field_simp; ring
    have e2 : 0 ≤ (γ - α) / β := div_nonneg (by linarith) hβ.le
    have e3 : 0 ≤ 1 - u0 := by linarith
    rw [e1]; positivity
  · rw [Set.disjoint_left]
    rintro ⟨u, v⟩ ⟨h, _⟩ ⟨h', _⟩
    exact absurd h.2 (not_lt.2 h'.1.le)

/-- The statement of C86 in cell coordinates. -/
def AreaOK (α β γ : ℝ) : Prop :=
  Clear (seg α γ) → Clear (seg β γ) → Clear (seg α (γ - β)) → Clear (seg β (γ - α)) →
    cellArea (seg α γ) (seg β γ) (seg α (γ - β)) (seg β (γ - α)) = (volume (cut α β γ)).toReal

lemma areaOK_swap {α β γ : ℝ} (h : AreaOK α β γ) : AreaOK β α γ := by
  intro h1 h2 h3 h4
  rw [cellArea_swap h2 h1 h4 h3, cut_swap]
  exact h h2 h1 h4 h3

lemma areaOK_pos {α β γ : ℝ} (hα : 0 ≤ α) (hβ : 0 ≤ β) : AreaOK α β γ := by
  intro c1 c2 c3 c4
  by_cases h0 : γ ≤ 0
  · rw [cut_none (fun u v h1 _ h2 _ => by nlinarith [mul_nonneg hα h1.le, mul_nonneg hβ h2.le])]
    rw [cellArea_clear c1 c2 c3 c4]
    have e1 : seg α γ = 0 := seg_none fun u h _ => by nlinarith [mul_nonneg hα h.le]
    have e2 : seg β γ = 0 := seg_none fun u h _ => by nlinarith [mul_nonneg hβ h.le]
    have e3 : seg α (γ - β) = 0 := seg_none fun u h _ => by nlinarith [mul_nonneg hα h.le]
    have e4 : seg β (γ - α) = 0 := seg_none fun u h _ => by nlinarith [mul_nonneg hβ h.le]
    rw [e1, e2, e3, e4]; norm_num
  have h0 := not_le.1 h0
  by_cases hfull : α + β ≤ γ
  · have key : ∀ {a u : ℝ}, 0 ≤ a → 0 < u → u < 1 → a * u ≤ a := fun ha _ hu => by nlinarith
    rw [cut_full (fun u v h1 h2 h3 h4 => ?_)]
    · have e1 : seg α γ = 1 := seg_full fun u h1 h2 => by
        rcases hα.lt_or_eq with h | h
        · nlinarith
        · rw [← h]; simpa using h0
      have e2 : seg β γ = 1 := seg_full fun u h1 h2 => by
        rcases hβ.lt_or_eq with h | h
        · nlinarith
        · rw [← h]; simpa using h0
      have e34 : seg α (γ - β) = 1 ∨ seg β (γ - α) = 1 := by
        rcases hα.lt_or_eq with h | h
        · left; exact seg_full fun u h1 h2 => by nlinarith
        · right
          rcases hβ.lt_or_eq with h' | h'
          · exact seg_full fun u h1 h2 => by nlinarith
          · exact seg_full fun u h1 h2 => by rw [← h, ← h']; simpa using h0
      exact cellArea_three c1 c2 c3 c4 e1 e2 e34
    · rcases hα.lt_or_eq with h | h
      · nlinarith [key hβ h3 h4]
      · rcases hβ.lt_or_eq with h' | h'
        · rw [← h]; nlinarith
        · rw [← h, ← h']; simpa using h0
  have hfull := not_le.1 hfull
  -- generic facts
  have top : ∀ {a b : ℝ}, 0 ≤ a → γ ≤ b → seg a (γ - b) = 0 := fun ha hb => seg_none fun u h _ => by nlinarith [mul_nonneg ha h.le]
  have bot : ∀ {a : ℝ}, 0 ≤ a → a < γ → seg a γ = 1 := fun ha hb => seg_full fun u h1 h2 => by nlinarith
  by_cases ha : γ ≤ α
  · by_cases hb : γ ≤ β
    · -- triangle
      have pα : 0 < α := by linarith
      have pβ : 0 < β := by linarith
      have e3 := top hα hb
      have e4 := top hβ ha
      rw [cut_low (e := γ / α) hα pβ hb (by positivity) ((div_le_one pα).2 ha) (by rw [mul_div_cancel₀ _ pα.ne']) (Or.inr (mul_div_cancel₀ _ pα.ne')),
        mul_div_cancel₀ _ pα.ne']
      have e1 := seg_pos pα h0.le ha
      have e2 := seg_pos pβ h0.le hb
      rw [cellArea_tri c1 c2 c3 c4 (by rw [e1]; positivity) (by rw [e2]; positivity) e3 e4, e1, e2]
      ring
    · -- β < γ ≤ α : the right edge is closed
      have hb := not_le.1 hb
      have pα : 0 < α := by linarith
      have e2 := bot hβ hb
      have e4 := top hβ ha
      have e3 : seg α (γ - β) = (γ - β) / α := seg_pos pα (by linarith) (by linarith)
      have e1 := seg_pos pα h0.le ha
      rw [← cut_swap, cut_low (e := 1) hβ pα ha zero_le_one le_rfl (by linarith) (Or.inl rfl)]
      have n1 : γ / α ≠ 0 := by positivity
      have n3 : (γ - β) / α ≠ 0 := div_ne_zero (by linarith) pα.ne'
      have n3' : (γ - β) / α ≠ 1 := by rw [Ne, div_eq_one_iff_eq pα.ne']; intro h; linarith
      rw [← cellArea_swap c1 c2 c3 c4, cellArea_trap c2 c1 c4 c3 (by rw [e2]; exact one_ne_zero) (by rwa [e1]) e4 (by rwa [e3]) (by rwa [e3]), e1, e2, e3]
      ring
  · have ha := not_le.1 ha
    by_cases hb : γ ≤ β
    · have pβ : 0 < β := by linarith
      have e1 := bot hα ha
      have e3 := top hα hb
      have e4 : seg β (γ - α) = (γ - α) / β := seg_pos pβ (by linarith) (by linarith)
      have e2 := seg_pos pβ h0.le hb
      rw [cut_low (e := 1) hα pβ hb zero_le_one le_rfl (by linarith) (Or.inl rfl)]
      have n1 : γ / β ≠ 0 := by positivity
      have n3 : (γ - α) / β ≠ 0 := div_ne_zero (by linarith) pβ.ne'
      have n3' : (γ - α) / β ≠ 1 := by rw [Ne, div_eq_one_iff_eq pβ.ne']; intro h; linarith
      rw [cellArea_trap c1 c2 c3 c4 (by rw [e1]; exact one_ne_zero) (by rwa [e2]) e3 (by rwa [e4]) (by rwa [e4]), e1, e2, e4]
      ring
    · have hb := not_le.1 hb
      have pα : 0 < α := by linarith
      have pβ : 0 < β := by linarith
      have e1 := bot hα ha
      have e2 := bot hβ hb
      have e3 : seg α (γ - β) = (γ - β) / α := seg_pos pα (by linarith) (by linarith)
      have e4 : seg β (γ - α) = (γ - α) / β := seg_pos pβ (by linarith) (by linarith)
      rw [cut_corner pα pβ ha hb hfull]
      have p3 : 0 < (γ - β) / α := div_pos (by linarith) pα
      have p4 : 0 < (γ - α) / β := div_pos (by linarith) pβ
      have l3 : (γ - β) / α < 1 := (div_lt_one pα).2 (by linarith)
      have l4 : (γ - α) / β < 1 := (div_lt_one pβ).2 (by linarith)
      rw [cellArea_corner c1 c2 c3 c4 e1 e2 (by rwa [e3]) (by rwa [e3]) (by rwa [e4]) (by rwa [e4]), e3, e4]
      ring

lemma areaOK_flipU {α β γ : ℝ} (h : AreaOK (-α) β (γ - α)) : AreaOK α β γ := by
  intro h1 h2 h3 h4
  have e1 : seg (-α) (γ - α) = seg α γ := seg_flip α γ
  have e3 : seg (-α) (γ - α - β) = seg α (γ - β) := by rw [show γ - α - β = γ - β - α by ring]; exact seg_flip α _
  have e4 : seg β (γ - α - -α) = seg β γ := by congr 1; ring
  unfold AreaOK at h
  rw [e1, e3, e4, cut_flipU] at h
  rw [← cellArea_flipU h1 h2 h3 h4]
  exact h h1 h4 h3 h2

/-- C86 in cell coordinates, for every line. -/
lemma areaOK (α β γ : ℝ) : AreaOK α β γ := by
  have step : ∀ α β γ : ℝ, 0 ≤ β → AreaOK α β γ := by
    intro α β γ hβ
    rcases le_total 0 α with h | h
    · exact areaOK_pos h hβ
    · exact areaOK_flipU (areaOK_pos (by linarith) hβ)
  rcases le_total 0 β with h | h
  · exact step α β γ h
  · exact areaOK_swap (areaOK_flipU (areaOK_swap (step α (-β) (γ - β) (by linarith))))

/-! ### C86 -/

/-- Fraction of the edge along axis `a` from node `k` that is outside the conductor. -/
def freeFraction (C : Conductor 2) (G : Mesh 2) (a : Fin 2) (k : Fin 2 → ℕ) : ℝ :=
  freeLength C a (G.node k) (G.node k a) (G.node k a + G.d a) / G.d a

/-- Fraction of cell `(i, j)` that is outside the conductor. -/
def freeArea (C : Conductor 2) (G : Mesh 2) (i j : ℕ) : ℝ :=
  (volume {p : ℝ × ℝ | (p.1 ∈ Ioo (0 : ℝ) 1 ∧ p.2 ∈ Ioo (0 : ℝ) 1) ∧
    ¬ C.inC ![i * G.d 0 + G.lo 0 + G.d 0 * p.1, j * G.d 1 + G.lo 1 + G.d 1 * p.2]}).toReal

/-- `lx` and `ly` are the edge lengths computed by the constructor. -/
def EdgesOf (C : Conductor 2) (G : Mesh 2) (lx ly : ℕ → ℕ → ℝ) : Prop :=
  (∀ i j, edgeLength C G 1e-8 0 ![i, j] = .ok (.fin (lx i j))) ∧ ∀ i j, edgeLength C G 1e-8 1 ![i, j] = .ok (.fin (ly i j))

lemma scale_seg {α γ x d : ℝ} (hd : 0 < d) : (volume {t : ℝ | t ∈ Ioo x (x + d) ∧ α * t < γ}).toReal / d = seg (α * d) (γ - α * x) := by
  unfold seg
  have h : {u : ℝ | u ∈ Ioo (0 : ℝ) 1 ∧ α * d * u < γ - α * x} = (fun u => d * u) ⁻¹' ((fun u => x + u) ⁻¹' {t : ℝ | t ∈ Ioo x (x + d) ∧ α * t < γ}) := by
    ext u
    simp only [mem_ofPred_eq, mem_preimage, mem_Ioo]
    constructor
    · rintro ⟨⟨h1, h2⟩, h3⟩; exact ⟨⟨by nlinarith, by nlinarith⟩, by nlinarith⟩
    · rintro ⟨⟨h1, h2⟩, h3⟩; exact ⟨⟨by nlinarith, by nlinarith⟩, by nlinarith⟩
  rw [h, Real.volume_preimage_mul_left hd.ne', measure_preimage_add, ENNReal.toReal_mul, ENNReal.toReal_ofReal (abs_nonneg _),
    abs_of_pos (by positivity), div_eq_inv_mul]

/-- A half plane: outside is `α x + β y < γ`. -/
def IsHalfPlane (C : Conductor 2) (α β γ : ℝ) : Prop := ∀ p, ¬ C.inC p ↔ α * p 0 + β * p 1 < γ

lemma plane2_half (m q : ℝ) (sign : ℤ) (hs : sign = 1 ∨ sign = -1) : ∃ α β γ, IsHalfPlane (plane2 m q 0 sign) α β γ := by
  rcases hs with rfl | rfl
  · refine ⟨-m, 1, q, fun p => ?_⟩
    simp only [plane2, if_pos, ge_iff_le, not_le]
    constructor <;> intro h <;> linarith
  · refine ⟨m, -1, -q, fun p => ?_⟩
    simp only [plane2, show ¬ ((-1 : ℤ) = 1) by decide, if_false, if_true, not_le]
    constructor <;> intro h <;> linarith

lemma fraction_zero {C : Conductor 2} {α β γ : ℝ} (hC : IsHalfPlane C α β γ) (G : Mesh 2) (hd : 0 < G.d 0) (i j : ℕ) :
    freeFraction C G 0 ![i, j] = seg (α * G.d 0) (γ - α * (i * G.d 0 + G.lo 0) - β * (j * G.d 1 + G.lo 1)) := by
  rw [show γ - α * (i * G.d 0 + G.lo 0) - β * (j * G.d 1 + G.lo 1) = (γ - β * (j * G.d 1 + G.lo 1)) - α * (i * G.d 0 + G.lo 0) by ring, ← scale_seg hd]
  unfold freeFraction freeLength
  congr 3
  ext t
  have e0 : G.node ![i, j] 0 = i * G.d 0 + G.lo 0 := by simp [Mesh.node]
  have e1 : G.node ![i, j] 1 = j * G.d 1 + G.lo 1 := by simp [Mesh.node]
  simp only [mem_ofPred_eq, hC _]
  simp [e0, e1]
  intro _ _
  constructor <;> intro h <;> linarith

lemma fraction_one {C : Conductor 2} {α β γ : ℝ} (hC : IsHalfPlane C α β γ) (G : Mesh 2) (hd : 0 < G.d 1) (i j : ℕ) :
    freeFraction C G 1 ![i, j] = seg (β * G.d 1) (γ - α * (i * G.d 0 + G.lo 0) - β * (j * G.d 1 + G.lo 1)) := by
  rw [← scale_seg hd]
  unfold freeFraction freeLength
  congr 3
  ext t
  have e0 : G.node ![i, j] 0 = i * G.d 0 + G.lo 0 := by simp [Mesh.node]
  have e1 : G.node ![i, j] 1 = j * G.d 1 + G.lo 1 := by simp [Mesh.node]
  simp only [mem_ofPred_eq, hC _]
  simp [e0, e1]
  intro _ _
  constructor <;> intro h <;> linarith

lemma clear_length {tol d f l : ℝ} (ht : tol = 1e-8) (hd : 0 < d) (h : LengthIs tol d f l) (hc : Clear (f / d)) : l / d = f / d := by
  subst ht
  have hf : f = f / d * d := by field_simp
  rw [h.2]
  · rcases hc with h | h | h
    · left; rw [hf, h, zero_mul]
    · right; rw [hf, h, one_mul]; nlinarith
    · right; rw [hf]; exact mul_le_mul_of_nonneg_right h.1 hd.le
  · rcases hc with h | h | h
    · right; rw [hf, h, zero_mul]; nlinarith
    · left; rw [hf, h, one_mul]
    · right; rw [hf]; nlinarith [mul_le_mul_of_nonneg_right h.2 hd.le]

/-- **C86.** In a grid cut by a plane, the area computed for a cell is the fraction of the cell outside the conductor, whenever no edge
of the cell is cut within the tolerance of one of its ends. -/
theorem C86_area_plane (m q : ℝ) (sign : ℤ) (hs : sign = 1 ∨ sign = -1) (G : Mesh 2) (hx : 0 < G.d 0) (hy : 0 < G.d 1) (lx ly : ℕ → ℕ → ℝ)
    (hE : EdgesOf (plane2 m q 0 sign) G lx ly) (i j : ℕ)
    (hb : Clear (freeFraction (plane2 m q 0 sign) G 0 ![i, j])) (hl : Clear (freeFraction (plane2 m q 0 sign) G 1 ![i, j]))
    (ht : Clear (freeFraction (plane2 m q 0 sign) G 0 ![i, j + 1])) (hr : Clear (freeFraction (plane2 m q 0 sign) G 1 ![i + 1, j])) :
    areas lx ly (G.d 0) (G.d 1) i j = freeArea (plane2 m q 0 sign) G i j := by
  have edge : ∀ (a : Fin 2) (k : Fin 2 → ℕ) (l : ℝ), 0 < G.d a → edgeLength (plane2 m q 0 sign) G 1e-8 a k = .ok (.fin l) →
      Clear (freeFraction (plane2 m q 0 sign) G a k) → l / G.d a = freeFraction (plane2 m q 0 sign) G a k := by
    intro a k l hd he hc
    obtain ⟨l', he', hl'⟩ := C84_plane2 m q sign hs G 1e-8 a k hd (by norm_num)
    rw [he] at he'
    obtain rfl : l = l' := by simpa using he'
    exact clear_length rfl hd hl' hc
  unfold areas
  rw [edge 0 ![i, j] _ hx (hE.1 i j) hb, edge 1 ![i, j] _ hy (hE.2 i j) hl, edge 0 ![i, j + 1] _ hx (hE.1 i (j + 1)) ht,
    edge 1 ![i + 1, j] _ hy (hE.2 (i + 1) j) hr]
  obtain ⟨α, β, γ, hC⟩ := plane2_half m q sign hs
  rw [fraction_zero hC G hx] at hb ht
  rw [fraction_one hC G hy] at hl hr
  rw [fraction_zero hC G hx, fraction_zero hC G hx, fraction_one hC G hy, fraction_one hC G hy]
  have et : γ - α * (i * G.d 0 + G.lo 0) - β * ((j + 1 : ℕ) * G.d 1 + G.lo 1) = γ - α * (i * G.d 0 + G.lo 0) - β * (j * G.d 1 + G.lo 1) - β * G.d 1 := by
    push_cast; ring
  have er : γ - α * ((i + 1 : ℕ) * G.d 0 + G.lo 0) - β * (j * G.d 1 + G.lo 1) = γ - α * (i * G.d 0 + G.lo 0) - β * (j * G.d 1 + G.lo 1) - α * G.d 0 := by
    push_cast; ring
  rw [et] at ht ⊢
  rw [er] at hr ⊢
  rw [areaOK _ _ _ hb hl ht hr]
  unfold freeArea cut
  congr 2
  ext p
  simp only [mem_ofPred_eq, hC _, Matrix.cons_val_zero, Matrix.cons_val_one]
  refine and_congr_right fun _ => ?_
  constructor <;> intro h <;> linarith

/-- **C86.** For every conductor: edge lengths between zero and the full length give a fraction between 0 and 1. -/
theorem C86_bounds (lx ly : ℕ → ℕ → ℝ) (dx dy : ℝ) (hx : 0 < dx) (hy : 0 < dy) (h1 : ∀ i j, 0 ≤ lx i j ∧ lx i j ≤ dx)
    (h2 : ∀ i j, 0 ≤ ly i j ∧ ly i j ≤ dy) (i j : ℕ) : 0 ≤ areas lx ly dx dy i j ∧ areas lx ly dx dy i j ≤ 1 := by
  have n1 : ∀ i j, 0 ≤ lx i j / dx ∧ lx i j / dx ≤ 1 := fun i j => ⟨div_nonneg (h1 i j).1 hx.le, (div_le_one hx).2 (h1 i j).2⟩
  have n2 : ∀ i j, 0 ≤ ly i j / dy ∧ ly i j / dy ≤ 1 := fun i j => ⟨div_nonneg (h2 i j).1 hy.le, (div_le_one hy).2 (h2 i j).2⟩
  have gen : ∀ b l t r : ℝ, (0 ≤ b ∧ b ≤ 1) → (0 ≤ l ∧ l ≤ 1) → (0 ≤ t ∧ t ≤ 1) → (0 ≤ r ∧ r ≤ 1) → 0 ≤ cellArea b l t r ∧ cellArea b l t r ≤ 1 := by
    rintro b l t r ⟨b0, b1⟩ ⟨l0, l1⟩ ⟨t0, t1⟩ ⟨r0, r1⟩
    have pr : ∀ {x y : ℝ}, 0 ≤ x → x ≤ 1 → 0 ≤ y → y ≤ 1 → 0 ≤ x * y ∧ x * y ≤ 1 := fun hx hx' hy hy' =>
      ⟨mul_nonneg hx hy, by nlinarith⟩
    unfold cellArea
    have a1 := pr l0 l1 t0 t1
    have a2 := pr r0 r1 t0 t1
    have a3 := pr l0 l1 b0 b1
    have a4 := pr r0 r1 b0 b1
    have c1 := pr (sub_nonneg.2 b1) (by linarith) (sub_nonneg.2 l1) (by linarith : 1 - l ≤ 1)
    have c2 := pr (sub_nonneg.2 b1) (by linarith) (sub_nonneg.2 r1) (by linarith : 1 - r ≤ 1)
    have c3 := pr (sub_nonneg.2 t1) (by linarith) (sub_nonneg.2 r1) (by linarith : 1 - r ≤ 1)
    have c4 := pr (sub_nonneg.2 t1) (by linarith) (sub_nonneg.2 l1) (by linarith : 1 - l ≤ 1)
    have ite01 : ∀ (c : Prop) [Decidable c] (x y : ℝ), (0 ≤ x ∧ x ≤ 1) → (0 ≤ y ∧ y ≤ 1) → (0 ≤ (if c then x else y) ∧ (if c then x else y) ≤ 1) := by
      intro c _ x y hx hy; split_ifs <;> assumption
    repeat' apply ite01
    all_goals constructor <;> nlinarith
  exact gen _ _ _ _ (n1 i j) (n2 i j) (n1 i (j + 1)) (n2 (i + 1) j)

/-- **C86.** A cell whose four edges are all free counts fully, one whose four edges are all in the conductor not at all. -/
theorem C86_ends (lx ly : ℕ → ℕ → ℝ) (dx dy : ℝ) (hx : 0 < dx) (hy : 0 < dy) (i j : ℕ) :
    (lx i j = dx → ly i j = dy → lx i (j + 1) = dx → ly (i + 1) j = dy → areas lx ly dx dy i j = 1) ∧
    (lx i j = 0 → ly i j = 0 → lx i (j + 1) = 0 → ly (i + 1) j = 0 → areas lx ly dx dy i j = 0) := by
  have c0 : Clear 0 := Or.inl rfl
  have c1 : Clear 1 := Or.inr (Or.inl rfl)
  constructor
  · intro h1 h2 h3 h4
    unfold areas
    rw [h1, h2, h3, h4, div_self hx.ne', div_self hy.ne']
    exact cellArea_three c1 c1 c1 c1 rfl rfl (Or.inl rfl)
  · intro h1 h2 h3 h4
    unfold areas
    rw [h1, h2, h3, h4, zero_div, zero_div, cellArea_clear c0 c0 c0 c0]
    norm_num

/-! ### C87: stability marks -/

/-- The marks of a cell (grid2D.py:811-834). -/
structure Marks where
  int : Prop
  stab : ℝ
  unst : Prop
  bound : Prop
  avail : Prop

/-- `mark_cells` for one cell (grid2D.py:811-834; grid3D.py calls it plane by plane). `S_stab` keeps its initial 0 outside. -/
def markCell (lx ly S : ℕ → ℕ → ℝ) (dx dy : ℝ) (i j : ℕ) : Marks :=
  let stab := if S i j > 0 then 0.5 * max (max (lx i j * dy) (lx i (j + 1) * dy)) (max (ly i j * dx) (ly (i + 1) j * dx)) else 0
  { int := S i j > 0
    stab := stab
    unst := S i j < stab
    bound := (0 < lx i j ∧ lx i j < dx) ∨ (0 < ly i j ∧ ly i j < dy) ∨ (0 < lx i (j + 1) ∧ lx i (j + 1) < dx) ∨ (0 < ly (i + 1) j ∧ ly (i + 1) j < dy)
    avail := S i j > 0 ∧ ¬ S i j < stab }

/-- Specification: the area of the cell is too small for its edges (the stability criterion of the conformal scheme: the area of the free
part has to be at least half of every edge times the cell size across it). `S` is the fraction of the cell that is free. -/
def TooSmall (lx ly S : ℕ → ℕ → ℝ) (dx dy : ℝ) (i j : ℕ) : Prop :=
  0 < S i j ∧ ∃ e ∈ [lx i j * dy, lx i (j + 1) * dy, ly i j * dx, ly (i + 1) j * dx], S i j * (dx * dy) < 0.5 * e

/-- **C87.** With cells of unit area a cell is marked as unstable exactly if it is too small. Missing: other cell sizes (refuted). -/
theorem C87_unstable_partial (lx ly S : ℕ → ℕ → ℝ) (dx dy : ℝ) (hd : dx * dy = 1) (i j : ℕ) (hS : 0 ≤ S i j) :
    (markCell lx ly S dx dy i j).unst ↔ TooSmall lx ly S dx dy i j := by
  unfold markCell TooSmall
  dsimp only
  rw [hd, mul_one]
  by_cases h : S i j > 0
  · rw [if_pos h]
    have hmul : ∀ a b c d : ℝ, S i j < 0.5 * max (max a b) (max c d) ↔ S i j < 0.5 * a ∨ S i j < 0.5 * b ∨ S i j < 0.5 * c ∨ S i j < 0.5 * d := by
      intro a b c d
      rw [mul_max_of_nonneg _ _ (by norm_num : (0:ℝ) ≤ 0.5), mul_max_of_nonneg _ _ (by norm_num : (0:ℝ) ≤ 0.5), mul_max_of_nonneg _ _ (by norm_num : (0:ℝ) ≤ 0.5),
        lt_max_iff, lt_max_iff, lt_max_iff, or_assoc]
    rw [hmul]
    simp [h]
  · rw [if_neg h]
    constructor
    · intro h'; exact absurd h' (not_lt.2 hS)
    · intro h'; exact absurd h'.1 h

/-- Every cell is available, unstable or outside, and only one of them. -/
theorem C87_marks (lx ly S : ℕ → ℕ → ℝ) (dx dy : ℝ) (i j : ℕ) (hS : 0 ≤ S i j) :
    ((markCell lx ly S dx dy i j).avail ↔ (markCell lx ly S dx dy i j).int ∧ ¬ (markCell lx ly S dx dy i j).unst) ∧
    ((markCell lx ly S dx dy i j).unst → (markCell lx ly S dx dy i j).int) ∧ ((markCell lx ly S dx dy i j).int ↔ S i j ≠ 0) := by
  refine ⟨Iff.rfl, fun h => ?_, ⟨fun h => ne_of_gt h, fun h => lt_of_le_of_ne hS (Ne.symm h)⟩⟩
  by_contra hn
  have hn : ¬ S i j > 0 := hn
  have h : S i j < if S i j > 0 then _ else 0 := h
  rw [if_neg hn] at h
  exact absurd h (not_lt.2 hS)

/-- Refuted in general: cells of 0.1 by 0.1, one cell cut to a triangle with a full bottom edge and a left edge of a tenth. The free area is
a tenth of what stability asks for, and the cell is marked as available. -/
theorem C87_small_cells_refuted : ∃ lx ly : ℕ → ℕ → ℝ, (∀ i j, 0 ≤ lx i j ∧ lx i j ≤ 0.1) ∧ (∀ i j, 0 ≤ ly i j ∧ ly i j ≤ 0.1) ∧
    TooSmall lx ly (areas lx ly 0.1 0.1) 0.1 0.1 0 0 ∧ (markCell lx ly (areas lx ly 0.1 0.1) 0.1 0.1 0 0).avail := by
  refine ⟨fun _ j => if j = 0 then 0.1 else 0, fun i _ => if i = 0 then 0.01 else 0, ?_, ?_, ?_, ?_⟩
  · intro i j; dsimp only; split_ifs <;> norm_num
  · intro i j; dsimp only; split_ifs <;> norm_num
  all_goals
    have hA : areas (fun _ j => if j = 0 then 0.1 else 0) (fun i _ => if i = 0 then 0.01 else 0) 0.1 0.1 0 0 = 0.05 := by
      unfold areas
      simp only [if_true, show ¬ (0 + 1 = 0) by decide, if_false]
      rw [show (0.1 : ℝ) / 0.1 = 1 by norm_num, show (0.01 : ℝ) / 0.1 = 0.1 by norm_num, zero_div,
        cellArea_tri (Or.inr (Or.inl rfl)) (Or.inr (Or.inr (by norm_num))) (Or.inl rfl) (Or.inl rfl) (by norm_num) (by norm_num) rfl rfl]
      norm_num
  · unfold TooSmall
    rw [hA]
    refine ⟨by norm_num, 0.1 * 0.1, by simp, by norm_num⟩
  · unfold markCell
    dsimp only
    rw [hA]
    norm_num

/-- Refuted in general: with cells of 2 by 2 and no conductor at all every cell is marked as unstable. -/
theorem C87_large_cells_refuted (i j : ℕ) : ¬ TooSmall (fun _ _ => 2) (fun _ _ => 2) (areas (fun _ _ => 2) (fun _ _ => 2) 2 2) 2 2 i j ∧
    (markCell (fun _ _ => 2) (fun _ _ => 2) (areas (fun _ _ => 2) (fun _ _ => 2) 2 2) 2 2 i j).unst := by
  have hA := (C86_ends (fun _ _ => 2) (fun _ _ => 2) 2 2 (by norm_num) (by norm_num) i j).1 rfl rfl rfl rfl
  constructor
  · unfold TooSmall; rw [hA]; norm_num
  · unfold markCell; dsimp only; rw [hA]; norm_num

/-- A cell cut by the diagonal meets the hypotheses of `C86_area_plane`. -/
example : ∃ lx ly, EdgesOf (plane2 (-1) 1 0 1) ⟨![0, 0], ![1, 1]⟩ lx ly := by
  have h : ∀ a k, ∃ l, edgeLength (plane2 (-1) 1 0 1) ⟨![0, 0], ![1, 1]⟩ 1e-8 a k = .ok (.fin l) := fun a k =>
    (C84_plane2 (-1) 1 1 (Or.inl rfl) ⟨![0, 0], ![1, 1]⟩ 1e-8 a k (by fin_cases a <;> simp) (by norm_num)).imp fun _ h => h.1
  choose f hf using h
  exact ⟨fun i j => f 0 ![i, j], fun i j => f 1 ![i, j], fun i j => hf _ _, fun i j => hf _ _⟩

example : Clear (freeFraction (plane2 (-1) (3 / 2) 0 1) ⟨![0, 0], ![1, 1]⟩ 0 ![0, 1]) := by
  have hC : IsHalfPlane (plane2 (-1) (3 / 2) 0 1) 1 1 (3 / 2) := fun p => by
    simp only [plane2, if_pos, ge_iff_le, not_le]
    constructor <;> intro h <;> linarith
  rw [fraction_zero hC _ (by simp)]
  simp
  rw [seg_pos (by norm_num) (by norm_num) (by norm_num)]
  right; right; norm_num

end
end Cond
end Wakis
