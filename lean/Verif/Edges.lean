import Verif.Cond
import Mathlib.MeasureTheory.Measure.Lebesgue.Basic

/-!
# C84: edge lengths of the conformal FDTD grids

Model of the grid nodes and of `compute_edges` in `wakis/grid2D.py` and `wakis/grid3D.py` (the same routine written once per axis).
-/

namespace Wakis
namespace Cond
noncomputable section
open Set Classical MeasureTheory

/-! ### Model -/

/-- A Cartesian grid: the low corner and the cell size (grid2D.py:33-40; grid3D.py:35-45). -/
structure Mesh (n : ℕ) where
  lo : Fin n → ℝ
  d : Fin n → ℝ

/-- grid2D.py:33-40: `dx = (xmax - xmin) / nx`, `dy = (ymax - ymin) / ny`. -/
def mesh2 (lo hi : Fin 2 → ℝ) (N : Fin 2 → ℕ) : Mesh 2 where
  lo := lo
  d := ![(hi 0 - lo 0) / N 0, (hi 1 - lo 1) / N 1]

/-- grid3D.py:35-45: as above, and `dz = (ymax - ymin) / nz`, with the extent along y. -/
def mesh3 (lo hi : Fin 3 → ℝ) (N : Fin 3 → ℕ) : Mesh 3 where
  lo := lo
  d := ![(hi 0 - lo 0) / N 0, (hi 1 - lo 1) / N 1, (hi 1 - lo 1) / N 2]

/-- Grid nodes `ii * dx + xmin` (grid2D.py:194-197, 217-220; grid3D.py:356-360, 393-397, 430-434). -/
def Mesh.node {n : ℕ} (G : Mesh n) (k : Fin n → ℕ) : Fin n → ℝ := fun a => k a * G.d a + G.lo a

/-- The far end of the edge along axis `a` that starts at node `k`. -/
def Mesh.next {n : ℕ} (G : Mesh n) (a : Fin n) (k : Fin n → ℕ) : Fin n → ℝ := G.node (Function.update k a (k a + 1))

/-- Raw length of the edge from `p₁` to `p₂` along axis `a` (grid2D.py:199-213, 222-236; grid3D.py:361-390, 398-427, 435-464).
`seg_length` of two points that differ in one coordinate is the distance of these coordinates; `d` is the full length. -/
def rawLength {n : ℕ} (C : Conductor n) (a : Fin n) (d : ℝ) (p₁ p₂ : Fin n → ℝ) : Py Num :=
  if C.inC p₁ then
    if C.inC p₂ then .ok (.fin 0) else do return (← C.hit a p₂).dist (p₂ a)
  else
    if C.inC p₂ then do return (← C.hit a p₁).dist (p₁ a) else .ok (.fin d)

/-- Cleaning of one length (grid2D.py:239-254; grid3D.py:467-489): divide by the full length, snap to 0 and then to 1, multiply back.
Both flags are computed before either assignment. -/
def snap (tol d : ℝ) (l : ℝ) : ℝ :=
  let r := l / d
  (if |r - 1| < tol then 1 else if |r| < tol then 0 else r) * d

/-- `compute_edges` for one edge. Infinite lengths and `nan` are left alone by the cleaning. -/
def edgeLength {n : ℕ} (C : Conductor n) (G : Mesh n) (tol : ℝ) (a : Fin n) (k : Fin n → ℕ) : Py Num := do
  match ← rawLength C a (G.d a) (G.node k) (G.next a k) with
  | .fin l => return .fin (if 0 < tol then snap tol (G.d a) l else l)
  | h => return h

/-! ### Specification -/

/-- Length of the part of the edge between coordinates `x₁` and `x₂` of the line through `p` along axis `a` that is not in the conductor. -/
def freeLength {n : ℕ} (C : Conductor n) (a : Fin n) (p : Fin n → ℝ) (x₁ x₂ : ℝ) : ℝ :=
  (volume {t : ℝ | t ∈ Ioo x₁ x₂ ∧ ¬ C.inC (Function.update p a t)}).toReal

/-- The grid resolves the conductor along this edge: on the edge and within one cell of it the line meets the surface at most once. -/
def Resolved {n : ℕ} (C : Conductor n) (a : Fin n) (p : Fin n → ℝ) (x₁ x₂ : ℝ) : Prop :=
  (frontier (insideOnLine C a p) ∩ Icc (x₁ - (x₂ - x₁)) (x₂ + (x₂ - x₁))).Subsingleton

/-! ### Proof -/

lemma const_between {S : Set ℝ} {x t : ℝ} (hno : ∀ b ∈ frontier S, b ∉ uIcc x t) : x ∈ S ↔ t ∈ S := by
  have key : ∀ {x t : ℝ}, (∀ b ∈ frontier S, b ∉ uIcc x t) → t ∈ S → x ∈ S := by
    intro x t hno ht
    by_contra hx
    have hsub : uIcc x t ⊆ interior S ∪ interior Sᶜ := by
      intro b hb
      rw [← compl_frontier_eq_union_interior]; exact fun h => hno b h hb
    have h1 : t ∈ interior S := by
      rcases hsub right_mem_uIcc with h | h
      · exact h
      · exact absurd ht (interior_subset h)
    have h2 : x ∈ interior Sᶜ := by
      rcases hsub left_mem_uIcc with h | h
      · exact absurd (interior_subset h) hx
      · exact h
    obtain ⟨b, _, hb1, hb2⟩ := (isPreconnected_uIcc : IsPreconnected (uIcc x t)) _ _ isOpen_interior isOpen_interior hsub
      ⟨t, right_mem_uIcc, h1⟩ ⟨x, left_mem_uIcc, h2⟩
    exact (interior_subset hb2) (interior_subset hb1)
  exact ⟨key (by rwa [uIcc_comm]), key hno⟩

lemma vol_empty_add {A : Set ℝ} (c : ℝ) (h : A ⊆ {c}) : (volume A).toReal = 0 := by
  rw [measure_mono_null h (by simp)]; rfl

lemma vol_interval {A : Set ℝ} {l r c : ℝ} (hlr : l ≤ r) (h1 : Ioo l r \ {c} ⊆ A) (h2 : A ⊆ Icc l r) : (volume A).toReal = r - l := by
  have : volume A = ENNReal.ofReal (r - l) := by
    apply le_antisymm
    · calc volume A ≤ volume (Icc l r) := measure_mono h2
        _ = _ := Real.volume_Icc
    · calc ENNReal.ofReal (r - l) = volume (Ioo l r) := Real.volume_Ioo.symm
        _ = volume (Ioo l r \ {c}) := (measure_sdiff_null (by simp)).symm
        _ ≤ _ := measure_mono h1
  rw [this, ENNReal.toReal_ofReal (by linarith)]

/-- The line version: what the four branches compute. -/
lemma line_length {S : Set ℝ} {x₁ x₂ : ℝ} (hx : x₁ < x₂) (hres : (frontier S ∩ Icc (x₁ - (x₂ - x₁)) (x₂ + (x₂ - x₁))).Subsingleton) :
    (x₁ ∈ S → x₂ ∈ S → (volume {t | t ∈ Ioo x₁ x₂ ∧ t ∉ S}).toReal = 0) ∧
    (x₁ ∉ S → x₂ ∉ S → (volume {t | t ∈ Ioo x₁ x₂ ∧ t ∉ S}).toReal = x₂ - x₁) ∧
    (x₁ ∈ S → x₂ ∉ S → ∀ h, NearestSurface S x₂ h → ∃ b, h = .fin b ∧ (volume {t | t ∈ Ioo x₁ x₂ ∧ t ∉ S}).toReal = |b - x₂|) ∧
    (x₁ ∉ S → x₂ ∈ S → ∀ h, NearestSurface S x₁ h → ∃ b, h = .fin b ∧ (volume {t | t ∈ Ioo x₁ x₂ ∧ t ∉ S}).toReal = |b - x₁|) := by
  have uniq : ∀ b c, b ∈ frontier S → c ∈ frontier S → b ∈ Icc (x₁ - (x₂ - x₁)) (x₂ + (x₂ - x₁)) → c ∈ Icc (x₁ - (x₂ - x₁)) (x₂ + (x₂ - x₁)) → b = c :=
    fun b c hb hc hb' hc' => hres ⟨hb, hb'⟩ ⟨hc, hc'⟩
  have big : ∀ b, b ∈ Icc x₁ x₂ → b ∈ Icc (x₁ - (x₂ - x₁)) (x₂ + (x₂ - x₁)) := fun b hb => ⟨by linarith [hb.1], by linarith [hb.2]⟩
  -- every point of the edge but one has the status of one of the ends
  have side : ∀ b ∈ frontier S, b ∈ Icc x₁ x₂ → ∀ t ∈ Ioo x₁ x₂, (t < b → (x₁ ∈ S ↔ t ∈ S)) ∧ (b < t → (x₂ ∈ S ↔ t ∈ S)) := by
    intro b hb hbI t ht
    constructor
    · intro htb
      refine const_between fun c hc hcI => ?_
      rw [uIcc_of_le ht.1.le] at hcI
      have := uniq c b hc hb (big c ⟨hcI.1, by linarith [hcI.2, ht.2]⟩) (big b hbI)
      linarith [hcI.2]
    · intro htb
      refine const_between fun c hc hcI => ?_
      rw [uIcc_of_ge ht.2.le] at hcI
      have := uniq c b hc hb (big c ⟨by linarith [hcI.1, ht.1], hcI.2⟩) (big b hbI)
      linarith [hcI.1]
  have none : (∀ b ∈ frontier S, b ∉ Icc x₁ x₂) → ∀ t ∈ Ioo x₁ x₂, (x₁ ∈ S ↔ t ∈ S) := by
    intro hno t ht
    refine const_between fun c hc hcI => hno c hc ?_
    rw [uIcc_of_le ht.1.le] at hcI
    exact ⟨hcI.1, by linarith [hcI.2, ht.2]⟩
  refine ⟨fun h1 h2 => ?_, fun h1 h2 => ?_, fun h1 h2 h hn => ?_, fun h1 h2 h hn => ?_⟩
  · by_cases hb : ∃ b ∈ frontier S, b ∈ Icc x₁ x₂
    · obtain ⟨b, hb, hbI⟩ := hb
      refine vol_empty_add b fun t ht => ?_
      obtain ⟨ht, hts⟩ := ht
      rcases lt_trichotomy t b with h | h | h
      · exact absurd (((side b hb hbI t ht).1 h).1 h1) hts
      · exact h
      · exact absurd (((side b hb hbI t ht).2 h).1 h2) hts
    · push Not at hb
      refine vol_empty_add x₁ fun t ht => absurd ((none hb t ht.1).1 h1) ht.2
  · by_cases hb : ∃ b ∈ frontier S, b ∈ Icc x₁ x₂
    · obtain ⟨b, hb, hbI⟩ := hb
      refine vol_interval (c := b) hx.le (fun t ht => ⟨ht.1, fun hts => ?_⟩) (fun t ht => ⟨ht.1.1.le, ht.1.2.le⟩)
      rcases lt_trichotomy t b with h | h | h
      · exact h1 (((side b hb hbI t ht.1).1 h).2 hts)
      · exact ht.2 h
      · exact h2 (((side b hb hbI t ht.1).2 h).2 hts)
    · push Not at hb
      refine vol_interval (c := x₁) hx.le (fun t ht => ⟨ht.1, fun hts => h1 ((none hb t ht.1).2 hts)⟩) (fun t ht => ⟨ht.1.1.le, ht.1.2.le⟩)
  · -- a surface point on the edge exists
    obtain ⟨b, hb, hbI⟩ : ∃ b ∈ frontier S, b ∈ Icc x₁ x₂ := by
      by_contra hno; push Not at hno
      refine h2 ((const_between fun c hc hcI => hno c hc ?_).1 h1)
      rwa [uIcc_of_le hx.le] at hcI
    refine ⟨b, ?_, ?_⟩
    · rcases h with c | _ | _
      · have hcb := hn.2 b hb
        have : |b - x₂| ≤ x₂ - x₁ := by rw [abs_sub_comm, abs_of_nonneg (by linarith [hbI.2])]; linarith [hbI.1]
        have h3 := abs_le.1 (hcb.trans this)
        rw [uniq c b hn.1 hb ⟨by linarith [h3.1], by linarith [h3.2]⟩ (big b hbI)]
      · rw [show frontier S = ∅ from hn] at hb; exact absurd hb (by simp)
      · exact absurd hn (fun h => h)
    · rw [abs_sub_comm, abs_of_nonneg (by linarith [hbI.2])]
      refine vol_interval (c := b) hbI.2 (fun t ht => ?_) (fun t ht => ?_)
      · have htI : t ∈ Ioo x₁ x₂ := ⟨by linarith [ht.1.1, hbI.1], ht.1.2⟩
        exact ⟨htI, fun hts => h2 (((side b hb hbI t htI).2 ht.1.1).2 hts)⟩
      · refine ⟨?_, ht.1.2.le⟩
        by_contra hlt
        exact ht.2 (((side b hb hbI t ht.1).1 (not_le.1 hlt)).1 h1)
  · obtain ⟨b, hb, hbI⟩ : ∃ b ∈ frontier S, b ∈ Icc x₁ x₂ := by
      by_contra hno; push Not at hno
      refine h1 ((const_between fun c hc hcI => hno c hc ?_).2 h2)
      rwa [uIcc_of_le hx.le] at hcI
    refine ⟨b, ?_, ?_⟩
    · rcases h with c | _ | _
      · have hcb := hn.2 b hb
        have : |b - x₁| ≤ x₂ - x₁ := by rw [abs_of_nonneg (by linarith [hbI.1])]; linarith [hbI.2]
        have h3 := abs_le.1 (hcb.trans this)
        rw [uniq c b hn.1 hb ⟨by linarith [h3.1], by linarith [h3.2]⟩ (big b hbI)]
      · rw [show frontier S = ∅ from hn] at hb; exact absurd hb (by simp)
      · exact absurd hn (fun h => h)
    · rw [abs_of_nonneg (by linarith [hbI.1])]
      refine vol_interval (c := b) hbI.1 (fun t ht => ?_) (fun t ht => ?_)
      · have htI : t ∈ Ioo x₁ x₂ := ⟨ht.1.1, by linarith [ht.1.2, hbI.2]⟩
        exact ⟨htI, fun hts => h1 (((side b hb hbI t htI).1 ht.1.2).2 hts)⟩
      · refine ⟨ht.1.1.le, ?_⟩
        by_contra hlt
        exact ht.2 (((side b hb hbI t ht.1).2 (not_le.1 hlt)).1 h2)

lemma next_eq {n : ℕ} (G : Mesh n) (a : Fin n) (k : Fin n → ℕ) : G.next a k = Function.update (G.node k) a (G.node k a + G.d a) := by
  funext b
  by_cases h : b = a
  · subst h; simp [Mesh.next, Mesh.node]; ring
  · simp [Mesh.next, Mesh.node, h]

lemma next_apply {n : ℕ} (G : Mesh n) (a : Fin n) (k : Fin n → ℕ) : G.next a k a = G.node k a + G.d a := by rw [next_eq]; simp

/-- What the methods of the conductor have to do for one edge. -/
def FindsOn {n : ℕ} (C : Conductor n) (a : Fin n) (p₁ p₂ : Fin n → ℝ) : Prop :=
  (¬ C.inC p₁ → C.inC p₂ → ∃ h, C.hit a p₁ = .ok h ∧ NearestSurface (insideOnLine C a p₁) (p₁ a) h) ∧
  (C.inC p₁ → ¬ C.inC p₂ → ∃ h, C.hit a p₂ = .ok h ∧ NearestSurface (insideOnLine C a p₂) (p₂ a) h)

lemma rawLength_eq {n : ℕ} (C : Conductor n) (G : Mesh n) (a : Fin n) (k : Fin n → ℕ) (hd : 0 < G.d a)
    (hC : FindsOn C a (G.node k) (G.next a k)) (hres : Resolved C a (G.node k) (G.node k a) (G.node k a + G.d a)) :
    rawLength C a (G.d a) (G.node k) (G.next a k) = .ok (.fin (freeLength C a (G.node k) (G.node k a) (G.node k a + G.d a))) := by
  have hline := line_length (S := insideOnLine C a (G.node k)) (x₁ := G.node k a) (x₂ := G.node k a + G.d a) (by linarith) hres
  have hset : {t : ℝ | t ∈ Ioo (G.node k a) (G.node k a + G.d a) ∧ t ∉ insideOnLine C a (G.node k)} =
      {t : ℝ | t ∈ Ioo (G.node k a) (G.node k a + G.d a) ∧ ¬ C.inC (Function.update (G.node k) a t)} := rfl
  rw [hset] at hline
  have h1 : C.inC (G.node k) ↔ G.node k a ∈ insideOnLine C a (G.node k) := by simp [insideOnLine]
  have h2 : C.inC (G.next a k) ↔ G.node k a + G.d a ∈ insideOnLine C a (G.node k) := by rw [next_eq]; rfl
  have h3 : insideOnLine C a (G.next a k) = insideOnLine C a (G.node k) := by rw [next_eq]; simp [insideOnLine]
  unfold rawLength freeLength
  by_cases i1 : C.inC (G.node k)
  · by_cases i2 : C.inC (G.next a k)
    · rw [if_pos i1, if_pos i2, hline.1 (h1.1 i1) (h2.1 i2)]
    · rw [if_pos i1, if_neg i2]
      obtain ⟨h, he, hn⟩ := hC.2 i1 i2
      rw [h3, next_apply] at hn
      obtain ⟨b, rfl, hb⟩ := hline.2.2.1 (h1.1 i1) (fun h => i2 (h2.2 h)) h hn
      rw [he, hb, ← next_apply]; rfl
  · by_cases i2 : C.inC (G.next a k)
    · rw [if_neg i1, if_pos i2]
      obtain ⟨h, he, hn⟩ := hC.1 i1 i2
      obtain ⟨b, rfl, hb⟩ := hline.2.2.2 (fun h => i1 (h1.2 h)) (h2.1 i2) h hn
      rw [he, hb]; rfl
    · rw [if_neg i1, if_neg i2, hline.2.1 (fun h => i1 (h1.2 h)) (fun h => i2 (h2.2 h))]
      congr 2; ring

lemma snap_close {tol d l : ℝ} (ht : 0 < tol) (hd : 0 < d) : |snap tol d l - l| ≤ tol * d := by
  have hl : l = l / d * d := by field_simp
  unfold snap
  dsimp only
  split_ifs with h1 h2
  · rw [show (1 : ℝ) * d - l = (1 - l / d) * d by rw [sub_mul, ← hl], abs_mul, abs_of_pos hd, abs_sub_comm]
    exact mul_le_mul_of_nonneg_right h1.le hd.le
  · rw [show (0 : ℝ) * d - l = (-(l / d)) * d by rw [neg_mul, ← hl]; ring, abs_mul, abs_of_pos hd, abs_neg]
    exact mul_le_mul_of_nonneg_right h2.le hd.le
  · rw [← hl, sub_self, abs_zero]; positivity

lemma snap_exact {tol d l : ℝ} (hd : 0 < d) (h0 : l = 0 ∨ tol * d ≤ l) (h1 : l = d ∨ l ≤ d - tol * d) : snap tol d l = l := by
  have hl : l / d * d = l := by field_simp
  unfold snap
  dsimp only
  split_ifs with h2 h3
  · rcases h1 with rfl | h1
    · ring
    · have : 1 - l / d < tol := by rw [abs_sub_comm] at h2; exact (le_abs_self _).trans_lt h2
      have : (1 - l / d) * d < tol * d := mul_lt_mul_of_pos_right this hd
      rw [sub_mul, hl] at this; linarith
  · rcases h0 with rfl | h0
    · ring
    · have : l / d < tol := (le_abs_self _).trans_lt h3
      have : l / d * d < tol * d := mul_lt_mul_of_pos_right this hd
      rw [hl] at this; linarith
  · exact hl

/-- The computed length `l` of an edge of full length `d` is the length `f`, up to the tolerance relative to `d`, and exactly so unless
`f` is within the tolerance of zero or of `d`. -/
def LengthIs (tol d f l : ℝ) : Prop :=
  |l - f| ≤ tol * d ∧ ((f = 0 ∨ tol * d ≤ f) → (f = d ∨ f ≤ d - tol * d) → l = f)

lemma edge_of_findsOn {n : ℕ} (C : Conductor n) (G : Mesh n) (tol : ℝ) (a : Fin n) (k : Fin n → ℕ) (hd : 0 < G.d a) (ht : 0 < tol)
    (hC : FindsOn C a (G.node k) (G.next a k)) (hres : Resolved C a (G.node k) (G.node k a) (G.node k a + G.d a)) :
    ∃ l, edgeLength C G tol a k = .ok (.fin l) ∧ LengthIs tol (G.d a) (freeLength C a (G.node k) (G.node k a) (G.node k a + G.d a)) l := by
  have h := rawLength_eq C G a k hd hC hres
  refine ⟨snap tol (G.d a) (freeLength C a (G.node k) (G.node k a) (G.node k a + G.d a)), ?_, snap_close ht hd, fun h0 h1 => snap_exact hd h0 h1⟩
  simp only [edgeLength, h]
  show (Except.ok _ : Py Num) = _
  rw [if_pos ht]

/-- **C84.** Wherever the grid resolves the conductor, the length of an edge computed at grid construction is the length of the part of
the edge outside the conductor. Missing: features smaller than a cell (refuted below). -/
theorem C84_edge_partial {n : ℕ} (C : Conductor n) (G : Mesh n) (tol : ℝ) (a : Fin n) (k : Fin n → ℕ) (hd : 0 < G.d a) (ht : 0 < tol)
    (hC : FindsSurface C) (hres : Resolved C a (G.node k) (G.node k a) (G.node k a + G.d a)) :
    ∃ l, edgeLength C G tol a k = .ok (.fin l) ∧ LengthIs tol (G.d a) (freeLength C a (G.node k) (G.node k a) (G.node k a + G.d a)) l :=
  edge_of_findsOn C G tol a k hd ht ⟨fun h1 _ => hC a _ h1, fun _ h2 => hC a _ h2⟩ hres

/-- The line meets the surface of a plane at most once. -/
lemma plane2_findsOn (m q : ℝ) (sign : ℤ) (hs : sign = 1 ∨ sign = -1) (G : Mesh 2) (a : Fin 2) (k : Fin 2 → ℕ) :
    FindsOn (plane2 m q 0 sign) a (G.node k) (G.next a k) ∧ (frontier (insideOnLine (plane2 m q 0 sign) a (G.node k))).Subsingleton := by
  by_cases hm : m = 0
  · subst hm
    obtain rfl | rfl : a = 0 ∨ a = 1 := by fin_cases a <;> simp
    · have hsame : ∀ p t, (plane2 0 q 0 sign).inC (Function.update p 0 t) ↔ (plane2 0 q 0 sign).inC p := by intro p t; simp [plane2]
      refine ⟨⟨fun h1 h2 => absurd ((hsame _ _).1 (by rw [next_eq] at h2; exact h2)) h1,
        fun h1 h2 => absurd ((hsame _ _).2 h1) (by rw [next_eq] at h2; exact h2)⟩, ?_⟩
      by_cases hin : (plane2 0 q 0 sign).inC (G.node k)
      · rw [show insideOnLine (plane2 0 q 0 sign) 0 (G.node k) = univ by ext t; simp only [insideOnLine, mem_ofPred_eq, hsame, hin, mem_univ]]
        simp
      · rw [show insideOnLine (plane2 0 q 0 sign) 0 (G.node k) = ∅ by ext t; simp only [insideOnLine, mem_ofPred_eq, hsame, hin, mem_empty_iff_false]]
        simp
    · have key : ∀ p, (plane2 0 q 0 sign).hit 1 p = .ok (.fin q) ∧ frontier (insideOnLine (plane2 0 q 0 sign) 1 p) = {q} := by
        intro p
        refine ⟨by simp [plane2], ?_⟩
        rcases hs with rfl | rfl
        · rw [show insideOnLine (plane2 0 q 0 1) 1 p = Ici q by ext t; simp [insideOnLine, plane2], frontier_Ici]
        · rw [show insideOnLine (plane2 0 q 0 (-1)) 1 p = Iic q by ext t; simp [insideOnLine, plane2], frontier_Iic]
      exact ⟨⟨fun _ _ => ⟨_, (key _).1, frontier_singleton_nearest (key _).2⟩, fun _ _ => ⟨_, (key _).1, frontier_singleton_nearest (key _).2⟩⟩,
        by rw [(key _).2]; simp⟩
  · have hF := C83_plane2_partial m q hm sign hs
    refine ⟨⟨fun h1 _ => hF a _ h1, fun _ h2 => hF a _ h2⟩, ?_⟩
    rw [plane2_frontier m q hm sign hs]
    simp

/-- **C84.** For a half plane every edge length is right, whatever the slope and however coarse the grid. -/
theorem C84_plane2 (m q : ℝ) (sign : ℤ) (hs : sign = 1 ∨ sign = -1) (G : Mesh 2) (tol : ℝ) (a : Fin 2) (k : Fin 2 → ℕ) (hd : 0 < G.d a) (ht : 0 < tol) :
    ∃ l, edgeLength (plane2 m q 0 sign) G tol a k = .ok (.fin l) ∧
      LengthIs tol (G.d a) (freeLength (plane2 m q 0 sign) a (G.node k) (G.node k a) (G.node k a + G.d a)) l := by
  obtain ⟨h1, h2⟩ := plane2_findsOn m q sign hs G a k
  exact edge_of_findsOn _ G tol a k hd ht h1 (h2.anti inter_subset_left)

/-- **C84.** For a half space likewise. -/
theorem C84_plane3 (q nn : Fin 3 → ℝ) (G : Mesh 3) (tol : ℝ) (a : Fin 3) (k : Fin 3 → ℕ) (hd : 0 < G.d a) (ht : 0 < tol) :
    ∃ l, edgeLength (plane3 q nn) G tol a k = .ok (.fin l) ∧
      LengthIs tol (G.d a) (freeLength (plane3 q nn) a (G.node k) (G.node k a) (G.node k a + G.d a)) l := by
  by_cases ha : nn a = 0
  · have hsame : ∀ p t, (plane3 q nn).inC (Function.update p a t) ↔ (plane3 q nn).inC p := by
      intro p t; simp only [plane3]; fin_cases a <;> simp_all
    refine edge_of_findsOn _ G tol a k hd ht ⟨fun h1 h2 => absurd ((hsame _ _).1 (by rw [next_eq] at h2; exact h2)) h1,
        fun h1 h2 => absurd ((hsame _ _).2 h1) (by rw [next_eq] at h2; exact h2)⟩ ?_
    unfold Resolved
    rw [(C83_plane3_parallel_refuted q nn a ha (G.node k)).2]
    simp
  · refine edge_of_findsOn _ G tol a k hd ht ⟨fun _ _ => C83_plane3_partial q nn a ha _, fun _ _ => C83_plane3_partial q nn a ha _⟩ ?_
    refine Set.Subsingleton.anti ?_ inter_subset_left
    rw [plane3_frontier q nn a ha]
    simp

/-- No conductor: every edge has its full length. -/
theorem C84_none {n : ℕ} (G : Mesh n) (tol : ℝ) (a : Fin n) (k : Fin n → ℕ) (hd : 0 < G.d a) (ht : 0 < tol) :
    edgeLength (noConductor n) G tol a k = .ok (.fin (G.d a)) := by
  have h : rawLength (noConductor n) a (G.d a) (G.node k) (G.next a k) = .ok (.fin (G.d a)) := by
    unfold rawLength; rw [if_neg (show ¬ (noConductor n).inC _ from fun h => h), if_neg (show ¬ (noConductor n).inC _ from fun h => h)]
  simp only [edgeLength, h]
  show (Except.ok _ : Py Num) = _
  rw [if_pos ht]
  simp [snap, hd.ne', ht]

/-- Refuted in general: a disc of radius 1/4 in the middle of an edge of length 1 covers half of it, and the edge gets its full length. -/
theorem C84_small_refuted : ∃ (C : Conductor 2) (G : Mesh 2), FindsSurface C ∧ (∀ a, 0 < G.d a) ∧
    edgeLength C G 1e-8 0 ![0, 0] = .ok (.fin 1) ∧ freeLength C 0 (G.node ![0, 0]) (-1 / 2) (1 / 2) = 1 / 2 := by
  refine ⟨inCircle (1 / 4) ![0, 0], ⟨![-1 / 2, 0], ![1, 1]⟩, C83_inCircle_partial _ (by norm_num) _ rfl, ?_, ?_, ?_⟩
  · intro a; fin_cases a <;> simp
  · have h : rawLength (inCircle (1 / 4) ![0, 0]) 0 1 (Mesh.node ⟨![-1 / 2, 0], ![1, 1]⟩ ![0, 0]) (Mesh.next ⟨![-1 / 2, 0], ![1, 1]⟩ 0 ![0, 0]) =
        .ok (.fin 1) := by
      unfold rawLength
      rw [if_neg (by simp [inCircle, Mesh.node]; norm_num), if_neg (by simp [inCircle, Mesh.node, Mesh.next]; norm_num)]
    simp only [edgeLength]
    rw [show (![(1 : ℝ), 1] : Fin 2 → ℝ) 0 = 1 from rfl, h]
    show (Except.ok _ : Py Num) = _
    rw [if_pos (by norm_num)]
    norm_num [snap]
  · unfold freeLength
    rw [show {t : ℝ | t ∈ Ioo (-1 / 2 : ℝ) (1 / 2) ∧ ¬ (inCircle (1 / 4) ![0, 0]).inC
        (Function.update (Mesh.node ⟨![-1 / 2, 0], ![1, 1]⟩ ![0, 0]) 0 t)} = Ioo (-1 / 2) (-1 / 4) ∪ Ioo (1 / 4) (1 / 2) by
      ext t
      simp only [inCircle, mem_ofPred_eq, mem_union, mem_Ioo]
      rw [show Function.update (Mesh.node ⟨![-1 / 2, 0], ![1, 1]⟩ ![0, 0]) (0 : Fin 2) t 0 = t by simp,
        show Function.update (Mesh.node ⟨![-1 / 2, 0], ![1, 1]⟩ ![0, 0]) (0 : Fin 2) t 1 = 0 by simp [Mesh.node]]
      simp only [Matrix.cons_val_zero, Matrix.cons_val_one, not_le]
      constructor
      · rintro ⟨⟨h1, h2⟩, h3⟩
        by_cases ht : 0 ≤ t
        · right; exact ⟨by nlinarith, h2⟩
        · left; exact ⟨h1, by nlinarith [not_le.1 ht]⟩
      · rintro (⟨h1, h2⟩ | ⟨h1, h2⟩)
        · exact ⟨⟨h1, by linarith⟩, by nlinarith⟩
        · exact ⟨⟨by linarith, h2⟩, by nlinarith⟩]
    rw [measure_union (by rw [Set.disjoint_left]; rintro t ⟨_, h⟩ ⟨h', _⟩; linarith) measurableSet_Ioo, Real.volume_Ioo, Real.volume_Ioo,
      ← ENNReal.ofReal_add (by norm_num) (by norm_num), ENNReal.toReal_ofReal (by norm_num)]
    norm_num

/-- Refuted in general: with an opening of width 1 from -1/2 to 1/2 and cells of length 1 an edge from -2/5 to 3/5, of which 9/10 is free,
gets the length 1/10, the distance to the wall behind its free end. -/
theorem C84_narrow_refuted : ∃ (C : Conductor 2) (G : Mesh 2), FindsSurface C ∧ (∀ a, 0 < G.d a) ∧
    edgeLength C G 1e-8 0 ![0, 0] = .ok (.fin (1 / 10)) ∧ freeLength C 0 (G.node ![0, 0]) (-2 / 5) (3 / 5) = 9 / 10 := by
  refine ⟨outBox ![1, 4] ![0, 0], ⟨![-2 / 5, 0], ![1, 1]⟩, C83_box _ _, ?_, ?_, ?_⟩
  · intro a; fin_cases a <;> simp
  · have h : rawLength (outBox ![1, 4] ![0, 0]) 0 1 (Mesh.node ⟨![-2 / 5, 0], ![1, 1]⟩ ![0, 0]) (Mesh.next ⟨![-2 / 5, 0], ![1, 1]⟩ 0 ![0, 0]) =
        .ok (.fin (1 / 10)) := by
      unfold rawLength
      rw [if_neg (by simp [outBox, Mesh.node, Fin.forall_fin_two]; norm_num), if_pos (by simp [outBox, Mesh.node, Mesh.next, Fin.forall_fin_two]; norm_num)]
      have e1 : (Mesh.node ⟨![-2 / 5, 0], ![1, 1]⟩ ![0, 0] : Fin 2 → ℝ) 0 = -2 / 5 := by simp [Mesh.node]
      have e2 : pick (-2 / 5) (.fin (-0.5 * 1 + 0)) (.fin (-0.5 * 1 + 0 + 1)) = .fin (-1 / 2) := by
        unfold pick
        rw [if_pos (by show |(-0.5 * 1 + 0 : ℝ) - -2 / 5| < |-0.5 * 1 + 0 + 1 - -2 / 5|; norm_num [abs_of_pos, abs_of_neg])]
        norm_num
      show (do return (← (Except.ok (pick _ (.fin (-0.5 * 1 + 0)) (.fin (-0.5 * 1 + 0 + 1))) : Py Num)).dist _ : Py Num) = _
      rw [e1, e2]
      show Except.ok (Num.fin |(-1 / 2 : ℝ) - -2 / 5|) = _
      norm_num [abs_of_neg]
    simp only [edgeLength]
    rw [show (![(1 : ℝ), 1] : Fin 2 → ℝ) 0 = 1 from rfl, h]
    show (Except.ok _ : Py Num) = _
    rw [if_pos (by norm_num)]
    norm_num [snap, abs_of_neg, abs_of_pos]
  · unfold freeLength
    rw [show {t : ℝ | t ∈ Ioo (-2 / 5 : ℝ) (3 / 5) ∧ ¬ (outBox ![1, 4] ![0, 0]).inC
        (Function.update (Mesh.node ⟨![-2 / 5, 0], ![1, 1]⟩ ![0, 0]) 0 t)} = Ioo (-2 / 5) (1 / 2) by
      ext t
      simp only [outBox, mem_ofPred_eq, mem_Ioo, not_not, Fin.forall_fin_two]
      rw [show Function.update (Mesh.node ⟨![-2 / 5, 0], ![1, 1]⟩ ![0, 0]) (0 : Fin 2) t 0 = t by simp,
        show Function.update (Mesh.node ⟨![-2 / 5, 0], ![1, 1]⟩ ![0, 0]) (0 : Fin 2) t 1 = 0 by simp [Mesh.node]]
      simp only [Matrix.cons_val_zero, Matrix.cons_val_one]
      constructor
      · rintro ⟨⟨h1, h2⟩, ⟨h3, h4⟩, h5⟩; exact ⟨h1, by linarith⟩
      · rintro ⟨h1, h2⟩; exact ⟨⟨h1, by linarith⟩, ⟨by linarith, by linarith⟩, by norm_num, by norm_num⟩]
    rw [Real.volume_Ioo, ENNReal.toReal_ofReal (by norm_num)]
    norm_num

/-! ### C85: extent of the grid -/

/-- **C85.** The nodes of a two-dimensional grid run from the low to the high corner. -/
theorem C85_mesh2 (lo hi : Fin 2 → ℝ) (N : Fin 2 → ℕ) (hN : ∀ a, 0 < N a) : (mesh2 lo hi N).node 0 = lo ∧ (mesh2 lo hi N).node N = hi := by
  have h0 : (N 0 : ℝ) ≠ 0 := by have := hN 0; positivity
  have h1 : (N 1 : ℝ) ≠ 0 := by have := hN 1; positivity
  constructor <;> funext a <;> fin_cases a <;> simp [mesh2, Mesh.node] <;> field_simp <;> ring

/-- The nodes of a three-dimensional grid end at the high corner exactly if the grid is as long along z as along y. -/
theorem C85_mesh3_partial (lo hi : Fin 3 → ℝ) (N : Fin 3 → ℕ) (hN : ∀ a, 0 < N a) : (mesh3 lo hi N).node 0 = lo ∧
    ((mesh3 lo hi N).node N = hi ↔ hi 2 - lo 2 = hi 1 - lo 1) := by
  have h0 : (N 0 : ℝ) ≠ 0 := by have := hN 0; positivity
  have h1 : (N 1 : ℝ) ≠ 0 := by have := hN 1; positivity
  have h2 : (N 2 : ℝ) ≠ 0 := by have := hN 2; positivity
  constructor
  · funext a; fin_cases a <;> simp [mesh3, Mesh.node]
  · have e : (mesh3 lo hi N).node N = ![hi 0, hi 1, hi 1 - lo 1 + lo 2] := by
      funext a; fin_cases a <;> simp [mesh3, Mesh.node] <;> field_simp <;> ring
    rw [e]
    constructor
    · intro h; have := congrFun h 2; simp at this; linarith
    · intro h; funext a; fin_cases a <;> simp; linarith

/-- Refuted in general: a grid from 0 to 1 along x and y and from 0 to 5 along z ends at z = 1. -/
theorem C85_mesh3_refuted : (mesh3 ![0, 0, 0] ![1, 1, 5] ![10, 10, 50]).node ![10, 10, 50] 2 = 1 := by
  simp [mesh3, Mesh.node]

end
end Cond
end Wakis
