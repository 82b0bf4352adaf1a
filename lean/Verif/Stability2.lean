import Verif.Stability

/-!
# C20: stability with electric, magnetic and PML walls and with conducting materials

`Walls` allows any mixture of electric, magnetic and PML faces; the materials may conduct.  The magnetic case
uses the curl bound of `CurlBound` on the dual grid, read backwards along the three axes.  With conductivity
the conserved quantity of C19 is replaced by one that decreases.
-/

namespace Wakis
namespace Sol
open Finset Sparse Grid CurlBound
variable {K : Type _} [Field K]

/-- Every face is electric, pec, pml or magnetic (upper or lower case), or exactly `pmc`. -/
def Walls (bc : Faces String) : Prop := ∀ axis s, axis < 3 →
  pyLower (faceName bc axis s) = "electric" ∨ pyLower (faceName bc axis s) = "pec" ∨ pyLower (faceName bc axis s) = "pml" ∨
  pyLower (faceName bc axis s) = "magnetic" ∨ faceName bc axis s = "pmc"

theorem Walls.face {bc : Faces String} (h : Walls bc) {a : ℕ} {s : Side} (ha : a < 3) :
    isPmcFace (faceName bc a s) = true ∨ isPec (faceName bc a s) = true := by
  rcases h a s ha with e | e | e | e | e <;> simp [isPmcFace, isPec, e]

theorem Walls.names {bc : Faces String} (h : Walls bc) : anyFace isAbc bc = false ∧
    (isPeriodic bc.xlo || isPeriodic bc.ylo || isPeriodic bc.zlo) = false := by
  have hp : pyLower "pmc" = "pmc" := by decide
  have f : ∀ s, pyLower s = "electric" ∨ pyLower s = "pec" ∨ pyLower s = "pml" ∨ pyLower s = "magnetic" ∨ s = "pmc" →
      isAbc s = false ∧ isPeriodic s = false := by
    rintro s (e | e | e | e | e)
    · simp [isAbc, isPeriodic, e]
    · simp [isAbc, isPeriodic, e]
    · simp [isAbc, isPeriodic, e]
    · simp [isAbc, isPeriodic, e]
    · simp [isAbc, isPeriodic, e, hp]
  have h1 := f _ (h 0 .lo (by decide))
  have h2 := f _ (h 0 .hi (by decide))
  have h3 := f _ (h 1 .lo (by decide))
  have h4 := f _ (h 1 .hi (by decide))
  have h5 := f _ (h 2 .lo (by decide))
  have h6 := f _ (h 2 .hi (by decide))
  simp only [faceName, Faces.lo, Faces.hi, if_true, if_false, one_ne_zero, OfNat.ofNat_ne_zero, OfNat.ofNat_ne_one] at h1 h2 h3 h4 h5 h6
  simp [anyFace, h1, h2, h3, h4, h5, h6]

/-- Without a magnetic face every face is electric, pec or pml. -/
theorem Walls.pecLike {bc : Faces String} (h : Walls bc) (hp : anyFace isPmcAny bc = false) : PecLike bc := by
  intro a s ha
  rcases h.face (s := s) ha with h' | h'
  · have : isPmcAny (faceName bc a s) = true := by
      unfold isPmcFace at h'
      unfold isPmcAny
      rcases Bool.or_eq_true_iff.1 h' with e | e
      · rw [e]; rfl
      · have e : faceName bc a s = "pmc" := by simpa using e
        rw [e]; decide
    rw [anyFace_of this] at hp
    exact absurd hp (by decide)
  · exact h'

/-! ### the curl matrix read backwards -/

/-- A neighbour one step back, if the last layer of the axis is zero. -/
theorem extB_step {Nx Ny Nz i j k : ℕ} (v : Vec K) {c axis : ℕ} (ha : axis < 3) (hi : i < Nx) (hj : j < Ny) (hk : k < Nz)
    (hz : ∀ i' j' k', i' < Nx → j' < Ny → k' < Nz → coord axis i' j' k' + 1 = coord axis Nx Ny Nz → v (pos Nx Ny Nz c i' j' k') = 0) :
    extB (Nx * Ny * Nz) v c (fl Nx Ny i j k) (if axis = 0 then 1 else if axis = 1 then Nx else Nx * Ny) =
      if coord axis i j k = 0 then 0 else
        v (pos Nx Ny Nz c (if axis = 0 then i - 1 else i) (if axis = 1 then j - 1 else j) (if axis = 2 then k - 1 else k)) := by
  have h0 : axis = 0 ∨ axis = 1 ∨ axis = 2 := by omega
  have hx0 : 0 < Nx := by omega
  have hy0 : 0 < Ny := by omega
  rcases h0 with rfl | rfl | rfl
  · simp only [coord, if_true, if_false, zero_ne_one, OfNat.zero_ne_ofNat] at hz ⊢
    by_cases h0 : i = 0
    · subst h0
      rw [if_pos rfl]
      unfold extB
      split_ifs with h1
      · -- the previous cell in memory is the last one of another row
        rcases Nat.eq_zero_or_pos j with rfl | hj0
        · rcases Nat.eq_zero_or_pos k with rfl | hk0
          · simp [fl] at h1
          · have e : fl Nx Ny 0 0 k = fl Nx Ny (Nx - 1) (Ny - 1) (k - 1) + 1 := by
              obtain ⟨a, rfl⟩ := Nat.exists_eq_add_of_lt hx0
              obtain ⟨b, rfl⟩ := Nat.exists_eq_add_of_lt hy0
              obtain ⟨d, rfl⟩ := Nat.exists_eq_add_of_lt hk0
              simp only [fl, Nat.zero_add, Nat.add_sub_cancel]; ring
            rw [e, Nat.add_sub_cancel]
            exact hz _ _ _ (by omega) (by omega) (by omega) (by omega)
        · have e : fl Nx Ny 0 j k = fl Nx Ny (Nx - 1) (j - 1) k + 1 := by
            obtain ⟨a, rfl⟩ := Nat.exists_eq_add_of_lt hx0
            obtain ⟨b, rfl⟩ := Nat.exists_eq_add_of_lt hj0
            simp only [fl, Nat.zero_add, Nat.add_sub_cancel]; ring
          rw [e, Nat.add_sub_cancel]
          exact hz _ _ _ (by omega) (by omega) (by omega) (by omega)
      · rfl
    · rw [if_neg h0]
      obtain ⟨a, rfl⟩ : ∃ a, i = a + 1 := ⟨i - 1, by omega⟩
      unfold extB
      rw [fl_x, if_pos (by omega), Nat.add_sub_cancel, Nat.add_sub_cancel]
      rfl
  · simp only [coord, if_true, if_false, one_ne_zero, OfNat.one_ne_ofNat] at hz ⊢
    by_cases h0 : j = 0
    · subst h0
      rw [if_pos rfl]
      unfold extB
      split_ifs with h1
      · rcases Nat.eq_zero_or_pos k with rfl | hk0
        · simp [fl] at h1; omega
        · have e : fl Nx Ny i 0 k = fl Nx Ny i (Ny - 1) (k - 1) + Nx := by
            obtain ⟨b, rfl⟩ := Nat.exists_eq_add_of_lt hy0
            obtain ⟨d, rfl⟩ := Nat.exists_eq_add_of_lt hk0
            simp only [fl, Nat.zero_add, Nat.add_sub_cancel]; ring
          rw [e, Nat.add_sub_cancel]
          exact hz _ _ _ (by omega) (by omega) (by omega) (by omega)
      · rfl
    · rw [if_neg h0]
      obtain ⟨a, rfl⟩ : ∃ a, j = a + 1 := ⟨j - 1, by omega⟩
      unfold extB
      rw [fl_y, if_pos (by omega), Nat.add_sub_cancel, Nat.add_sub_cancel]
      rfl
  · simp only [coord, if_true, if_false, OfNat.ofNat_ne_zero, OfNat.ofNat_ne_one] at hz ⊢
    by_cases h0 : k = 0
    · subst h0
      rw [if_pos rfl]
      unfold extB
      rw [if_neg]
      have : fl Nx Ny i j 0 < Nx * Ny * 1 := fl_lt hi hj Nat.one_pos
      omega
    · rw [if_neg h0]
      obtain ⟨a, rfl⟩ : ∃ a, k = a + 1 := ⟨k - 1, by omega⟩
      unfold extB
      rw [fl_z, if_pos (by omega), Nat.add_sub_cancel, Nat.add_sub_cancel]
      rfl

/-- A field read backwards along the three axes, zero outside the domain. -/
def revView (Nx Ny Nz : ℕ) (v : ℕ → K) (c i j k : ℕ) : K :=
  if i < Nx ∧ j < Ny ∧ k < Nz then v (pos Nx Ny Nz c (Nx - 1 - i) (Ny - 1 - j) (Nz - 1 - k)) else 0

/-- The transposed curl is the curl of the field read backwards, up to the sign. -/
theorem CT_rev {Nx Ny Nz i j k : ℕ} (v : Vec K) {c : ℕ} (hc : c < 3) (hi : i < Nx) (hj : j < Ny) (hk : k < Nz)
    (hv : ∀ c', c' < 3 → ∀ axis, axis < 3 → axis ≠ c' → ∀ i' j' k', i' < Nx → j' < Ny → k' < Nz →
      coord axis i' j' k' + 1 = coord axis Nx Ny Nz → v (pos Nx Ny Nz c' i' j' k') = 0) :
    mulVec (3 * (Nx * Ny * Nz)) (transpose (C0 Nx Ny Nz)) v (pos Nx Ny Nz c (Nx - 1 - i) (Ny - 1 - j) (Nz - 1 - k)) =
      -circ (revView Nx Ny Nz v) c i j k := by
  have hi' : Nx - 1 - i < Nx := by omega
  have hj' : Ny - 1 - j < Ny := by omega
  have hk' : Nz - 1 - k < Nz := by omega
  have hp := fl_lt hi' hj' hk'
  have r0 : ∀ c', revView Nx Ny Nz v c' i j k = v (pos Nx Ny Nz c' (Nx - 1 - i) (Ny - 1 - j) (Nz - 1 - k)) := fun c' => if_pos ⟨hi, hj, hk⟩
  have rx : ∀ c', c' < 3 → 0 ≠ c' → extB (Nx * Ny * Nz) v c' (fl Nx Ny (Nx - 1 - i) (Ny - 1 - j) (Nz - 1 - k)) 1 = revView Nx Ny Nz v c' (i + 1) j k := by
    intro c' hc' hne
    have := extB_step v (axis := 0) (by decide) hi' hj' hk' (fun i' j' k' => hv c' hc' 0 (by decide) hne i' j' k')
    simp only [coord, if_true, if_false, zero_ne_one, OfNat.zero_ne_ofNat] at this
    rw [this, revView]
    by_cases h : i + 1 < Nx
    · rw [if_neg (by omega), if_pos ⟨h, hj, hk⟩, show Nx - 1 - i - 1 = Nx - 1 - (i + 1) by omega]
    · rw [if_pos (by omega), if_neg (fun h' => h h'.1)]
  have ry : ∀ c', c' < 3 → 1 ≠ c' → extB (Nx * Ny * Nz) v c' (fl Nx Ny (Nx - 1 - i) (Ny - 1 - j) (Nz - 1 - k)) Nx = revView Nx Ny Nz v c' i (j + 1) k := by
    intro c' hc' hne
    have := extB_step v (axis := 1) (by decide) hi' hj' hk' (fun i' j' k' => hv c' hc' 1 (by decide) hne i' j' k')
    simp only [coord, if_true, if_false, one_ne_zero, OfNat.one_ne_ofNat] at this
    rw [this, revView]
    by_cases h : j + 1 < Ny
    · rw [if_neg (by omega), if_pos ⟨hi, h, hk⟩, show Ny - 1 - j - 1 = Ny - 1 - (j + 1) by omega]
    · rw [if_pos (by omega), if_neg (fun h' => h h'.2.1)]
  have rz : ∀ c', c' < 3 → 2 ≠ c' → extB (Nx * Ny * Nz) v c' (fl Nx Ny (Nx - 1 - i) (Ny - 1 - j) (Nz - 1 - k)) (Nx * Ny) = revView Nx Ny Nz v c' i j (k + 1) := by
    intro c' hc' hne
    have := extB_step v (axis := 2) (by decide) hi' hj' hk' (fun i' j' k' => hv c' hc' 2 (by decide) hne i' j' k')
    simp only [coord, if_true, if_false, OfNat.ofNat_ne_zero, OfNat.ofNat_ne_one] at this
    rw [this, revView]
    by_cases h : k + 1 < Nz
    · rw [if_neg (by omega), if_pos ⟨hi, hj, h⟩, show Nz - 1 - k - 1 = Nz - 1 - (k + 1) by omega]
    · rw [if_pos (by omega), if_neg (fun h' => h h'.2.2)]
  have h3 : c = 0 ∨ c = 1 ∨ c = 2 := by omega
  rcases h3 with rfl | rfl | rfl
  · rw [pos, CT_x hp, ry 2 (by decide) (by decide), rz 1 (by decide) (by decide)]
    simp only [circ, if_true, r0]
    unfold pos; ring
  · rw [pos, CT_y hp, rz 0 (by decide) (by decide), rx 2 (by decide) (by decide)]
    simp only [circ, if_true, if_false, one_ne_zero, r0]
    unfold pos; ring
  · rw [pos, CT_z hp, rx 1 (by decide) (by decide), ry 0 (by decide) (by decide)]
    simp only [circ, if_false, OfNat.ofNat_ne_zero, OfNat.ofNat_ne_one, r0]
    unfold pos; ring

/-- A sum over the cells, read backwards. -/
theorem S3_reflect (Nx Ny Nz : ℕ) (f : ℕ → ℕ → ℕ → K) :
    S3 Nx Ny Nz f = S3 Nx Ny Nz fun i j k => f (Nx - 1 - i) (Ny - 1 - j) (Nz - 1 - k) := by
  unfold S3
  rw [← sum_range_reflect]
  refine sum_congr rfl fun i _ => ?_
  rw [← sum_range_reflect]
  refine sum_congr rfl fun j _ => ?_
  rw [← sum_range_reflect]

section
variable [LinearOrder K] [IsStrictOrderedRing K]

/-- The dual axis read backwards: the dual lengths are its edges.  The last dual length is zero. -/
def revAxis (x : ℕ → K) (n : ℕ) (m : K) (hm : 0 < m) (h : ∀ i < n, m ≤ x (i + 1) - x i) : Axis K where
  N := n
  d := fun i => (mkAxis x n m hm h).t (n - 1 - i)
  t := fun i => (mkAxis x n m hm h).d (n - 1 - i)
  m := m
  hm := hm
  hd := by
    intro i hi
    by_cases h0 : n - 1 - i + 1 < n
    · right
      show m ≤ tilde x n (n - 1 - i + 1) - tilde x n (n - 1 - i)
      rw [tilde_diff x n _ two_ne_zero (by omega), if_pos h0, le_div_iff₀ (by norm_num)]
      have h1 := h (n - 1 - i) (by omega)
      have h2 := h (n - 1 - i + 1) h0
      linarith
    · left
      show tilde x n (n - 1 - i + 1) - tilde x n (n - 1 - i) = 0
      rw [tilde_diff x n _ two_ne_zero (by omega), if_neg h0]
  ht := fun i hi => h _ (by have := hi.2; omega)
  h0 := fun i hi => hm.le.trans (h _ (by omega))

section
variable {Nx Ny Nz : ℕ} {x y z : ℕ → K} {mx my mz : K} (hmx : 0 < mx) (hmy : 0 < my) (hmz : 0 < mz)
  (hx : ∀ i < Nx, mx ≤ x (i + 1) - x i) (hy : ∀ i < Ny, my ≤ y (i + 1) - y i) (hz : ∀ i < Nz, mz ≤ z (i + 1) - z i)

include hmx hmy hmz hx hy hz in
/-- The curl bound on the dual grid: a dual field without tangential part on the six faces. -/
theorem flat_dual_bound (u : Vec K)
    (hu : ∀ c, c < 3 → ∀ i j k, i < Nx → j < Ny → k < Nz → ∀ axis, axis < 3 → axis ≠ c → ∀ s, OnFace Nx Ny Nz axis s i j k →
      u (pos Nx Ny Nz c i j k) = 0) :
    let g := computeGrid Nx Ny Nz x y z
    ∑ r ∈ range (3 * (Nx * Ny * Nz)), g.L.array r * g.itA.array r * mulVec (3 * (Nx * Ny * Nz)) (transpose (C0 Nx Ny Nz)) u r ^ 2 ≤
      4 * (1 / mx ^ 2 + 1 / my ^ 2 + 1 / mz ^ 2) * ∑ r ∈ range (3 * (Nx * Ny * Nz)), 1 / (g.tL.array r * g.iA.array r) * u r ^ 2 := by
  intro g
  have hface : ∀ c, c < 3 → ∀ axis, axis < 3 → axis ≠ c → ∀ i j k, ¬Inner (coord axis Nx Ny Nz) (coord axis i j k) →
      revView Nx Ny Nz u c i j k = 0 := by
    intro c hc axis ha hne i j k hin
    unfold revView
    split_ifs with hr
    · obtain ⟨h1, h2, h3⟩ := hr
      have hax : axis = 0 ∨ axis = 1 ∨ axis = 2 := by omega
      have key : coord axis (Nx - 1 - i) (Ny - 1 - j) (Nz - 1 - k) = 0 ∨
          coord axis (Nx - 1 - i) (Ny - 1 - j) (Nz - 1 - k) = coord axis Nx Ny Nz - 1 := by
        unfold Inner at hin
        rcases hax with rfl | rfl | rfl <;>
          simp only [coord, if_true, if_false, one_ne_zero, OfNat.ofNat_ne_zero, OfNat.ofNat_ne_one] at hin ⊢ <;> omega
      rcases key with h | h
      · exact hu c hc _ _ _ (by omega) (by omega) (by omega) axis ha hne .lo h
      · exact hu c hc _ _ _ (by omega) (by omega) (by omega) axis ha hne .hi h
    · rfl
  have hcl : Closed (revAxis x Nx mx hmx hx) (revAxis y Ny my hmy hy) (revAxis z Nz mz hmz hz) (revView Nx Ny Nz u) :=
    ⟨fun i j k => hface 0 (by decide) 1 (by decide) (by decide) i j k, fun i j k => hface 0 (by decide) 2 (by decide) (by decide) i j k,
     fun i j k => hface 1 (by decide) 0 (by decide) (by decide) i j k, fun i j k => hface 1 (by decide) 2 (by decide) (by decide) i j k,
     fun i j k => hface 2 (by decide) 0 (by decide) (by decide) i j k, fun i j k => hface 2 (by decide) 1 (by decide) (by decide) i j k⟩
  have key := curl_bound _ _ _ _ hcl
  have e1 : ∑ r ∈ range (3 * (Nx * Ny * Nz)), g.L.array r * g.itA.array r * mulVec (3 * (Nx * Ny * Nz)) (transpose (C0 Nx Ny Nz)) u r ^ 2 =
      S3 Nx Ny Nz (faceSq (revAxis x Nx mx hmx hx) (revAxis y Ny my hmy hy) (revAxis z Nz mz hmz hz) (revView Nx Ny Nz u)) := by
    rw [sum_flat, S3_reflect]
    refine S3_congr fun i hi j hj k hk => ?_
    have w := (weights_cell hmx hmy hmz hx hy hz (by omega : Nx - 1 - i < Nx) (by omega : Ny - 1 - j < Ny) (by omega : Nz - 1 - k < Nz)).2.1
    have hc : ∀ c, c < 3 → mulVec (3 * (Nx * Ny * Nz)) (transpose (C0 Nx Ny Nz)) u (pos Nx Ny Nz c (Nx - 1 - i) (Ny - 1 - j) (Nz - 1 - k)) =
        -circ (revView Nx Ny Nz u) c i j k := by
      intro c hc
      refine CT_rev u hc hi hj hk fun c' hc' axis ha hne i' j' k' h1 h2 h3 hl => ?_
      exact hu c' hc' i' j' k' h1 h2 h3 axis ha hne .hi (by show coord axis i' j' k' = coord axis Nx Ny Nz - 1; omega)
    rw [hc 0 (by decide), hc 1 (by decide), hc 2 (by decide)]
    have inv : ∀ {a b p q : K}, 1 / a / b = p / q → b * a = q / p := by
      intro a b p q h
      have := congrArg (fun t => t⁻¹) h
      simp only [div_eq_mul_inv, mul_inv, inv_inv, one_mul] at this
      rw [div_eq_mul_inv]; linear_combination this
    unfold faceSq
    rw [inv w.1, inv w.2.1, inv w.2.2, neg_sq, neg_sq, neg_sq]
    rfl
  have e2 : ∑ r ∈ range (3 * (Nx * Ny * Nz)), 1 / (g.tL.array r * g.iA.array r) * u r ^ 2 =
      S3 Nx Ny Nz (edgeSq (revAxis x Nx mx hmx hx) (revAxis y Ny my hmy hy) (revAxis z Nz mz hmz hz) (revView Nx Ny Nz u)) := by
    rw [sum_flat, S3_reflect]
    refine S3_congr fun i hi j hj k hk => ?_
    have w := (weights_cell hmx hmy hmz hx hy hz (by omega : Nx - 1 - i < Nx) (by omega : Ny - 1 - j < Ny) (by omega : Nz - 1 - k < Nz)).1
    unfold edgeSq revView
    rw [w.1, w.2.1, w.2.2]
    simp only [hi, hj, hk, and_self, if_true, one_div_div]
    rfl
  rw [e1, e2]
  exact key

/-! ### the masked curl -/

omit [IsStrictOrderedRing K] in
theorem mask_01 (g : Geom K) (bc : Faces String) {r : ℕ} (hr : r < 3 * (g.Nx * g.Ny * g.Nz)) :
    (colMask g bc r = 0 ∨ colMask g bc r = 1) ∧ (rowMask g bc r = 0 ∨ rowMask g bc r = 1) := by
  have h01 : ∀ w : Faces K, (∀ a, (w.lo a = 0 ∨ w.lo a = 1) ∧ (w.hi a = 0 ∨ w.hi a = 1)) → ∀ c i j k,
      maskVal g.Nx g.Ny g.Nz w c i j k = 0 ∨ maskVal g.Nx g.Ny g.Nz w c i j k = 1 := by
    intro w hw c i j k
    have h0 := hw 0
    have h1 := hw 1
    have h2 := hw 2
    simp only [Faces.lo, Faces.hi, if_true, if_false, one_ne_zero, OfNat.ofNat_ne_zero, OfNat.ofNat_ne_one] at h0 h1 h2
    unfold maskVal edge
    split_ifs <;> simp_all
  have hp : ∀ a, ((pecFaces bc : Faces K).lo a = 0 ∨ (pecFaces bc : Faces K).lo a = 1) ∧
      ((pecFaces bc : Faces K).hi a = 0 ∨ (pecFaces bc : Faces K).hi a = 1) := by
    intro a
    rw [pecFaces_lo, pecFaces_hi]
    constructor <;> split_ifs <;> simp
  obtain ⟨c, i, j, k, hc, hi, hj, hk, rfl⟩ := pos_surj hr
  constructor
  · rw [colMask_pos g bc hc hi hj hk]
    exact h01 _ hp _ _ _ _
  · by_cases hany : anyFace isPmcAny bc = true
    · rw [rowMask_pos g bc hany hc hi hj hk]
      refine h01 _ (fun a => ?_) _ _ _ _
      rw [zeroWhere_lo, zeroWhere_hi]
      constructor
      · split_ifs
        · exact .inl rfl
        · exact (hp a).1
      · split_ifs
        · exact .inl rfl
        · exact (hp a).2
    · right; exact rowMask_one g bc (by simpa using hany) _

include hmx hmy hmz hx hy hz in
/-- The masked curl of the masked edge voltages, for any mixture of the walls. -/
theorem masked_curl_bound {bc : Faces String} (h : Walls bc) (e : Vec K)
    (he : ∀ r < 3 * (Nx * Ny * Nz), (computeGrid Nx Ny Nz x y z).itA.array r = 0 → colMask (computeGrid Nx Ny Nz x y z) bc r * e r = 0) :
    let g := computeGrid Nx Ny Nz x y z
    let v : Vec K := fun q => colMask g bc q * e q
    ∑ r ∈ range (3 * (Nx * Ny * Nz)), g.tL.array r * g.iA.array r * (rowMask g bc r * mulVec (3 * (Nx * Ny * Nz)) (C0 Nx Ny Nz) v r) ^ 2 ≤
      4 * (1 / mx ^ 2 + 1 / my ^ 2 + 1 / mz ^ 2) *
        ∑ r ∈ range (3 * (Nx * Ny * Nz)), 1 / g.itA.array r / g.L.array r * v r ^ 2 := by
  intro g v
  by_cases hany : anyFace isPmcAny bc = true
  · set n3 := 3 * (Nx * Ny * Nz) with hn3
    set S := 1 / mx ^ 2 + 1 / my ^ 2 + 1 / mz ^ 2 with hS
    have hS0 : 0 < S := by positivity
    set cv := mulVec n3 (C0 Nx Ny Nz) v with hcv
    set u : Vec K := fun r => g.tL.array r * g.iA.array r * (rowMask g bc r * cv r) with hu
    set Q := ∑ r ∈ range n3, g.tL.array r * g.iA.array r * (rowMask g bc r * cv r) ^ 2 with hQ
    set V := ∑ r ∈ range n3, 1 / g.itA.array r / g.L.array r * v r ^ 2 with hV
    have hu0 : ∀ c, c < 3 → ∀ i j k, i < Nx → j < Ny → k < Nz → ∀ axis, axis < 3 → axis ≠ c → ∀ s, OnFace Nx Ny Nz axis s i j k →
        u (pos Nx Ny Nz c i j k) = 0 := by
      intro c hc i j k hi hj hk axis ha hne s hon
      have : rowMask g bc (pos Nx Ny Nz c i j k) = 0 :=
        rowMask_zero g bc hany ha hc hne hi hj hk hon fun a s' ha' _ _ => h.face ha'
      simp only [hu, this]; ring
    have hdual := flat_dual_bound hmx hmy hmz hx hy hz u hu0
    have q1 : Q = ∑ r ∈ range n3, u r * cv r := by
      refine sum_congr rfl fun r hr => ?_
      have hr : r < 3 * (g.Nx * g.Ny * g.Nz) := mem_range.1 hr
      rcases (mask_01 g bc hr).2 with h0 | h0 <;> simp only [hu, h0] <;> ring
    have q2 : ∑ r ∈ range n3, 1 / (g.tL.array r * g.iA.array r) * u r ^ 2 = Q := by
      refine sum_congr rfl fun r _ => ?_
      by_cases h0 : g.tL.array r * g.iA.array r = 0
      · simp only [hu, h0]; simp
      · simp only [hu]; field_simp
    have q3 := inner_transpose n3 (C0 Nx Ny Nz) u v
    have q4 : ∀ r ∈ range n3, mulVec n3 (transpose (C0 Nx Ny Nz)) u r * v r ≤
        1 / (8 * S) * (g.L.array r * g.itA.array r * mulVec n3 (transpose (C0 Nx Ny Nz)) u r ^ 2) +
          2 * S * (1 / g.itA.array r / g.L.array r * v r ^ 2) := by
      intro r hr
      have hr := mem_range.1 hr
      obtain ⟨hL, _, _, hT⟩ := metric_signs hmx hmy hmz hx hy hz hr
      by_cases h0 : g.itA.array r = 0
      · have : v r = 0 := he r hr h0
        rw [this, h0]; simp
      · have hT2 : 0 < g.itA.array r := lt_of_le_of_ne hT (Ne.symm h0)
        generalize mulVec n3 (transpose (C0 Nx Ny Nz)) u r = p
        have hL' : 0 < g.L.array r := hL
        generalize g.L.array r = L at hL'
        generalize g.itA.array r = T at hT2
        generalize v r = w
        have e : 1 / (8 * S) * (L * T * p ^ 2) + 2 * S * (1 / T / L * w ^ 2) - p * w =
            1 / (8 * S * L * T) * (L * T * p - 4 * S * w) ^ 2 := by
          field_simp
          ring
        have : 0 ≤ 1 / (8 * S * L * T) * (L * T * p - 4 * S * w) ^ 2 := by positivity
        linarith
    have q5 := sum_le_sum q4
    rw [sum_add_distrib, ← mul_sum, ← mul_sum, ← q3, ← q1] at q5
    have q6 : 1 / (8 * S) * ∑ r ∈ range n3, g.L.array r * g.itA.array r * mulVec n3 (transpose (C0 Nx Ny Nz)) u r ^ 2 ≤ Q / 2 := by
      have : 1 / (8 * S) * (4 * S * ∑ r ∈ range n3, 1 / (g.tL.array r * g.iA.array r) * u r ^ 2) = Q / 2 := by
        rw [q2]; field_simp; ring
      rw [← this]
      exact mul_le_mul_of_nonneg_left hdual (by positivity)
    linarith
  · have hp : anyFace isPmcAny bc = false := by simpa using hany
    have key := flat_curl_bound hmx hmy hmz hx hy hz (h.pecLike hp) e
    refine le_trans (le_of_eq (sum_congr rfl fun r _ => ?_)) key
    rw [rowMask_one g bc hp, one_mul]

/-- What the estimates need of a grid with boundary names: signs of the metric in use, and the bound `4 S` of the masked curl in its weights. -/
structure CurlOK (g : Geom K) (bc : Faces String) (S : K) : Prop where
  pos : 0 < S
  signs : ∀ r < 3 * (g.Nx * g.Ny * g.Nz), 0 < g.L.array r ∧ 0 ≤ dualLen g bc r ∧ 0 < g.iA.array r ∧ 0 ≤ dualInvArea g bc r
  bound : ∀ e : Vec K, (∀ r < 3 * (g.Nx * g.Ny * g.Nz), dualInvArea g bc r = 0 → colMask g bc r * e r = 0) →
    ∑ r ∈ range (3 * (g.Nx * g.Ny * g.Nz)), dualLen g bc r * g.iA.array r *
        (rowMask g bc r * mulVec (3 * (g.Nx * g.Ny * g.Nz)) (C0 g.Nx g.Ny g.Nz) (fun q => colMask g bc q * e q) r) ^ 2 ≤
      4 * S * ∑ r ∈ range (3 * (g.Nx * g.Ny * g.Nz)), 1 / dualInvArea g bc r / g.L.array r * (colMask g bc r * e r) ^ 2

section
variable {bc : Faces String} {ieps imu sigma : Vec K} {dt eps0 mu0 κ : K} {uc : Bool} {g : Geom K} {S : K}

set_option maxHeartbeats 1600000 in
/-- The energy of the change of H in a step is at most `4 κ` times the energy of E. -/
theorem jump_le_of (hC : CurlOK g bc S) (hm : Admissible (3 * (g.Nx * g.Ny * g.Nz)) eps0 mu0 ieps imu)
    (hdt : dt ^ 2 * S ≤ κ * (eps0 * mu0)) (st : State K)
    (hd : DeadZero g bc ieps st) :
    let s := build g bc ieps imu sigma dt uc
    ∑ r ∈ range (3 * (g.Nx * g.Ny * g.Nz)), dualLen g bc r / (g.iA.array r * imu r) * (st.H r - (advance s st).H r) ^ 2 ≤
      4 * κ * ∑ r ∈ range (3 * (g.Nx * g.Ny * g.Nz)), g.L.array r / (ieps r * dualInvArea g bc r) * st.E r ^ 2 := by
  intro s
  set n3 := 3 * (g.Nx * g.Ny * g.Nz) with hn3
  have he := hm.eps0_pos
  have hu := hm.mu0_pos
  set v : Vec K := fun q => colMask g bc q * (g.L.array q * st.E q) with hv
  have hb := hC.bound (fun q => g.L.array q * st.E q) (by
    intro r hr h0
    rcases hd r hr (by rw [h0, mul_zero]) with h | h
    · simp only [h]; ring
    · show colMask g bc r * _ = 0; rw [h, zero_mul])
  have h1 : ∀ r ∈ range n3, dualLen g bc r / (g.iA.array r * imu r) * (st.H r - (advance s st).H r) ^ 2 ≤
      dt ^ 2 / mu0 * (dualLen g bc r * g.iA.array r * (rowMask g bc r * mulVec n3 (C0 g.Nx g.Ny g.Nz) v r) ^ 2) := by
    intro r hr
    have hr := mem_range.1 hr
    obtain ⟨_, ht, hA, _⟩ := hC.signs r hr
    have hi := hm.imu_pos r hr
    have hi' := hm.imu_le r hr
    have e : (advance s st).H r = _ := advance_H g bc ieps imu sigma dt uc st hr
    rw [e]
    have e2 : dualLen g bc r / (g.iA.array r * imu r) *
        (st.H r - (st.H r - dt * (g.iA.array r * imu r * (rowMask g bc r * mulVec n3 (C0 g.Nx g.Ny g.Nz) v r)))) ^ 2 =
        dt ^ 2 * imu r * (dualLen g bc r * g.iA.array r * (rowMask g bc r * mulVec n3 (C0 g.Nx g.Ny g.Nz) v r) ^ 2) := by
      have : g.iA.array r ≠ 0 := hA.ne'
      have := hi.ne'
      field_simp
      ring
    refine (le_of_eq e2).trans ?_
    refine mul_le_mul_of_nonneg_right ?_ (mul_nonneg (mul_nonneg ht hA.le) (sq_nonneg _))
    rw [div_eq_mul_one_div]
    exact mul_le_mul_of_nonneg_left hi' (sq_nonneg _)
  have h2 : ∀ r ∈ range n3, 1 / dualInvArea g bc r / g.L.array r * v r ^ 2 ≤
      1 / eps0 * (g.L.array r / (ieps r * dualInvArea g bc r) * st.E r ^ 2) := by
    intro r hr
    have hr := mem_range.1 hr
    obtain ⟨hL, _, _, hT⟩ := hC.signs r hr
    have hi := hm.ieps_nonneg r hr
    have hi' := hm.ieps_le r hr
    have hpos : 0 ≤ 1 / eps0 * (g.L.array r / (ieps r * dualInvArea g bc r) * st.E r ^ 2) := by
      positivity
    have hr' : r < 3 * (g.Nx * g.Ny * g.Nz) := hr
    rcases (mask_01 g bc hr').1 with h0 | h0
    · simp only [hv, h0]; simpa using hpos
    · by_cases hz0 : ieps r * dualInvArea g bc r = 0
      · rcases hd r hr hz0 with h | h
        · simp only [hv, h]; simp
        · rw [h0] at h; exact absurd h one_ne_zero
      · have hi2 : 0 < ieps r := lt_of_le_of_ne hi (fun h => hz0 (by rw [← h]; ring))
        have hT2 : 0 < dualInvArea g bc r := lt_of_le_of_ne hT (fun h => hz0 (by rw [← h]; ring))
        have e1 : 1 / dualInvArea g bc r / g.L.array r * v r ^ 2 = g.L.array r * st.E r ^ 2 / dualInvArea g bc r * 1 := by
          simp only [hv, h0]
          field_simp
        have e2 : 1 / eps0 * (g.L.array r / (ieps r * dualInvArea g bc r) * st.E r ^ 2) =
            g.L.array r * st.E r ^ 2 / dualInvArea g bc r * (1 / (eps0 * ieps r)) := by
          field_simp
        rw [e1, e2]
        refine mul_le_mul_of_nonneg_left ?_ (by positivity)
        rw [le_div_iff₀ (by positivity), one_mul]
        rw [le_div_iff₀ he] at hi'
        linarith
  have s1 := sum_le_sum h1
  have s2 := sum_le_sum h2
  rw [← mul_sum] at s1 s2
  set a := ∑ r ∈ range n3, g.L.array r / (ieps r * dualInvArea g bc r) * st.E r ^ 2 with ha
  have ha0 : 0 ≤ a := by
    refine sum_nonneg fun r hr => ?_
    have hr := mem_range.1 hr
    obtain ⟨hL, _, _, hT⟩ := hC.signs r hr
    have hi := hm.ieps_nonneg r hr
    positivity
  have hS0 : 0 ≤ S := hC.pos.le
  refine s1.trans ?_
  have s3 := mul_le_mul_of_nonneg_left (hb.trans (mul_le_mul_of_nonneg_left s2 (by positivity : (0 : K) ≤ 4 * S)))
    (by positivity : 0 ≤ dt ^ 2 / mu0)
  refine s3.trans ?_
  have e : dt ^ 2 / mu0 * (4 * S * (1 / eps0 * a)) = 4 * (dt ^ 2 * S / (eps0 * mu0)) * a := by field_simp
  rw [e]
  refine mul_le_mul_of_nonneg_right ?_ ha0
  have : dt ^ 2 * S / (eps0 * mu0) ≤ κ := by rw [div_le_iff₀ (by positivity)]; exact hdt
  linarith

set_option maxHeartbeats 1600000 in
/-- The leapfrog energy controls the field energy, and is controlled by it. -/
theorem energy_bounds_of (hC : CurlOK g bc S) (hm : Admissible (3 * (g.Nx * g.Ny * g.Nz)) eps0 mu0 ieps imu)
    (hdt : dt ^ 2 * S ≤ κ * (eps0 * mu0)) {α : K} (hα : 0 ≤ α) (h1 : κ + α / 2 < 1) (st : State K)
    (hd : DeadZero g bc ieps st) :
    let s := build g bc ieps imu sigma dt uc
    (1 - (κ + α / 2)) * fieldEnergy g bc ieps imu st ≤ 3 * (energy g bc ieps imu st (advance s st) -
      α / 2 * ∑ r ∈ range (3 * (g.Nx * g.Ny * g.Nz)), g.L.array r / (ieps r * dualInvArea g bc r) * st.E r ^ 2) ∧
    energy g bc ieps imu st (advance s st) ≤ 2 * fieldEnergy g bc ieps imu st := by
  intro s
  have hj := jump_le_of (sigma := sigma) (uc := uc) hC hm hdt st hd
  have k0 : 0 ≤ κ := by
    have he := hm.eps0_pos
    have hu := hm.mu0_pos
    have : 0 ≤ κ * (eps0 * mu0) := le_trans (mul_nonneg (sq_nonneg _) hC.pos.le) hdt
    exact nonneg_of_mul_nonneg_left this (by positivity)
  set n3 := 3 * (g.Nx * g.Ny * g.Nz) with hn3
  set w : Vec K := fun r => dualLen g bc r / (g.iA.array r * imu r) with hw
  have w0 : ∀ r < n3, 0 ≤ w r := by
    intro r hr
    obtain ⟨_, ht, hA, _⟩ := hC.signs r hr
    have hi := hm.imu_pos r hr
    simp only [hw]; positivity
  set D : Vec K := fun r => st.H r - (advance s st).H r with hD
  set a := ∑ r ∈ range n3, g.L.array r / (ieps r * dualInvArea g bc r) * st.E r ^ 2 with ha
  have ha0 : 0 ≤ a := by
    refine sum_nonneg fun r hr => ?_
    have hr := mem_range.1 hr
    obtain ⟨hL, _, _, hT⟩ := hC.signs r hr
    have hi := hm.ieps_nonneg r hr
    positivity
  set b := ∑ r ∈ range n3, w r * st.H r ^ 2 with hb
  set m := ∑ r ∈ range n3, w r * (st.H r - D r / 2) ^ 2 with hmm
  set d := ∑ r ∈ range n3, w r * D r ^ 2 with hdd
  have hb0 : 0 ≤ b := sum_nonneg fun r hr => mul_nonneg (w0 r (mem_range.1 hr)) (sq_nonneg _)
  have hm0 : 0 ≤ m := sum_nonneg fun r hr => mul_nonneg (w0 r (mem_range.1 hr)) (sq_nonneg _)
  have hF : fieldEnergy g bc ieps imu st = a + b := rfl
  have hQ : energy g bc ieps imu st (advance s st) = a + m - d / 4 := by
    have : energy g bc ieps imu st (advance s st) = a + ∑ r ∈ range n3, w r * (st.H r * (advance s st).H r) := rfl
    rw [this, add_sub_assoc, hmm, hdd, sum_div, ← sum_sub_distrib]
    congr 1
    refine sum_congr rfl fun r _ => ?_
    have : (advance s st).H r = st.H r - D r := by simp only [hD]; ring
    rw [this, prod_split]; ring
  have hbm : b ≤ 2 * m + d / 2 := by
    rw [hb, hmm, hdd, mul_sum, sum_div, ← sum_add_distrib]
    refine sum_le_sum fun r hr => ?_
    have := w0 r (mem_range.1 hr)
    have e : 2 * (w r * (st.H r - D r / 2) ^ 2) + w r * D r ^ 2 / 2 - w r * st.H r ^ 2 = w r * (st.H r - D r) ^ 2 := by ring
    have : 0 ≤ w r * (st.H r - D r) ^ 2 := mul_nonneg this (sq_nonneg _)
    linarith
  have hmb : m ≤ 2 * b + d / 2 := by
    rw [hb, hmm, hdd, mul_sum, sum_div, ← sum_add_distrib]
    refine sum_le_sum fun r hr => ?_
    have := w0 r (mem_range.1 hr)
    have e : 2 * (w r * st.H r ^ 2) + w r * D r ^ 2 / 2 - w r * (st.H r - D r / 2) ^ 2 = w r * (st.H r + D r / 2) ^ 2 := by ring
    have : 0 ≤ w r * (st.H r + D r / 2) ^ 2 := mul_nonneg this (sq_nonneg _)
    linarith
  have hj' : d ≤ 4 * κ * a := hj
  rw [hF, hQ]
  have hk1 : 0 ≤ 1 - (κ + α / 2) := (sub_pos.2 h1).le
  have k1 : κ ≤ 1 := by linarith
  constructor
  · have p1 : (1 - (κ + α / 2)) * b ≤ (1 - (κ + α / 2)) * (2 * m + 2 * κ * a) := mul_le_mul_of_nonneg_left (by linarith) hk1
    have p2 : (1 - (κ + α / 2)) * (κ * a) ≤ (1 - (κ + α / 2)) * a :=
      mul_le_mul_of_nonneg_left (by nlinarith) hk1
    have p3 : (1 - (κ + α / 2)) * m ≤ 1 * m := mul_le_mul_of_nonneg_right (by linarith) hm0
    have p4 : 0 ≤ α * a := mul_nonneg hα ha0
    nlinarith
  · nlinarith [mul_nonneg k0 ha0, mul_nonneg (sub_nonneg.2 k1) ha0]
end

/-! ### the balance with a current -/
section
variable (g : Geom K) (bc : Faces String) (ieps imu sigma : Vec K) (dt : K) (uc : Bool)

omit [LinearOrder K] [IsStrictOrderedRing K] in
theorem deadZero_advance_J (st : State K) (hd : DeadZero g bc ieps st)
    (hJ : ∀ r < 3 * (g.Nx * g.Ny * g.Nz), st.E r = 0 → ieps r * st.J r = 0) :
    DeadZero g bc ieps (advance (build g bc ieps imu sigma dt uc) st) := by
  intro r hr h0
  rcases hd r hr h0 with h | h
  · left
    rw [advance_E _ _ _ _ _ _ _ _ hr, hJ r hr h, h]
    have : ieps r * (applyBC g bc (C0 g.Nx g.Ny g.Nz)).itA.array r = 0 := h0
    rw [this]; ring
  · exact .inr h

omit [LinearOrder K] [IsStrictOrderedRing K] in
/-- The work done on the current is what the leapfrog energy loses. -/
theorem energy_loss (st : State K) (hd : DeadZero g bc ieps st)
    (hA : ∀ r < 3 * (g.Nx * g.Ny * g.Nz), g.iA.array r * imu r ≠ 0)
    (hJ : ∀ r < 3 * (g.Nx * g.Ny * g.Nz), st.E r = 0 → ieps r * st.J r = 0) :
    let s := build g bc ieps imu sigma dt uc
    energy g bc ieps imu (advance s st) (advance s (advance s st)) = energy g bc ieps imu st (advance s st) -
      ∑ r ∈ range (3 * (g.Nx * g.Ny * g.Nz)), g.L.array r / (ieps r * dualInvArea g bc r) *
        (dt * (ieps r * st.J r) * (st.E r + (advance s st).E r)) := by
  intro s
  set n3 := 3 * (g.Nx * g.Ny * g.Nz) with hn3
  have hd1 := deadZero_advance_J g bc ieps imu sigma dt uc st hd hJ
  set st1 := advance s st with hst1
  set st2 := advance s st1 with hst2
  let Cm : Mat K := (applyBC g bc (C0 g.Nx g.Ny g.Nz)).C
  have eH : ∀ t : State K, ∀ r < n3, (advance s t).H r = t.H r - dt * (g.iA.array r * imu r *
      mulVec n3 Cm (fun q => g.L.array q * t.E q) r) := by
    intro t r hr
    have : (advance s t).H r = t.H r - dt * mulVec n3 (opH n3 g.iA.toarray imu Cm g.L.toarray) t.E r := rfl
    rw [this, opH_mulVec _ _ _ _ _ hr]; rfl
  have eE : ∀ r < n3, st1.E r = st.E r + dt * (ieps r * dualInvArea g bc r *
      mulVec n3 (transpose Cm) (fun q => dualLen g bc q * st1.H q) r - ieps r * st.J r) := by
    intro r hr
    have : st1.E r = st.E r + dt * (mulVec n3 (opE n3 ieps (dualInvArea g bc) Cm (dualLen g bc)) st1.H r - ieps r * st.J r) := rfl
    rw [this, opE_mulVec _ _ _ _ _ hr]
  have wH : ∀ r < n3, dualLen g bc r / (g.iA.array r * imu r) * (st1.H r * st2.H r)
      - dualLen g bc r / (g.iA.array r * imu r) * (st.H r * st1.H r) =
      - dt * (dualLen g bc r * st1.H r * mulVec n3 Cm (fun q => g.L.array q * (st.E q + st1.E q)) r) := by
    intro r hr
    have h2 : st2.H r = _ := eH st1 r hr
    have h1 : st1.H r = _ := eH st r hr
    have hlin : mulVec n3 Cm (fun q => g.L.array q * (st.E q + st1.E q)) r =
        mulVec n3 Cm (fun q => g.L.array q * st.E q) r + mulVec n3 Cm (fun q => g.L.array q * st1.E q) r := by
      rw [← mulVec_add]; simp only [mul_add]
    have h0 : st.H r = st1.H r + dt * (g.iA.array r * imu r * mulVec n3 Cm (fun q => g.L.array q * st.E q) r) := by
      rw [h1]; ring
    rw [hlin, h2, h0]
    have hw : dualLen g bc r / (g.iA.array r * imu r) * (g.iA.array r * imu r) = dualLen g bc r :=
      div_mul_cancel₀ _ (hA r hr)
    generalize dualLen g bc r / (g.iA.array r * imu r) = w at hw ⊢
    rw [← hw]
    ring
  have wE : ∀ r < n3, g.L.array r / (ieps r * dualInvArea g bc r) * st1.E r ^ 2
      - g.L.array r / (ieps r * dualInvArea g bc r) * st.E r ^ 2 =
      dt * (mulVec n3 (transpose Cm) (fun q => dualLen g bc q * st1.H q) r * (g.L.array r * (st.E r + st1.E r))) -
        g.L.array r / (ieps r * dualInvArea g bc r) * (dt * (ieps r * st.J r) * (st.E r + st1.E r)) := by
    intro r hr
    by_cases h0 : ieps r * dualInvArea g bc r = 0
    · rw [h0, div_zero]
      by_cases hc : colMask g bc r = 0
      · rw [applyBC_transpose_mulVec g bc _ _ hr, hc]; ring
      · have z0 := (hd r hr h0).resolve_right hc
        have z1 : st1.E r = 0 := (hd1 r hr h0).resolve_right hc
        rw [z0, z1]; ring
    · have hw : g.L.array r / (ieps r * dualInvArea g bc r) * (ieps r * dualInvArea g bc r) = g.L.array r :=
        div_mul_cancel₀ _ h0
      have e1 := eE r hr
      generalize g.L.array r / (ieps r * dualInvArea g bc r) = w at hw ⊢
      rw [← hw, e1]
      ring
  have key := inner_transpose n3 Cm (fun r => dualLen g bc r * st1.H r) (fun q => g.L.array q * (st.E q + st1.E q))
  have sH := sum_congr rfl fun r (hr : r ∈ range n3) => wH r (mem_range.1 hr)
  have sE := sum_congr rfl fun r (hr : r ∈ range n3) => wE r (mem_range.1 hr)
  rw [sum_sub_distrib] at sH sE
  rw [sum_sub_distrib] at sE
  rw [← mul_sum] at sH sE
  unfold energy
  rw [← hn3]
  linear_combination sH + sE - dt * key
end

section
variable {bc : Faces String} {ieps imu sigma : Vec K} {dt eps0 mu0 κ α : K} {uc : Bool} {g : Geom K} {S : K}

/-- The current a run leaves behind: none, or (in a started solver with conductivity) `sigma * E`. -/
def OwnCurrent (s : Solver K) (st : State K) : Prop := ∀ r < s.n3,
  st.J r = 0 ∨ (st.step0 = false ∧ s.useConductivity = true ∧ st.J r = s.sigma r * st.E r)

set_option maxHeartbeats 1600000 in
/-- Stability under the curl bound: with `0 ≤ dt sigma / eps ≤ α` where the conductivity is in use, no current but that of the
conductivity, `dt² S ≤ κ eps0 mu0` and `κ + α/2 < 1`. -/
theorem bounded_of (hC : CurlOK g bc S) (hm : Admissible (3 * (g.Nx * g.Ny * g.Nz)) eps0 mu0 ieps imu)
    (hdt : dt ^ 2 * S ≤ κ * (eps0 * mu0)) (hα : 0 ≤ α) (h1 : κ + α / 2 < 1)
    (hσ : (build g bc ieps imu sigma dt uc).useConductivity = true → ∀ r < 3 * (g.Nx * g.Ny * g.Nz),
      0 ≤ dt * ieps r * sigma r ∧ dt * ieps r * sigma r ≤ α) (st : State K)
    (hJ : OwnCurrent (build g bc ieps imu sigma dt uc) st)
    (hd : DeadZero g bc ieps st) (n : ℕ) :
    let s := build g bc ieps imu sigma dt uc
    fieldEnergy g bc ieps imu ((oneStep s)^[n] st) ≤ 6 / (1 - (κ + α / 2)) * fieldEnergy g bc ieps imu st := by
  intro s
  set n3 := 3 * (g.Nx * g.Ny * g.Nz) with hn3
  have hk : 0 < 1 - (κ + α / 2) := sub_pos.2 h1
  have hA : ∀ r < 3 * (g.Nx * g.Ny * g.Nz), g.iA.array r * imu r ≠ 0 := by
    intro r hr
    obtain ⟨_, _, hA, _⟩ := hC.signs r hr
    exact mul_ne_zero hA.ne' (hm.imu_pos r hr).ne'
  set wE : Vec K := fun r => g.L.array r / (ieps r * dualInvArea g bc r) with hwE
  have wE0 : ∀ r < n3, 0 ≤ wE r := by
    intro r hr
    obtain ⟨hL, _, _, hT⟩ := hC.signs r hr
    have hi := hm.ieps_nonneg r hr
    simp only [hwE]; positivity
  have wH0 : ∀ r < n3, 0 ≤ dualLen g bc r / (g.iA.array r * imu r) := by
    intro r hr
    obtain ⟨_, ht, hA, _⟩ := hC.signs r hr
    have hi := hm.imu_pos r hr
    positivity
  -- the damping of an entry
  set σ' : Vec K := fun r => if s.useConductivity = true then sigma r else 0 with hσ'
  set a : Vec K := fun r => dt * ieps r * σ' r with ha
  have a01 : ∀ r < n3, 0 ≤ a r ∧ a r ≤ α := by
    intro r hr
    simp only [ha, hσ']
    by_cases h : s.useConductivity = true
    · rw [if_pos h]; exact hσ h r hr
    · rw [if_neg h, mul_zero]; exact ⟨le_rfl, hα⟩
  set V : State K → K := fun st => energy g bc ieps imu st (advance s st) - 1 / 2 * ∑ r ∈ range n3, wE r * (a r * st.E r ^ 2) with hV
  have low : ∀ st : State K, DeadZero g bc ieps st → (1 - (κ + α / 2)) * fieldEnergy g bc ieps imu st ≤ 3 * V st := by
    intro st hd
    have b := (energy_bounds_of (sigma := sigma) (uc := uc) hC hm hdt hα h1 st hd).1
    refine b.trans (mul_le_mul_of_nonneg_left (sub_le_sub_left ?_ _) (by norm_num))
    rw [mul_sum, mul_sum]
    refine sum_le_sum fun r hr => ?_
    have hr := mem_range.1 hr
    have := mul_le_mul_of_nonneg_left (mul_le_mul_of_nonneg_right (a01 r hr).2 (sq_nonneg (st.E r))) (wE0 r hr)
    have e : α / 2 * (g.L.array r / (ieps r * dualInvArea g bc r) * st.E r ^ 2) = 1 / 2 * (wE r * (α * st.E r ^ 2)) := by
      simp only [hwE]; ring
    exact (mul_le_mul_of_nonneg_left this (by norm_num)).trans (le_of_eq e.symm)
  -- one step
  have dead0 : ∀ st : State K, (∀ r < n3, st.J r = 0 ∨ st.J r = σ' r * st.E r) → ∀ r < n3, st.E r = 0 → ieps r * st.J r = 0 := by
    intro st hJ r hr h0
    rcases hJ r hr with h | h
    · rw [h, mul_zero]
    · rw [h, h0]; ring
  have first : ∀ st : State K, (∀ r < n3, st.J r = 0 ∨ st.J r = σ' r * st.E r) → DeadZero g bc ieps st →
      V (advance s st) ≤ energy g bc ieps imu st (advance s st) := by
    intro st hJ hd
    have el := energy_loss g bc ieps imu sigma dt uc st hd hA (dead0 st hJ)
    show energy g bc ieps imu (advance s st) (advance s (advance s st)) - _ ≤ _
    rw [el, sub_sub]
    have e : ∑ r ∈ range (3 * (g.Nx * g.Ny * g.Nz)), g.L.array r / (ieps r * dualInvArea g bc r) *
        (dt * (ieps r * st.J r) * (st.E r + (advance s st).E r)) + 1 / 2 * ∑ r ∈ range n3, wE r * (a r * (advance s st).E r ^ 2) =
        ∑ r ∈ range n3, wE r * (dt * (ieps r * st.J r) * (st.E r + (advance s st).E r) + 1 / 2 * (a r * (advance s st).E r ^ 2)) := by
      rw [mul_sum, show 3 * (g.Nx * g.Ny * g.Nz) = n3 from rfl, ← sum_add_distrib]
      refine sum_congr rfl fun r _ => ?_
      simp only [hwE]; ring
    rw [e]
    refine sub_le_self _ (sum_nonneg fun r hr => mul_nonneg (wE0 r (mem_range.1 hr)) ?_)
    have hr := mem_range.1 hr
    have a0 := (a01 r hr).1
    rcases hJ r hr with h | h
    · rw [h]
      have : 0 ≤ 1 / 2 * (a r * (advance s st).E r ^ 2) := by positivity
      linarith
    · rw [h]
      have e : dt * (ieps r * (σ' r * st.E r)) * (st.E r + (advance s st).E r) + 1 / 2 * (a r * (advance s st).E r ^ 2) =
          1 / 2 * (a r * (st.E r ^ 2 + (st.E r + (advance s st).E r) ^ 2)) := by simp only [ha]; ring
      rw [e]; positivity
  have later : ∀ st : State K, (∀ r < n3, st.J r = σ' r * st.E r) → DeadZero g bc ieps st → V (advance s st) ≤ V st := by
    intro st hJ hd
    have el := energy_loss g bc ieps imu sigma dt uc st hd hA (dead0 st fun r hr => .inr (hJ r hr))
    have e : V (advance s st) = V st - 1 / 2 * ∑ r ∈ range n3, wE r * (a r * (st.E r + (advance s st).E r) ^ 2) := by
      show energy g bc ieps imu (advance s st) (advance s (advance s st)) - _ = _
      rw [el]
      have e1 : ∑ r ∈ range (3 * (g.Nx * g.Ny * g.Nz)), g.L.array r / (ieps r * dualInvArea g bc r) *
        (dt * (ieps r * st.J r) * (st.E r + (advance s st).E r)) = ∑ r ∈ range n3, wE r * (a r * (st.E r * (st.E r + (advance s st).E r))) := by
        refine sum_congr rfl fun r hr => ?_
        rw [hJ r (mem_range.1 hr)]
        simp only [hwE, ha]; ring
      rw [e1]
      simp only [hV]
      have e2 : ∑ r ∈ range n3, wE r * (a r * (st.E r * (st.E r + (advance s st).E r))) +
          1 / 2 * ∑ r ∈ range n3, wE r * (a r * (advance s st).E r ^ 2) = 1 / 2 * ∑ r ∈ range n3, wE r * (a r * st.E r ^ 2) +
          1 / 2 * ∑ r ∈ range n3, wE r * (a r * (st.E r + (advance s st).E r) ^ 2) := by
        rw [mul_sum, mul_sum, mul_sum, ← sum_add_distrib, ← sum_add_distrib]
        exact sum_congr rfl fun r _ => by ring
      linear_combination -e2
    rw [e]
    refine sub_le_self _ (mul_nonneg (by norm_num) (sum_nonneg fun r hr => mul_nonneg (wE0 r (mem_range.1 hr)) ?_))
    exact mul_nonneg (a01 r (mem_range.1 hr)).1 (sq_nonneg _)
  have nextJ : ∀ st : State K, (s.useConductivity = false → ∀ r < n3, st.J r = 0) → ∀ r < n3, (advance s st).J r = σ' r * (advance s st).E r := by
    intro st h0 r hr
    by_cases h : s.useConductivity = true
    · simp only [hσ', if_pos h]
      show (if s.useConductivity then _ else st.J) r = _
      rw [if_pos h]; rfl
    · simp only [hσ', if_neg h, zero_mul]
      show (if s.useConductivity then _ else st.J) r = 0
      rw [if_neg h]; exact h0 (by simpa using h) r hr
  have F0 : ∀ st : State K, 0 ≤ fieldEnergy g bc ieps imu st := by
    intro st
    refine add_nonneg (sum_nonneg fun r hr => ?_) (sum_nonneg fun r hr => ?_)
    · exact mul_nonneg (wE0 r (mem_range.1 hr)) (sq_nonneg _)
    · exact mul_nonneg (wH0 r (mem_range.1 hr)) (sq_nonneg _)
  have k0 : 0 ≤ κ := by
    have he := hm.eps0_pos
    have hu := hm.mu0_pos
    have : 0 ≤ κ * (eps0 * mu0) := le_trans (mul_nonneg (sq_nonneg _) hC.pos.le) hdt
    exact nonneg_of_mul_nonneg_left this (by positivity)
  have c1 : 1 ≤ 6 / (1 - (κ + α / 2)) := by rw [le_div_iff₀ hk]; linarith
  -- started states
  have started : ∀ (st : State K), st.step0 = false → (∀ r < n3, st.J r = 0 ∨ st.J r = σ' r * st.E r) → DeadZero g bc ieps st → ∀ n,
      fieldEnergy g bc ieps imu ((oneStep s)^[n] st) ≤ 6 / (1 - (κ + α / 2)) * fieldEnergy g bc ieps imu st := by
    intro st hst hJ hd n
    cases n with
    | zero => simpa using mul_le_mul_of_nonneg_right c1 (F0 st)
    | succ n =>
      have J0 : s.useConductivity = false → ∀ r < n3, st.J r = 0 := by
        intro h r hr
        rcases hJ r hr with h' | h'
        · exact h'
        · rw [h']; simp [hσ', h]
      have inv : ∀ n, ((oneStep s)^[n + 1] st).step0 = false ∧
          (∀ r < n3, ((oneStep s)^[n + 1] st).J r = σ' r * ((oneStep s)^[n + 1] st).E r) ∧
          DeadZero g bc ieps ((oneStep s)^[n + 1] st) ∧ V ((oneStep s)^[n + 1] st) ≤ energy g bc ieps imu st (advance s st) := by
        intro n
        induction n with
        | zero =>
          rw [Function.iterate_succ_apply', Function.iterate_zero, id, oneStep_started _ _ hst]
          exact ⟨hst, nextJ st J0, deadZero_advance_J g bc ieps imu sigma dt uc st hd (dead0 st hJ), first st hJ hd⟩
        | succ n ih =>
          rw [Function.iterate_succ_apply', oneStep_started _ _ ih.1]
          have hz : ∀ r < n3, s.useConductivity = false → ((oneStep s)^[n + 1] st).J r = 0 := by
            intro r hr h
            rw [ih.2.1 r hr]; simp [hσ', h]
          exact ⟨ih.1, nextJ _ (fun h r hr => hz r hr h),
            deadZero_advance_J g bc ieps imu sigma dt uc _ ih.2.2.1 (dead0 _ fun r hr => .inr (ih.2.1 r hr)),
            (later _ ih.2.1 ih.2.2.1).trans ih.2.2.2⟩
      have b1 := low _ (inv n).2.2.1
      have b2 := (inv n).2.2.2
      have b0 := (energy_bounds_of (sigma := sigma) (uc := uc) hC hm hdt hα h1 st hd).2
      have b0' : energy g bc ieps imu st (advance s st) ≤ 2 * fieldEnergy g bc ieps imu st := b0
      rw [div_mul_eq_mul_div, le_div_iff₀ hk]
      linarith
  by_cases hst : st.step0 = true
  · cases n with
    | zero => simpa using mul_le_mul_of_nonneg_right c1 (F0 st)
    | succ n =>
      set st' : State K := { setGhostsTo0 s st with step0 := false } with hst'
      have e : (oneStep s)^[n + 1] st = (oneStep s)^[n + 1] st' := by
        rw [Function.iterate_succ_apply, Function.iterate_succ_apply]
        congr 1
        rw [oneStep_started s st' rfl]
        simp [oneStep, hst, hst']
      rw [e]
      have oE : ∀ r, st'.E r = st.E r ∨ st'.E r = 0 := fun r => ghostE_or (s.fld st.E) r
      have oH : ∀ r, st'.H r = st.H r ∨ st'.H r = 0 := fun r => ghostH_or (s.fld st.H) r
      have sq : ∀ {a b : K}, a = b ∨ a = 0 → a ^ 2 ≤ b ^ 2 := by
        rintro a b (h | h)
        · rw [h]
        · rw [h]; nlinarith [sq_nonneg b]
      have hd' : DeadZero g bc ieps st' := by
        intro r hr h0
        rcases hd r hr h0 with h | h
        · left
          rcases oE r with h' | h'
          · rw [h', h]
          · exact h'
        · exact .inr h
      have b := started st' rfl (fun r hr => by
        rcases hJ r hr with h | h
        · exact .inl h
        · rw [hst] at h; exact absurd h.1 (by decide)) hd' (n + 1)
      refine b.trans (mul_le_mul_of_nonneg_left ?_ (by positivity))
      refine add_le_add (sum_le_sum fun r hr => ?_) (sum_le_sum fun r hr => ?_)
      · exact mul_le_mul_of_nonneg_left (sq (oE r)) (wE0 r (mem_range.1 hr))
      · exact mul_le_mul_of_nonneg_left (sq (oH r)) (wH0 r (mem_range.1 hr))
  · refine started st (by simpa using hst) (fun r hr => ?_) hd n
    rcases hJ r hr with h | ⟨_, h, h'⟩
    · exact .inl h
    · right
      have h2 : s.useConductivity = true := h
      simp only [hσ', if_pos h2]
      exact h'
end

section
variable {bc : Faces String} {ieps imu sigma : Vec K} {dt eps0 mu0 κ α : K} {uc : Bool}

include hmx hmy hmz hx hy hz in
/-- Walls fulfil the bound. -/
theorem walls_ok (hbc : Walls bc) : CurlOK (computeGrid Nx Ny Nz x y z) bc (1 / mx ^ 2 + 1 / my ^ 2 + 1 / mz ^ 2) := by
  obtain ⟨habc, hper⟩ := hbc.names
  set g := computeGrid Nx Ny Nz x y z with hg
  have dl : dualLen g bc = g.tL.array := congrArg Fld.array (applyBC_metric g bc (C0 g.Nx g.Ny g.Nz) hper habc).1
  have da : dualInvArea g bc = g.itA.array := congrArg Fld.array (applyBC_metric g bc (C0 g.Nx g.Ny g.Nz) hper habc).2
  refine ⟨by positivity, fun r hr => ?_, fun e he => ?_⟩
  · rw [dl, da]; exact metric_signs hmx hmy hmz hx hy hz hr
  · rw [da] at he
    rw [dl, da]
    exact masked_curl_bound hmx hmy hmz hx hy hz hbc e he

include hmx hmy hmz hx hy hz in
/-- The leapfrog energy controls the field energy, and is controlled by it. -/
theorem energy_bounds2 (hbc : Walls bc) (hm : Admissible (3 * (Nx * Ny * Nz)) eps0 mu0 ieps imu)
    (hdt : dt ^ 2 * (1 / mx ^ 2 + 1 / my ^ 2 + 1 / mz ^ 2) ≤ κ * (eps0 * mu0)) (hα : 0 ≤ α) (h1 : κ + α / 2 < 1) (st : State K)
    (hd : DeadZero (computeGrid Nx Ny Nz x y z) bc ieps st) :
    let g := computeGrid Nx Ny Nz x y z
    let s := build g bc ieps imu sigma dt uc
    (1 - (κ + α / 2)) * fieldEnergy g bc ieps imu st ≤ 3 * (energy g bc ieps imu st (advance s st) -
      α / 2 * ∑ r ∈ range (3 * (Nx * Ny * Nz)), g.L.array r / (ieps r * dualInvArea g bc r) * st.E r ^ 2) ∧
    energy g bc ieps imu st (advance s st) ≤ 2 * fieldEnergy g bc ieps imu st := by
  exact energy_bounds_of (walls_ok hmx hmy hmz hx hy hz hbc) hm hdt hα h1 st hd

include hmx hmy hmz hx hy hz in
/-- **C20 (any time step below the limit, mixed walls, conductivity).** Every face electric, magnetic or PML,
cell lengths at least `mx`, `my`, `mz`, relative permittivity and permeability at least one or PEC, conductivity
with `0 ≤ dt sigma / eps ≤ α` where it is in use, and no current but that of the conductivity.  If
`dt² c² (1/mx² + 1/my² + 1/mz²) ≤ κ` and `κ + α/2 < 1`, the field energy after every number of steps is at most
`6 / (1 - κ - α/2)` times the initial one. -/
theorem C20_walls_bounded_partial (hbc : Walls bc) (hm : Admissible (3 * (Nx * Ny * Nz)) eps0 mu0 ieps imu)
    (hdt : dt ^ 2 * (1 / mx ^ 2 + 1 / my ^ 2 + 1 / mz ^ 2) ≤ κ * (eps0 * mu0)) (hα : 0 ≤ α) (h1 : κ + α / 2 < 1)
    (hσ : (build (computeGrid Nx Ny Nz x y z) bc ieps imu sigma dt uc).useConductivity = true → ∀ r < 3 * (Nx * Ny * Nz),
      0 ≤ dt * ieps r * sigma r ∧ dt * ieps r * sigma r ≤ α) (st : State K)
    (hJ : OwnCurrent (build (computeGrid Nx Ny Nz x y z) bc ieps imu sigma dt uc) st)
    (hd : DeadZero (computeGrid Nx Ny Nz x y z) bc ieps st) (n : ℕ) :
    let g := computeGrid Nx Ny Nz x y z
    let s := build g bc ieps imu sigma dt uc
    fieldEnergy g bc ieps imu ((oneStep s)^[n] st) ≤ 6 / (1 - (κ + α / 2)) * fieldEnergy g bc ieps imu st := by
  exact bounded_of (walls_ok hmx hmy hmz hx hy hz hbc) hm hdt hα h1 hσ st hJ hd n
end
end
end

/-! ### the automatic time step -/

/-- The time step chosen automatically obeys the CFL bound with the smallest cell lengths. -/
theorem chooseDt_cfl {Nx Ny Nz : ℕ} {x y z : ℕ → ℝ} (hx : Increasing x Nx) (hy : Increasing y Ny) (hz : Increasing z Nz)
    {t : Mats ℝ} {c cfln eps0 mu0 dt : ℝ} (he : 0 < eps0) (hu : 0 < mu0)
    (hs : ∀ r < 3 * t.ieps.N, 0 ≤ t.ieps.array r ∧ 0 ≤ t.sigma.array r)
    (hc : 0 < c) (hcc : c ^ 2 * (eps0 * mu0) = 1) (h0 : 0 ≤ cfln)
    (hdt : chooseDt c cfln none (diffs x Nx) (diffs y Ny) (diffs z Nz) t = .ok dt) :
    0 ≤ dt ∧ ∃ mx my mz, 0 < mx ∧ 0 < my ∧ 0 < mz ∧ (∀ i < Nx, mx ≤ x (i + 1) - x i) ∧ (∀ i < Ny, my ≤ y (i + 1) - y i) ∧
      (∀ i < Nz, mz ≤ z (i + 1) - z i) ∧ dt ^ 2 * (1 / mx ^ 2 + 1 / my ^ 2 + 1 / mz ^ 2) ≤ cfln ^ 2 * (eps0 * mu0) := by
  obtain ⟨d0, hcf, hle, -, hor⟩ := C30_limits hdt
  have hcf : cflDt c cfln (diffs x Nx) (diffs y Ny) (diffs z Nz) = .ok d0 := hcf
  have hcf' := hcf
  unfold cflDt at hcf'
  cases hmx : pyMin (diffs x Nx) with
  | error e => rw [hmx] at hcf'; simp [bind, Except.bind] at hcf'
  | ok mx =>
  cases hmy : pyMin (diffs y Ny) with
  | error e => rw [hmx, hmy] at hcf'; simp [bind, Except.bind] at hcf'
  | ok my =>
  cases hmz : pyMin (diffs z Nz) with
  | error e => rw [hmx, hmy, hmz] at hcf'; simp [bind, Except.bind] at hcf'
  | ok mz =>
  have memd : ∀ {x : ℕ → ℝ} {n i : ℕ}, i < n → x (i + 1) - x i ∈ diffs x n := fun hi =>
    List.mem_map.2 ⟨_, List.mem_range.2 hi, rfl⟩
  have posd : ∀ {x : ℕ → ℝ} {n : ℕ}, Increasing x n → ∀ a ∈ diffs x n, 0 < a := by
    intro x n h a ha
    obtain ⟨i, hi, rfl⟩ := List.mem_map.1 ha
    exact sub_pos.2 (h i (List.mem_range.1 hi))
  obtain ⟨mxm, mxl⟩ := pyMin_spec hmx
  obtain ⟨mym, myl⟩ := pyMin_spec hmy
  obtain ⟨mzm, mzl⟩ := pyMin_spec hmz
  obtain ⟨hd00, hcfl⟩ := C30_cfl hc h0 (posd hx) (posd hy) (posd hz) hcf
  have hl := hcfl mx mxm my mym mz mzm
  have hd0 : 0 ≤ dt := by
    rcases hor with h | ⟨_, r, hr, _, _, h⟩
    · rw [h]; exact hd00
    · rw [h]
      have h1 := (hs r hr).1
      have h2 := (hs r hr).2
      positivity
  refine ⟨hd0, mx, my, mz, posd hx _ mxm, posd hy _ mym, posd hz _ mzm, fun i hi => mxl _ (memd hi), fun i hi => myl _ (memd hi),
    fun i hi => mzl _ (memd hi), ?_⟩
  set S := 1 / mx ^ 2 + 1 / my ^ 2 + 1 / mz ^ 2 with hS
  have hS0 : 0 ≤ S := by positivity
  have h2 : (c * d0 * Real.sqrt S) ^ 2 ≤ cfln ^ 2 := by
    apply pow_le_pow_left₀ (by positivity) hl
  rw [mul_pow, Real.sq_sqrt hS0] at h2
  have heu : 0 < eps0 * mu0 := mul_pos he hu
  have h3 := mul_le_mul_of_nonneg_right h2 heu.le
  have h4 : dt ^ 2 ≤ d0 ^ 2 := pow_le_pow_left₀ hd0 hle 2
  calc dt ^ 2 * S ≤ d0 ^ 2 * S := mul_le_mul_of_nonneg_right h4 hS0
    _ = (c ^ 2 * (eps0 * mu0)) * (d0 ^ 2 * S) := by rw [hcc, one_mul]
    _ = (c * d0) ^ 2 * S * (eps0 * mu0) := by ring
    _ ≤ _ := h3

/-- A passive material: relative permittivity at least one or infinite (PEC), relative permeability at least one,
conductivity, if listed, not negative. -/
def Material.Passive (m : Material ℝ) : Prop :=
  (match m.eps with | .fin v => 1 ≤ v | .inf => True) ∧ (match m.mu with | .fin v => 1 ≤ v | .inf => False) ∧
    ∀ s, m.sigma = some s → 0 ≤ s

theorem Material.Passive.nonneg {m : Material ℝ} (h : m.Passive) : m.Nonneg := by
  refine ⟨?_, h.2.2⟩
  have := h.1
  split <;> simp_all
  linarith

theorem Material.Passive.over {m : Material ℝ} (h : m.Passive) {e0 u0 : ℝ} (he : 0 < e0) (hu : 0 < u0) :
    (0 ≤ m.eps.over 1 e0 ∧ m.eps.over 1 e0 ≤ 1 / e0) ∧ (0 < m.mu.over 1 u0 ∧ m.mu.over 1 u0 ≤ 1 / u0) := by
  obtain ⟨h1, h2, -⟩ := h
  have key : ∀ {v e : ℝ}, 1 ≤ v → 0 < e → 0 < 1 / (v * e) ∧ 1 / (v * e) ≤ 1 / e := by
    intro v e hv he
    have : 0 < v := by linarith
    refine ⟨by positivity, one_div_le_one_div_of_le he ?_⟩
    nlinarith
  constructor
  · cases hm : m.eps with
    | fin v => rw [hm] at h1; exact ⟨(key h1 he).1.le, (key h1 he).2⟩
    | inf => exact ⟨le_rfl, by simp only [RelC.over]; positivity⟩
  · cases hm : m.mu with
    | fin v => rw [hm] at h2; exact key h2 hu
    | inf => rw [hm] at h2; exact h2.elim

/-- The tensors of a solver built from passive materials. -/
theorem setUp_tensors {c eps0 mu0 cfln : ℝ} {dt : Option ℝ} {nPml Nx Ny Nz : ℕ} {x y z : ℕ → ℝ}
    {bc : Faces String} {bg : MatSpec ℝ} {dict : String → Option (MatSpec ℝ)} {solids : List Solid}
    {t : Mats ℝ} {d : ℝ} (hx : 0 < Nx) (hy : 0 < Ny) (hz : 0 < Nz) (he : 0 < eps0) (hu : 0 < mu0)
    (hbg : ∀ m, MeansMaterial bg m → m.Passive)
    (hsol : ∀ s ∈ solids, ∀ spec m, dict s.1 = some spec → MeansMaterial spec m → m.Passive)
    (h : setUp c eps0 mu0 cfln dt nPml Nx Ny Nz x y z bc bg dict solids = .ok (t, d)) :
    t.ieps.N = Nx * Ny * Nz ∧ (anyFace isPml bc = true → t.useCond = true) ∧
    Admissible (3 * (Nx * Ny * Nz)) eps0 mu0 t.ieps.array t.imu.array ∧ (∀ r < 3 * (Nx * Ny * Nz), 0 ≤ t.sigma.array r) ∧
    chooseDt c cfln dt (diffs x Nx) (diffs y Ny) (diffs z Nz) t = .ok d := by
  unfold setUp at h
  cases h1 : materials Nx Ny Nz eps0 mu0 (anyFace isPml bc) bg dict solids with
  | error e => rw [h1] at h; simp [bind, Except.bind] at h
  | ok t0 =>
    rw [h1] at h
    obtain ⟨⟨mb, hb⟩, hkn⟩ := materials_known h1
    obtain ⟨t0', h1', hs0, hu0, hc0⟩ := materials_ok (Nx := Nx) (Ny := Ny) (Nz := Nz) (eps0 := eps0) (mu0 := mu0)
      (use0 := anyFace isPml bc) hb hkn
    rw [h1] at h1'
    obtain rfl : t0 = t0' := by simpa using h1'
    have hmat : ∀ s ∈ solids, (matOf dict s.1).Passive := by
      intro s hs
      obtain ⟨spec, q1, q2⟩ := matOf_spec (hkn s hs)
      exact hsol s hs spec _ q1 q2
    have n0 : ∀ cc < 3, ∀ i < Nx, ∀ j < Ny, ∀ k < Nz, (0 ≤ t0.ieps.at3 cc i j k ∧ t0.ieps.at3 cc i j k ≤ 1 / eps0) ∧
        (0 < t0.imu.at3 cc i j k ∧ t0.imu.at3 cc i j k ≤ 1 / mu0) ∧ 0 ≤ t0.sigma.at3 cc i j k := by
      intro cc hcc i hi j hj k hk
      obtain ⟨a1, a2, a3⟩ := hc0 cc hcc i hi j hj k hk
      rw [a1, a2, a3]
      refine ⟨?_, ?_, ?_⟩
      · cases hl : lastHit (fun s => s.2 i j k) solids with
        | none => exact ((hbg mb hb).over he hu).1
        | some s => exact ((hmat s (lastHit_some hl).1).over he hu).1
      · cases hl : lastHit (fun s => s.2 i j k) solids with
        | none => exact ((hbg mb hb).over he hu).2
        | some s => exact ((hmat s (lastHit_some hl).1).over he hu).2
      · cases hl : lastHit (fun s => s.2 i j k && ((matOf dict s.1).sigma.isSome || decide (0 < mb.sigma.getD 0))) solids with
        | none => exact sigma_nonneg (hbg mb hb).nonneg
        | some s => exact sigma_nonneg (hmat s (lastHit_some hl).1).nonneg
    have main : ∀ t1 : Mats ℝ, t1.Sized Nx Ny Nz → (anyFace isPml bc = true → t1.useCond = true) →
        (∀ cc < 3, ∀ i < Nx, ∀ j < Ny, ∀ k < Nz, (0 ≤ t1.ieps.at3 cc i j k ∧ t1.ieps.at3 cc i j k ≤ 1 / eps0) ∧
          (0 < t1.imu.at3 cc i j k ∧ t1.imu.at3 cc i j k ≤ 1 / mu0) ∧ 0 ≤ t1.sigma.at3 cc i j k) →
        (chooseDt c cfln dt (diffs x Nx) (diffs y Ny) (diffs z Nz) t1).bind (fun d => Except.ok (t1, d)) = .ok (t, d) →
        t.ieps.N = Nx * Ny * Nz ∧ (anyFace isPml bc = true → t.useCond = true) ∧
        Admissible (3 * (Nx * Ny * Nz)) eps0 mu0 t.ieps.array t.imu.array ∧ (∀ r < 3 * (Nx * Ny * Nz), 0 ≤ t.sigma.array r) ∧
        chooseDt c cfln dt (diffs x Nx) (diffs y Ny) (diffs z Nz) t = .ok d := by
      intro t1 hs1 hu1 hnn hfin
      cases hch : chooseDt c cfln dt (diffs x Nx) (diffs y Ny) (diffs z Nz) t1 with
      | error e => rw [hch] at hfin; simp [Except.bind] at hfin
      | ok d' =>
        rw [hch] at hfin
        simp only [Except.bind, Except.ok.injEq, Prod.mk.injEq] at hfin
        obtain ⟨rfl, rfl⟩ := hfin
        have hNe : t1.ieps.N = Nx * Ny * Nz := by
          obtain ⟨e1, e2, e3⟩ := hs1.e; simp [Fld.N, e1, e2, e3]
        have qe : ∀ r < 3 * (Nx * Ny * Nz), 0 ≤ t1.ieps.array r ∧ t1.ieps.array r ≤ 1 / eps0 := fun r hr =>
          entry_of_cell (P := fun a _ => 0 ≤ a ∧ a ≤ 1 / eps0) hs1.e hs1.e (fun cc hcc i hi j hj k hk => (hnn cc hcc i hi j hj k hk).1)
            r (by rw [hNe]; exact hr)
        have qu : ∀ r < 3 * (Nx * Ny * Nz), 0 < t1.imu.array r ∧ t1.imu.array r ≤ 1 / mu0 := fun r hr =>
          entry_of_cell (P := fun _ a => 0 < a ∧ a ≤ 1 / mu0) hs1.e hs1.m (fun cc hcc i hi j hj k hk => (hnn cc hcc i hi j hj k hk).2.1)
            r (by rw [hNe]; exact hr)
        have qs : ∀ r < 3 * (Nx * Ny * Nz), 0 ≤ t1.sigma.array r := fun r hr =>
          entry_of_cell (P := fun _ a => 0 ≤ a) hs1.e hs1.s (fun cc hcc i hi j hj k hk => (hnn cc hcc i hi j hj k hk).2.2)
            r (by rw [hNe]; exact hr)
        exact ⟨hNe, hu1, ⟨he, hu, fun r hr => (qe r hr).1, fun r hr => (qe r hr).2, fun r hr => (qu r hr).1, fun r hr => (qu r hr).2⟩,
          qs, hch⟩
    by_cases hp : anyFace isPml bc = true
    · simp only [bind, Except.bind, pmlStage, hp, if_true] at h
      cases h2 : fillPml geomspace (5 / 1000) 10 nPml bc t0 with
      | error e => rw [h2] at h; simp at h
      | ok t1 =>
        rw [h2] at h
        rw [fillPml_eq] at h2
        obtain ⟨g1, g2, g3, -, g5, g6⟩ := fillFaces_ok geomspace (5 / 1000) 10 bc (fun s d _ => geom_pos s d) hx hy hz pmlOrder
          t0 t1 order_lt hs0 h2
        refine main t1 g1 (fun _ => by rw [g3, hu0, hp]; rfl) ?_ h
        intro cc hcc i hi j hj k hk
        refine ⟨g6 (fun a => 0 ≤ a ∧ a ≤ 1 / eps0) (fun cc hcc i hi j hj k hk => (n0 cc hcc i hi j hj k hk).1) cc hcc i hi j hj k hk, ?_,
          (g5 (fun cc hcc i hi j hj k hk => (n0 cc hcc i hi j hj k hk).2.2) cc hcc i hi j hj k hk).1⟩
        rw [g2]; exact (n0 cc hcc i hi j hj k hk).2.1
    · simp only [bind, Except.bind, pmlStage, hp, Bool.false_eq_true, if_false] at h
      exact main t0 hs0 (fun h => absurd h hp) n0 h

/-- A solver is only built on axes that are not empty. -/
theorem setUp_nonempty {c eps0 mu0 cfln : ℝ} {nPml Nx Ny Nz : ℕ} {x y z : ℕ → ℝ} {bc : Faces String}
    {bg : MatSpec ℝ} {dict : String → Option (MatSpec ℝ)} {solids : List Solid} {t : Mats ℝ} {dt : ℝ}
    (h : setUp c eps0 mu0 cfln none nPml Nx Ny Nz x y z bc bg dict solids = .ok (t, dt)) : 0 < Nx ∧ 0 < Ny ∧ 0 < Nz := by
  unfold setUp at h
  simp only [bind, Except.bind] at h
  split at h
  · simp at h
  split at h
  · simp at h
  rename_i t1 _
  cases hch : chooseDt c cfln none (diffs x Nx) (diffs y Ny) (diffs z Nz) t1 with
  | error e => rw [hch] at h; simp at h
  | ok d =>
    obtain ⟨d0, hcf, -⟩ := C30_limits hch
    have hcf : cflDt c cfln (diffs x Nx) (diffs y Ny) (diffs z Nz) = .ok d0 := hcf
    unfold cflDt at hcf
    refine ⟨?_, ?_, ?_⟩ <;> rw [Nat.pos_iff_ne_zero] <;> rintro rfl
    · simp [diffs, pyMin, bind, Except.bind] at hcf
    · cases hmx : pyMin (diffs x Nx) <;> rw [hmx] at hcf <;> simp [diffs, pyMin, bind, Except.bind] at hcf
    · cases hmx : pyMin (diffs x Nx) <;> cases hmy : pyMin (diffs y Ny) <;> rw [hmx, hmy] at hcf <;>
        simp [diffs, pyMin, bind, Except.bind] at hcf

theorem fieldEnergy_nonneg {Nx Ny Nz : ℕ} {x y z : ℕ → ℝ} {mx my mz : ℝ} (hmx : 0 < mx) (hmy : 0 < my) (hmz : 0 < mz)
    (hx : ∀ i < Nx, mx ≤ x (i + 1) - x i) (hy : ∀ i < Ny, my ≤ y (i + 1) - y i) (hz : ∀ i < Nz, mz ≤ z (i + 1) - z i)
    {bc : Faces String} (hbc : Walls bc) {eps0 mu0 : ℝ} {ieps imu : Vec ℝ} (hm : Admissible (3 * (Nx * Ny * Nz)) eps0 mu0 ieps imu)
    (st : State ℝ) : 0 ≤ fieldEnergy (computeGrid Nx Ny Nz x y z) bc ieps imu st := by
  set g := computeGrid Nx Ny Nz x y z with hg
  obtain ⟨habc, hper⟩ := hbc.names
  have dl : dualLen g bc = g.tL.array := congrArg Fld.array (applyBC_metric g bc (C0 g.Nx g.Ny g.Nz) hper habc).1
  have da : dualInvArea g bc = g.itA.array := congrArg Fld.array (applyBC_metric g bc (C0 g.Nx g.Ny g.Nz) hper habc).2
  refine add_nonneg (sum_nonneg fun r hr => ?_) (sum_nonneg fun r hr => ?_)
  · have hr : r < 3 * (Nx * Ny * Nz) := mem_range.1 hr
    obtain ⟨hL, _, _, hT⟩ := metric_signs hmx hmy hmz hx hy hz hr
    have hi := hm.ieps_nonneg r hr
    rw [da]; positivity
  · have hr : r < 3 * (Nx * Ny * Nz) := mem_range.1 hr
    obtain ⟨_, ht, hA, _⟩ := metric_signs hmx hmy hmz hx hy hz hr
    have hi := hm.imu_pos r hr
    rw [dl]; positivity

/-- **C20 (whole set-up).** A solver built on any grid with increasing axes from passive materials, with every
face electric, magnetic or PML and the automatic time step with `cfln² < 1` (`cfln² < 1/2` if conductivity is in use,
so for the default `cfln = 0.5`): after every number of steps, from every initial state without a foreign current, the
field energy is at most a constant times its initial value.  Partial: the names `abc` and `periodic` and the
spellings of `pmc` with capitals are not covered; for periodic boundaries the claim is false. -/
theorem C20_setUp_stable_partial {c eps0 mu0 cfln : ℝ} {nPml Nx Ny Nz : ℕ} {x y z : ℕ → ℝ}
    (hx : Increasing x Nx) (hy : Increasing y Ny) (hz : Increasing z Nz) {bc : Faces String} (hbc : Walls bc)
    {bg : MatSpec ℝ} {dict : String → Option (MatSpec ℝ)} {solids : List Solid} {t : Mats ℝ} {dt : ℝ}
    (he : 0 < eps0) (hu : 0 < mu0) (hc : 0 < c) (hcc : c ^ 2 * (eps0 * mu0) = 1) (h0 : 0 ≤ cfln)
    (hbg : ∀ m, MeansMaterial bg m → m.Passive)
    (hsol : ∀ s ∈ solids, ∀ spec m, dict s.1 = some spec → MeansMaterial spec m → m.Passive)
    (h : setUp c eps0 mu0 cfln none nPml Nx Ny Nz x y z bc bg dict solids = .ok (t, dt))
    (hq : cfln ^ 2 + (if t.useCond then 1 / 2 else 0) < 1) (st : State ℝ)
    (hJ : OwnCurrent (build (computeGrid Nx Ny Nz x y z) bc t.ieps.array t.imu.array t.sigma.array dt t.useCond) st)
    (hd : DeadZero (computeGrid Nx Ny Nz x y z) bc t.ieps.array st) (n : ℕ) :
    let g := computeGrid Nx Ny Nz x y z
    let s := build g bc t.ieps.array t.imu.array t.sigma.array dt t.useCond
    fieldEnergy g bc t.ieps.array t.imu.array ((oneStep s)^[n] st) ≤
      6 / (1 - (cfln ^ 2 + if t.useCond then 1 / 2 else 0)) * fieldEnergy g bc t.ieps.array t.imu.array st := by
  intro g s
  have ne : 0 < Nx ∧ 0 < Ny ∧ 0 < Nz := setUp_nonempty h
  obtain ⟨hN, hpml, hm, hs, hch⟩ := setUp_tensors ne.1 ne.2.1 ne.2.2 he hu hbg hsol h
  obtain ⟨hd0, mx, my, mz, px, py, pz, lx, ly, lz, key⟩ := chooseDt_cfl hx hy hz he hu
    (fun r hr => by rw [hN] at hr; exact ⟨hm.ieps_nonneg r hr, hs r hr⟩) hc hcc h0 hch
  have huc : s.useConductivity = t.useCond := by
    show (anyFace isPml bc || t.useCond) = t.useCond
    cases hp : anyFace isPml bc with
    | false => rfl
    | true => rw [hpml hp]; rfl
  have e : (if t.useCond then 1 / 2 else 0 : ℝ) = (if t.useCond then 1 else 0 : ℝ) / 2 := by split_ifs <;> norm_num
  rw [e] at hq ⊢
  refine C20_walls_bounded_partial (sigma := t.sigma.array) (uc := t.useCond) px py pz lx ly lz hbc hm key (by split_ifs <;> norm_num) hq ?_ st hJ hd n
  intro hu' r hr
  have hu2 : t.useCond = true := by rw [← huc]; exact hu'
  have := C30_damping hch hu2 hd0 (n := r) (by rw [hN]; exact hr) (hm.ieps_nonneg r hr) (hs r hr)
  rw [if_pos hu2]
  constructor <;> nlinarith

/-- **C81.** Runs with losses: a solver built on any grid with increasing axes from passive materials (conducting or
not), every face electric, magnetic or PML, the automatic time step with `cfln² < 1/2` (the default is 0.5).  After every number of
steps, from every initial state without a foreign current, the field energy is at most `12 / (1 - 2 cfln²)` times its initial value. -/
theorem C81_lossy_stable {c eps0 mu0 cfln : ℝ} {nPml Nx Ny Nz : ℕ} {x y z : ℕ → ℝ}
    (hx : Increasing x Nx) (hy : Increasing y Ny) (hz : Increasing z Nz) {bc : Faces String} (hbc : Walls bc)
    {bg : MatSpec ℝ} {dict : String → Option (MatSpec ℝ)} {solids : List Solid} {t : Mats ℝ} {dt : ℝ}
    (he : 0 < eps0) (hu : 0 < mu0) (hc : 0 < c) (hcc : c ^ 2 * (eps0 * mu0) = 1) (h0 : 0 ≤ cfln) (hq : cfln ^ 2 < 1 / 2)
    (hbg : ∀ m, MeansMaterial bg m → m.Passive)
    (hsol : ∀ s ∈ solids, ∀ spec m, dict s.1 = some spec → MeansMaterial spec m → m.Passive)
    (h : setUp c eps0 mu0 cfln none nPml Nx Ny Nz x y z bc bg dict solids = .ok (t, dt)) (st : State ℝ)
    (hJ : OwnCurrent (build (computeGrid Nx Ny Nz x y z) bc t.ieps.array t.imu.array t.sigma.array dt t.useCond) st)
    (hd : DeadZero (computeGrid Nx Ny Nz x y z) bc t.ieps.array st) (n : ℕ) :
    let g := computeGrid Nx Ny Nz x y z
    let s := build g bc t.ieps.array t.imu.array t.sigma.array dt t.useCond
    fieldEnergy g bc t.ieps.array t.imu.array ((oneStep s)^[n] st) ≤
      12 / (1 - 2 * cfln ^ 2) * fieldEnergy g bc t.ieps.array t.imu.array st := by
  intro g s
  have hle : cfln ^ 2 + (if t.useCond then 1 / 2 else 0) ≤ cfln ^ 2 + 1 / 2 := by split_ifs <;> norm_num
  have key := C20_setUp_stable_partial hx hy hz hbc he hu hc hcc h0 hbg hsol h (by linarith) st hJ hd n
  have ne : 0 < Nx ∧ 0 < Ny ∧ 0 < Nz := setUp_nonempty h
  obtain ⟨hN, hpml, hm, hs, hch⟩ := setUp_tensors ne.1 ne.2.1 ne.2.2 he hu hbg hsol h
  obtain ⟨hd0, mx, my, mz, px, py, pz, lx, ly, lz, -⟩ := chooseDt_cfl hx hy hz he hu
    (fun r hr => by rw [hN] at hr; exact ⟨hm.ieps_nonneg r hr, hs r hr⟩) hc hcc h0 hch
  have F0 := fieldEnergy_nonneg px py pz lx ly lz hbc hm st
  refine key.trans (mul_le_mul_of_nonneg_right ?_ F0)
  have e : (12 : ℝ) / (1 - 2 * cfln ^ 2) = 6 / (1 - (cfln ^ 2 + 1 / 2)) := by
    rw [div_eq_div_iff (by linarith) (by linarith)]; ring
  rw [e]
  exact div_le_div_of_nonneg_left (by norm_num) (by linarith) (by linarith)

/-! ### Larger CFL numbers with conductivity -/

/-- 4×3×2 cells of size 1×10×10. -/
def vG : Geom ℚ := computeGrid 4 3 2 (fun i => i) (fun i => 10 * i) (fun i => 10 * i)
/-- All faces PEC. -/
def vBc : Faces String := ⟨"pec", "pec", "pec", "pec", "pec", "pec"⟩
/-- Two opposite Ez. -/
def vE : Vec ℚ := fun r => if r = 53 then 1 else if r = 54 then -1 else 0
/-- Their curl. -/
def vH : Vec ℚ := fun r => if r = 1 then 1 / 10 else if r = 2 then -1 / 10 else if r = 5 then -1 / 10 else if r = 6 then 1 / 10 else
  if r = 28 then -1 else if r = 29 then 2 else if r = 30 then -1 else 0
/-- The solver of the counterexample: `dt = 19/20`, `dt sigma / eps = 1` everywhere. -/
def vS : Solver ℚ := build vG vBc (fun _ => 1) (fun _ => 1) (fun _ => 20 / 19) (19 / 20) true

theorem vH_eq : ∀ r < 72, vG.iA.array r * mulVec 72 (C0 4 3 2) (fun q => colMask vG vBc q * (vG.L.array q * vE q)) r = vH r := by
  decide +kernel
theorem vE_eq : ∀ r < 72, vG.itA.array r * (colMask vG vBc r * mulVec 72 (transpose (C0 4 3 2)) (fun q => vG.tL.array q * vH q) r) =
    151 / 50 * vE r := by
  decide +kernel

/-- The state is `c` times the growing mode. -/
def Fol2 (c : ℚ) (st : State ℚ) : Prop :=
  st.step0 = false ∧ (∀ r < 72, st.E r = c * vE r ∧ st.H r = c * (1000 / 2869) * vH r ∧ st.J r = 20 / 19 * st.E r)

theorem fol2_step {c : ℚ} {st : State ℚ} (h : Fol2 c st) : Fol2 (-34511 / 20000 * c) (oneStep vS st) := by
  obtain ⟨h0, h⟩ := h
  rw [oneStep_started _ _ h0]
  have tl : (applyBC vG vBc (C0 vG.Nx vG.Ny vG.Nz)).tL = vG.tL := (applyBC_metric vG vBc (C0 vG.Nx vG.Ny vG.Nz) (by decide) (by decide)).1
  have ta : (applyBC vG vBc (C0 vG.Nx vG.Ny vG.Nz)).itA = vG.itA := (applyBC_metric vG vBc (C0 vG.Nx vG.Ny vG.Nz) (by decide) (by decide)).2
  have hH : ∀ r < 72, (advance vS st).H r = -34511 / 20000 * c * (1000 / 2869) * vH r := by
    intro r hr
    have e : (advance vS st).H r = _ := advance_H vG vBc (fun _ => 1) (fun _ => 1) (fun _ => 20 / 19) (19 / 20) true st hr
    have mv : mulVec (3 * (vG.Nx * vG.Ny * vG.Nz)) (C0 vG.Nx vG.Ny vG.Nz) (fun q => colMask vG vBc q * (vG.L.array q * st.E q)) r =
        c * mulVec 72 (C0 4 3 2) (fun q => colMask vG vBc q * (vG.L.array q * vE q)) r := by
      unfold mulVec
      rw [mul_sum]
      refine sum_congr rfl fun q hq => ?_
      have hq' : q < 72 := mem_range.1 hq
      beta_reduce
      rw [(h q hq').1]
      show C0 4 3 2 r q * _ = c * (C0 4 3 2 r q * _)
      ring
    rw [e, mv, rowMask_one vG vBc (by decide), (h r hr).2.1, ← vH_eq r hr]
    ring
  have hE : ∀ r < 72, (advance vS st).E r = -34511 / 20000 * c * vE r := by
    intro r hr
    have e : (advance vS st).E r = _ := advance_E vG vBc (fun _ => 1) (fun _ => 1) (fun _ => 20 / 19) (19 / 20) true st hr
    have mv : mulVec (3 * (vG.Nx * vG.Ny * vG.Nz)) (transpose (C0 vG.Nx vG.Ny vG.Nz)) (fun q => rowMask vG vBc q *
          (vG.tL.array q * (advance vS st).H q)) r =
          -34511 / 20000 * c * (1000 / 2869) * mulVec 72 (transpose (C0 4 3 2)) (fun q => vG.tL.array q * vH q) r := by
      unfold mulVec
      rw [mul_sum]
      refine sum_congr rfl fun q hq => ?_
      have hq' : q < 72 := mem_range.1 hq
      beta_reduce
      rw [rowMask_one vG vBc (by decide), hH q hq']
      show transpose (C0 4 3 2) r q * _ = _ * (transpose (C0 4 3 2) r q * _)
      ring
    have e2 : (advance (build vG vBc (fun _ => 1) (fun _ => 1) (fun _ => 20 / 19) (19 / 20) true) st) = advance vS st := rfl
    rw [e, tl, ta, e2, mv, (h r hr).2.2, (h r hr).1]
    linear_combination (19 / 20) * (-34511 / 20000 * c * (1000 / 2869)) * vE_eq r hr
  refine ⟨h0, fun r hr => ⟨hE r hr, hH r hr, ?_⟩⟩
  have hu : vS.useConductivity = true := by decide
  unfold advance
  simp [hu]
  left; rfl

/-- **C81 needs the bound on `cfln`.** 4×3×2 cells of size 1×10×10 in a PEC box filled with a conductor, `dt = 19/20`: the CFL
condition `dt² c² (1/dx² + 1/dy² + 1/dz²) ≤ 93/100 < 1` and the relaxation limit `dt ≤ eps/sigma` that the code enforces both hold, and a field
without foreign current grows in every step by the factor 1.72555. -/
theorem C81_high_cfl_unstable :
    Walls vBc ∧ Admissible 72 (1 : ℚ) 1 (fun _ => 1) (fun _ => 1) ∧
    (19 / 20 : ℚ) ^ 2 * (1 / 1 ^ 2 + 1 / 10 ^ 2 + 1 / 10 ^ 2) ≤ 93 / 100 * (1 * 1) ∧ (19 / 20 : ℚ) * 1 * (20 / 19) ≤ 1 ∧
    ∃ st : State ℚ, OwnCurrent vS st ∧ DeadZero vG vBc (fun _ => 1) st ∧
      ∀ n, ((oneStep vS)^[n] st).E (pos 4 3 2 2 1 1 0) = (-34511 / 20000) ^ n := by
  have da : dualInvArea vG vBc = vG.itA.array := congrArg Fld.array (applyBC_metric vG vBc (C0 vG.Nx vG.Ny vG.Nz) (by decide) (by decide)).2
  refine ⟨?_, ⟨one_pos, one_pos, fun _ _ => zero_le_one, fun _ _ => by norm_num, fun _ _ => one_pos, fun _ _ => by norm_num⟩, by norm_num, by norm_num,
    ⟨vE, fun r => 1000 / 2869 * vH r, fun r => 20 / 19 * vE r, false⟩, fun r _ => .inr ⟨rfl, by decide, rfl⟩, ?_, ?_⟩
  · intro axis s ha
    have : axis = 0 ∨ axis = 1 ∨ axis = 2 := by omega
    rcases this with rfl | rfl | rfl <;> cases s <;> decide
  · intro r hr h0
    left
    show vE r = 0
    rw [da, one_mul] at h0
    have := vE_eq r hr
    rw [h0, zero_mul] at this
    linarith
  · intro n
    have inv : ∀ n, Fol2 ((-34511 / 20000) ^ n) ((oneStep vS)^[n] ⟨vE, fun r => 1000 / 2869 * vH r, fun r => 20 / 19 * vE r, false⟩) := by
      intro n
      induction n with
      | zero => exact ⟨rfl, fun r _ => ⟨by simp, by simp, rfl⟩⟩
      | succ n ih =>
        rw [Function.iterate_succ_apply', pow_succ, mul_comm]
        exact fol2_step ih
    have := ((inv n).2 53 (by decide)).1
    rw [show vE 53 = 1 from if_pos rfl, mul_one] at this
    exact this

/-! ### Non-vacuity -/

/-- A PML at the low z face, magnetic and electric walls elsewhere. -/
def wBc : Faces String := ⟨"magnetic", "PEC", "pmc", "electric", "PML", "Magnetic"⟩

theorem wBc_walls : Walls wBc := by
  intro axis s ha
  have : axis = 0 ∨ axis = 1 ∨ axis = 2 := by omega
  rcases this with rfl | rfl | rfl <;> cases s <;> decide

/-- The hypotheses of `C81_lossy_stable` and `C20_setUp_stable_partial` are met by a 4×4×5 domain on the non-uniform axis
0, 1, 4, 9, … with these walls, two PML layers and a weakly conducting background, `cfln = 1/2`, with a state of positive energy. -/
theorem setUp_case : ∃ t dt, setUp 1 1 1 (1 / 2) none 2 4 4 5 (fun i => (i : ℝ) ^ 2) (fun i => (i : ℝ) ^ 2) (fun i => (i : ℝ) ^ 2) wBc
    (.vals ⟨.fin 2, .fin 1, some 3⟩) (fun _ => none) [] = .ok (t, dt) ∧ (∀ m, MeansMaterial (.vals ⟨.fin 2, .fin 1, some 3⟩) m → m.Passive) ∧
    ∃ st : State ℝ, OwnCurrent (build (computeGrid 4 4 5 (fun i => (i : ℝ) ^ 2) (fun i => (i : ℝ) ^ 2) (fun i => (i : ℝ) ^ 2)) wBc
        t.ieps.array t.imu.array t.sigma.array dt t.useCond) st ∧
      DeadZero (computeGrid 4 4 5 (fun i => (i : ℝ) ^ 2) (fun i => (i : ℝ) ^ 2) (fun i => (i : ℝ) ^ 2)) wBc t.ieps.array st ∧
      0 < fieldEnergy (computeGrid 4 4 5 (fun i => (i : ℝ) ^ 2) (fun i => (i : ℝ) ^ 2) (fun i => (i : ℝ) ^ 2)) wBc t.ieps.array t.imu.array st := by
  have hpml : anyFace isPml wBc = true := by decide
  have hmean : MeansMaterial (.vals (⟨.fin 2, .fin 1, some 3⟩ : Material ℝ)) ⟨.fin 2, .fin 1, some 3⟩ := rfl
  have hpas : ∀ m : Material ℝ, MeansMaterial (.vals ⟨.fin 2, .fin 1, some 3⟩) m → m.Passive := by
    intro m hm
    obtain rfl : (⟨.fin 2, .fin 1, some 3⟩ : Material ℝ) = m := hm
    refine ⟨by norm_num, le_rfl, ?_⟩
    rintro s h
    obtain rfl : (3 : ℝ) = s := by simpa using h
    norm_num
  obtain ⟨t0, ht0, hs0, hu0, hc0⟩ := materials_ok (Nx := 4) (Ny := 4) (Nz := 5) (eps0 := (1 : ℝ)) (mu0 := 1)
      (use0 := true) (bg := .vals ⟨.fin 2, .fin 1, some 3⟩) (dict := fun _ => none) (solids := []) hmean (by simp)
  obtain ⟨t1, ht1⟩ := (C31_single_face_succeeds_iff (t := t0) (bc := wBc) (n := 2) (Nx := 4) (Ny := 4) (Nz := 5) (by decide) (by decide) (by decide) hs0
    (axis := 2) (side := .lo) (by decide) (by
      intro a ha s
      have : a = 0 ∨ a = 1 ∨ a = 2 := by omega
      rcases this with rfl | rfl | rfl <;> cases s <;> decide)).2 (by decide)
  have ht1' := ht1
  rw [fillPml_eq] at ht1'
  obtain ⟨g1, g2, g3, g4, g5, g6⟩ := fillFaces_ok geomspace (5 / 1000) 10 wBc (fun s d _ => geom_pos s d) (by decide) (by decide) (by decide) pmlOrder
          t0 t1 order_lt hs0 ht1'
  have hu1 : t1.useCond = true := by rw [g3, hu0]; rfl
  have he1 : ∀ c < 3, ∀ i < 4, ∀ j < 4, ∀ k < 5, t1.ieps.at3 c i j k = 1 / 2 :=
    g6 (fun a => a = 1 / 2) (fun c hc i hi j hj k hk => by rw [(hc0 c hc i hi j hj k hk).1]; simp [lastHit, RelC.over])
  have hs1 := g5 (fun c hc i hi j hj k hk => by rw [(hc0 c hc i hi j hj k hk).2.2]; simp [lastHit])
  have hNe : t1.ieps.N = 4 * 4 * 5 := by obtain ⟨e1, e2, e3⟩ := g1.e; simp [Fld.N, e1, e2, e3]
  have he : ∀ r < 240, t1.ieps.array r = 1 / 2 := fun r hr =>
    entry_of_cell (P := fun a _ => a = 1 / 2) g1.e g1.e he1 r (by rw [hNe]; exact hr)
  have hs00 : t1.sigma.array 0 ≠ 0 := by
    have h := (hs1 0 (by decide) 0 (by decide) 0 (by decide) 0 (by decide)).2
      ⟨(2, .lo), by decide, by decide, by decide⟩
    have e : t1.sigma.at3 0 0 0 0 = t1.sigma.array 0 := by simp [Fld.at3]
    rw [e] at h; exact h.ne'
  have hmem : 1 / t1.ieps.array 0 / t1.sigma.array 0 ∈ taus t1 := by
    unfold taus
    refine List.mem_map.2 ⟨0, List.mem_filter.2 ⟨List.mem_range.2 (by rw [hNe]; decide), ?_⟩, rfl⟩
    have := he 0 (by decide)
    simp [hs00, this]
  obtain ⟨dt, hdt⟩ : ∃ dt, chooseDt 1 (1 / 2) none (diffs (fun i => (i : ℝ) ^ 2) 4) (diffs (fun i => (i : ℝ) ^ 2) 4) (diffs (fun i => (i : ℝ) ^ 2) 5) t1 = .ok dt := by
    cases hl : taus t1 with
    | nil => rw [hl] at hmem; simp at hmem
    | cons a l => simp [chooseDt, cflDt, diffs, limitDt, hu1, hl, pyMin, bind, Except.bind, pure, Except.pure, List.range, List.range.loop]
  have hset : setUp 1 1 1 (1 / 2) none 2 4 4 5 (fun i => (i : ℝ) ^ 2) (fun i => (i : ℝ) ^ 2) (fun i => (i : ℝ) ^ 2) wBc
    (.vals ⟨.fin 2, .fin 1, some 3⟩) (fun _ => none) [] = .ok (t1, dt) := by
    simp only [setUp, hpml, ht0, bind, Except.bind, pmlStage, if_true, ht1, hdt, pure, Except.pure]
  have inc : ∀ n, Increasing (fun i => (i : ℝ) ^ 2) n := by
    intro n i _
    have : (0 : ℝ) ≤ i := Nat.cast_nonneg i
    show (i : ℝ) ^ 2 < ((i + 1 : ℕ) : ℝ) ^ 2
    push_cast
    nlinarith
  refine ⟨t1, dt, hset, hpas, ⟨fun r => if r = pos 4 4 5 2 1 1 1 then 1 else 0, fun _ => 0, fun _ => 0, true⟩, fun _ _ => .inl rfl, ?_, ?_⟩
  all_goals
    set g := computeGrid 4 4 5 (fun i => (i : ℝ) ^ 2) (fun i => (i : ℝ) ^ 2) (fun i => (i : ℝ) ^ 2) with hg
    have da : dualInvArea g wBc = g.itA.array := congrArg Fld.array (applyBC_metric g wBc (C0 g.Nx g.Ny g.Nz) wBc_walls.names.2 wBc_walls.names.1).2
    have hne : g.itA.array (pos 4 4 5 2 1 1 1) ≠ 0 := itA_ne 4 4 5 _ _ _ (inc 4) (inc 4) (inc 5) (by omega) (by omega) (by omega) (by omega)
  · intro r hr h0
    left
    by_cases h : r = pos 4 4 5 2 1 1 1
    · rw [h, da, he _ (by decide)] at h0
      rcases mul_eq_zero.1 h0 with h1 | h1
      · norm_num at h1
      · exact absurd h1 hne
    · simp [h]
  · have hl : ∀ n, ∀ i < n, (1 : ℝ) ≤ (fun i : ℕ => (i : ℝ) ^ 2) (i + 1) - (fun i : ℕ => (i : ℝ) ^ 2) i := by
      intro n i _
      have : (0 : ℝ) ≤ i := Nat.cast_nonneg i
      push_cast
      nlinarith
    have sg := fun r hr => metric_signs (K := ℝ) (Nx := 4) (Ny := 4) (Nz := 5) (x := fun i => (i : ℝ) ^ 2) (y := fun i => (i : ℝ) ^ 2) (z := fun i => (i : ℝ) ^ 2)
      one_pos one_pos one_pos (hl 4) (hl 4) (hl 5) (r := r) hr
    refine add_pos_of_pos_of_nonneg ?_ (le_of_eq ?_)
    · refine sum_pos' (fun r hr => ?_) ⟨pos 4 4 5 2 1 1 1, mem_range.2 (by decide), ?_⟩
      · have hr : r < 240 := mem_range.1 hr
        obtain ⟨hL, _, _, hT⟩ := sg r hr
        rw [da, he r hr]
        exact mul_nonneg (div_nonneg hL.le (mul_nonneg (by norm_num) hT)) (sq_nonneg _)
      · obtain ⟨hL, _, _, hT⟩ := sg (pos 4 4 5 2 1 1 1) (by decide)
        rw [da, he _ (by decide)]
        have h1 : 0 < g.itA.array (pos 4 4 5 2 1 1 1) := lt_of_le_of_ne hT (Ne.symm hne)
        have h2 : 0 < g.L.array (pos 4 4 5 2 1 1 1) / (1 / 2 * g.itA.array (pos 4 4 5 2 1 1 1)) := div_pos hL (by positivity)
        simpa using h2
    · symm
      refine sum_eq_zero fun r _ => ?_
      show _ * (0 : ℝ) ^ 2 = 0
      ring

end Sol
end Wakis
