import Verif.MpiProps
import Verif.SolverBC

/-!
# A slab of a global grid: operators of the slab against operators of the whole

`o` is the global number of the slab's layer 0 and `m` its number of layers.
-/

namespace Wakis
namespace Mpi
open Sol Sparse
variable {K : Type _} [Field K]

theorem pos_inj {Nx Ny Nz c i j k c' i' j' k' : ℕ} (hi : i < Nx) (hj : j < Ny) (hk : k < Nz)
    (hi' : i' < Nx) (hj' : j' < Ny) (hk' : k' < Nz) (h : pos Nx Ny Nz c i j k = pos Nx Ny Nz c' i' j' k') :
    c = c' ∧ i = i' ∧ j = j' ∧ k = k' := by
  have h1 := fl_lt hi hj hk
  have h2 := fl_lt hi' hj' hk'
  have hN : 0 < Nx * Ny * Nz := by omega
  unfold pos at h
  have e1 : (fl Nx Ny i j k + (Nx * Ny * Nz) * c) / (Nx * Ny * Nz) = c := Fld.idx_div c h1
  have e2 : (fl Nx Ny i' j' k' + (Nx * Ny * Nz) * c') / (Nx * Ny * Nz) = c' := Fld.idx_div c' h2
  have e3 : (fl Nx Ny i j k + (Nx * Ny * Nz) * c) % (Nx * Ny * Nz) = fl Nx Ny i j k := Fld.idx_mod c h1
  have e4 : (fl Nx Ny i' j' k' + (Nx * Ny * Nz) * c') % (Nx * Ny * Nz) = fl Nx Ny i' j' k' := Fld.idx_mod c' h2
  have h' : fl Nx Ny i j k + (Nx * Ny * Nz) * c = fl Nx Ny i' j' k' + (Nx * Ny * Nz) * c' := by
    rw [Nat.mul_comm _ c, Nat.mul_comm _ c']; omega
  rw [h'] at e1 e3
  have hf : fl Nx Ny i j k = fl Nx Ny i' j' k' := e3.symm.trans e4
  refine ⟨e1.symm.trans e2, ?_⟩
  unfold fl at hf
  have a1 := Fld.idx_mod (j + Ny * k) hi
  have a2 := Fld.idx_mod (j' + Ny * k') hi'
  have b1 := Fld.idx_div (j + Ny * k) hi
  have b2 := Fld.idx_div (j' + Ny * k') hi'
  rw [hf] at a1 b1
  have hb : j + Ny * k = j' + Ny * k' := b1.symm.trans b2
  have c1 := Fld.idx_mod k hj
  have c2 := Fld.idx_mod k' hj'
  have d1 := Fld.idx_div k hj
  have d2 := Fld.idx_div k' hj'
  rw [hb] at c1 d1
  exact ⟨a1.symm.trans a2, c1.symm.trans c2, d1.symm.trans d2⟩

theorem fl_shift (Nx Ny i j k o : ℕ) : fl Nx Ny i j (o + k) = fl Nx Ny i j k + Nx * Ny * o := by unfold fl; ring

section curl
variable {Nx Ny m NZ o : ℕ} (vl vg : Vec K)

/-- The slab array and the global array agree in component `c` of slab cell `(i,j,k)`. -/
def At (Nx Ny m NZ o : ℕ) (vl vg : Vec K) (c i j k : ℕ) : Prop :=
  vl (pos Nx Ny m c i j k) = vg (pos Nx Ny NZ c i j (o + k))

theorem ext_in {c p : ℕ} (hin : o + m ≤ NZ) {i j k : ℕ} (hi : i < Nx) (hj : j < Ny) (hk : k < m)
    (hp : p = fl Nx Ny i j k) (h : At Nx Ny m NZ o vl vg c i j k) :
    ext (Nx * Ny * m) vl c p = ext (Nx * Ny * NZ) vg c (p + Nx * Ny * o) := by
  subst hp
  rw [← fl_shift, ext_fl vl c hi hj hk, ext_fl vg c hi hj (by omega)]
  exact h

theorem ext_out {c p : ℕ} (htop : o + m = NZ) (hp : Nx * Ny * m ≤ p) :
    ext (Nx * Ny * m) vl c p = ext (Nx * Ny * NZ) vg c (p + Nx * Ny * o) := by
  have : Nx * Ny * NZ = Nx * Ny * m + Nx * Ny * o := by rw [← htop]; ring
  unfold ext
  rw [if_neg (by omega), if_neg (by omega)]

theorem ext_z {c i j k : ℕ} (hin : o + m ≤ NZ) (hi : i < Nx) (hj : j < Ny) (hk : k < m) (ht : k + 1 < m ∨ o + m = NZ)
    (h : k + 1 < m → At Nx Ny m NZ o vl vg c i j (k + 1)) :
    ext (Nx * Ny * m) vl c (fl Nx Ny i j k + Nx * Ny) = ext (Nx * Ny * NZ) vg c (fl Nx Ny i j (o + k) + Nx * Ny) := by
  rw [fl_shift, Nat.add_right_comm]
  by_cases hk1 : k + 1 < m
  · exact ext_in vl vg hin hi hj hk1 fl_z.symm (h hk1)
  · refine ext_out vl vg (ht.resolve_left hk1) ?_
    have : m = k + 1 := by omega
    subst this
    rw [← fl_z]
    unfold fl
    have : i + Nx * (j + Ny * (k + 1)) = i + Nx * j + Nx * Ny * (k + 1) := by ring
    omega

theorem ext_y {c i j k : ℕ} (hin : o + m ≤ NZ) (hi : i < Nx) (hj : j < Ny) (hk : k < m) (ht : k + 1 < m ∨ o + m = NZ)
    (h : j + 1 < Ny → At Nx Ny m NZ o vl vg c i (j + 1) k) (h' : k + 1 < m → At Nx Ny m NZ o vl vg c i 0 (k + 1)) :
    ext (Nx * Ny * m) vl c (fl Nx Ny i j k + Nx) = ext (Nx * Ny * NZ) vg c (fl Nx Ny i j (o + k) + Nx) := by
  rw [fl_shift, Nat.add_right_comm]
  by_cases hj1 : j + 1 < Ny
  · exact ext_in vl vg hin hi hj1 hk fl_y.symm (h hj1)
  · have e : fl Nx Ny i j k + Nx = fl Nx Ny i 0 (k + 1) := by
      have : Ny = j + 1 := by omega
      subst this
      unfold fl; ring
    by_cases hk1 : k + 1 < m
    · exact ext_in vl vg hin hi (by omega) hk1 e (h' hk1)
    · refine ext_out vl vg (ht.resolve_left hk1) ?_
      have : m = k + 1 := by omega
      subst this
      rw [e]
      unfold fl
      have : i + Nx * (0 + Ny * (k + 1)) = i + Nx * Ny * (k + 1) := by ring
      omega

theorem ext_x {c i j k : ℕ} (hin : o + m ≤ NZ) (hi : i < Nx) (hj : j < Ny) (hk : k < m) (ht : k + 1 < m ∨ o + m = NZ)
    (h : i + 1 < Nx → At Nx Ny m NZ o vl vg c (i + 1) j k) (h' : j + 1 < Ny → At Nx Ny m NZ o vl vg c 0 (j + 1) k)
    (h'' : k + 1 < m → At Nx Ny m NZ o vl vg c 0 0 (k + 1)) :
    ext (Nx * Ny * m) vl c (fl Nx Ny i j k + 1) = ext (Nx * Ny * NZ) vg c (fl Nx Ny i j (o + k) + 1) := by
  rw [fl_shift, Nat.add_right_comm]
  by_cases hi1 : i + 1 < Nx
  · exact ext_in vl vg hin hi1 hj hk fl_x.symm (h hi1)
  · have e1 : Nx = i + 1 := by omega
    by_cases hj1 : j + 1 < Ny
    · refine ext_in vl vg hin (i := 0) (by omega) hj1 hk ?_ (h' hj1)
      subst e1
      unfold fl; ring
    · have e2 : Ny = j + 1 := by omega
      have e : fl Nx Ny i j k + 1 = fl Nx Ny 0 0 (k + 1) := by
        subst e1 e2
        unfold fl; ring
      by_cases hk1 : k + 1 < m
      · exact ext_in vl vg hin (by omega) (by omega) hk1 e (h'' hk1)
      · refine ext_out vl vg (ht.resolve_left hk1) ?_
        have : m = k + 1 := by omega
        subst this
        rw [e]
        unfold fl
        have : 0 + Nx * (0 + Ny * (k + 1)) = Nx * Ny * (k + 1) := by ring
        omega

/-- Forward curl of the slab = forward curl of the whole, in a layer that is not the slab's last (or is the
last of the whole), when the arrays agree in the layer and, in the next one, in the x and y components
and in the z component of the cells of the low x and low y faces. -/
theorem curl_agree {c i j k : ℕ} (hc : c < 3) (hin : o + m ≤ NZ) (hi : i < Nx) (hj : j < Ny) (hk : k < m)
    (ht : k + 1 < m ∨ o + m = NZ)
    (h : ∀ c i j, c < 3 → i < Nx → j < Ny → At Nx Ny m NZ o vl vg c i j k)
    (h' : ∀ c i j, c < 3 → i < Nx → j < Ny → k + 1 < m → c ≠ 2 ∨ i = 0 ∨ j = 0 → At Nx Ny m NZ o vl vg c i j (k + 1)) :
    mulVec (3 * (Nx * Ny * m)) (C0 Nx Ny m) vl (pos Nx Ny m c i j k) =
      mulVec (3 * (Nx * Ny * NZ)) (C0 Nx Ny NZ) vg (pos Nx Ny NZ c i j (o + k)) := by
  have hp := fl_lt hi hj hk
  have hP := fl_lt (Nz := NZ) hi hj (show o + k < NZ by omega)
  have e0 : ∀ c' < 3, ext (Nx * Ny * m) vl c' (fl Nx Ny i j k) = ext (Nx * Ny * NZ) vg c' (fl Nx Ny i j (o + k)) := by
    intro c' h3
    rw [fl_shift]
    exact ext_in vl vg hin hi hj hk rfl (h c' i j h3 hi hj)
  have ex : ∀ c' < 3, ext (Nx * Ny * m) vl c' (fl Nx Ny i j k + 1) = ext (Nx * Ny * NZ) vg c' (fl Nx Ny i j (o + k) + 1) := by
    intro c' h3
    exact ext_x vl vg hin hi hj hk ht (fun h1 => h c' _ _ h3 h1 hj) (fun h1 => h c' _ _ h3 (by omega) h1)
      (fun h1 => h' c' _ _ h3 (by omega) (by omega) h1 (.inr (.inl rfl)))
  have ey : ∀ c' < 3, ext (Nx * Ny * m) vl c' (fl Nx Ny i j k + Nx) = ext (Nx * Ny * NZ) vg c' (fl Nx Ny i j (o + k) + Nx) := by
    intro c' h3
    exact ext_y vl vg hin hi hj hk ht (fun h1 => h c' _ _ h3 hi h1)
      (fun h1 => h' c' _ _ h3 hi (by omega) h1 (.inr (.inr rfl)))
  have ez : ∀ c' < 3, c' ≠ 2 → ext (Nx * Ny * m) vl c' (fl Nx Ny i j k + Nx * Ny) =
      ext (Nx * Ny * NZ) vg c' (fl Nx Ny i j (o + k) + Nx * Ny) := by
    intro c' h3 h2
    exact ext_z vl vg hin hi hj hk ht (fun h1 => h' c' _ _ h3 hi hj h1 (.inl h2))
  unfold pos
  have hc' : c = 0 ∨ c = 1 ∨ c = 2 := by omega
  rcases hc' with rfl | rfl | rfl
  · rw [C0_x hp, C0_x hP, ey 2 (by decide), e0 2 (by decide), ez 1 (by decide) (by decide), e0 1 (by decide)]
  · rw [C0_y hp, C0_y hP, ez 0 (by decide) (by decide), e0 2 (by decide), ex 2 (by decide), e0 0 (by decide)]
  · rw [C0_z hp, C0_z hP, ex 1 (by decide), e0 1 (by decide), ey 0 (by decide), e0 0 (by decide)]

theorem extB_agree {c i j k d : ℕ} (hi : i < Nx) (hj : j < Ny)
    (hlo : 0 < k ∨ o = 0) (hd : d ≤ Nx * Ny)
    (h : ∀ i j k', i < Nx → j < Ny → k' ≤ k → At Nx Ny m NZ o vl vg c i j k') :
    extB (Nx * Ny * m) vl c (fl Nx Ny i j k) d = extB (Nx * Ny * NZ) vg c (fl Nx Ny i j (o + k)) d := by
  have hp : fl Nx Ny i j k < Nx * Ny * (k + 1) := fl_lt hi hj (by omega)
  rw [fl_shift]
  unfold extB
  by_cases hdp : d ≤ fl Nx Ny i j k
  · rw [if_pos hdp, if_pos (by omega)]
    obtain ⟨i', j', k', h1, h2, h3, h4⟩ := pos_decode (show fl Nx Ny i j k - d < Nx * Ny * (k + 1) by omega)
    have := h i' j' k' h1 h2 (by omega)
    unfold At pos at this
    rw [fl_shift] at this
    rw [h4, this]
    congr 2
    omega
  · have ho : o = 0 := by
      rcases hlo with h0 | h0
      · exfalso
        apply hdp
        have : Nx * Ny * 1 ≤ Nx * Ny * k := Nat.mul_le_mul_left _ h0
        have : fl Nx Ny i j k = i + Nx * j + Nx * Ny * k := by unfold fl; ring
        omega
      · exact h0
    subst ho
    rw [if_neg hdp, if_neg (by omega)]

/-- Backward curl of the slab = backward curl of the whole, in a layer that is not the slab's first (or the
slab starts at the first layer), when the arrays agree up to this layer. -/
theorem cocurl_agree {c i j k : ℕ} (hc : c < 3) (hin : o + m ≤ NZ) (hi : i < Nx) (hj : j < Ny) (hk : k < m)
    (hlo : 0 < k ∨ o = 0)
    (h : ∀ c i j k', c < 3 → i < Nx → j < Ny → k' ≤ k → At Nx Ny m NZ o vl vg c i j k') :
    mulVec (3 * (Nx * Ny * m)) (transpose (C0 Nx Ny m)) vl (pos Nx Ny m c i j k) =
      mulVec (3 * (Nx * Ny * NZ)) (transpose (C0 Nx Ny NZ)) vg (pos Nx Ny NZ c i j (o + k)) := by
  have hp := fl_lt hi hj hk
  have hP := fl_lt (Nz := NZ) hi hj (show o + k < NZ by omega)
  have e0 : ∀ c' < 3, vl (c' * (Nx * Ny * m) + fl Nx Ny i j k) = vg (c' * (Nx * Ny * NZ) + fl Nx Ny i j (o + k)) :=
    fun c' h3 => h c' i j k h3 hi hj le_rfl
  have e1 : ∀ c' < 3, ∀ d ≤ Nx * Ny, extB (Nx * Ny * m) vl c' (fl Nx Ny i j k) d =
      extB (Nx * Ny * NZ) vg c' (fl Nx Ny i j (o + k)) d :=
    fun c' h3 d hd => extB_agree vl vg hi hj hlo hd (fun i j k' a b e => h c' i j k' h3 a b e)
  have hNx : 0 < Nx := by omega
  have hNy : 0 < Ny := by omega
  have d1 : 1 ≤ Nx * Ny := Nat.mul_pos hNx hNy
  have d2 : Nx ≤ Nx * Ny := Nat.le_mul_of_pos_right _ hNy
  unfold pos
  have hc' : c = 0 ∨ c = 1 ∨ c = 2 := by omega
  rcases hc' with rfl | rfl | rfl
  · rw [CT_x hp, CT_x hP, e0 2 (by decide), e0 1 (by decide), e1 2 (by decide) _ d2, e1 1 (by decide) _ le_rfl]
  · rw [CT_y hp, CT_y hP, e0 2 (by decide), e0 0 (by decide), e1 0 (by decide) _ le_rfl, e1 2 (by decide) _ d1]
  · rw [CT_z hp, CT_z hP, e0 1 (by decide), e0 0 (by decide), e1 1 (by decide) _ d1, e1 0 (by decide) _ d2]

end curl

/-! ### metric -/

section metric
variable [DecidableEq K] {Nx Ny m NZ o : ℕ} (x y zl zg : ℕ → K)

/-- The slab's nodes are nodes of the whole. -/
def SlabNodes (m o : ℕ) (zl zg : ℕ → K) : Prop := ∀ l ≤ m, zl l = zg (o + l)

variable {x y zl zg}

theorem L_agree (h : SlabNodes m o zl zg) (hin : o + m ≤ NZ) {c i j k : ℕ} (hc : c < 3) (hi : i < Nx) (hj : j < Ny) (hk : k < m) :
    (Grid.computeGrid Nx Ny m x y zl).L.at3 c i j k = (Grid.computeGrid Nx Ny NZ x y zg).L.at3 c i j (o + k) := by
  show (Grid.diffField _ _ _ _ _ _).at3 _ _ _ _ = (Grid.diffField _ _ _ _ _ _).at3 _ _ _ _
  rw [Grid.diffField_at3 _ _ _ hc hi hj hk, Grid.diffField_at3 _ _ _ hc hi hj (by omega), h k (by omega), h (k + 1) (by omega)]
  rfl

theorem others_lt (c : ℕ) : (Grid.others c).1 < 3 ∧ (Grid.others c).2 < 3 := by
  unfold Grid.others; split_ifs <;> simp

theorem iA_agree (h : SlabNodes m o zl zg) (hin : o + m ≤ NZ) {c i j k : ℕ} (hc : c < 3) (hi : i < Nx) (hj : j < Ny) (hk : k < m) :
    (Grid.computeGrid Nx Ny m x y zl).iA.at3 c i j k = (Grid.computeGrid Nx Ny NZ x y zg).iA.at3 c i j (o + k) := by
  show (Grid.invArea _ _ _ _).at3 _ _ _ _ = (Grid.invArea _ _ _ _).at3 _ _ _ _
  rw [Grid.invArea_at3 (Nx := Nx) (Ny := Ny) (Grid.diffField Nx Ny m x y zl) rfl rfl hc hi hj hk,
    Grid.invArea_at3 (Nx := Nx) (Ny := Ny) (Grid.diffField Nx Ny NZ x y zg) rfl rfl hc hi hj (show o + k < NZ by omega)]
  rw [show (Grid.diffField Nx Ny m x y zl) = (Grid.computeGrid Nx Ny m x y zl).L from rfl,
    show (Grid.diffField Nx Ny NZ x y zg) = (Grid.computeGrid Nx Ny NZ x y zg).L from rfl,
    L_agree h hin (others_lt c).1 hi hj hk, L_agree h hin (others_lt c).2 hi hj hk]

theorem tL_agree (h : SlabNodes m o zl zg) (hin : o + m ≤ NZ) {c i j k : ℕ} (hc : c < 3) (hi : i < Nx) (hj : j < Ny) (hk : k < m)
    (ht : k + 1 < m ∨ o + m = NZ) :
    (Grid.computeGrid Nx Ny m x y zl).tL.at3 c i j k = (Grid.computeGrid Nx Ny NZ x y zg).tL.at3 c i j (o + k) := by
  show (Grid.diffField _ _ _ _ _ _).at3 _ _ _ _ = (Grid.diffField _ _ _ _ _ _).at3 _ _ _ _
  have t1 : ∀ l < m, Grid.tilde zl m l = Grid.tilde zg NZ (o + l) := by
    intro l hl
    unfold Grid.tilde
    rw [if_pos hl, if_pos (by omega), h l (by omega), h (l + 1) (by omega)]; rfl
  have t2 : Grid.tilde zl m (k + 1) = Grid.tilde zg NZ (o + k + 1) := by
    by_cases hk1 : k + 1 < m
    · exact t1 _ hk1
    · have hm : m = k + 1 := by omega
      have hN := ht.resolve_left hk1
      unfold Grid.tilde
      rw [if_neg hk1, if_neg (by omega), h m le_rfl, h (m - 1) (by omega), hN]
      congr 3; omega
  rw [Grid.diffField_at3 _ _ _ hc hi hj hk, Grid.diffField_at3 _ _ _ hc hi hj (by omega), t1 k hk, t2]

theorem itA_agree (h : SlabNodes m o zl zg) (hin : o + m ≤ NZ) {c i j k : ℕ} (hc : c < 3) (hi : i < Nx) (hj : j < Ny) (hk : k < m)
    (ht : k + 1 < m ∨ o + m = NZ) :
    (Grid.computeGrid Nx Ny m x y zl).itA.at3 c i j k = (Grid.computeGrid Nx Ny NZ x y zg).itA.at3 c i j (o + k) := by
  show (Grid.invDualArea _ _ _ _).at3 _ _ _ _ = (Grid.invDualArea _ _ _ _).at3 _ _ _ _
  rw [Grid.invDualArea_at3 (Nx := Nx) (Ny := Ny) (Grid.diffField Nx Ny m (Grid.tilde x Nx) (Grid.tilde y Ny) (Grid.tilde zl m)) rfl rfl hc hi hj hk,
    Grid.invDualArea_at3 (Nx := Nx) (Ny := Ny) (Grid.diffField Nx Ny NZ (Grid.tilde x Nx) (Grid.tilde y Ny) (Grid.tilde zg NZ)) rfl rfl hc hi hj
      (show o + k < NZ by omega)]
  rw [show (Grid.diffField Nx Ny m (Grid.tilde x Nx) (Grid.tilde y Ny) (Grid.tilde zl m)) = (Grid.computeGrid Nx Ny m x y zl).tL from rfl,
    show (Grid.diffField Nx Ny NZ (Grid.tilde x Nx) (Grid.tilde y Ny) (Grid.tilde zg NZ)) = (Grid.computeGrid Nx Ny NZ x y zg).tL from rfl,
    tL_agree h hin (others_lt c).1 hi hj hk ht, tL_agree h hin (others_lt c).2 hi hj hk ht]

end metric

end Mpi
end Wakis
