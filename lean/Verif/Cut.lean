import Verif.Mirror2

/-!
# C123: a symmetry plane can be replaced by an electric wall

A part of a closed model between two planes on which the tangential E vanishes runs like a model of its own with electric walls there.
-/

namespace Wakis
namespace Sol
open Sparse Grid
variable {K : Type _} [Field K]
set_option linter.unusedSimpArgs false

/-! ### Specification -/

/-- Quantities at the positions of E (E, J, permittivity, conductivity): `v'` on a grid of `n + 1` cells along x holds the part of `v` (on `Nx` cells) between the nodes `p` and `p + n`, without the tangential
components on these two planes. -/
def CutE (Nx Ny Nz p n : ℕ) (v v' : Vec K) : Prop :=
  ∀ c < 3, ∀ i < n, (c ≠ 0 → 0 < i) → ∀ j < Ny, ∀ k < Nz, v' (pos (n + 1) Ny Nz c i j k) = v (pos Nx Ny Nz c (p + i) j k)

/-- Quantities at the positions of H (H, permeability): the same, with the normal components on the two planes. -/
def CutH (Nx Ny Nz p n : ℕ) (v v' : Vec K) : Prop :=
  ∀ c < 3, ∀ i ≤ n, (c ≠ 0 → i < n) → ∀ j < Ny, ∀ k < Nz, v' (pos (n + 1) Ny Nz c i j k) = v (pos Nx Ny Nz c (p + i) j k)

/-- The fields `b` are the part of the fields `a` between the planes `p` and `p + n`. -/
structure CutSt (Nx Ny Nz p n : ℕ) (a b : State K) : Prop where
  E : CutE Nx Ny Nz p n a.E b.E
  H : CutH Nx Ny Nz p n a.H b.H
  J : CutE Nx Ny Nz p n a.J b.J
  step0 : b.step0 = a.step0

/-- The tangential components of E vanish on the plane through the nodes `p`, or that plane is the first or last one. -/
def NoTangential (Nx Ny Nz p : ℕ) (a : State K) : Prop :=
  p = 0 ∨ p = Nx - 1 ∨ ∀ c, c = 1 ∨ c = 2 → ∀ j < Ny, ∀ k < Nz, a.E (pos Nx Ny Nz c p j k) = 0

section
variable {Nx Ny Nz p n : ℕ} {x y z : ℕ → K} (hn : p + n < Nx)

/-! ### The grid -/

section
variable [DecidableEq K]

include hn in
theorem cut_L {c i j k : ℕ} (hc : c < 3) (hi : i ≤ n) (hj : j < Ny) (hk : k < Nz) :
    (computeGrid (n + 1) Ny Nz (fun i => x (p + i)) y z).L.array (pos (n + 1) Ny Nz c i j k) = (computeGrid Nx Ny Nz x y z).L.array (pos Nx Ny Nz c (p + i) j k) := by
  refine (diffField_at3 (fun i => x (p + i)) y z hc (show i < n + 1 by omega) hj hk).trans (Eq.trans ?_ (diffField_at3 x y z hc (show p + i < Nx by omega) hj hk).symm)
  rfl

include hn in
theorem cut_tL {c i j k : ℕ} (hc : c < 3) (hi : i ≤ n) (h0 : c = 0 → i < n) (hj : j < Ny) (hk : k < Nz) :
    (computeGrid (n + 1) Ny Nz (fun i => x (p + i)) y z).tL.array (pos (n + 1) Ny Nz c i j k) = (computeGrid Nx Ny Nz x y z).tL.array (pos Nx Ny Nz c (p + i) j k) := by
  refine (diffField_at3 _ _ _ hc (show i < n + 1 by omega) hj hk).trans (Eq.trans ?_ (diffField_at3 _ _ _ hc (show p + i < Nx by omega) hj hk).symm)
  by_cases h : c = 0
  · rw [if_pos h, if_pos h]
    have := h0 h
    unfold tilde
    rw [if_pos (by omega), if_pos (by omega), if_pos (by omega), if_pos (by omega)]
    rfl
  · rw [if_neg h, if_neg h]

include hn in
theorem cut_iA {c i j k : ℕ} (hc : c < 3) (hi : i ≤ n) (hj : j < Ny) (hk : k < Nz) :
    (computeGrid (n + 1) Ny Nz (fun i => x (p + i)) y z).iA.array (pos (n + 1) Ny Nz c i j k) = (computeGrid Nx Ny Nz x y z).iA.array (pos Nx Ny Nz c (p + i) j k) := by
  have ho : (others c).1 < 3 ∧ (others c).2 < 3 := by
    have : c = 0 ∨ c = 1 ∨ c = 2 := by omega
    rcases this with rfl | rfl | rfl <;> decide
  refine (iA_cell _ _ _ _ _ _ hc (show i < n + 1 by omega) hj hk).trans (Eq.trans ?_ (iA_cell _ _ _ _ _ _ hc (show p + i < Nx by omega) hj hk).symm)
  exact congrArg₂ (fun a b => 1 / (a * b)) (cut_L hn ho.1 hi hj hk) (cut_L hn ho.2 hi hj hk)

include hn in
theorem cut_itA {c i j k : ℕ} (hc : c < 3) (hi : i ≤ n) (h0 : c ≠ 0 → i < n) (hj : j < Ny) (hk : k < Nz) :
    (computeGrid (n + 1) Ny Nz (fun i => x (p + i)) y z).itA.array (pos (n + 1) Ny Nz c i j k) = (computeGrid Nx Ny Nz x y z).itA.array (pos Nx Ny Nz c (p + i) j k) := by
  have ho : ((others c).1 < 3 ∧ (others c).2 < 3) ∧ (((others c).1 = 0 ∨ (others c).2 = 0) → c ≠ 0) := by
    have : c = 0 ∨ c = 1 ∨ c = 2 := by omega
    rcases this with rfl | rfl | rfl <;> decide
  refine (itA_cell _ _ _ _ _ _ hc (show i < n + 1 by omega) hj hk).trans (Eq.trans ?_ (itA_cell _ _ _ _ _ _ hc (show p + i < Nx by omega) hj hk).symm)
  exact congrArg₂ (fun a b => guardedInv (a * b)) (cut_tL hn ho.1.1 hi (fun h => h0 (ho.2 (.inl h))) hj hk) (cut_tL hn ho.1.2 hi (fun h => h0 (ho.2 (.inr h))) hj hk)
end

/-! ### One step -/

variable [DecidableEq K] {bc bc' : Faces String} (h : PecLike bc) (h' : PecLike bc') {ieps imu sigma ieps' imu' sigma' : Vec K} (dt : K) {uc uc' : Bool}
  (he : CutE Nx Ny Nz p n ieps ieps') (hm : CutH Nx Ny Nz p n imu imu') (hs : CutE Nx Ny Nz p n sigma sigma')

include hn h h' in
theorem cut_mask {c i j k : ℕ} (hc : c < 3) (hi : i < n) (h0 : c ≠ 0 → 0 < i) (hj : j < Ny) (hk : k < Nz) :
    colMask (computeGrid (n + 1) Ny Nz (fun i => x (p + i)) y z) bc' (pos (n + 1) Ny Nz c i j k) = colMask (computeGrid Nx Ny Nz x y z) bc (pos Nx Ny Nz c (p + i) j k) := by
  refine (mask_of_wall (computeGrid (n + 1) Ny Nz (fun i => x (p + i)) y z) h' hc (show i < n + 1 by omega) hj hk).trans
    (Eq.trans ?_ (mask_of_wall (computeGrid Nx Ny Nz x y z) h hc (show p + i < Nx by omega) hj hk).symm)
  refine if_congr ?_ rfl rfl
  show ((c ≠ 0 ∧ (i = 0 ∨ i = n + 1 - 1)) ∨ (c ≠ 1 ∧ (j = 0 ∨ j = Ny - 1)) ∨ (c ≠ 2 ∧ (k = 0 ∨ k = Nz - 1))) ↔ ((c ≠ 0 ∧ (p + i = 0 ∨ p + i = Nx - 1)) ∨ (c ≠ 1 ∧ (j = 0 ∨ j = Ny - 1)) ∨ (c ≠ 2 ∧ (k = 0 ∨ k = Nz - 1)))
  by_cases hc0 : c = 0
  · subst hc0; omega
  · have := h0 hc0
    omega

include hn h h' hm in
theorem cut_H {a b : State K} (hE : CutE Nx Ny Nz p n a.E b.E) (hH : CutH Nx Ny Nz p n a.H b.H) (z1 : NoTangential Nx Ny Nz p a) (z2 : NoTangential Nx Ny Nz (p + n) a) :
    CutH Nx Ny Nz p n (advance (build (computeGrid Nx Ny Nz x y z) bc ieps imu sigma dt uc) a).H
      (advance (build (computeGrid (n + 1) Ny Nz (fun i => x (p + i)) y z) bc' ieps' imu' sigma' dt uc') b).H := by
  have zero : ∀ q, q < Nx → NoTangential Nx Ny Nz q a → ∀ c, c = 1 ∨ c = 2 → ∀ j < Ny, ∀ k < Nz, colMask (computeGrid Nx Ny Nz x y z) bc (pos Nx Ny Nz c q j k) * ((computeGrid Nx Ny Nz x y z).L.array (pos Nx Ny Nz c q j k) * a.E (pos Nx Ny Nz c q j k)) = 0 := by
    intro q hq hz c hc j hj k hk
    rcases hz with e | e | e
    · rw [show colMask (computeGrid Nx Ny Nz x y z) bc (pos Nx Ny Nz c q j k) = 0 from mask_closed (computeGrid Nx Ny Nz x y z) h (by omega) hq hj hk (axis := 0) (by decide) (by omega) .lo e, zero_mul]
    · rw [show colMask (computeGrid Nx Ny Nz x y z) bc (pos Nx Ny Nz c q j k) = 0 from mask_closed (computeGrid Nx Ny Nz x y z) h (by omega) hq hj hk (axis := 0) (by decide) (by omega) .hi e, zero_mul]
    · rw [e c hc j hj k hk, mul_zero, mul_zero]
  have zero' : ∀ q, q = 0 ∨ q = n → ∀ c, c = 1 ∨ c = 2 → ∀ j < Ny, ∀ k < Nz, colMask (computeGrid (n + 1) Ny Nz (fun i => x (p + i)) y z) bc' (pos (n + 1) Ny Nz c q j k) = 0 := by
    intro q hq c hc j hj k hk
    rcases hq with e | e
    · exact mask_closed (computeGrid (n + 1) Ny Nz (fun i => x (p + i)) y z) h' (by omega) (show q < n + 1 by omega) hj hk (axis := 0) (by decide) (by omega) .lo e
    · exact mask_closed (computeGrid (n + 1) Ny Nz (fun i => x (p + i)) y z) h' (by omega) (show q < n + 1 by omega) hj hk (axis := 0) (by decide) (by omega) .hi (show q = n + 1 - 1 by omega)
  have v : ∀ c i j k, c < 3 → i ≤ n → (c = 0 → i < n) →
      view0 (n + 1) Ny Nz (fun q => colMask (computeGrid (n + 1) Ny Nz (fun i => x (p + i)) y z) bc' q * ((computeGrid (n + 1) Ny Nz (fun i => x (p + i)) y z).L.array q * b.E q)) c i j k =
        view0 Nx Ny Nz (fun q => colMask (computeGrid Nx Ny Nz x y z) bc q * ((computeGrid Nx Ny Nz x y z).L.array q * a.E q)) c (p + i) j k := by
    intro c i j k hc hi h0
    unfold view0
    by_cases hr : j < Ny ∧ k < Nz
    · rw [if_pos ⟨by omega, hr⟩, if_pos ⟨by omega, hr⟩]
      simp only
      by_cases hw : c ≠ 0 ∧ (i = 0 ∨ i = n)
      · rw [zero' i hw.2 c (by omega) j hr.1 k hr.2, zero_mul, zero (p + i) (by omega) (by rcases hw.2 with rfl | rfl; exacts [z1, z2]) c (by omega) j hr.1 k hr.2]
      · rw [cut_mask hn h h' hc (by omega) (by omega) hr.1 hr.2, cut_L hn hc hi hr.1 hr.2, hE c hc i (by omega) (by omega) j hr.1 k hr.2]
    · rw [if_neg (fun e => hr e.2), if_neg (fun e => hr e.2)]
  intro c hc i hi h0 j hj k hk
  refine (closed_H (computeGrid (n + 1) Ny Nz (fun i => x (p + i)) y z) ieps' imu' sigma' dt uc' h' b hc (show i < n + 1 by omega) hj hk).trans
    (Eq.trans ?_ (closed_H (computeGrid Nx Ny Nz x y z) ieps imu sigma dt uc h a hc (show p + i < Nx by omega) hj hk).symm)
  show b.H (pos (n + 1) Ny Nz c i j k) - dt * ((computeGrid (n + 1) Ny Nz (fun i => x (p + i)) y z).iA.array (pos (n + 1) Ny Nz c i j k) * imu' (pos (n + 1) Ny Nz c i j k) * circ (view0 (n + 1) Ny Nz _) c i j k) =
    a.H (pos Nx Ny Nz c (p + i) j k) - dt * ((computeGrid Nx Ny Nz x y z).iA.array (pos Nx Ny Nz c (p + i) j k) * imu (pos Nx Ny Nz c (p + i) j k) * circ (view0 Nx Ny Nz _) c (p + i) j k)
  rw [hH c hc i hi h0 j hj k hk, hm c hc i hi h0 j hj k hk, cut_iA hn hc hi hj hk]
  congr 3
  have : c = 0 ∨ c = 1 ∨ c = 2 := by omega
  rcases this with rfl | rfl | rfl
  · simp only [circ, if_true]
    rw [v 2 i _ _ (by decide) hi (by omega), v 2 i _ _ (by decide) hi (by omega), v 1 i _ _ (by decide) hi (by omega), v 1 i _ _ (by decide) hi (by omega)]
  · have := h0 (by decide)
    simp only [circ, one_ne_zero, if_false, if_true]
    rw [v 0 i _ _ (by decide) hi (by omega), v 0 i _ _ (by decide) hi (by omega), v 2 (i + 1) _ _ (by decide) (by omega) (by omega), v 2 i _ _ (by decide) hi (by omega)]
    rfl
  · have := h0 (by decide)
    simp only [circ, OfNat.ofNat_ne_zero, OfNat.ofNat_ne_one, if_false]
    rw [v 1 (i + 1) _ _ (by decide) (by omega) (by omega), v 1 i _ _ (by decide) hi (by omega), v 0 i _ _ (by decide) hi (by omega), v 0 i _ _ (by decide) hi (by omega)]
    rfl

include hn h h' he hm hs in
theorem cut_advance (huc : (build (computeGrid (n + 1) Ny Nz (fun i => x (p + i)) y z) bc' ieps' imu' sigma' dt uc').useConductivity = (build (computeGrid Nx Ny Nz x y z) bc ieps imu sigma dt uc).useConductivity)
    {a b : State K} (hab : CutSt Nx Ny Nz p n a b) (z1 : NoTangential Nx Ny Nz p a) (z2 : NoTangential Nx Ny Nz (p + n) a) :
    CutSt Nx Ny Nz p n (advance (build (computeGrid Nx Ny Nz x y z) bc ieps imu sigma dt uc) a)
      (advance (build (computeGrid (n + 1) Ny Nz (fun i => x (p + i)) y z) bc' ieps' imu' sigma' dt uc') b) := by
  have hH := cut_H hn h h' (x := x) (y := y) (z := z) (ieps := ieps) (ieps' := ieps') (sigma := sigma) (sigma' := sigma') dt (uc := uc) (uc' := uc') hm hab.E hab.H z1 z2
  have hE : CutE Nx Ny Nz p n (advance (build (computeGrid Nx Ny Nz x y z) bc ieps imu sigma dt uc) a).E
      (advance (build (computeGrid (n + 1) Ny Nz (fun i => x (p + i)) y z) bc' ieps' imu' sigma' dt uc') b).E := by
    intro c hc i hi h0 j hj k hk
    refine (closed_E (computeGrid (n + 1) Ny Nz (fun i => x (p + i)) y z) ieps' imu' sigma' dt uc' h' b hc (show i < n + 1 by omega) hj hk).trans
      (Eq.trans ?_ (closed_E (computeGrid Nx Ny Nz x y z) ieps imu sigma dt uc h a hc (show p + i < Nx by omega) hj hk).symm)
    rw [(pecLike_metric _ h).1, (pecLike_metric _ h).2, (pecLike_metric _ h').1, (pecLike_metric _ h').2]
    show b.E (pos (n + 1) Ny Nz c i j k) + dt * (ieps' (pos (n + 1) Ny Nz c i j k) * (computeGrid (n + 1) Ny Nz (fun i => x (p + i)) y z).itA.array (pos (n + 1) Ny Nz c i j k) *
        (colMask (computeGrid (n + 1) Ny Nz (fun i => x (p + i)) y z) bc' (pos (n + 1) Ny Nz c i j k) * cocirc (view3 (n + 1) Ny Nz _) c i j k) - ieps' (pos (n + 1) Ny Nz c i j k) * b.J (pos (n + 1) Ny Nz c i j k)) =
      a.E (pos Nx Ny Nz c (p + i) j k) + dt * (ieps (pos Nx Ny Nz c (p + i) j k) * (computeGrid Nx Ny Nz x y z).itA.array (pos Nx Ny Nz c (p + i) j k) *
        (colMask (computeGrid Nx Ny Nz x y z) bc (pos Nx Ny Nz c (p + i) j k) * cocirc (view3 Nx Ny Nz _) c (p + i) j k) - ieps (pos Nx Ny Nz c (p + i) j k) * a.J (pos Nx Ny Nz c (p + i) j k))
    rw [hab.E c hc i hi h0 j hj k hk, hab.J c hc i hi h0 j hj k hk, he c hc i hi h0 j hj k hk, cut_itA hn hc (by omega) (by omega) hj hk, cut_mask hn h h' hc hi h0 hj hk]
    congr 5
    have w : ∀ c' i' j' k', c' < 3 → i' < n → j' < Ny → k' < Nz →
        view3 (n + 1) Ny Nz (fun q => (computeGrid (n + 1) Ny Nz (fun i => x (p + i)) y z).tL.array q * (advance (build (computeGrid (n + 1) Ny Nz (fun i => x (p + i)) y z) bc' ieps' imu' sigma' dt uc') b).H q) c' i' j' k' =
          view3 Nx Ny Nz (fun q => (computeGrid Nx Ny Nz x y z).tL.array q * (advance (build (computeGrid Nx Ny Nz x y z) bc ieps imu sigma dt uc) a).H q) c' (p + i') j' k' := by
      intro c' i' j' k' hc' hi' hj' hk'
      unfold view3
      simp only
      rw [cut_tL hn hc' hi'.le (fun _ => hi') hj' hk', hH c' hc' i' hi'.le (fun _ => hi') j' hj' k' hk']
    have : c = 0 ∨ c = 1 ∨ c = 2 := by omega
    rcases this with rfl | rfl | rfl
    · simp only [cocirc, if_true]
      rw [w 2 i j k (by decide) hi hj hk, w 2 i (j - 1) k (by decide) hi (by omega) hk, w 1 i j k (by decide) hi hj hk, w 1 i j (k - 1) (by decide) hi hj (by omega)]
    · have := h0 (by decide)
      simp only [cocirc, one_ne_zero, if_false, if_true]
      rw [w 0 i j k (by decide) hi hj hk, w 0 i j (k - 1) (by decide) hi hj (by omega), w 2 i j k (by decide) hi hj hk, w 2 (i - 1) j k (by decide) (by omega) hj hk, show p + (i - 1) = p + i - 1 by omega]
    · have := h0 (by decide)
      simp only [cocirc, OfNat.ofNat_ne_zero, OfNat.ofNat_ne_one, if_false]
      rw [w 1 i j k (by decide) hi hj hk, w 1 (i - 1) j k (by decide) (by omega) hj hk, w 0 i j k (by decide) hi hj hk, w 0 i (j - 1) k (by decide) hi (by omega) hk, show p + (i - 1) = p + i - 1 by omega]
  refine ⟨hE, hH, ?_, hab.step0⟩
  show CutE Nx Ny Nz p n (if (build (computeGrid Nx Ny Nz x y z) bc ieps imu sigma dt uc).useConductivity then fun q => sigma q * (advance (build (computeGrid Nx Ny Nz x y z) bc ieps imu sigma dt uc) a).E q else a.J)
    (if (build (computeGrid (n + 1) Ny Nz (fun i => x (p + i)) y z) bc' ieps' imu' sigma' dt uc').useConductivity then
      fun q => sigma' q * (advance (build (computeGrid (n + 1) Ny Nz (fun i => x (p + i)) y z) bc' ieps' imu' sigma' dt uc') b).E q else b.J)
  rw [huc]
  split_ifs
  · intro c hc i hi h0 j hj k hk
    simp only [hE c hc i hi h0 j hj k hk, hs c hc i hi h0 j hj k hk]
  · exact hab.J

include hn in
theorem cut_ghosts {a b : State K} (hab : CutSt Nx Ny Nz p n a b) :
    CutSt Nx Ny Nz p n { setGhostsTo0 (build (computeGrid Nx Ny Nz x y z) bc ieps imu sigma dt uc) a with step0 := false }
      { setGhostsTo0 (build (computeGrid (n + 1) Ny Nz (fun i => x (p + i)) y z) bc' ieps' imu' sigma' dt uc') b with step0 := false } := by
  refine ⟨fun c hc i hi h0 j hj k hk => ?_, fun c hc i hi h0 j hj k hk => ?_, hab.J, rfl⟩
  · refine (ghostE_at3 (f := (⟨n + 1, Ny, Nz, b.E⟩ : Fld K)) (c := c) (show i < n + 1 by omega) hj hk hc).trans (Eq.trans ?_ (ghostE_at3 (f := (⟨Nx, Ny, Nz, a.E⟩ : Fld K)) (c := c) (show p + i < Nx by omega) hj hk hc).symm)
    refine if_ctx_congr ?_ (fun _ => rfl) fun _ => hab.E c hc i hi h0 j hj k hk
    show ((c = 0 ∧ i = n + 1 - 1) ∨ (c = 1 ∧ j = Ny - 1) ∨ (c = 2 ∧ k = Nz - 1)) ↔ ((c = 0 ∧ p + i = Nx - 1) ∨ (c = 1 ∧ j = Ny - 1) ∨ (c = 2 ∧ k = Nz - 1))
    omega
  · refine (ghostH_at3 (f := (⟨n + 1, Ny, Nz, b.H⟩ : Fld K)) (c := c) (show i < n + 1 by omega) hj hk hc).trans (Eq.trans ?_ (ghostH_at3 (f := (⟨Nx, Ny, Nz, a.H⟩ : Fld K)) (c := c) (show p + i < Nx by omega) hj hk hc).symm)
    refine if_ctx_congr ?_ (fun _ => rfl) fun _ => hab.H c hc i hi h0 j hj k hk
    show ((c ≠ 0 ∧ i = n + 1 - 1) ∨ (c ≠ 1 ∧ j = Ny - 1) ∨ (c ≠ 2 ∧ k = Nz - 1)) ↔ ((c ≠ 0 ∧ p + i = Nx - 1) ∨ (c ≠ 1 ∧ j = Ny - 1) ∨ (c ≠ 2 ∧ k = Nz - 1))
    by_cases hc0 : c = 0
    · subst hc0; omega
    · have := h0 hc0
      omega

theorem noTangential_ghosts {q : ℕ} {a : State K} (hz : NoTangential Nx Ny Nz q a) (hq : q < Nx) :
    NoTangential Nx Ny Nz q { setGhostsTo0 (build (computeGrid Nx Ny Nz x y z) bc ieps imu sigma dt uc) a with step0 := false } := by
  refine hz.imp id fun hz => hz.imp id fun hz c hc j hj k hk => ?_
  refine (ghostE_at3 (f := (⟨Nx, Ny, Nz, a.E⟩ : Fld K)) (c := c) hq hj hk (by omega)).trans ?_
  have : (⟨Nx, Ny, Nz, a.E⟩ : Fld K).at3 c q j k = 0 := hz c hc j hj k hk
  rw [this, ite_self]

end

/-- **C123 (cut).** A closed model in which the tangential E vanishes, at every step, on the planes through the nodes `p` and `p + n` of the x axis (or these are its walls): the part between the planes has the fields
of a closed model of its own, made of the cells from `p` to `p + n` with the same materials, starting fields and assignments between the steps.  Any axes. -/
theorem C123_cut [DecidableEq K] {Nx Ny Nz p n : ℕ} {x y z : ℕ → K} (hn : p + n < Nx) {bc bc' : Faces String} (h : PecLike bc) (h' : PecLike bc') {ieps imu sigma ieps' imu' sigma' : Vec K} (dt : K) {uc uc' : Bool}
    (he : CutE Nx Ny Nz p n ieps ieps') (hm : CutH Nx Ny Nz p n imu imu') (hs : CutE Nx Ny Nz p n sigma sigma')
    (huc : (build (computeGrid (n + 1) Ny Nz (fun i => x (p + i)) y z) bc' ieps' imu' sigma' dt uc').useConductivity = (build (computeGrid Nx Ny Nz x y z) bc ieps imu sigma dt uc).useConductivity)
    {N : ℕ} {S D S' D' : ℕ → State K} (r : Runs (build (computeGrid Nx Ny Nz x y z) bc ieps imu sigma dt uc) N S D)
    (r' : Runs (build (computeGrid (n + 1) Ny Nz (fun i => x (p + i)) y z) bc' ieps' imu' sigma' dt uc') N S' D') (h0 : CutSt Nx Ny Nz p n (S 0) (S' 0))
    (hD : ∀ m < N, CutSt Nx Ny Nz p n (S m) (S' m) → CutSt Nx Ny Nz p n (D m) (D' m))
    (hz : ∀ m < N, NoTangential Nx Ny Nz p (D m) ∧ NoTangential Nx Ny Nz (p + n) (D m)) : CutSt Nx Ny Nz p n (S N) (S' N) := by
  have main : ∀ m, m ≤ N → CutSt Nx Ny Nz p n (S m) (S' m) := by
    intro m
    induction m with
    | zero => exact fun _ => h0
    | succ m ih =>
      intro hmN
      rw [r.step m hmN, r'.step m hmN]
      have hab := hD m hmN (ih (by omega))
      obtain ⟨z1, z2⟩ := hz m hmN
      unfold oneStep
      rw [hab.step0]
      split_ifs
      · exact cut_advance hn h h' dt he hm hs huc (cut_ghosts hn dt hab) (noTangential_ghosts dt z1 (by omega)) (noTangential_ghosts dt z2 hn)
      · exact cut_advance hn h h' dt he hm hs huc hab z1 z2
  exact main N le_rfl

/-! ### Symmetric models -/

/-- The fields with the opposite sign. -/
def opposite (a : State K) : State K := ⟨fun q => -a.E q, fun q => -a.H q, fun q => -a.J q, a.step0⟩

/-- Fields that an electric symmetry plane in the middle of the x axis allows: the mirror image is the opposite. -/
def Antisymmetric (Nx Ny Nz : ℕ) (a : State K) : Prop := MirrorSt Nx Ny Nz a (opposite a)

theorem opposite_step (s : Solver K) (a : State K) : oneStep s (opposite a) = opposite (oneStep s a) := by
  have e : ∀ t : State K, lin (-1) 0 t t = opposite t := by
    intro t
    show (⟨fun q => -1 * t.E q + 0 * t.E q, fun q => -1 * t.H q + 0 * t.H q, fun q => -1 * t.J q + 0 * t.J q, t.step0⟩ : State K) = _
    simp only [opposite, zero_mul, add_zero, neg_mul, one_mul]
  rw [← e, ← e, oneStep_lin s (-1) 0 a a rfl]

theorem antisymmetric_plane (h2 : (2 : K) ≠ 0) {p Ny Nz : ℕ} {a : State K} (ha : Antisymmetric (2 * p + 1) Ny Nz a) : NoTangential (2 * p + 1) Ny Nz p a := by
  refine .inr (.inr fun c hc j hj k hk => ?_)
  have e : -a.E (pos (2 * p + 1) Ny Nz c p j k) = 1 * a.E (pos (2 * p + 1) Ny Nz c (2 * p + 1 - 1 - p) j k) := by
    rcases hc with rfl | rfl
    · exact ha.E.y p (by omega) j hj k hk
    · exact ha.E.z p (by omega) j hj k hk
  rw [show 2 * p + 1 - 1 - p = p by omega, one_mul] at e
  have : 2 * a.E (pos (2 * p + 1) Ny Nz c p j k) = 0 := by linear_combination -e
  exact (mul_eq_zero.1 this).resolve_left h2

/-- **C123 (electric symmetry plane; partial).** A closed model of `2 p + 1` nodes with equal steps along x (any along y and z), materials symmetric about the middle plane, and starting fields and assignments whose mirror image is
the opposite: each half (from node `o = 0` or `o = p`) has, at every step, the fields of the half model with an electric wall in the place of the middle plane.  Missing: magnetic planes, `C123_magnetic_refuted`. -/
theorem C123_symmetry_plane_partial [DecidableEq K] (h2 : (2 : K) ≠ 0) {p Ny Nz o : ℕ} (ho : o = 0 ∨ o = p) {x y z : ℕ → K} {d : K} (hd : ∀ i < 2 * p + 1, x (i + 1) - x i = d) {bc bc' : Faces String} (h : PecLike bc) (h' : PecLike bc')
    {ieps imu sigma ieps' imu' sigma' : Vec K} (se : MirrorE (2 * p + 1) Ny Nz 1 ieps ieps) (sm : MirrorH (2 * p + 1) Ny Nz 1 imu imu) (ss : MirrorE (2 * p + 1) Ny Nz 1 sigma sigma) (dt : K) {uc uc' : Bool}
    (he : CutE (2 * p + 1) Ny Nz o p ieps ieps') (hm : CutH (2 * p + 1) Ny Nz o p imu imu') (hs : CutE (2 * p + 1) Ny Nz o p sigma sigma')
    (huc : (build (computeGrid (p + 1) Ny Nz (fun i => x (o + i)) y z) bc' ieps' imu' sigma' dt uc').useConductivity = (build (computeGrid (2 * p + 1) Ny Nz x y z) bc ieps imu sigma dt uc).useConductivity)
    {N : ℕ} {S D S' D' : ℕ → State K} (r : Runs (build (computeGrid (2 * p + 1) Ny Nz x y z) bc ieps imu sigma dt uc) N S D)
    (r' : Runs (build (computeGrid (p + 1) Ny Nz (fun i => x (o + i)) y z) bc' ieps' imu' sigma' dt uc') N S' D') (a0 : Antisymmetric (2 * p + 1) Ny Nz (S 0))
    (aD : ∀ m < N, Antisymmetric (2 * p + 1) Ny Nz (S m) → Antisymmetric (2 * p + 1) Ny Nz (D m)) (h0 : CutSt (2 * p + 1) Ny Nz o p (S 0) (S' 0))
    (hD : ∀ m < N, CutSt (2 * p + 1) Ny Nz o p (S m) (S' m) → CutSt (2 * p + 1) Ny Nz o p (D m) (D' m)) : CutSt (2 * p + 1) Ny Nz o p (S N) (S' N) := by
  have step : ∀ a, Antisymmetric (2 * p + 1) Ny Nz a → Antisymmetric (2 * p + 1) Ny Nz (oneStep (build (computeGrid (2 * p + 1) Ny Nz x y z) bc ieps imu sigma dt uc) a) := by
    intro a ha
    unfold Antisymmetric
    rw [← opposite_step]
    have hab : MirrorSt (2 * p + 1) Ny Nz a (opposite a) := ha
    unfold oneStep
    rw [show (opposite a).step0 = a.step0 from rfl]
    split_ifs
    · exact mirror_advance (g := computeGrid (2 * p + 1) Ny Nz x y z) (mirrorGrid_equal _ Ny Nz x y z hd) h h dt se sm ss rfl (mirror_ghosts (g := computeGrid (2 * p + 1) Ny Nz x y z) dt hab)
    · exact mirror_advance (g := computeGrid (2 * p + 1) Ny Nz x y z) (mirrorGrid_equal _ Ny Nz x y z hd) h h dt se sm ss rfl hab
  have main : ∀ m, m ≤ N → Antisymmetric (2 * p + 1) Ny Nz (S m) := by
    intro m
    induction m with
    | zero => exact fun _ => a0
    | succ m ih =>
      intro hmN
      rw [r.step m hmN]
      exact step _ (aD m hmN (ih (by omega)))
  have hz : ∀ m < N, NoTangential (2 * p + 1) Ny Nz p (D m) := fun m hmN => antisymmetric_plane h2 (aD m hmN (main m hmN.le))
  refine C123_cut (by omega) h h' dt he hm hs huc r r' h0 hD fun m hmN => ?_
  rcases ho with rfl | rfl
  · exact ⟨.inl rfl, by rw [Nat.zero_add]; exact hz m hmN⟩
  · exact ⟨hz m hmN, .inr (.inl (by omega))⟩

/-- **C123 (refuted for magnetic symmetry planes).** A closed model of `2 q` nodes, symmetric about the middle of its cell `q - 1`, has fields that are their own mirror image (so tangential H vanishes on that plane) for which the
half model with a magnetic wall `pmc` in the cell of the plane gives another H after one step, in cells at its electric walls.  Any axes and materials. -/
theorem C123_magnetic_refuted [DecidableEq K] {q Ny Nz : ℕ} (hq : 2 ≤ q) (hy : 3 ≤ Ny) (hz : 1 ≤ Nz) {x y z : ℕ → K} (hdx : x (q + 1) - x q ≠ 0) (hdz : z 1 - z 0 ≠ 0) {bc : Faces String} (h : PecLike bc) {ieps imu sigma ieps' imu' sigma' : Vec K}
    (hmu : imu (pos (2 * q) Ny Nz 1 q 1 0) ≠ 0) {dt : K} (hdt : dt ≠ 0) {uc uc' : Bool} :
    ∃ a : State K, MirrorSt (2 * q) Ny Nz a a ∧ ∀ b, CutSt (2 * q) Ny Nz (q - 1) q a b →
      ¬ CutH (2 * q) Ny Nz (q - 1) q (oneStep (build (computeGrid (2 * q) Ny Nz x y z) bc ieps imu sigma dt uc) a).H
        (oneStep (build (computeGrid (q + 1) Ny Nz (fun i => x (q - 1 + i)) y z) { bc with xlo := "pmc" } ieps' imu' sigma' dt uc') b).H := by
  have one : ∀ (s : Solver K) (st : State K), st.step0 = false → oneStep s st = advance s st := by
    intro s st hst
    unfold oneStep
    rw [hst]
    rfl
  have inj : ∀ m, m < 2 * q → ∀ c a j k, a < 2 * q → j < Ny → k < Nz → (pos (2 * q) Ny Nz c a j k = pos (2 * q) Ny Nz 2 m 1 0 ↔ c = 2 ∧ a = m ∧ j = 1 ∧ k = 0) := fun m hm c a j k h1 h2 h3 =>
    ⟨fun e => Mpi.pos_inj h1 h2 h3 hm (by omega) (by omega) e, by rintro ⟨rfl, rfl, rfl, rfl⟩; rfl⟩
  let E : Vec K := fun r => if r = pos (2 * q) Ny Nz 2 q 1 0 ∨ r = pos (2 * q) Ny Nz 2 (q - 1) 1 0 then 1 else 0
  have hE : ∀ c a j k, a < 2 * q → j < Ny → k < Nz → E (pos (2 * q) Ny Nz c a j k) = if c = 2 ∧ (a = q ∨ a = q - 1) ∧ j = 1 ∧ k = 0 then 1 else 0 := by
    intro c a j k h1 h2 h3
    refine if_congr ?_ rfl rfl
    rw [inj q (by omega) c a j k h1 h2 h3, inj (q - 1) (by omega) c a j k h1 h2 h3]
    omega
  refine ⟨⟨E, fun _ => 0, fun _ => 0, false⟩, ⟨⟨?_, ?_, ?_⟩, ⟨fun _ _ _ _ _ _ => (mul_zero _).symm, fun _ _ _ _ _ _ => (mul_zero _).symm, fun _ _ _ _ _ _ => (mul_zero _).symm⟩,
    ⟨fun _ _ _ _ _ _ => (mul_zero _).symm, fun _ _ _ _ _ _ => (mul_zero _).symm, fun _ _ _ _ _ _ => (mul_zero _).symm⟩, rfl⟩, ?_⟩
  · intro i hi j hj k hk
    dsimp only
    rw [hE 0 _ j k (by omega) hj hk, hE 0 _ j k (by omega) hj hk, if_neg (by omega), if_neg (by omega), mul_zero]
  · intro i hi j hj k hk
    dsimp only
    rw [hE 1 _ j k (by omega) hj hk, hE 1 _ j k (by omega) hj hk, if_neg (by omega), if_neg (by omega), mul_zero]
  · intro i hi j hj k hk
    dsimp only
    rw [hE 2 _ j k (by omega) hj hk, hE 2 _ j k (by omega) hj hk, one_mul]
    refine if_congr ?_ rfl rfl
    omega
  · intro b hb hH
    have eq := hH 1 (by decide) 1 (by omega) (by omega) 1 (by omega) 0 (by omega)
    have b0 : b.H (pos (q + 1) Ny Nz 1 1 1 0) = 0 := hb.H 1 (by decide) 1 (by omega) (by omega) 1 (by omega) 0 (by omega)
    have hs : b.step0 = false := hb.step0
    have hany : anyFace isPmcAny { bc with xlo := "pmc" } = true := anyFace_of (axis := 0) (s := .lo) (by show isPmcAny "pmc" = true; decide)
    have frozen : (oneStep (build (computeGrid (q + 1) Ny Nz (fun i => x (q - 1 + i)) y z) { bc with xlo := "pmc" } ieps' imu' sigma' dt uc') b).H (pos (q + 1) Ny Nz 1 1 1 0) = b.H (pos (q + 1) Ny Nz 1 1 1 0) := by
      refine C26_pec_faces_frozen (computeGrid (q + 1) Ny Nz (fun i => x (q - 1 + i)) y z) { bc with xlo := "pmc" } ieps' imu' sigma' dt uc' hany (axis := 2) (c := 1) (i := 1) (j := 1) (k := 0) (s := .lo) (by decide) (by decide) (by decide)
        (show 1 < q + 1 by omega) (show 1 < Ny by omega) (show 0 < Nz by omega) rfl ?_ b hs [.step] (fun e he => ?_)
      · intro a s' ha hne hon
        right
        have : a = 0 ∨ a = 2 := by omega
        rcases this with rfl | rfl
        · exfalso
          cases s'
          · have : (1 : ℕ) = 0 := hon
            omega
          · have : (1 : ℕ) = q + 1 - 1 := hon
            omega
        · have := h 2 s' (by decide)
          cases s' <;> exact this
      · rw [List.mem_singleton.1 he]
        trivial
    rw [frozen, b0, one _ _ rfl, show q - 1 + 1 = q by omega] at eq
    have full := closed_H (computeGrid (2 * q) Ny Nz x y z) ieps imu sigma dt uc h ⟨E, fun _ => 0, fun _ => 0, false⟩ (c := 1) (by decide) (show q < 2 * q by omega) (show 1 < Ny by omega) (show 0 < Nz by omega)
    have hc : ∀ c a k, a ≤ 2 * q → k ≤ Nz → ¬ (c = 2 ∧ (a = q ∨ a = q - 1) ∧ k = 0) →
        view0 (2 * q) Ny Nz (fun r => colMask (computeGrid (2 * q) Ny Nz x y z) bc r * ((computeGrid (2 * q) Ny Nz x y z).L.array r * E r)) c a 1 k = 0 := by
      intro c a k ha hk hne
      unfold view0
      split_ifs with hr
      · simp only
        rw [hE c a 1 k hr.1 hr.2.1 hr.2.2, if_neg (by omega), mul_zero, mul_zero]
      · rfl
    have hv : view0 (2 * q) Ny Nz (fun r => colMask (computeGrid (2 * q) Ny Nz x y z) bc r * ((computeGrid (2 * q) Ny Nz x y z).L.array r * E r)) 2 q 1 0 = z 1 - z 0 := by
      unfold view0
      rw [if_pos ⟨by omega, by omega, by omega⟩]
      simp only
      rw [hE 2 q 1 0 (by omega) (by omega) (by omega), if_pos (by omega), mul_one]
      rw [show colMask (computeGrid (2 * q) Ny Nz x y z) bc (pos (2 * q) Ny Nz 2 q 1 0) = 1 from
        (mask_of_wall (computeGrid (2 * q) Ny Nz x y z) h (by decide) (show q < 2 * q by omega) (show 1 < Ny by omega) (show 0 < Nz by omega)).trans (if_neg (by
          show ¬ (((2 : ℕ) ≠ 0 ∧ (q = 0 ∨ q = 2 * q - 1)) ∨ ((2 : ℕ) ≠ 1 ∧ ((1 : ℕ) = 0 ∨ 1 = Ny - 1)) ∨ ((2 : ℕ) ≠ 2 ∧ ((0 : ℕ) = 0 ∨ 0 = Nz - 1)))
          omega)), one_mul]
      exact diffField_at3 (c := 2) x y z (by decide) (show q < 2 * q by omega) (show 1 < Ny by omega) (show 0 < Nz by omega)
    have hcirc : circ (view0 (2 * q) Ny Nz (fun r => colMask (computeGrid (2 * q) Ny Nz x y z) bc r * ((computeGrid (2 * q) Ny Nz x y z).L.array r * E r))) 1 q 1 0 = z 1 - z 0 := by
      simp only [circ, one_ne_zero, if_false, if_true]
      rw [hv, hc 0 q 0 (by omega) (by omega) (by omega), hc 0 q (0 + 1) (by omega) (by omega) (by omega), hc 2 (q + 1) 0 (by omega) (by omega) (by omega)]
      ring
    have hi : (computeGrid (2 * q) Ny Nz x y z).iA.array (pos (2 * q) Ny Nz 1 q 1 0) ≠ 0 := by
      rw [iA_cell _ _ _ _ _ _ (by decide) (show q < 2 * q by omega) (show 1 < Ny by omega) (show 0 < Nz by omega)]
      have e0 : (diffField (2 * q) Ny Nz x y z).array (pos (2 * q) Ny Nz 0 q 1 0) = x (q + 1) - x q := diffField_at3 (c := 0) x y z (by decide) (show q < 2 * q by omega) (show 1 < Ny by omega) (show 0 < Nz by omega)
      have e2 : (diffField (2 * q) Ny Nz x y z).array (pos (2 * q) Ny Nz 2 q 1 0) = z 1 - z 0 := diffField_at3 (c := 2) x y z (by decide) (show q < 2 * q by omega) (show 1 < Ny by omega) (show 0 < Nz by omega)
      have ne : (diffField (2 * q) Ny Nz x y z).array (pos (2 * q) Ny Nz (others 1).1 q 1 0) ≠ 0 ∧ (diffField (2 * q) Ny Nz x y z).array (pos (2 * q) Ny Nz (others 1).2 q 1 0) ≠ 0 := by
        simp only [others, one_ne_zero, if_false, if_true, e0, e2]
        exact ⟨by assumption, by assumption⟩
      exact one_div_ne_zero (mul_ne_zero ne.1 ne.2)
    have full' : (0 : K) = 0 - dt * ((computeGrid (2 * q) Ny Nz x y z).iA.array (pos (2 * q) Ny Nz 1 q 1 0) * imu (pos (2 * q) Ny Nz 1 q 1 0) * (z 1 - z 0)) := by
      rw [← hcirc]
      exact eq.trans full
    have := mul_ne_zero hdt (mul_ne_zero (mul_ne_zero hi hmu) hdz)
    apply this
    linear_combination full'

/-- **C123 (electric symmetry plane).** Any number of steps without assignments between them. -/
theorem C123_free_partial [DecidableEq K] (h2 : (2 : K) ≠ 0) {p Ny Nz o : ℕ} (ho : o = 0 ∨ o = p) {x y z : ℕ → K} {d : K} (hd : ∀ i < 2 * p + 1, x (i + 1) - x i = d) {bc bc' : Faces String} (h : PecLike bc) (h' : PecLike bc')
    {ieps imu sigma ieps' imu' sigma' : Vec K} (se : MirrorE (2 * p + 1) Ny Nz 1 ieps ieps) (sm : MirrorH (2 * p + 1) Ny Nz 1 imu imu) (ss : MirrorE (2 * p + 1) Ny Nz 1 sigma sigma) (dt : K) {uc uc' : Bool}
    (he : CutE (2 * p + 1) Ny Nz o p ieps ieps') (hm : CutH (2 * p + 1) Ny Nz o p imu imu') (hs : CutE (2 * p + 1) Ny Nz o p sigma sigma')
    (huc : (build (computeGrid (p + 1) Ny Nz (fun i => x (o + i)) y z) bc' ieps' imu' sigma' dt uc').useConductivity = (build (computeGrid (2 * p + 1) Ny Nz x y z) bc ieps imu sigma dt uc).useConductivity)
    {a b : State K} (a0 : Antisymmetric (2 * p + 1) Ny Nz a) (h0 : CutSt (2 * p + 1) Ny Nz o p a b) (N : ℕ) :
    CutSt (2 * p + 1) Ny Nz o p ((oneStep (build (computeGrid (2 * p + 1) Ny Nz x y z) bc ieps imu sigma dt uc))^[N] a)
      ((oneStep (build (computeGrid (p + 1) Ny Nz (fun i => x (o + i)) y z) bc' ieps' imu' sigma' dt uc'))^[N] b) :=
  C123_symmetry_plane_partial h2 ho hd h h' se sm ss dt he hm hs huc (N := N)
    (S := fun n => (oneStep (build (computeGrid (2 * p + 1) Ny Nz x y z) bc ieps imu sigma dt uc))^[n] a) (D := fun n => (oneStep (build (computeGrid (2 * p + 1) Ny Nz x y z) bc ieps imu sigma dt uc))^[n] a)
    (S' := fun n => (oneStep (build (computeGrid (p + 1) Ny Nz (fun i => x (o + i)) y z) bc' ieps' imu' sigma' dt uc'))^[n] b) (D' := fun n => (oneStep (build (computeGrid (p + 1) Ny Nz (fun i => x (o + i)) y z) bc' ieps' imu' sigma' dt uc'))^[n] b)
    ⟨fun m _ => Function.iterate_succ_apply' _ _ _, fun _ _ => rfl⟩ ⟨fun m _ => Function.iterate_succ_apply' _ _ _, fun _ _ => rfl⟩ a0 (fun _ _ h => h) h0 (fun _ _ h => h)

/-! ### Cases -/

theorem conducts_eq (g : Geom K) (bc : Faces String) (ieps imu sigma : Vec K) (dt : K) (uc : Bool) [DecidableEq K] : (build g bc ieps imu sigma dt uc).useConductivity = (anyFace isPml bc || uc) := rfl

theorem mirrorE_const (Nx Ny Nz : ℕ) (a : K) : MirrorE Nx Ny Nz 1 (fun _ => a) (fun _ => a) := ⟨fun _ _ _ _ _ _ => (one_mul _).symm, fun _ _ _ _ _ _ => (one_mul _).symm, fun _ _ _ _ _ _ => (one_mul _).symm⟩
theorem mirrorH_const (Nx Ny Nz : ℕ) (a : K) : MirrorH Nx Ny Nz 1 (fun _ => a) (fun _ => a) := ⟨fun _ _ _ _ _ _ => (one_mul _).symm, fun _ _ _ _ _ _ => (one_mul _).symm, fun _ _ _ _ _ _ => (one_mul _).symm⟩

/-- A lossy box of 5 × 3 × 4 cells, graded in z, with two opposite currents at the nodes 1 and 3 of the x axis: its upper half is the box of 3 × 3 × 4 cells with the second current, for any number of steps. -/
example (N : ℕ) : CutSt 5 3 4 2 2
    ((oneStep (build (computeGrid 5 3 4 (fun i => (i : ℚ) / 3) (fun i => (i : ℚ)) fun i => (i : ℚ) ^ 2) ⟨"pec", "pec", "pec", "pec", "pec", "pec"⟩ (fun _ => 1) (fun _ => 2) (fun _ => 3) (1 / 8) false))^[N]
      ⟨fun _ => 0, fun _ => 0, fun r => if r = pos 5 3 4 2 1 1 1 then -7 else if r = pos 5 3 4 2 3 1 1 then 7 else 0, true⟩)
    ((oneStep (build (computeGrid 3 3 4 (fun i => ((2 + i : ℕ) : ℚ) / 3) (fun i => (i : ℚ)) fun i => (i : ℚ) ^ 2) ⟨"pec", "pec", "pec", "pec", "pec", "pec"⟩ (fun _ => 1) (fun _ => 2) (fun _ => 3) (1 / 8) false))^[N]
      ⟨fun _ => 0, fun _ => 0, fun r => if r = pos 3 3 4 2 1 1 1 then 7 else 0, true⟩) := by
  have hp : PecLike ⟨"pec", "pec", "pec", "pec", "pec", "pec"⟩ := by intro a s ha; interval_cases a <;> cases s <;> decide
  refine C123_free_partial (p := 2) (o := 2) (x := fun i => (i : ℚ) / 3) (d := 1 / 3) (by norm_num) (.inr rfl) (fun i _ => by push_cast; ring) hp hp (mirrorE_const ..) (mirrorH_const ..) (mirrorE_const ..) (1 / 8)
    (fun _ _ _ _ _ _ _ _ _ => rfl) (fun _ _ _ _ _ _ _ _ _ => rfl) (fun _ _ _ _ _ _ _ _ _ => rfl) ?_ ?_ ?_ N
  · exact (conducts_eq ..).trans (conducts_eq ..).symm
  · refine ⟨⟨fun _ _ _ _ _ _ => ?_, fun _ _ _ _ _ _ => ?_, fun _ _ _ _ _ _ => ?_⟩, ⟨fun _ _ _ _ _ _ => ?_, fun _ _ _ _ _ _ => ?_, fun _ _ _ _ _ _ => ?_⟩, ⟨?_, ?_, ?_⟩, rfl⟩
    iterate 6 · show -(0 : ℚ) = _ * 0; norm_num
    · intro i hi j hj k hk
      have : i < 4 := by omega
      interval_cases i <;> interval_cases j <;> interval_cases k <;> simp [pos, fl, opposite]
    · intro i hi j hj k hk
      interval_cases i <;> interval_cases j <;> interval_cases k <;> simp [pos, fl, opposite]
    · intro i hi j hj k hk
      interval_cases i <;> interval_cases j <;> interval_cases k <;> simp [pos, fl, opposite]
  · refine ⟨fun _ _ _ _ _ _ _ _ _ => rfl, fun _ _ _ _ _ _ _ _ _ => rfl, ?_, rfl⟩
    intro c hc i hi _ j hj k hk
    interval_cases c <;> interval_cases i <;> interval_cases j <;> interval_cases k <;> simp [pos, fl]

/-- Four nodes, unit cells. -/
example : ∃ a : State ℚ, MirrorSt 4 3 3 a a ∧ ∀ b, CutSt 4 3 3 1 2 a b →
    ¬ CutH 4 3 3 1 2 (oneStep (build (computeGrid 4 3 3 (fun i => (i : ℚ)) (fun i => (i : ℚ)) fun i => (i : ℚ)) ⟨"pec", "pec", "pec", "pec", "pec", "pec"⟩ (fun _ => 1) (fun _ => 1) (fun _ => 0) (1 / 2) false) a).H
      (oneStep (build (computeGrid 3 3 3 (fun i => ((1 + i : ℕ) : ℚ)) (fun i => (i : ℚ)) fun i => (i : ℚ)) ⟨"pmc", "pec", "pec", "pec", "pec", "pec"⟩ (fun _ => 1) (fun _ => 1) (fun _ => 0) (1 / 2) false) b).H :=
  C123_magnetic_refuted (q := 2) (x := fun i => (i : ℚ)) (by decide) (by decide) (by decide) (by norm_num) (by norm_num) (bc := ⟨"pec", "pec", "pec", "pec", "pec", "pec"⟩) (by intro a s ha; interval_cases a <;> cases s <;> decide)
    (by norm_num) (by norm_num)

end Sol
end Wakis
