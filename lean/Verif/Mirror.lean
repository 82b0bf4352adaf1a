import Verif.Axes

/-!
# C120: mirror images

A closed model and its mirror image in x have mirrored fields.  The wall faces are at the nodes `0` and `Nx - 1`: the last layer of cells lies behind the high wall, so node `i` is mirrored to
`Nx - 1 - i` and cell `i` to `Nx - 2 - i`.
-/

namespace Wakis
namespace Sol
open Sparse Grid
variable {K : Type _} [Field K]
set_option linter.unusedSimpArgs false

/-! ### Specification -/

/-- Component `c`, which sits at the nodes of the x axis, of `v'` is `τ` times the mirror image of that of `v`. -/
def MirrorNode (Nx Ny Nz c : ℕ) (τ : K) (v v' : Vec K) : Prop := ∀ i < Nx, ∀ j < Ny, ∀ k < Nz, v' (pos Nx Ny Nz c i j k) = τ * v (pos Nx Ny Nz c (Nx - 1 - i) j k)

/-- Component `c`, which sits in the middle of the cells of the x axis, of `v'` is `τ` times the mirror image of that of `v`. -/
def MirrorCell (Nx Ny Nz c : ℕ) (τ : K) (v v' : Vec K) : Prop := ∀ i, i + 1 < Nx → ∀ j < Ny, ∀ k < Nz, v' (pos Nx Ny Nz c i j k) = τ * v (pos Nx Ny Nz c (Nx - 2 - i) j k)

/-- Quantities at the positions of E (permittivity, conductivity), with the sign `τ` for the x component. -/
structure MirrorE (Nx Ny Nz : ℕ) (τ : K) (v v' : Vec K) : Prop where
  x : MirrorCell Nx Ny Nz 0 τ v v'
  y : MirrorNode Nx Ny Nz 1 1 v v'
  z : MirrorNode Nx Ny Nz 2 1 v v'

/-- Quantities at the positions of H (permeability), with the sign `τ` for the y and z components. -/
structure MirrorH (Nx Ny Nz : ℕ) (τ : K) (v v' : Vec K) : Prop where
  x : MirrorNode Nx Ny Nz 0 1 v v'
  y : MirrorCell Nx Ny Nz 1 τ v v'
  z : MirrorCell Nx Ny Nz 2 τ v v'

/-- Mirrored fields: E and J have the opposite x component, H the opposite y and z components. -/
structure MirrorSt (Nx Ny Nz : ℕ) (a b : State K) : Prop where
  E : MirrorE Nx Ny Nz (-1) a.E b.E
  H : MirrorH Nx Ny Nz (-1) a.H b.H
  J : MirrorE Nx Ny Nz (-1) a.J b.J
  step0 : b.step0 = a.step0

/-- The face names of the mirror image. -/
def mirrorFaces (bc : Faces String) : Faces String := ⟨bc.xhi, bc.xlo, bc.ylo, bc.yhi, bc.zlo, bc.zhi⟩

/-! ### The grid -/

/-- What the mirror image needs of the grid. -/
structure MirrorGrid (g : Geom K) : Prop where
  L0 : ∀ i, i + 1 < g.Nx → ∀ j < g.Ny, ∀ k < g.Nz, g.L.array (pos g.Nx g.Ny g.Nz 0 i j k) = g.L.array (pos g.Nx g.Ny g.Nz 0 (g.Nx - 2 - i) j k)
  L1 : ∀ i < g.Nx, ∀ j < g.Ny, ∀ k < g.Nz, g.L.array (pos g.Nx g.Ny g.Nz 1 i j k) = g.L.array (pos g.Nx g.Ny g.Nz 1 (g.Nx - 1 - i) j k)
  L2 : ∀ i < g.Nx, ∀ j < g.Ny, ∀ k < g.Nz, g.L.array (pos g.Nx g.Ny g.Nz 2 i j k) = g.L.array (pos g.Nx g.Ny g.Nz 2 (g.Nx - 1 - i) j k)
  iA0 : ∀ i < g.Nx, ∀ j < g.Ny, ∀ k < g.Nz, g.iA.array (pos g.Nx g.Ny g.Nz 0 i j k) = g.iA.array (pos g.Nx g.Ny g.Nz 0 (g.Nx - 1 - i) j k)
  iA1 : ∀ i, i + 1 < g.Nx → ∀ j < g.Ny, ∀ k < g.Nz, g.iA.array (pos g.Nx g.Ny g.Nz 1 i j k) = g.iA.array (pos g.Nx g.Ny g.Nz 1 (g.Nx - 2 - i) j k)
  iA2 : ∀ i, i + 1 < g.Nx → ∀ j < g.Ny, ∀ k < g.Nz, g.iA.array (pos g.Nx g.Ny g.Nz 2 i j k) = g.iA.array (pos g.Nx g.Ny g.Nz 2 (g.Nx - 2 - i) j k)
  tL0 : ∀ i, 0 < i → i + 1 < g.Nx → ∀ j < g.Ny, ∀ k < g.Nz, g.tL.array (pos g.Nx g.Ny g.Nz 0 i j k) = g.tL.array (pos g.Nx g.Ny g.Nz 0 (g.Nx - 1 - i) j k)
  tL1 : ∀ i, i + 1 < g.Nx → ∀ j < g.Ny, ∀ k < g.Nz, g.tL.array (pos g.Nx g.Ny g.Nz 1 i j k) = g.tL.array (pos g.Nx g.Ny g.Nz 1 (g.Nx - 2 - i) j k)
  tL2 : ∀ i, i + 1 < g.Nx → ∀ j < g.Ny, ∀ k < g.Nz, g.tL.array (pos g.Nx g.Ny g.Nz 2 i j k) = g.tL.array (pos g.Nx g.Ny g.Nz 2 (g.Nx - 2 - i) j k)
  itA0 : ∀ i, i + 1 < g.Nx → ∀ j < g.Ny, ∀ k < g.Nz, g.itA.array (pos g.Nx g.Ny g.Nz 0 i j k) = g.itA.array (pos g.Nx g.Ny g.Nz 0 (g.Nx - 2 - i) j k)
  itA1 : ∀ i, 0 < i → i + 1 < g.Nx → ∀ j < g.Ny, ∀ k < g.Nz, g.itA.array (pos g.Nx g.Ny g.Nz 1 i j k) = g.itA.array (pos g.Nx g.Ny g.Nz 1 (g.Nx - 1 - i) j k)
  itA2 : ∀ i, 0 < i → i + 1 < g.Nx → ∀ j < g.Ny, ∀ k < g.Nz, g.itA.array (pos g.Nx g.Ny g.Nz 2 i j k) = g.itA.array (pos g.Nx g.Ny g.Nz 2 (g.Nx - 1 - i) j k)

/-- A grid with equal steps in x has them (the steps in y and z are free). -/
theorem mirrorGrid_equal [DecidableEq K] (Nx Ny Nz : ℕ) (x y z : ℕ → K) {d : K} (hd : ∀ i < Nx, x (i + 1) - x i = d) : MirrorGrid (computeGrid Nx Ny Nz x y z) := by
  have L : ∀ c < 3, ∀ i < Nx, ∀ j < Ny, ∀ k < Nz, (computeGrid Nx Ny Nz x y z).L.array (pos Nx Ny Nz c i j k) = if c = 0 then d else if c = 1 then y (j + 1) - y j else z (k + 1) - z k := by
    intro c hc i hi j hj k hk
    refine (diffField_at3 x y z hc hi hj hk).trans ?_
    rw [hd i hi]
  have T : ∀ c < 3, ∀ i < Nx, ∀ j < Ny, ∀ k < Nz, (computeGrid Nx Ny Nz x y z).tL.array (pos Nx Ny Nz c i j k) =
      if c = 0 then tilde x Nx (i + 1) - tilde x Nx i else if c = 1 then tilde y Ny (j + 1) - tilde y Ny j else tilde z Nz (k + 1) - tilde z Nz k :=
    fun c hc i hi j hj k hk => diffField_at3 _ _ _ hc hi hj hk
  have T0 : ∀ i, i + 1 < Nx → tilde x Nx (i + 1) - tilde x Nx i = (d + d) / 2 := by
    intro i hi
    unfold tilde
    rw [if_pos hi, if_pos (by omega), ← sub_div, ← hd i (by omega)]
    nth_rewrite 1 [hd i (by omega), ← hd (i + 1) hi]
    ring
  have A := fun {c} (hc : c < 3) {i} (hi : i < Nx) {j} (hj : j < Ny) {k} (hk : k < Nz) => iA_cell Nx Ny Nz x y z hc hi hj hk
  have B := fun {c} (hc : c < 3) {i} (hi : i < Nx) {j} (hj : j < Ny) {k} (hk : k < Nz) => itA_cell Nx Ny Nz x y z hc hi hj hk
  constructor
  · intro i hi j hj k hk
    have hi : i + 1 < Nx := hi
    exact (L 0 (by decide) i (by omega) j hj k hk).trans (L 0 (by decide) (Nx - 2 - i) (by omega) j hj k hk).symm
  · intro i hi j hj k hk
    have hi : i < Nx := hi
    exact (L 1 (by decide) i (by omega) j hj k hk).trans (L 1 (by decide) (Nx - 1 - i) (by omega) j hj k hk).symm
  · intro i hi j hj k hk
    have hi : i < Nx := hi
    exact (L 2 (by decide) i (by omega) j hj k hk).trans (L 2 (by decide) (Nx - 1 - i) (by omega) j hj k hk).symm
  · intro i hi j hj k hk
    have hi : i < Nx := hi
    refine (A (c := 0) (by decide) hi hj hk).trans (Eq.trans ?_ (A (c := 0) (by decide) (show Nx - 1 - i < Nx by omega) hj hk).symm)
    exact congrArg₂ (fun a b => 1 / (a * b)) ((L 1 (by decide) i (by omega) j hj k hk).trans (L 1 (by decide) (Nx - 1 - i) (by omega) j hj k hk).symm) ((L 2 (by decide) i (by omega) j hj k hk).trans (L 2 (by decide) (Nx - 1 - i) (by omega) j hj k hk).symm)
  · intro i hi j hj k hk
    have hi : i + 1 < Nx := hi
    refine (A (c := 1) (by decide) (show i < Nx by omega) hj hk).trans (Eq.trans ?_ (A (c := 1) (by decide) (show Nx - 2 - i < Nx by omega) hj hk).symm)
    exact congrArg₂ (fun a b => 1 / (a * b)) ((L 0 (by decide) i (by omega) j hj k hk).trans (L 0 (by decide) (Nx - 2 - i) (by omega) j hj k hk).symm) ((L 2 (by decide) i (by omega) j hj k hk).trans (L 2 (by decide) (Nx - 2 - i) (by omega) j hj k hk).symm)
  · intro i hi j hj k hk
    have hi : i + 1 < Nx := hi
    refine (A (c := 2) (by decide) (show i < Nx by omega) hj hk).trans (Eq.trans ?_ (A (c := 2) (by decide) (show Nx - 2 - i < Nx by omega) hj hk).symm)
    exact congrArg₂ (fun a b => 1 / (a * b)) ((L 0 (by decide) i (by omega) j hj k hk).trans (L 0 (by decide) (Nx - 2 - i) (by omega) j hj k hk).symm) ((L 1 (by decide) i (by omega) j hj k hk).trans (L 1 (by decide) (Nx - 2 - i) (by omega) j hj k hk).symm)
  · intro i h0 hi j hj k hk
    have hi : i + 1 < Nx := hi
    refine (T 0 (by decide) i (by omega) j hj k hk).trans (Eq.trans ?_ (T 0 (by decide) (Nx - 1 - i) (by omega) j hj k hk).symm)
    exact (T0 i hi).trans (T0 (Nx - 1 - i) (by omega)).symm
  · intro i hi j hj k hk
    have hi : i + 1 < Nx := hi
    exact (T 1 (by decide) i (by omega) j hj k hk).trans (T 1 (by decide) (Nx - 2 - i) (by omega) j hj k hk).symm
  · intro i hi j hj k hk
    have hi : i + 1 < Nx := hi
    exact (T 2 (by decide) i (by omega) j hj k hk).trans (T 2 (by decide) (Nx - 2 - i) (by omega) j hj k hk).symm
  · intro i hi j hj k hk
    have hi : i + 1 < Nx := hi
    refine (B (c := 0) (by decide) (show i < Nx by omega) hj hk).trans (Eq.trans ?_ (B (c := 0) (by decide) (show Nx - 2 - i < Nx by omega) hj hk).symm)
    exact congrArg₂ (fun a b => guardedInv (a * b)) ((T 1 (by decide) i (by omega) j hj k hk).trans (T 1 (by decide) (Nx - 2 - i) (by omega) j hj k hk).symm) ((T 2 (by decide) i (by omega) j hj k hk).trans (T 2 (by decide) (Nx - 2 - i) (by omega) j hj k hk).symm)
  · intro i h0 hi j hj k hk
    have hi : i + 1 < Nx := hi
    refine (B (c := 1) (by decide) (show i < Nx by omega) hj hk).trans (Eq.trans ?_ (B (c := 1) (by decide) (show Nx - 1 - i < Nx by omega) hj hk).symm)
    exact congrArg₂ (fun a b => guardedInv (a * b)) ((T 0 (by decide) i (by omega) j hj k hk).trans (((T0 i hi).trans (T0 (Nx - 1 - i) (by omega)).symm).trans (T 0 (by decide) (Nx - 1 - i) (by omega) j hj k hk).symm))
      ((T 2 (by decide) i (by omega) j hj k hk).trans (T 2 (by decide) (Nx - 1 - i) (by omega) j hj k hk).symm)
  · intro i h0 hi j hj k hk
    have hi : i + 1 < Nx := hi
    refine (B (c := 2) (by decide) (show i < Nx by omega) hj hk).trans (Eq.trans ?_ (B (c := 2) (by decide) (show Nx - 1 - i < Nx by omega) hj hk).symm)
    exact congrArg₂ (fun a b => guardedInv (a * b)) ((T 0 (by decide) i (by omega) j hj k hk).trans (((T0 i hi).trans (T0 (Nx - 1 - i) (by omega)).symm).trans (T 0 (by decide) (Nx - 1 - i) (by omega) j hj k hk).symm))
      ((T 1 (by decide) i (by omega) j hj k hk).trans (T 1 (by decide) (Nx - 1 - i) (by omega) j hj k hk).symm)

/-! ### One step -/

section
variable {g : Geom K} (M : MirrorGrid g) {bc bc' : Faces String} (h : PecLike bc) (h' : PecLike bc') {ieps imu sigma ieps' imu' sigma' : Vec K} (dt : K) {uc uc' : Bool}
  (he : MirrorE g.Nx g.Ny g.Nz 1 ieps ieps') (hm : MirrorH g.Nx g.Ny g.Nz 1 imu imu') (hs : MirrorE g.Nx g.Ny g.Nz 1 sigma sigma')

include h h' in
/-- The masks are mirrored: at nodes for y and z components, in cells for x components. -/
theorem mask_mirror {c i j k : ℕ} (hj : j < g.Ny) (hk : k < g.Nz) :
    (c = 1 ∨ c = 2 → i < g.Nx → colMask g bc' (pos g.Nx g.Ny g.Nz c i j k) = colMask g bc (pos g.Nx g.Ny g.Nz c (g.Nx - 1 - i) j k)) ∧
    (c = 0 → i + 1 < g.Nx → colMask g bc' (pos g.Nx g.Ny g.Nz c i j k) = colMask g bc (pos g.Nx g.Ny g.Nz c (g.Nx - 2 - i) j k)) := by
  constructor
  · intro hc hi
    rw [mask_of_wall g h' (by omega) hi hj hk, mask_of_wall g h (by omega) (by omega) hj hk]
    exact if_congr (by omega) rfl rfl
  · rintro rfl hi
    rw [mask_of_wall g h' (by omega) (by omega) hj hk, mask_of_wall g h (by omega) (by omega) hj hk]
    exact if_congr (by omega) rfl rfl

include M h h' hm in
theorem mirror_H {a b : State K} (hE : MirrorE g.Nx g.Ny g.Nz (-1) a.E b.E) (hH : MirrorH g.Nx g.Ny g.Nz (-1) a.H b.H) :
    MirrorH g.Nx g.Ny g.Nz (-1) (advance (build g bc ieps imu sigma dt uc) a).H (advance (build g bc' ieps' imu' sigma' dt uc') b).H := by
  have v0 : ∀ i j k, i + 1 < g.Nx → view0 g.Nx g.Ny g.Nz (fun q => colMask g bc' q * (g.L.array q * b.E q)) 0 i j k = -view0 g.Nx g.Ny g.Nz (fun q => colMask g bc q * (g.L.array q * a.E q)) 0 (g.Nx - 2 - i) j k := by
    intro i j k hi
    unfold view0
    by_cases hr : j < g.Ny ∧ k < g.Nz
    · rw [if_pos ⟨by omega, hr⟩, if_pos ⟨by omega, hr⟩]
      simp only
      rw [(mask_mirror h h' hr.1 hr.2).2 rfl hi, M.L0 i hi j hr.1 k hr.2, hE.x i hi j hr.1 k hr.2]
      ring
    · rw [if_neg (fun e => hr e.2), if_neg (fun e => hr e.2), neg_zero]
  have v1 : ∀ c, c = 1 ∨ c = 2 → ∀ i j k, i < g.Nx → view0 g.Nx g.Ny g.Nz (fun q => colMask g bc' q * (g.L.array q * b.E q)) c i j k = view0 g.Nx g.Ny g.Nz (fun q => colMask g bc q * (g.L.array q * a.E q)) c (g.Nx - 1 - i) j k := by
    intro c hc i j k hi
    unfold view0
    by_cases hr : j < g.Ny ∧ k < g.Nz
    · rw [if_pos ⟨by omega, hr⟩, if_pos ⟨by omega, hr⟩]
      simp only
      rw [(mask_mirror h h' hr.1 hr.2).1 hc hi]
      rcases hc with rfl | rfl
      · rw [M.L1 i hi j hr.1 k hr.2, hE.y i hi j hr.1 k hr.2, one_mul]
      · rw [M.L2 i hi j hr.1 k hr.2, hE.z i hi j hr.1 k hr.2, one_mul]
    · rw [if_neg (fun e => hr e.2), if_neg (fun e => hr e.2)]
  constructor
  · intro i hi j hj k hk
    rw [closed_H g ieps' imu' sigma' dt uc' h' b (by decide) hi hj hk, closed_H g ieps imu sigma dt uc h a (by decide) (by omega) hj hk, hH.x i hi j hj k hk, M.iA0 i hi j hj k hk, hm.x i hi j hj k hk]
    simp only [circ, if_true, v1 1 (.inl rfl) _ _ _ hi, v1 2 (.inr rfl) _ _ _ hi, one_mul]
  · intro i hi j hj k hk
    rw [closed_H g ieps' imu' sigma' dt uc' h' b (by decide) (by omega) hj hk, closed_H g ieps imu sigma dt uc h a (by decide) (by omega) hj hk, hH.y i hi j hj k hk, M.iA1 i hi j hj k hk, hm.y i hi j hj k hk]
    simp only [circ, if_true, one_ne_zero, if_false, v1 2 (.inr rfl) i _ _ (by omega), v1 2 (.inr rfl) (i + 1) _ _ hi, v0 _ _ _ hi]
    rw [show g.Nx - 1 - (i + 1) = g.Nx - 2 - i by omega, show g.Nx - 1 - i = g.Nx - 2 - i + 1 by omega]
    ring
  · intro i hi j hj k hk
    rw [closed_H g ieps' imu' sigma' dt uc' h' b (by decide) (by omega) hj hk, closed_H g ieps imu sigma dt uc h a (by decide) (by omega) hj hk, hH.z i hi j hj k hk, M.iA2 i hi j hj k hk, hm.z i hi j hj k hk]
    simp only [circ, if_true, OfNat.ofNat_ne_zero, OfNat.ofNat_ne_one, if_false, v1 1 (.inl rfl) i _ _ (by omega), v1 1 (.inl rfl) (i + 1) _ _ hi, v0 _ _ _ hi]
    rw [show g.Nx - 1 - (i + 1) = g.Nx - 2 - i by omega, show g.Nx - 1 - i = g.Nx - 2 - i + 1 by omega]
    ring

include M h h' he hm hs in
theorem mirror_advance (huc : (build g bc' ieps' imu' sigma' dt uc').useConductivity = (build g bc ieps imu sigma dt uc).useConductivity) {a b : State K} (hab : MirrorSt g.Nx g.Ny g.Nz a b) :
    MirrorSt g.Nx g.Ny g.Nz (advance (build g bc ieps imu sigma dt uc) a) (advance (build g bc' ieps' imu' sigma' dt uc') b) := by
  have hH := mirror_H M h h' (ieps := ieps) (ieps' := ieps') (sigma := sigma) (sigma' := sigma') dt (uc := uc) (uc' := uc') hm hab.E hab.H
  have hE : MirrorE g.Nx g.Ny g.Nz (-1) (advance (build g bc ieps imu sigma dt uc) a).E (advance (build g bc' ieps' imu' sigma' dt uc') b).E := by
    constructor
    · intro i hi j hj k hk
      rw [closed_E g ieps' imu' sigma' dt uc' h' b (by decide) (by omega) hj hk, closed_E g ieps imu sigma dt uc h a (by decide) (by omega) hj hk, (pecLike_metric g h).1, (pecLike_metric g h).2, (pecLike_metric g h').1, (pecLike_metric g h').2,
        hab.E.x i hi j hj k hk, hab.J.x i hi j hj k hk, he.x i hi j hj k hk, M.itA0 i hi j hj k hk, (mask_mirror h h' hj hk).2 rfl hi]
      simp only [cocirc, if_true, view3]
      rw [M.tL2 i hi j hj k hk, M.tL2 i hi (j - 1) (by omega) k hk, M.tL1 i hi j hj k hk, M.tL1 i hi j hj (k - 1) (by omega), hH.z i hi j hj k hk, hH.z i hi (j - 1) (by omega) k hk, hH.y i hi j hj k hk, hH.y i hi j hj (k - 1) (by omega)]
      ring
    · intro i hi j hj k hk
      rw [closed_E g ieps' imu' sigma' dt uc' h' b (by decide) (by omega) hj hk, closed_E g ieps imu sigma dt uc h a (by decide) (by omega) hj hk, (pecLike_metric g h).1, (pecLike_metric g h).2, (pecLike_metric g h').1, (pecLike_metric g h').2,
        hab.E.y i hi j hj k hk, hab.J.y i hi j hj k hk, he.y i hi j hj k hk, (mask_mirror h h' hj hk).1 (.inl rfl) hi]
      by_cases hw : i = 0 ∨ i + 1 = g.Nx
      · rw [mask_of_wall g h (by decide) (by omega) hj hk, if_pos (.inl ⟨by decide, by omega⟩)]
        ring
      · rw [M.itA1 i (by omega) (by omega) j hj k hk]
        simp only [cocirc, if_true, one_ne_zero, if_false, view3]
        rw [M.tL0 i (by omega) (by omega) j hj k hk, M.tL0 i (by omega) (by omega) j hj (k - 1) (by omega), M.tL2 i (by omega) j hj k hk, M.tL2 (i - 1) (by omega) j hj k hk, hH.x i hi j hj k hk, hH.x i hi j hj (k - 1) (by omega),
          hH.z i (by omega) j hj k hk, hH.z (i - 1) (by omega) j hj k hk, show g.Nx - 2 - (i - 1) = g.Nx - 1 - i by omega, show g.Nx - 2 - i = g.Nx - 1 - i - 1 by omega]
        ring
    · intro i hi j hj k hk
      rw [closed_E g ieps' imu' sigma' dt uc' h' b (by decide) (by omega) hj hk, closed_E g ieps imu sigma dt uc h a (by decide) (by omega) hj hk, (pecLike_metric g h).1, (pecLike_metric g h).2, (pecLike_metric g h').1, (pecLike_metric g h').2,
        hab.E.z i hi j hj k hk, hab.J.z i hi j hj k hk, he.z i hi j hj k hk, (mask_mirror h h' hj hk).1 (.inr rfl) hi]
      by_cases hw : i = 0 ∨ i + 1 = g.Nx
      · rw [mask_of_wall g h (by decide) (by omega) hj hk, if_pos (.inl ⟨by decide, by omega⟩)]
        ring
      · rw [M.itA2 i (by omega) (by omega) j hj k hk]
        simp only [cocirc, if_true, OfNat.ofNat_ne_zero, OfNat.ofNat_ne_one, if_false, view3]
        rw [M.tL0 i (by omega) (by omega) j hj k hk, M.tL0 i (by omega) (by omega) (j - 1) (by omega) k hk, M.tL1 i (by omega) j hj k hk, M.tL1 (i - 1) (by omega) j hj k hk, hH.x i hi j hj k hk, hH.x i hi (j - 1) (by omega) k hk,
          hH.y i (by omega) j hj k hk, hH.y (i - 1) (by omega) j hj k hk, show g.Nx - 2 - (i - 1) = g.Nx - 1 - i by omega, show g.Nx - 2 - i = g.Nx - 1 - i - 1 by omega]
        ring
  refine ⟨hE, hH, ?_, hab.step0⟩
  show MirrorE g.Nx g.Ny g.Nz (-1) (if (build g bc ieps imu sigma dt uc).useConductivity then fun q => sigma q * (advance (build g bc ieps imu sigma dt uc) a).E q else a.J)
    (if (build g bc' ieps' imu' sigma' dt uc').useConductivity then fun q => sigma' q * (advance (build g bc' ieps' imu' sigma' dt uc') b).E q else b.J)
  rw [huc]
  split_ifs
  · constructor
    · intro i hi j hj k hk
      simp only [hE.x i hi j hj k hk, hs.x i hi j hj k hk]
      ring
    · intro i hi j hj k hk
      simp only [hE.y i hi j hj k hk, hs.y i hi j hj k hk]
      ring
    · intro i hi j hj k hk
      simp only [hE.z i hi j hj k hk, hs.z i hi j hj k hk]
      ring
  · exact hab.J

theorem mirror_ghosts {a b : State K} (hab : MirrorSt g.Nx g.Ny g.Nz a b) :
    MirrorSt g.Nx g.Ny g.Nz { setGhostsTo0 (build g bc ieps imu sigma dt uc) a with step0 := false } { setGhostsTo0 (build g bc' ieps' imu' sigma' dt uc') b with step0 := false } := by
  have eE : ∀ (bc : Faces String) (ieps imu sigma : Vec K) (uc : Bool) (st : State K) {c i j k : ℕ}, c < 3 → i < g.Nx → j < g.Ny → k < g.Nz → (setGhostsTo0 (build g bc ieps imu sigma dt uc) st).E (pos g.Nx g.Ny g.Nz c i j k) =
      if (c = 0 ∧ i = g.Nx - 1) ∨ (c = 1 ∧ j = g.Ny - 1) ∨ (c = 2 ∧ k = g.Nz - 1) then 0 else st.E (pos g.Nx g.Ny g.Nz c i j k) :=
    fun bc ieps imu sigma uc st c i j k hc hi hj hk => ghostE_at3 (f := (⟨g.Nx, g.Ny, g.Nz, st.E⟩ : Fld K)) (c := c) hi hj hk hc
  have eH : ∀ (bc : Faces String) (ieps imu sigma : Vec K) (uc : Bool) (st : State K) {c i j k : ℕ}, c < 3 → i < g.Nx → j < g.Ny → k < g.Nz → (setGhostsTo0 (build g bc ieps imu sigma dt uc) st).H (pos g.Nx g.Ny g.Nz c i j k) =
      if (c ≠ 0 ∧ i = g.Nx - 1) ∨ (c ≠ 1 ∧ j = g.Ny - 1) ∨ (c ≠ 2 ∧ k = g.Nz - 1) then 0 else st.H (pos g.Nx g.Ny g.Nz c i j k) :=
    fun bc ieps imu sigma uc st c i j k hc hi hj hk => ghostH_at3 (f := (⟨g.Nx, g.Ny, g.Nz, st.H⟩ : Fld K)) (c := c) hi hj hk hc
  refine ⟨⟨?_, ?_, ?_⟩, ⟨?_, ?_, ?_⟩, hab.J, rfl⟩
  · intro i hi j hj k hk
    rw [eE _ _ _ _ _ _ (by decide) (by omega) hj hk, eE _ _ _ _ _ _ (by decide) (by omega) hj hk, hab.E.x i hi j hj k hk, mul_ite, mul_zero]
    exact if_congr (by omega) rfl rfl
  · intro i hi j hj k hk
    rw [eE _ _ _ _ _ _ (by decide) (by omega) hj hk, eE _ _ _ _ _ _ (by decide) (by omega) hj hk, hab.E.y i hi j hj k hk, mul_ite, mul_zero]
    exact if_congr (by omega) rfl rfl
  · intro i hi j hj k hk
    rw [eE _ _ _ _ _ _ (by decide) (by omega) hj hk, eE _ _ _ _ _ _ (by decide) (by omega) hj hk, hab.E.z i hi j hj k hk, mul_ite, mul_zero]
    exact if_congr (by omega) rfl rfl
  · intro i hi j hj k hk
    rw [eH _ _ _ _ _ _ (by decide) (by omega) hj hk, eH _ _ _ _ _ _ (by decide) (by omega) hj hk, hab.H.x i hi j hj k hk, mul_ite, mul_zero]
    exact if_congr (by omega) rfl rfl
  · intro i hi j hj k hk
    rw [eH _ _ _ _ _ _ (by decide) (by omega) hj hk, eH _ _ _ _ _ _ (by decide) (by omega) hj hk, hab.H.y i hi j hj k hk, mul_ite, mul_zero]
    exact if_congr (by omega) rfl rfl
  · intro i hi j hj k hk
    rw [eH _ _ _ _ _ _ (by decide) (by omega) hj hk, eH _ _ _ _ _ _ (by decide) (by omega) hj hk, hab.H.z i hi j hj k hk, mul_ite, mul_zero]
    exact if_congr (by omega) rfl rfl
end

theorem mirror_pecLike {bc : Faces String} (h : PecLike bc) : PecLike (mirrorFaces bc) := by
  intro axis s ha
  have : axis = 0 ∨ axis = 1 ∨ axis = 2 := by omega
  rcases this with rfl | rfl | rfl <;> cases s
  exacts [h 0 .hi (by decide), h 0 .lo (by decide), h 1 .lo (by decide), h 1 .hi (by decide), h 2 .lo (by decide), h 2 .hi (by decide)]

theorem mirror_any (t : String → Bool) (bc : Faces String) : anyFace t (mirrorFaces bc) = anyFace t bc := by
  unfold anyFace mirrorFaces
  cases t bc.xlo <;> cases t bc.ylo <;> cases t bc.zlo <;> cases t bc.xhi <;> cases t bc.yhi <;> cases t bc.zhi <;> rfl

/-! ### C120 -/

/-- **C120 (partial).** A closed model with equal steps in x (any in y and z) and its mirror image (faces exchanged, mirrored material arrays, starting fields and assignments between the steps) have
mirrored fields after any number of steps.  Missing: graded x axes, `C120_graded_refuted`, and material arrays made from mirrored solids, `C120_solids_refuted`. -/
theorem C120_mirror_partial [DecidableEq K] (Nx Ny Nz : ℕ) (x y z : ℕ → K) {d : K} (hd : ∀ i < Nx, x (i + 1) - x i = d) {bc : Faces String} (h : PecLike bc) {ieps imu sigma ieps' imu' sigma' : Vec K}
    (he : MirrorE Nx Ny Nz 1 ieps ieps') (hm : MirrorH Nx Ny Nz 1 imu imu') (hs : MirrorE Nx Ny Nz 1 sigma sigma') (dt : K) (uc : Bool) {N : ℕ} {S D S' D' : ℕ → State K}
    (r : Runs (build (computeGrid Nx Ny Nz x y z) bc ieps imu sigma dt uc) N S D) (r' : Runs (build (computeGrid Nx Ny Nz x y z) (mirrorFaces bc) ieps' imu' sigma' dt uc) N S' D') (h0 : MirrorSt Nx Ny Nz (S 0) (S' 0))
    (hD : ∀ m < N, MirrorSt Nx Ny Nz (S m) (S' m) → MirrorSt Nx Ny Nz (D m) (D' m)) : MirrorSt Nx Ny Nz (S N) (S' N) := by
  have huc : (build (computeGrid Nx Ny Nz x y z) (mirrorFaces bc) ieps' imu' sigma' dt uc).useConductivity = (build (computeGrid Nx Ny Nz x y z) bc ieps imu sigma dt uc).useConductivity := by
    show (anyFace isPml (mirrorFaces bc) || uc) = (anyFace isPml bc || uc)
    rw [mirror_any]
  have step : ∀ a b, MirrorSt Nx Ny Nz a b → MirrorSt Nx Ny Nz (oneStep (build (computeGrid Nx Ny Nz x y z) bc ieps imu sigma dt uc) a) (oneStep (build (computeGrid Nx Ny Nz x y z) (mirrorFaces bc) ieps' imu' sigma' dt uc) b) := by
    intro a b hab
    unfold oneStep
    rw [hab.step0]
    split_ifs
    · exact mirror_advance (g := computeGrid Nx Ny Nz x y z) (mirrorGrid_equal Nx Ny Nz x y z hd) h (mirror_pecLike h) dt he hm hs huc (mirror_ghosts (g := computeGrid Nx Ny Nz x y z) dt hab)
    · exact mirror_advance (g := computeGrid Nx Ny Nz x y z) (mirrorGrid_equal Nx Ny Nz x y z hd) h (mirror_pecLike h) dt he hm hs huc hab
  have main : ∀ m, m ≤ N → MirrorSt Nx Ny Nz (S m) (S' m) := by
    intro m
    induction m with
    | zero => exact fun _ => h0
    | succ m ih =>
      intro hm
      rw [r.step m hm, r'.step m hm]
      exact step _ _ (hD m hm (ih (by omega)))
  exact main N le_rfl

/-- **C120 (refuted for graded axes).** If somewhere along x the two steps after node `i` and the two before it do not add up to the same length, the mirror image (with any outer cell behind the wall) does
not have mirrored fields: the dual lengths of the code are shifted towards the high side.  Any materials, mirrored; at least three cells in z. -/
theorem C120_graded_refuted [DecidableEq K] (h2 : (2 : K) ≠ 0) (Nx Ny Nz : ℕ) (x x' y z : ℕ → K) (hx' : ∀ i, i + 1 < Nx → x' (i + 1) - x' i = x (Nx - 1 - i) - x (Nx - 2 - i)) {i : ℕ} (hi : 2 ≤ i) (hi2 : i + 1 < Nx)
    (hne : x (i + 2) - x i ≠ x i - x (i - 2)) (hy : 0 < Ny) (hz : 3 ≤ Nz) (hz2 : z 3 - z 1 ≠ 0) {bc : Faces String} (h : PecLike bc) {ieps imu sigma ieps' imu' sigma' : Vec K}
    (he : MirrorE Nx Ny Nz 1 ieps ieps') (hpos : ieps (pos Nx Ny Nz 1 i 0 1) ≠ 0) {dt : K} (hdt : dt ≠ 0) (uc : Bool) :
    ∃ a b : State K, MirrorSt Nx Ny Nz a b ∧
      ¬ MirrorSt Nx Ny Nz (oneStep (build (computeGrid Nx Ny Nz x y z) bc ieps imu sigma dt uc) a) (oneStep (build (computeGrid Nx Ny Nz x' y z) (mirrorFaces bc) ieps' imu' sigma' dt uc) b) := by
  have one : ∀ (s : Solver K) (st : State K), st.step0 = false → oneStep s st = advance s st := by
    intro s st hst
    unfold oneStep
    rw [hst]
    rfl
  refine ⟨⟨fun _ => 0, fun q => if q = pos Nx Ny Nz 2 (i - 1) 0 1 then 1 else 0, fun _ => 0, false⟩, ⟨fun _ => 0, fun q => if q = pos Nx Ny Nz 2 (Nx - 1 - i) 0 1 then -1 else 0, fun _ => 0, false⟩, ⟨?_, ?_, ?_, rfl⟩, ?_⟩
  · exact ⟨fun _ _ _ _ _ _ => (mul_zero _).symm, fun _ _ _ _ _ _ => (mul_zero _).symm, fun _ _ _ _ _ _ => (mul_zero _).symm⟩
  · have e1 : ∀ c a j k, a < Nx → j < Ny → k < Nz → (pos Nx Ny Nz c a j k = pos Nx Ny Nz 2 (i - 1) 0 1 ↔ c = 2 ∧ a = i - 1 ∧ j = 0 ∧ k = 1) := fun c a j k h1 h2 h3 =>
      ⟨fun e => Mpi.pos_inj h1 h2 h3 (by omega) (by omega) (by omega) e, by rintro ⟨rfl, rfl, rfl, rfl⟩; rfl⟩
    have e2 : ∀ c a j k, a < Nx → j < Ny → k < Nz → (pos Nx Ny Nz c a j k = pos Nx Ny Nz 2 (Nx - 1 - i) 0 1 ↔ c = 2 ∧ a = Nx - 1 - i ∧ j = 0 ∧ k = 1) := fun c a j k h1 h2 h3 =>
      ⟨fun e => Mpi.pos_inj h1 h2 h3 (by omega) (by omega) (by omega) e, by rintro ⟨rfl, rfl, rfl, rfl⟩; rfl⟩
    refine ⟨fun a ha j hj k hk => ?_, fun a ha j hj k hk => ?_, fun a ha j hj k hk => ?_⟩
    · simp only [e1 _ _ _ _ (show Nx - 1 - a < Nx by omega) hj hk, e2 _ _ _ _ ha hj hk]
      simp
    · simp only [e1 _ _ _ _ (show Nx - 2 - a < Nx by omega) hj hk, e2 _ _ _ _ (show a < Nx by omega) hj hk]
      simp
    · simp only [e1 _ _ _ _ (show Nx - 2 - a < Nx by omega) hj hk, e2 _ _ _ _ (show a < Nx by omega) hj hk]
      rw [mul_ite, mul_one, mul_zero]
      refine if_congr ?_ rfl rfl
      simp only [true_and]
      omega
  · exact ⟨fun _ _ _ _ _ _ => (mul_zero _).symm, fun _ _ _ _ _ _ => (mul_zero _).symm, fun _ _ _ _ _ _ => (mul_zero _).symm⟩
  · intro H
    have hE := H.E.y (Nx - 1 - i) (by omega) 0 hy 1 (by omega)
    rw [one _ _ rfl, one _ _ rfl, show Nx - 1 - (Nx - 1 - i) = i by omega, one_mul] at hE
    -- the electric field at an interior node after one step from `H` alone
    have key : ∀ (w : ℕ → K) (bc : Faces String) (_ : PecLike bc) (ieps imu sigma : Vec K) (Hf : Vec K) (m : ℕ), 1 ≤ m → m + 1 < Nx → Hf (pos Nx Ny Nz 0 m 0 1) = 0 → Hf (pos Nx Ny Nz 0 m 0 0) = 0 →
        (advance (build (computeGrid Nx Ny Nz w y z) bc ieps imu sigma dt uc) ⟨fun _ => 0, Hf, fun _ => 0, false⟩).E (pos Nx Ny Nz 1 m 0 1) =
          dt * (ieps (pos Nx Ny Nz 1 m 0 1) * ((w (m + 2) - w m) / 2)⁻¹ * (Hf (pos Nx Ny Nz 2 (m - 1) 0 1) - Hf (pos Nx Ny Nz 2 m 0 1))) := by
      intro w bc hbc ieps imu sigma Hf m hm hm2 z1 z2
      have hH : ∀ c a j k, c < 3 → a < Nx → j < Ny → k < Nz → (advance (build (computeGrid Nx Ny Nz w y z) bc ieps imu sigma dt uc) ⟨fun _ => 0, Hf, fun _ => 0, false⟩).H (pos Nx Ny Nz c a j k) = Hf (pos Nx Ny Nz c a j k) := by
        intro c a j k hc ha hj hk
        refine (closed_H (computeGrid Nx Ny Nz w y z) ieps imu sigma dt uc hbc _ hc ha hj hk).trans ?_
        have : ∀ c a j k, view0 Nx Ny Nz (fun q => colMask (computeGrid Nx Ny Nz w y z) bc q * ((computeGrid Nx Ny Nz w y z).L.array q * (0 : K))) c a j k = 0 := by
          intro c a j k
          unfold view0
          simp
        have e : circ (view0 Nx Ny Nz (fun q => colMask (computeGrid Nx Ny Nz w y z) bc q * ((computeGrid Nx Ny Nz w y z).L.array q * (0 : K)))) c a j k = 0 := by
          unfold circ
          simp only [this, sub_zero, ite_self]
        refine Eq.trans (congrArg (fun r => Hf (pos Nx Ny Nz c a j k) - dt * (_ * r)) e) ?_
        simp only [mul_zero, sub_zero]
      have cl := closed_E (computeGrid Nx Ny Nz w y z) ieps imu sigma dt uc hbc ⟨fun _ => 0, Hf, fun _ => 0, false⟩ (c := 1) (by decide) (show m < Nx by omega) hy (show 1 < Nz by omega)
      rw [(pecLike_metric _ hbc).1, (pecLike_metric _ hbc).2, mask_of_wall (computeGrid Nx Ny Nz w y z) hbc (by decide) (show m < Nx by omega) hy (show 1 < Nz by omega), if_neg (by
        show ¬ (((1 : ℕ) ≠ 0 ∧ (m = 0 ∨ m = Nx - 1)) ∨ ((1 : ℕ) ≠ 1 ∧ ((0 : ℕ) = 0 ∨ 0 = Ny - 1)) ∨ ((1 : ℕ) ≠ 2 ∧ ((1 : ℕ) = 0 ∨ 1 = Nz - 1)))
        omega)] at cl
      refine cl.trans ?_
      have T2 : ∀ a < Nx, (computeGrid Nx Ny Nz w y z).tL.array (pos Nx Ny Nz 2 a 0 1) = tilde z Nz 2 - tilde z Nz 1 := fun a ha => (diffField_at3 (c := 2) _ _ _ (by decide) ha hy (show 1 < Nz by omega))
      have T0 : (computeGrid Nx Ny Nz w y z).tL.array (pos Nx Ny Nz 0 m 0 1) = tilde w Nx (m + 1) - tilde w Nx m := (diffField_at3 (c := 0) _ _ _ (by decide) (show m < Nx by omega) hy (show 1 < Nz by omega))
      have tz : tilde z Nz 2 - tilde z Nz 1 = (z 3 - z 1) / 2 := by
        unfold tilde
        rw [if_pos (by omega), if_pos (by omega)]
        ring
      have tw : tilde w Nx (m + 1) - tilde w Nx m = (w (m + 2) - w m) / 2 := by
        unfold tilde
        rw [if_pos (by omega), if_pos (by omega)]
        ring
      have iT : (computeGrid Nx Ny Nz w y z).itA.array (pos Nx Ny Nz 1 m 0 1) = guardedInv ((w (m + 2) - w m) / 2 * ((z 3 - z 1) / 2)) := by
        refine (itA_cell Nx Ny Nz w y z (c := 1) (by decide) (show m < Nx by omega) hy (show 1 < Nz by omega)).trans ?_
        refine congrArg₂ (fun a b => guardedInv (a * b)) (T0.trans tw) ((T2 m (by omega)).trans tz)
      have tz0 : (z 3 - z 1) / 2 ≠ 0 := div_ne_zero hz2 h2
      have C : cocirc (view3 Nx Ny Nz fun q => (computeGrid Nx Ny Nz w y z).tL.array q * (advance (build (computeGrid Nx Ny Nz w y z) bc ieps imu sigma dt uc) ⟨fun _ => 0, Hf, fun _ => 0, false⟩).H q) 1 m 0 1 =
          (z 3 - z 1) / 2 * (Hf (pos Nx Ny Nz 2 (m - 1) 0 1) - Hf (pos Nx Ny Nz 2 m 0 1)) := by
        simp only [cocirc, if_true, one_ne_zero, if_false, view3, Nat.sub_self]
        rw [hH 0 m 0 1 (by decide) (by omega) hy (by omega), hH 0 m 0 0 (by decide) (by omega) hy (by omega), z1, z2, hH 2 m 0 1 (by decide) (by omega) hy (by omega), hH 2 (m - 1) 0 1 (by decide) (by omega) hy (by omega), T2 m (by omega), T2 (m - 1) (by omega), tz]
        ring
      have gi : ∀ t u : K, u ≠ 0 → guardedInv (t * u) * u = t⁻¹ := by
        intro t u hu
        unfold guardedInv
        split_ifs with h0
        · have ht : t ≠ 0 := fun e => h0 (by rw [e, zero_mul])
          field_simp
        · rcases mul_eq_zero.1 (not_not.1 h0) with h0 | h0
          · rw [h0, inv_zero, zero_mul]
          · exact absurd h0 hu
      have step : ∀ A : K, (0 : K) + dt * (ieps (pos Nx Ny Nz 1 m 0 1) * guardedInv ((w (m + 2) - w m) / 2 * ((z 3 - z 1) / 2)) * (1 * ((z 3 - z 1) / 2 * A)) - ieps (pos Nx Ny Nz 1 m 0 1) * 0) = dt * (ieps (pos Nx Ny Nz 1 m 0 1) * ((w (m + 2) - w m) / 2)⁻¹ * A) := by
        intro A
        rw [← gi ((w (m + 2) - w m) / 2) ((z 3 - z 1) / 2) tz0]
        ring
      rw [← step, ← iT, ← C]
      rfl
    have n0 : ∀ c a k, c < 2 → a < Nx → k < Nz → ∀ m < Nx, pos Nx Ny Nz c a 0 k ≠ pos Nx Ny Nz 2 m 0 1 := fun c a k hc ha hk m hm e => by
      have := (Mpi.pos_inj ha hy hk hm hy (by omega) e).1
      omega
    have n2 : ∀ a m, a < Nx → m < Nx → a ≠ m → pos Nx Ny Nz 2 a 0 1 ≠ pos Nx Ny Nz 2 m 0 1 := fun a m ha hm hne e => hne (Mpi.pos_inj ha hy (by omega) hm hy (by omega) e).2.1
    rw [key x bc h ieps imu sigma _ i (by omega) hi2 (if_neg (n0 0 i 1 (by decide) (by omega) (by omega) _ (by omega))) (if_neg (n0 0 i 0 (by decide) (by omega) (by omega) _ (by omega))),
      key x' (mirrorFaces bc) (mirror_pecLike h) ieps' imu' sigma' _ (Nx - 1 - i) (by omega) (by omega) (if_neg (n0 0 _ 1 (by decide) (by omega) (by omega) _ (by omega))) (if_neg (n0 0 _ 0 (by decide) (by omega) (by omega) _ (by omega))),
      if_pos rfl, if_pos rfl, if_neg (n2 i (i - 1) (by omega) (by omega) (by omega)), if_neg (n2 (Nx - 1 - i - 1) (Nx - 1 - i) (by omega) (by omega) (by omega)),
      he.y (Nx - 1 - i) (by omega) 0 hy 1 (by omega), show Nx - 1 - (Nx - 1 - i) = i by omega, one_mul] at hE
    have hx2 : x' (Nx - 1 - i + 2) - x' (Nx - 1 - i) = x i - x (i - 2) := by
      have a1 := hx' (Nx - 1 - i) (by omega)
      have a2 := hx' (Nx - 1 - i + 1) (by omega)
      rw [show Nx - 1 - (Nx - 1 - i) = i by omega, show Nx - 2 - (Nx - 1 - i) = i - 1 by omega] at a1
      rw [show Nx - 1 - (Nx - 1 - i + 1) = i - 1 by omega, show Nx - 2 - (Nx - 1 - i + 1) = i - 2 by omega] at a2
      linear_combination a1 + a2
    rw [hx2] at hE
    have h3 := mul_left_cancel₀ hdt hE
    rw [sub_zero, zero_sub, neg_neg, mul_one, mul_one] at h3
    have h4 := inv_injective (mul_left_cancel₀ hpos h3)
    exact hne ((div_left_inj' h2).1 h4).symm

end Sol
end Wakis
