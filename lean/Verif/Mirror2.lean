import Verif.Mirror
import Verif.MaterialProps

/-!
# C120 (continued): mirrored solids, examples
-/

namespace Wakis
namespace Sol
open Sparse Grid

/-- The mirror image of a solid: cell `i` between the walls becomes cell `Nx - 2 - i`. -/
def mirrorSolid (Nx : ℕ) (s : Solid) : Solid := (s.1, fun i j k => s.2 (if i + 1 < Nx then Nx - 2 - i else i) j k)

/-- **C120 (refuted for solids).** A solid with another permittivity than the background: unless it is the same all along x, the permittivity of the model with the mirrored solid is not the mirrored
permittivity.  The y and z components of E, which sit at the nodes, get the material of the cell on their high side, in the mirror image as well. -/
theorem C120_solids_refuted {K : Type _} [Field K] [LinearOrder K] {Nx Ny Nz : ℕ} {eps0 mu0 : K} {use0 : Bool} {bg : MatSpec K} {dict : String → Option (MatSpec K)} {s : Solid} {mb m : Material K} (hb : MeansMaterial bg mb) {spec : MatSpec K}
    (hs : dict s.1 = some spec) (hm : MeansMaterial spec m) (hne : m.eps.over 1 eps0 ≠ mb.eps.over 1 eps0) {i j k : ℕ} (hi : i + 1 < Nx) (hj : j < Ny) (hk : k < Nz) (hx : s.2 i j k ≠ s.2 (i + 1) j k)
    {t t' : Mats K} (ht : materials Nx Ny Nz eps0 mu0 use0 bg dict [s] = .ok t) (ht' : materials Nx Ny Nz eps0 mu0 use0 bg dict [mirrorSolid Nx s] = .ok t') :
    ¬ MirrorE Nx Ny Nz 1 t.ieps.array t'.ieps.array := by
  intro H
  have hd : ∀ n, dict n = some spec → matOf dict n = m := by
    intro n hn
    obtain ⟨spec', h1, h2⟩ := matOf_spec ⟨spec, m, hn, hm⟩
    rw [hn, Option.some.injEq] at h1
    subst h1
    exact means_unique h2 hm
  obtain ⟨t1, m1, s1, -, c1⟩ := materials_ok (Nx := Nx) (Ny := Ny) (Nz := Nz) (eps0 := eps0) (mu0 := mu0) (use0 := use0) (dict := dict) (solids := [s]) hb (fun a ha => by rw [List.mem_singleton.1 ha]; exact ⟨spec, m, hs, hm⟩)
  obtain ⟨t2, m2, s2, -, c2⟩ := materials_ok (Nx := Nx) (Ny := Ny) (Nz := Nz) (eps0 := eps0) (mu0 := mu0) (use0 := use0) (dict := dict) (solids := [mirrorSolid Nx s]) hb (fun a ha => by rw [List.mem_singleton.1 ha]; exact ⟨spec, m, hs, hm⟩)
  rw [m1, Except.ok.injEq] at ht
  rw [m2, Except.ok.injEq] at ht'
  subst ht ht'
  have at3 : ∀ (F : Fld K), F.Nx = Nx ∧ F.Ny = Ny ∧ F.Nz = Nz → ∀ a i j k, F.at3 a i j k = F.array (pos Nx Ny Nz a i j k) := by
    rintro F ⟨rfl, rfl, rfl⟩ a i j k
    rfl
  have hit : ∀ (f : Solid → Bool) (s : Solid), lastHit f [s] = if f s then some s else none := by
    intro f s
    unfold lastHit
    cases h : f s <;> simp [h]
  have h := H.y (Nx - 2 - i) (by omega) j hj k hk
  rw [one_mul, ← at3 _ s1.e, ← at3 _ s2.e, (c1 1 (by decide) _ (by omega) j hj k hk).1, (c2 1 (by decide) _ (by omega) j hj k hk).1, hit, hit] at h
  have e1 : (mirrorSolid Nx s).2 (Nx - 2 - i) j k = s.2 i j k := by
    unfold mirrorSolid
    simp only
    rw [if_pos (by omega), show Nx - 2 - (Nx - 2 - i) = i by omega]
  rw [e1, show Nx - 1 - (Nx - 2 - i) = i + 1 by omega] at h
  have v1 : matOf dict (mirrorSolid Nx s).1 = m := hd _ hs
  have v2 : matOf dict s.1 = m := hd _ hs
  cases ha : s.2 i j k <;> cases hb : s.2 (i + 1) j k
  · exact hx (ha.trans hb.symm)
  · rw [ha, hb] at h
    simp only [Bool.false_eq_true, if_false, if_true, Option.map_none, Option.map_some, Option.getD_none, Option.getD_some, v2] at h
    exact hne h.symm
  · rw [ha, hb] at h
    simp only [Bool.false_eq_true, if_false, if_true, Option.map_none, Option.map_some, Option.getD_none, Option.getD_some, v1] at h
    exact hne h
  · exact hx (ha.trans hb.symm)

/-- **C120 (partial).** Any number of steps without assignments between them. -/
theorem C120_free_partial {K : Type _} [Field K] [DecidableEq K] (Nx Ny Nz : ℕ) (x y z : ℕ → K) {d : K} (hd : ∀ i < Nx, x (i + 1) - x i = d) {bc : Faces String} (h : PecLike bc) {ieps imu sigma ieps' imu' sigma' : Vec K}
    (he : MirrorE Nx Ny Nz 1 ieps ieps') (hm : MirrorH Nx Ny Nz 1 imu imu') (hs : MirrorE Nx Ny Nz 1 sigma sigma') (dt : K) (uc : Bool) (N : ℕ) {a b : State K} (h0 : MirrorSt Nx Ny Nz a b) :
    MirrorSt Nx Ny Nz ((oneStep (build (computeGrid Nx Ny Nz x y z) bc ieps imu sigma dt uc))^[N] a) ((oneStep (build (computeGrid Nx Ny Nz x y z) (mirrorFaces bc) ieps' imu' sigma' dt uc))^[N] b) :=
  C120_mirror_partial Nx Ny Nz x y z hd h he hm hs dt uc (N := N) (S := fun n => (oneStep (build (computeGrid Nx Ny Nz x y z) bc ieps imu sigma dt uc))^[n] a) (D := fun n => (oneStep (build (computeGrid Nx Ny Nz x y z) bc ieps imu sigma dt uc))^[n] a)
    (S' := fun n => (oneStep (build (computeGrid Nx Ny Nz x y z) (mirrorFaces bc) ieps' imu' sigma' dt uc))^[n] b) (D' := fun n => (oneStep (build (computeGrid Nx Ny Nz x y z) (mirrorFaces bc) ieps' imu' sigma' dt uc))^[n] b)
    ⟨fun m _ => Function.iterate_succ_apply' _ _ _, fun _ _ => rfl⟩ ⟨fun m _ => Function.iterate_succ_apply' _ _ _, fun _ _ => rfl⟩ h0 (fun _ _ h => h)

/-- **C120 (symmetric models).** A closed model that is its own mirror image, started from symmetric fields, stays symmetric: E is even along the walls and odd across them at every step. -/
theorem C120_symmetric_partial {K : Type _} [Field K] [DecidableEq K] (Nx Ny Nz : ℕ) (x y z : ℕ → K) {d : K} (hd : ∀ i < Nx, x (i + 1) - x i = d) {bc : Faces String} (h : PecLike bc) (hbc : mirrorFaces bc = bc) {ieps imu sigma : Vec K}
    (he : MirrorE Nx Ny Nz 1 ieps ieps) (hm : MirrorH Nx Ny Nz 1 imu imu) (hs : MirrorE Nx Ny Nz 1 sigma sigma) (dt : K) (uc : Bool) (N : ℕ) {a : State K} (h0 : MirrorSt Nx Ny Nz a a) :
    MirrorSt Nx Ny Nz ((oneStep (build (computeGrid Nx Ny Nz x y z) bc ieps imu sigma dt uc))^[N] a) ((oneStep (build (computeGrid Nx Ny Nz x y z) bc ieps imu sigma dt uc))^[N] a) := by
  have := C120_free_partial Nx Ny Nz x y z hd h he hm hs dt uc N h0
  rwa [hbc] at this

/-- A symmetric current on the middle plane of a homogeneous box of 5 × 3 × 4 cells (graded in z) makes symmetric fields. -/
example (N : ℕ) : MirrorSt 5 3 4
    ((oneStep (build (computeGrid 5 3 4 (fun i => (i : ℚ) / 3) (fun i => (i : ℚ)) fun i => (i : ℚ) ^ 2) ⟨"pec", "pec", "pml", "pec", "pec", "pec"⟩ (fun _ => 1) (fun _ => 2) (fun _ => 3) (1 / 8) true))^[N]
      ⟨fun _ => 0, fun _ => 0, fun q => if q = pos 5 3 4 2 2 1 1 then 7 else 0, true⟩)
    ((oneStep (build (computeGrid 5 3 4 (fun i => (i : ℚ) / 3) (fun i => (i : ℚ)) fun i => (i : ℚ) ^ 2) ⟨"pec", "pec", "pml", "pec", "pec", "pec"⟩ (fun _ => 1) (fun _ => 2) (fun _ => 3) (1 / 8) true))^[N]
      ⟨fun _ => 0, fun _ => 0, fun q => if q = pos 5 3 4 2 2 1 1 then 7 else 0, true⟩) := by
  refine C120_symmetric_partial 5 3 4 _ _ _ (d := 1 / 3) ?_ (by intro a s ha; interval_cases a <;> cases s <;> decide) rfl ?_ ?_ ?_ _ _ N ?_
  · intro i _
    push_cast
    ring
  · exact ⟨fun _ _ _ _ _ _ => (one_mul _).symm, fun _ _ _ _ _ _ => (one_mul _).symm, fun _ _ _ _ _ _ => (one_mul _).symm⟩
  · exact ⟨fun _ _ _ _ _ _ => (one_mul _).symm, fun _ _ _ _ _ _ => (one_mul _).symm, fun _ _ _ _ _ _ => (one_mul _).symm⟩
  · exact ⟨fun _ _ _ _ _ _ => (one_mul _).symm, fun _ _ _ _ _ _ => (one_mul _).symm, fun _ _ _ _ _ _ => (one_mul _).symm⟩
  · refine ⟨⟨fun _ _ _ _ _ _ => (mul_zero _).symm, fun _ _ _ _ _ _ => (mul_zero _).symm, fun _ _ _ _ _ _ => (mul_zero _).symm⟩, ⟨fun _ _ _ _ _ _ => (mul_zero _).symm, fun _ _ _ _ _ _ => (mul_zero _).symm, fun _ _ _ _ _ _ => (mul_zero _).symm⟩, ⟨?_, ?_, ?_⟩, rfl⟩
    · intro i hi j hj k hk
      have : i < 4 := by omega
      interval_cases i <;> interval_cases j <;> interval_cases k <;> simp [pos, fl]
    · intro i hi j hj k hk
      interval_cases i <;> interval_cases j <;> interval_cases k <;> simp [pos, fl]
    · intro i hi j hj k hk
      interval_cases i <;> interval_cases j <;> interval_cases k <;> simp [pos, fl]

/-- The mesh with steps 1, 3, 5, 7, 9, ... has no mirror image in this sense. -/
example : ∃ a b : State ℚ, MirrorSt 5 1 3 a b ∧
    ¬ MirrorSt 5 1 3 (oneStep (build (computeGrid 5 1 3 (fun i => (i : ℚ) ^ 2) (fun i => (i : ℚ)) fun i => (i : ℚ)) ⟨"pec", "pec", "pec", "pec", "pec", "pec"⟩ (fun _ => 1) (fun _ => 1) (fun _ => 0) (1 / 2) false) a)
      (oneStep (build (computeGrid 5 1 3 (fun i => -((4 : ℚ) - i) ^ 2) (fun i => (i : ℚ)) fun i => (i : ℚ)) (mirrorFaces ⟨"pec", "pec", "pec", "pec", "pec", "pec"⟩) (fun _ => 1) (fun _ => 1) (fun _ => 0) (1 / 2) false) b) := by
  refine C120_graded_refuted (by norm_num) 5 1 3 _ _ _ _ (fun i hi => ?_) (i := 2) (by decide) (by decide) (by norm_num) (by decide) (by decide) (by norm_num) (by intro a s ha; interval_cases a <;> cases s <;> decide) ?_ (by norm_num) (by norm_num) _
  · have : i < 4 := by omega
    interval_cases i <;> norm_num
  · exact ⟨fun _ _ _ _ _ _ => (one_mul _).symm, fun _ _ _ _ _ _ => (one_mul _).symm, fun _ _ _ _ _ _ => (one_mul _).symm⟩

/-- A dielectric block in the first cell. -/
example {t t' : Mats ℚ} (ht : materials 4 1 1 1 1 false (.vals ⟨.fin 1, .fin 1, none⟩) (fun _ => some (.vals ⟨.fin 2, .fin 1, none⟩)) [("a", fun i _ _ => i == 0)] = .ok t)
    (ht' : materials 4 1 1 1 1 false (.vals ⟨.fin 1, .fin 1, none⟩) (fun _ => some (.vals ⟨.fin 2, .fin 1, none⟩)) [mirrorSolid 4 ("a", fun i _ _ => i == 0)] = .ok t') : ¬ MirrorE 4 1 1 1 t.ieps.array t'.ieps.array := by
  have hm1 : MeansMaterial (.vals (⟨.fin 1, .fin 1, none⟩ : Material ℚ)) ⟨.fin 1, .fin 1, none⟩ := rfl
  have hm2 : MeansMaterial (.vals (⟨.fin 2, .fin 1, none⟩ : Material ℚ)) ⟨.fin 2, .fin 1, none⟩ := rfl
  exact C120_solids_refuted hm1 rfl hm2 (by decide +kernel) (i := 0) (j := 0) (k := 0) (by decide) (by decide) (by decide) (by decide) ht ht'

end Sol
end Wakis
