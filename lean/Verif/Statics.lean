import Verif.Shift
import Verif.Speed
import Verif.Axes

/-!
# C127: static fields stay

`wakis/solverFIT3D.py:379-400` `one_step` with the curl matrix of 714-882.
-/

namespace Wakis
namespace Sol
open Sparse Grid
variable {K : Type _} [Field K]

/-! ### Specification -/

/-- The potential at the far end of the edge of cell `(i, j, k)` along axis `c`. -/
def ahead (φ : ℕ → ℕ → ℕ → K) (c i j k : ℕ) : K := if c = 0 then φ (i + 1) j k else if c = 1 then φ i (j + 1) k else φ i j (k + 1)

/-- The potential vanishes on the walls: on the first and the last layer of nodes of each axis (and has no value beyond). -/
def OnWalls0 (g : Geom K) (φ : ℕ → ℕ → ℕ → K) : Prop :=
  ∀ i j k, i = 0 ∨ j = 0 ∨ k = 0 ∨ g.Nx ≤ i + 1 ∨ g.Ny ≤ j + 1 ∨ g.Nz ≤ k + 1 → φ i j k = 0

/-- The electrostatic field of a potential: the voltage along each edge is the drop of the potential; no magnetic field, no current. -/
structure Electrostatic (g : Geom K) (φ : ℕ → ℕ → ℕ → K) (st : State K) : Prop where
  E : ∀ c i j k, c < 3 → i < g.Nx → j < g.Ny → k < g.Nz → g.L.array (pos g.Nx g.Ny g.Nz c i j k) * st.E (pos g.Nx g.Ny g.Nz c i j k) = φ i j k - ahead φ c i j k
  H : ∀ q < 3 * (g.Nx * g.Ny * g.Nz), st.H q = 0
  J : ∀ q < 3 * (g.Nx * g.Ny * g.Nz), st.J q = 0

/-- The magnetic potential one cell before, along axis `c`. -/
def behind (ψ : ℕ → ℕ → ℕ → K) (c i j k : ℕ) : K := if c = 0 then ψ (i - 1) j k else if c = 1 then ψ i (j - 1) k else ψ i j (k - 1)

/-- A magnetostatic field without currents: the magnetic voltage along each dual edge off the low walls is a difference of a potential of the cells; no electric field, no current. -/
structure Magnetostatic (g : Geom K) (ψ : ℕ → ℕ → ℕ → K) (st : State K) : Prop where
  H : ∀ c i j k, c < 3 → i < g.Nx → j < g.Ny → k < g.Nz → 0 < coord c i j k → g.tL.array (pos g.Nx g.Ny g.Nz c i j k) * st.H (pos g.Nx g.Ny g.Nz c i j k) = ψ i j k - behind ψ c i j k
  E : ∀ q < 3 * (g.Nx * g.Ny * g.Nz), st.E q = 0
  J : ∀ q < 3 * (g.Nx * g.Ny * g.Nz), st.J q = 0

/-! ### One step -/

section
variable (g : Geom K) {bc : Faces String} (ieps imu sigma : Vec K) (dt : K) (uc : Bool)

/-- The voltages seen by the curl are the drops of the potential, everywhere. -/
theorem voltages {φ : ℕ → ℕ → ℕ → K} (hφ : OnWalls0 g φ) {st : State K} (h : Electrostatic g φ st) {c : ℕ} (hc : c < 3) (i j k : ℕ) :
    view0 g.Nx g.Ny g.Nz (fun q => colMask g bc q * (g.L.array q * st.E q)) c i j k = φ i j k - ahead φ c i j k := by
  unfold view0
  by_cases hr : i < g.Nx ∧ j < g.Ny ∧ k < g.Nz
  · rw [if_pos hr]
    obtain ⟨hi, hj, hk⟩ := hr
    show colMask g bc (pos g.Nx g.Ny g.Nz c i j k) * (g.L.array (pos g.Nx g.Ny g.Nz c i j k) * st.E (pos g.Nx g.Ny g.Nz c i j k)) = _
    rw [h.E c i j k hc hi hj hk, colMask_pos g bc hc hi hj hk]
    rcases maskVal_cases g bc (i := i) (j := j) (k := k) hc with e | ⟨a, s, ha, hac, hon, -⟩
    · rw [e, one_mul]
    · have hz : φ i j k = 0 ∧ ahead φ c i j k = 0 := by
        unfold ahead
        unfold OnFace at hon
        rcases (by omega : a = 0 ∨ a = 1 ∨ a = 2) with rfl | rfl | rfl <;> cases s <;> simp only [coord, if_true, if_false, one_ne_zero, OfNat.ofNat_ne_zero, OfNat.ofNat_ne_one] at hon <;>
          refine ⟨hφ _ _ _ (by omega), ?_⟩ <;> rcases (by omega : c = 0 ∨ c = 1 ∨ c = 2) with rfl | rfl | rfl <;>
          first | exact absurd rfl hac | exact hφ _ _ _ (by omega)
      rw [hz.1, hz.2, sub_zero, mul_zero]
  · rw [if_neg hr]
    have h1 : φ i j k = 0 := hφ _ _ _ (by omega)
    have h2 : ahead φ c i j k = 0 := by unfold ahead; split_ifs <;> exact hφ _ _ _ (by omega)
    rw [h1, h2, sub_zero]

theorem circ_drop (φ : ℕ → ℕ → ℕ → K) {e : ℕ → ℕ → ℕ → ℕ → K} (he : ∀ c < 3, ∀ i j k, e c i j k = φ i j k - ahead φ c i j k) {c : ℕ} (hc : c < 3) (i j k : ℕ) : circ e c i j k = 0 := by
  unfold circ
  rw [he 0 (by decide), he 1 (by decide), he 2 (by decide), he 0 (by decide), he 1 (by decide), he 1 (by decide), he 2 (by decide), he 2 (by decide), he 0 (by decide)]
  unfold ahead
  rcases (by omega : c = 0 ∨ c = 1 ∨ c = 2) with rfl | rfl | rfl <;> simp <;> ring

theorem static_advance (hbc : PecLike bc) {φ : ℕ → ℕ → ℕ → K} (hφ : OnWalls0 g φ) {st : State K} (h : Electrostatic g φ st)
    (hs : (build g bc ieps imu sigma dt uc).useConductivity = true → ∀ q < 3 * (g.Nx * g.Ny * g.Nz), sigma q * st.E q = 0) :
    Same (build g bc ieps imu sigma dt uc) (advance (build g bc ieps imu sigma dt uc) st) st := by
  have hH : ∀ q < 3 * (g.Nx * g.Ny * g.Nz), (advance (build g bc ieps imu sigma dt uc) st).H q = 0 := by
    intro q hq
    obtain ⟨c, i, j, k, hc, hi, hj, hk, rfl⟩ := pos_surj hq
    rw [closed_H g ieps imu sigma dt uc hbc st hc hi hj hk, h.H _ hq, circ_drop φ (fun c' hc' i' j' k' => voltages g hφ h hc' i' j' k') hc]
    ring
  have hE : ∀ q < 3 * (g.Nx * g.Ny * g.Nz), (advance (build g bc ieps imu sigma dt uc) st).E q = st.E q := by
    intro q hq
    rw [advance_E _ _ _ _ _ _ _ _ hq, h.J q hq, mulVec_congr (v' := fun _ => 0) (fun j _ => rfl) fun j hj => by rw [hH j hj, mul_zero, mul_zero], mulVec_zero]
    ring
  intro q hq
  have hq' : q < 3 * (g.Nx * g.Ny * g.Nz) := hq
  refine ⟨hE q hq', (hH q hq').trans (h.H q hq').symm, ?_⟩
  show (if (build g bc ieps imu sigma dt uc).useConductivity then fun q => sigma q * (advance (build g bc ieps imu sigma dt uc) st).E q else st.J) q = st.J q
  split_ifs with hu
  · show sigma q * (advance (build g bc ieps imu sigma dt uc) st).E q = st.J q
    rw [hE q hq', hs hu q hq', h.J q hq']
  · rfl

theorem static_step (hbc : PecLike bc) {φ : ℕ → ℕ → ℕ → K} (hφ : OnWalls0 g φ) (hL : ∀ q < 3 * (g.Nx * g.Ny * g.Nz), g.L.array q ≠ 0) {st : State K} (h : Electrostatic g φ st)
    (hs : (build g bc ieps imu sigma dt uc).useConductivity = true → ∀ q < 3 * (g.Nx * g.Ny * g.Nz), sigma q * st.E q = 0) :
    Same (build g bc ieps imu sigma dt uc) (oneStep (build g bc ieps imu sigma dt uc) st) st := by
  have ghE : ∀ r, Ghost g.Nx g.Ny g.Nz .E r → st.E r = 0 := by
    rintro r ⟨c, i, j, k, hc, hi, hj, hk, rfl, e⟩
    have := h.E c i j k hc hi hj hk
    have hz : φ i j k = 0 ∧ ahead φ c i j k = 0 := by
      unfold ahead
      rcases (by omega : c = 0 ∨ c = 1 ∨ c = 2) with rfl | rfl | rfl <;> simp only [coord, if_true, if_false, one_ne_zero, OfNat.ofNat_ne_zero, OfNat.ofNat_ne_one] at e ⊢ <;>
        exact ⟨hφ _ _ _ (by omega), hφ _ _ _ (by omega)⟩
    rw [hz.1, hz.2, sub_zero] at this
    exact (mul_eq_zero.1 this).resolve_left (hL _ (pos_lt hc hi hj hk))
  have ghH : ∀ r, Ghost g.Nx g.Ny g.Nz .H r → st.H r = 0 := by
    rintro r ⟨c, i, j, k, a, hc, hi, hj, hk, rfl, -⟩
    exact h.H _ (pos_lt hc hi hj hk)
  have adv := static_advance g ieps imu sigma dt uc hbc hφ h hs
  have key : oneStep (build g bc ieps imu sigma dt uc) st =
      advance (build g bc ieps imu sigma dt uc) (if st.step0 then { setGhostsTo0 (build g bc ieps imu sigma dt uc) st with step0 := false } else st) := by
    unfold oneStep; split_ifs <;> rfl
  have hcl : Same (build g bc ieps imu sigma dt uc) (if st.step0 then { setGhostsTo0 (build g bc ieps imu sigma dt uc) st with step0 := false } else st) st := by
    split_ifs
    · exact clear_id (build g bc ieps imu sigma dt uc) ghE ghH
    · exact fun q _ => ⟨rfl, rfl, rfl⟩
  rw [key]
  intro q hq
  have a := advance_same' _ hcl q hq
  have b := adv q hq
  exact ⟨a.1.trans b.1, a.2.1.trans b.2.1, a.2.2.trans b.2.2⟩

/-! ### C127 -/

/-- **C127 (electrostatics; partial).** Behind PEC or PML faces, for every grid, permittivity and permeability (perfect conductors included) and time step: an electrostatic field, whose potential
vanishes on the walls, is unchanged after any number of steps, provided no current flows in conductive cells (`σ E = 0`).  Missing: other boundaries, `C127_periodic_refuted`. -/
theorem C127_electrostatic_partial (hbc : PecLike bc) {φ : ℕ → ℕ → ℕ → K} (hφ : OnWalls0 g φ) (hL : ∀ q < 3 * (g.Nx * g.Ny * g.Nz), g.L.array q ≠ 0) {st : State K}
    (h : Electrostatic g φ st) (hs : (build g bc ieps imu sigma dt uc).useConductivity = true → ∀ q < 3 * (g.Nx * g.Ny * g.Nz), sigma q * st.E q = 0) (n : ℕ) :
    Same (build g bc ieps imu sigma dt uc) ((oneStep (build g bc ieps imu sigma dt uc))^[n] st) st := by
  induction n with
  | zero => exact fun q _ => ⟨rfl, rfl, rfl⟩
  | succ n ih =>
    rw [Function.iterate_succ_apply']
    have h' : Electrostatic g φ ((oneStep (build g bc ieps imu sigma dt uc))^[n] st) :=
      ⟨fun c i j k hc hi hj hk => (congrArg _ (ih (pos g.Nx g.Ny g.Nz c i j k) (pos_lt hc hi hj hk)).1).trans (h.E c i j k hc hi hj hk), fun q hq => (ih q hq).2.1.trans (h.H q hq), fun q hq => (ih q hq).2.2.trans (h.J q hq)⟩
    have st' := static_step g ieps imu sigma dt uc hbc hφ hL h' fun hu q hq => by rw [(ih q hq).1]; exact hs hu q hq
    exact fun q hq => ⟨(st' q hq).1.trans (ih q hq).1, (st' q hq).2.1.trans (ih q hq).2.1, (st' q hq).2.2.trans (ih q hq).2.2⟩

/-- **C127 (magnetostatics; partial).** Behind PEC or PML faces, for every grid, materials (conductivity included) and time step, in a solver that has made a step before: a magnetostatic field
is unchanged after any number of steps.  Missing: other boundaries, and the last layers of H before the first step, which clears them (C126). -/
theorem C127_magnetostatic_partial (hbc : PecLike bc) {ψ : ℕ → ℕ → ℕ → K} {st : State K} (h : Magnetostatic g ψ st) (h0 : st.step0 = false) (n : ℕ) :
    Same (build g bc ieps imu sigma dt uc) ((oneStep (build g bc ieps imu sigma dt uc))^[n] st) st := by
  have hH' : ∀ q < 3 * (g.Nx * g.Ny * g.Nz), (advance (build g bc ieps imu sigma dt uc) st).H q = st.H q := by
    intro q hq
    rw [advance_H _ _ _ _ _ _ _ _ hq, mulVec_congr (v' := fun _ => 0) (fun j _ => rfl) fun j hj => by rw [h.E j hj, mul_zero, mul_zero], mulVec_zero]
    ring
  have hE' : ∀ q < 3 * (g.Nx * g.Ny * g.Nz), (advance (build g bc ieps imu sigma dt uc) st).E q = st.E q := by
    intro q hq
    obtain ⟨c, i, j, k, hc, hi, hj, hk, rfl⟩ := pos_surj hq
    rw [closed_E g ieps imu sigma dt uc hbc st hc hi hj hk, h.J _ hq]
    by_cases hin : (c ≠ 0 → 0 < i) ∧ (c ≠ 1 → 0 < j) ∧ (c ≠ 2 → 0 < k)
    · have v : ∀ c' i' j' k', c' < 3 → i' < g.Nx → j' < g.Ny → k' < g.Nz → 0 < coord c' i' j' k' →
          view3 g.Nx g.Ny g.Nz (fun q => (applyBC g bc (C0 g.Nx g.Ny g.Nz)).tL.array q * (advance (build g bc ieps imu sigma dt uc) st).H q) c' i' j' k' = ψ i' j' k' - behind ψ c' i' j' k' := by
        intro c' i' j' k' b0 b1 b2 b3 b4
        show (applyBC g bc (C0 g.Nx g.Ny g.Nz)).tL.array _ * (advance (build g bc ieps imu sigma dt uc) st).H _ = _
        rw [hH' _ (pos_lt b0 b1 b2 b3), (pecLike_metric g hbc).1, h.H c' i' j' k' b0 b1 b2 b3 b4]
      have z : cocirc (view3 g.Nx g.Ny g.Nz fun q => (applyBC g bc (C0 g.Nx g.Ny g.Nz)).tL.array q * (advance (build g bc ieps imu sigma dt uc) st).H q) c i j k = 0 := by
        obtain ⟨p0, p1, p2⟩ := hin
        unfold cocirc
        rcases (by omega : c = 0 ∨ c = 1 ∨ c = 2) with rfl | rfl | rfl
        · have a1 := p1 (by decide)
          have a2 := p2 (by decide)
          rw [if_pos rfl, v 2 i j k (by decide) hi hj hk a2, v 2 i (j - 1) k (by decide) hi (by omega) hk a2, v 1 i j k (by decide) hi hj hk a1, v 1 i j (k - 1) (by decide) hi hj (by omega) a1]
          simp [behind]
          ring
        · have a0 := p0 (by decide)
          have a2 := p2 (by decide)
          rw [if_neg (by decide), if_pos rfl, v 0 i j k (by decide) hi hj hk a0, v 0 i j (k - 1) (by decide) hi hj (by omega) a0, v 2 i j k (by decide) hi hj hk a2, v 2 (i - 1) j k (by decide) (by omega) hj hk a2]
          simp [behind]
          ring
        · have a0 := p0 (by decide)
          have a1 := p1 (by decide)
          rw [if_neg (by decide), if_neg (by decide), v 1 i j k (by decide) hi hj hk a1, v 1 (i - 1) j k (by decide) (by omega) hj hk a1, v 0 i j k (by decide) hi hj hk a0, v 0 i (j - 1) k (by decide) hi (by omega) hk a0]
          simp [behind]
          ring
      rw [z]
      ring
    · have hm : colMask g bc (pos g.Nx g.Ny g.Nz c i j k) = 0 := by
        have : (c ≠ 0 ∧ i = 0) ∨ (c ≠ 1 ∧ j = 0) ∨ (c ≠ 2 ∧ k = 0) := by
          by_contra hn
          exact hin ⟨fun e => by by_contra; exact hn (.inl ⟨e, by omega⟩), fun e => by by_contra; exact hn (.inr (.inl ⟨e, by omega⟩)), fun e => by by_contra; exact hn (.inr (.inr ⟨e, by omega⟩))⟩
        rcases this with ⟨e, e'⟩ | ⟨e, e'⟩ | ⟨e, e'⟩
        · exact mask_closed g hbc hc hi hj hk (axis := 0) (by decide) (Ne.symm e) .lo e'
        · exact mask_closed g hbc hc hi hj hk (axis := 1) (by decide) (Ne.symm e) .lo e'
        · exact mask_closed g hbc hc hi hj hk (axis := 2) (by decide) (Ne.symm e) .lo e'
      rw [hm]
      ring
  have adv : Same (build g bc ieps imu sigma dt uc) (advance (build g bc ieps imu sigma dt uc) st) st := by
    intro q hq
    have hq' : q < 3 * (g.Nx * g.Ny * g.Nz) := hq
    refine ⟨hE' q hq', hH' q hq', ?_⟩
    show (if (build g bc ieps imu sigma dt uc).useConductivity then fun q => sigma q * (advance (build g bc ieps imu sigma dt uc) st).E q else st.J) q = st.J q
    split_ifs
    · show sigma q * (advance (build g bc ieps imu sigma dt uc) st).E q = st.J q
      rw [hE' q hq', h.E q hq', mul_zero, h.J q hq']
    · rfl
  have main : Same (build g bc ieps imu sigma dt uc) ((oneStep (build g bc ieps imu sigma dt uc))^[n] st) st ∧ ((oneStep (build g bc ieps imu sigma dt uc))^[n] st).step0 = false := by
    induction n with
    | zero => exact ⟨fun q _ => ⟨rfl, rfl, rfl⟩, h0⟩
    | succ n ih =>
      rw [Function.iterate_succ_apply']
      refine ⟨fun q hq => ?_, oneStep_flag _ _⟩
      have a := later_step _ ih.1 ih.2 h0 q hq
      have e : oneStep (build g bc ieps imu sigma dt uc) st = advance (build g bc ieps imu sigma dt uc) st := by unfold oneStep; rw [h0]; rfl
      rw [e] at a
      have b := adv q hq
      exact ⟨a.1.trans b.1, a.2.1.trans b.2.1, a.2.2.trans b.2.2⟩
  exact main.1

/-- A uniform H along x on 4 x 4 x 4 unit cells (the dual length of the last layer is zero) meets the hypotheses. -/
example : ∃ (g : Geom ℚ) (ψ : ℕ → ℕ → ℕ → ℚ) (st : State ℚ), g.Nx = 4 ∧ Magnetostatic g ψ st ∧ st.step0 = false ∧ st.H (pos 4 4 4 0 1 0 0) = 1 := by
  let g : Geom ℚ := computeGrid 4 4 4 (fun i => (i : ℚ)) (fun i => (i : ℚ)) fun i => (i : ℚ)
  have hT : ∀ q < 64, g.tL.array q = if q % 4 = 3 then 0 else 1 := by decide +kernel
  refine ⟨g, fun i _ _ => (min i 2 : ℕ), ⟨fun _ => 0, fun q => if q < 64 then 1 else 0, fun _ => 0, false⟩, rfl, ⟨fun c i j k hc hi hj hk h => ?_, fun _ _ => rfl, fun _ _ => rfl⟩, rfl, rfl⟩
  have hi' : i < 4 := hi
  have hj' : j < 4 := hj
  have hk' : k < 4 := hk
  show g.tL.array (pos 4 4 4 c i j k) * (if pos 4 4 4 c i j k < 64 then 1 else 0) = ((min i 2 : ℕ) : ℚ) - behind (fun i _ _ => ((min i 2 : ℕ) : ℚ)) c i j k
  rcases (by omega : c = 0 ∨ c = 1 ∨ c = 2) with rfl | rfl | rfl
  · have hp : pos 4 4 4 0 i j k < 64 := by unfold pos fl; omega
    have h' : 0 < i := h
    have hm : pos 4 4 4 0 i j k % 4 = i := by unfold pos fl; omega
    rw [hT _ hp, if_pos hp, hm]
    unfold behind
    interval_cases i <;> norm_num
  · have hp : ¬ pos 4 4 4 1 i j k < 64 := by unfold pos fl; omega
    rw [if_neg hp]
    simp [behind]
  · have hp : ¬ pos 4 4 4 2 i j k < 64 := by unfold pos fl; omega
    rw [if_neg hp]
    simp [behind]

/-- The uniform field along z. -/
def uniformZ (g : Geom K) : State K := ⟨fun q => if 2 * (g.Nx * g.Ny * g.Nz) ≤ q then 1 else 0, fun _ => 0, fun _ => 0, false⟩

/-- **C127 (refuted without walls).** With periodic or open faces only (no electric or magnetic face) the uniform field along z, which has no circulation, is not static: on every grid, one step makes
a magnetic field in the last cell. -/
theorem C127_periodic_refuted (hpec : anyFace isPec bc = false) (hpmc : anyFace isPmcAny bc = false) (hdt : dt ≠ 0) (hx : 0 < g.Nx) (hy : 0 < g.Ny) (hz : 0 < g.Nz)
    (hL : ∀ q < 3 * (g.Nx * g.Ny * g.Nz), g.L.array q ≠ 0) (hA : ∀ q < 3 * (g.Nx * g.Ny * g.Nz), g.iA.array q ≠ 0) (hmu : ∀ q < 3 * (g.Nx * g.Ny * g.Nz), imu q ≠ 0) :
    (oneStep (build g bc ieps imu sigma dt uc) (uniformZ g)).H (pos g.Nx g.Ny g.Nz 0 (g.Nx - 1) (g.Ny - 1) (g.Nz - 1)) ≠ 0 := by
  have hP : fl g.Nx g.Ny (g.Nx - 1) (g.Ny - 1) (g.Nz - 1) < g.Nx * g.Ny * g.Nz := fl_lt (by omega) (by omega) (by omega)
  have hpos : pos g.Nx g.Ny g.Nz 0 (g.Nx - 1) (g.Ny - 1) (g.Nz - 1) < 3 * (g.Nx * g.Ny * g.Nz) := pos_lt (by decide) (by omega) (by omega) (by omega)
  have e : oneStep (build g bc ieps imu sigma dt uc) (uniformZ g) = advance (build g bc ieps imu sigma dt uc) (uniformZ g) := rfl
  have hcol : ∀ q, colMask g bc q = 1 := colMask_one g bc hpec
  have hlast : fl g.Nx g.Ny (g.Nx - 1) (g.Ny - 1) (g.Nz - 1) + 1 = g.Nx * g.Ny * g.Nz := by
    unfold fl
    obtain ⟨a, ha⟩ : ∃ a, g.Nx = a + 1 := ⟨g.Nx - 1, by omega⟩
    obtain ⟨b, hb⟩ : ∃ b, g.Ny = b + 1 := ⟨g.Ny - 1, by omega⟩
    obtain ⟨c, hc⟩ : ∃ c, g.Nz = c + 1 := ⟨g.Nz - 1, by omega⟩
    rw [ha, hb, hc]
    simp only [Nat.add_sub_cancel]
    ring
  have hx2 : g.Nx ≤ g.Nx * g.Ny := Nat.le_mul_of_pos_right _ hy
  rw [e, advance_H _ _ _ _ _ _ _ _ hpos, rowMask_one _ _ hpmc]
  simp only [hcol, one_mul]
  have hv : mulVec (3 * (g.Nx * g.Ny * g.Nz)) (C0 g.Nx g.Ny g.Nz) (fun q => g.L.array q * (uniformZ g).E q) (pos g.Nx g.Ny g.Nz 0 (g.Nx - 1) (g.Ny - 1) (g.Nz - 1)) =
      -g.L.array (2 * (g.Nx * g.Ny * g.Nz) + fl g.Nx g.Ny (g.Nx - 1) (g.Ny - 1) (g.Nz - 1)) := by
    refine (C0_x hP _).trans ?_
    unfold ext
    have n1 : ¬ fl g.Nx g.Ny (g.Nx - 1) (g.Ny - 1) (g.Nz - 1) + g.Nx < g.Nx * g.Ny * g.Nz := by omega
    have n2 : ¬ fl g.Nx g.Ny (g.Nx - 1) (g.Ny - 1) (g.Nz - 1) + g.Nx * g.Ny < g.Nx * g.Ny * g.Nz := by omega
    rw [if_neg n1, if_neg n2, if_pos hP, if_pos hP]
    show 0 - g.L.array _ * (if _ then (1 : K) else 0) - (0 - g.L.array _ * (if _ then (1 : K) else 0)) = _
    rw [if_pos (by omega), if_neg (by omega)]
    ring
  rw [hv]
  show (0 : K) - dt * (g.iA.array _ * imu _ * -g.L.array _) ≠ 0
  have h1 := hL (2 * (g.Nx * g.Ny * g.Nz) + fl g.Nx g.Ny (g.Nx - 1) (g.Ny - 1) (g.Nz - 1)) (by omega)
  have := mul_ne_zero hdt (mul_ne_zero (mul_ne_zero (hA _ hpos) (hmu _ hpos)) h1)
  intro h
  exact this (by linear_combination h)

end

/-- A charged node in the middle of 4 x 4 x 4 unit cells: the hypotheses are met by a field that is not zero. -/
example : ∃ (g : Geom ℚ) (φ : ℕ → ℕ → ℕ → ℚ) (st : State ℚ), g.Nx = 4 ∧ OnWalls0 g φ ∧ Electrostatic g φ st ∧ (∀ q < 3 * (g.Nx * g.Ny * g.Nz), g.L.array q ≠ 0) ∧
    st.E (pos 4 4 4 0 0 1 1) = -1 := by
  let g : Geom ℚ := computeGrid 4 4 4 (fun i => i) (fun i => i) fun i => i
  let φ : ℕ → ℕ → ℕ → ℚ := fun i j k => if i = 1 ∧ j = 1 ∧ k = 1 then 1 else 0
  let st : State ℚ := ⟨fun q => (φ (q % 64 % 4) (q % 64 / 4 % 4) (q % 64 / 16) - ahead φ (q / 64) (q % 64 % 4) (q % 64 / 4 % 4) (q % 64 / 16)), fun _ => 0, fun _ => 0, true⟩
  have hL : ∀ q < 3 * (4 * 4 * 4), g.L.array q = 1 := by decide +kernel
  refine ⟨g, φ, st, rfl, ?_, ⟨?_, fun _ _ => rfl, fun _ _ => rfl⟩, fun q hq => ?_, by decide +kernel⟩
  · intro i j k h
    have h' : i = 0 ∨ j = 0 ∨ k = 0 ∨ 4 ≤ i + 1 ∨ 4 ≤ j + 1 ∨ 4 ≤ k + 1 := h
    exact if_neg (by omega)
  · intro c i j k hc hi hj hk
    have hi' : i < 4 := hi
    have hj' : j < 4 := hj
    have hk' : k < 4 := hk
    have hL1 : g.L.array (pos g.Nx g.Ny g.Nz c i j k) = 1 := hL (pos 4 4 4 c i j k) (pos_lt hc hi' hj' hk')
    rw [hL1, one_mul]
    show φ (pos 4 4 4 c i j k % 64 % 4) (pos 4 4 4 c i j k % 64 / 4 % 4) (pos 4 4 4 c i j k % 64 / 16) - ahead φ (pos 4 4 4 c i j k / 64) (pos 4 4 4 c i j k % 64 % 4)
      (pos 4 4 4 c i j k % 64 / 4 % 4) (pos 4 4 4 c i j k % 64 / 16) = _
    have e0 : pos 4 4 4 c i j k / 64 = c := by unfold pos fl; omega
    have e1 : pos 4 4 4 c i j k % 64 % 4 = i := by unfold pos fl; omega
    have e2 : pos 4 4 4 c i j k % 64 / 4 % 4 = j := by unfold pos fl; omega
    have e3 : pos 4 4 4 c i j k % 64 / 16 = k := by unfold pos fl; omega
    rw [e0, e1, e2, e3]
  · rw [hL q hq]; exact one_ne_zero

end Sol
end Wakis
