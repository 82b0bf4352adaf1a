import Verif.SolverProps

/-!
# Solver properties C18, C19, C21, C22, C23
-/

namespace Wakis
namespace Sol
open Sparse Finset
variable {K : Type _} [Field K]

/-! ### plane assignment entry by entry -/

theorem setPlane_array (f : Fld K) (a m c : ℕ) (v : ℕ → ℕ → ℕ → K) (n : ℕ) :
    (setPlane f a m c v).array n =
      if (c * f.N ≤ n ∧ n < (c + 1) * f.N) ∧
          coord a ((n - c * f.N) % f.Nx) ((n - c * f.N) / f.Nx % f.Ny) ((n - c * f.N) / f.Nx / f.Ny) = m
      then v ((n - c * f.N) % f.Nx) ((n - c * f.N) / f.Nx % f.Ny) ((n - c * f.N) / f.Nx / f.Ny)
      else f.array n := by
  unfold setPlane Fld.setPart
  simp only
  by_cases h : c * f.N ≤ n ∧ n < (c + 1) * f.N
  · rw [if_pos h]
    simp only [h, true_and]
    conv_lhs => unfold Fld.ravelF
    simp only
    have e := Fld.ravelF_reshapeF f.Nx f.Ny (n - c * f.N) (f.part c)
    unfold Fld.ravelF at e
    rw [e]
    unfold Fld.part
    rw [Nat.add_sub_cancel' h.1]
  · rw [if_neg h, if_neg (fun h' => h h'.1)]

/-- Zeroing planes is zeroing a set of entries that depends on the sizes only. -/
theorem setPlane_zero_mask (Nx Ny Nz a m c : ℕ) : ∃ Z : ℕ → Bool, ∀ arr : Vec K, ∀ n,
    (setPlane (⟨Nx, Ny, Nz, arr⟩ : Fld K) a m c fun _ _ _ => 0).array n = if Z n then 0 else arr n := by
  refine ⟨fun n => decide ((c * (Nx * Ny * Nz) ≤ n ∧ n < (c + 1) * (Nx * Ny * Nz)) ∧
    coord a ((n - c * (Nx * Ny * Nz)) % Nx) ((n - c * (Nx * Ny * Nz)) / Nx % Ny)
      ((n - c * (Nx * Ny * Nz)) / Nx / Ny) = m), fun arr n => ?_⟩
  rw [setPlane_array]
  simp only [Fld.N, decide_eq_true_eq]
  rfl

theorem mask_comp {F G : Fld K → Fld K} {Nx Ny Nz : ℕ}
    (hF : ∃ Z : ℕ → Bool, ∀ arr : Vec K, ∀ n, (F ⟨Nx, Ny, Nz, arr⟩).array n = if Z n then 0 else arr n)
    (dF : ∀ arr : Vec K, (F ⟨Nx, Ny, Nz, arr⟩).Nx = Nx ∧ (F ⟨Nx, Ny, Nz, arr⟩).Ny = Ny ∧ (F ⟨Nx, Ny, Nz, arr⟩).Nz = Nz)
    (hG : ∃ Z : ℕ → Bool, ∀ arr : Vec K, ∀ n, (G ⟨Nx, Ny, Nz, arr⟩).array n = if Z n then 0 else arr n) :
    ∃ Z : ℕ → Bool, ∀ arr : Vec K, ∀ n, (G (F ⟨Nx, Ny, Nz, arr⟩)).array n = if Z n then 0 else arr n := by
  obtain ⟨ZF, hF⟩ := hF
  obtain ⟨ZG, hG⟩ := hG
  refine ⟨fun n => ZG n || ZF n, fun arr n => ?_⟩
  have e : F ⟨Nx, Ny, Nz, arr⟩ = ⟨Nx, Ny, Nz, (F ⟨Nx, Ny, Nz, arr⟩).array⟩ := by
    obtain ⟨h1, h2, h3⟩ := dF arr
    generalize hq : F ⟨Nx, Ny, Nz, arr⟩ = q at *
    cases q; simp only at h1 h2 h3; subst h1 h2 h3; rfl
  rw [e, hG, hF]
  by_cases h1 : ZG n <;> by_cases h2 : ZF n <;> simp [h1, h2]

theorem ghostE_mask (Nx Ny Nz : ℕ) : ∃ Z : ℕ → Bool, ∀ arr : Vec K, ∀ n,
    (ghostE (⟨Nx, Ny, Nz, arr⟩ : Fld K)).array n = if Z n then 0 else arr n := by
  have h0 := setPlane_zero_mask (K := K) Nx Ny Nz 0 (Nx - 1) 0
  have h1 := mask_comp (F := fun f => setPlane f 0 (Nx - 1) 0 fun _ _ _ => 0) h0 (fun _ => ⟨rfl, rfl, rfl⟩)
    (G := fun f => setPlane f 1 (Ny - 1) 1 fun _ _ _ => 0) (setPlane_zero_mask Nx Ny Nz 1 (Ny - 1) 1)
  have h2 := mask_comp (F := fun f => setPlane (setPlane f 0 (Nx - 1) 0 fun _ _ _ => 0) 1 (Ny - 1) 1 fun _ _ _ => 0)
    h1 (fun _ => ⟨rfl, rfl, rfl⟩)
    (G := fun f => setPlane f 2 (Nz - 1) 2 fun _ _ _ => 0) (setPlane_zero_mask Nx Ny Nz 2 (Nz - 1) 2)
  exact h2

theorem ghostH_mask (Nx Ny Nz : ℕ) : ∃ Z : ℕ → Bool, ∀ arr : Vec K, ∀ n,
    (ghostH (⟨Nx, Ny, Nz, arr⟩ : Fld K)).array n = if Z n then 0 else arr n := by
  have s := fun a m c => setPlane_zero_mask (K := K) Nx Ny Nz a m c
  have h1 := mask_comp (F := fun f => setPlane f 1 (Ny - 1) 0 fun _ _ _ => 0) (s 1 (Ny - 1) 0)
    (fun _ => ⟨rfl, rfl, rfl⟩) (G := fun f => setPlane f 2 (Nz - 1) 0 fun _ _ _ => 0) (s 2 (Nz - 1) 0)
  have h2 := mask_comp (F := fun f => setPlane (setPlane f 1 (Ny - 1) 0 fun _ _ _ => 0) 2 (Nz - 1) 0 fun _ _ _ => 0)
    h1 (fun _ => ⟨rfl, rfl, rfl⟩) (G := fun f => setPlane f 0 (Nx - 1) 1 fun _ _ _ => 0) (s 0 (Nx - 1) 1)
  have h3 := mask_comp (F := fun f => setPlane (setPlane (setPlane f 1 (Ny - 1) 0 fun _ _ _ => 0) 2 (Nz - 1) 0 fun _ _ _ => 0)
      0 (Nx - 1) 1 fun _ _ _ => 0) h2 (fun _ => ⟨rfl, rfl, rfl⟩) (G := fun f => setPlane f 2 (Nz - 1) 1 fun _ _ _ => 0) (s 2 (Nz - 1) 1)
  have h4 := mask_comp (F := fun f => setPlane (setPlane (setPlane (setPlane f 1 (Ny - 1) 0 fun _ _ _ => 0) 2 (Nz - 1) 0 fun _ _ _ => 0)
      0 (Nx - 1) 1 fun _ _ _ => 0) 2 (Nz - 1) 1 fun _ _ _ => 0) h3 (fun _ => ⟨rfl, rfl, rfl⟩) (G := fun f => setPlane f 0 (Nx - 1) 2 fun _ _ _ => 0) (s 0 (Nx - 1) 2)
  have h5 := mask_comp (F := fun f => setPlane (setPlane (setPlane (setPlane (setPlane f 1 (Ny - 1) 0 fun _ _ _ => 0) 2 (Nz - 1) 0 fun _ _ _ => 0)
      0 (Nx - 1) 1 fun _ _ _ => 0) 2 (Nz - 1) 1 fun _ _ _ => 0) 0 (Nx - 1) 2 fun _ _ _ => 0)
      h4 (fun _ => ⟨rfl, rfl, rfl⟩) (G := fun f => setPlane f 1 (Ny - 1) 2 fun _ _ _ => 0) (s 1 (Ny - 1) 2)
  exact h5

theorem applyBC_metric (g : Grid.Geom K) (bc : Faces String) (C : Mat K)
    (hp : (isPeriodic bc.xlo || isPeriodic bc.ylo || isPeriodic bc.zlo) = false) (ha : anyFace isAbc bc = false) :
    (applyBC g bc C).tL = g.tL ∧ (applyBC g bc C).itA = g.itA := by
  unfold applyBC abcMetric periodicMetric
  simp [hp, ha]

/-! ### C18 -/

section
variable (g : Grid.Geom K) (bc : Faces String) (ieps imu sigma : Vec K) (dt : K) (uc : Bool)

/-- The dual area metric of the built solver (after boundary conditions). -/
def dualInvArea : Vec K := (applyBC g bc (C0 g.Nx g.Ny g.Nz)).itA.array

/-- Electric flux through the dual face of entry `r`: `eps * E * dual area`. -/
def eflux (st : State K) : Vec K := fun r => st.E r / (ieps r * dualInvArea g bc r)

/-- Current through the dual face of entry `r`: `J * dual area`. -/
def current (st : State K) : Vec K := fun r => st.J r / dualInvArea g bc r

/-- The six entries of the edges adjacent to node `(i,j,k)`. -/
def nodeEdges (i j k : ℕ) : List ℕ :=
  [pos g.Nx g.Ny g.Nz 0 i j k, pos g.Nx g.Ny g.Nz 0 (i - 1) j k, pos g.Nx g.Ny g.Nz 1 i j k,
   pos g.Nx g.Ny g.Nz 1 i (j - 1) k, pos g.Nx g.Ny g.Nz 2 i j k, pos g.Nx g.Ny g.Nz 2 i j (k - 1)]

theorem codiv_cocirc (v : Vec K) {Nx Ny Nz i j k : ℕ} (hi0 : 0 < i) (hj0 : 0 < j) (hk0 : 0 < k)
    (hi : i < Nx) (hj : j < Ny) (hk : k < Nz) :
    codivAt (view3 Nx Ny Nz (mulVec (3 * (Nx * Ny * Nz)) (transpose (C0 Nx Ny Nz)) v)) i j k = 0 := by
  obtain ⟨i, rfl⟩ : ∃ a, i = a + 1 := ⟨i - 1, by omega⟩
  obtain ⟨j, rfl⟩ : ∃ a, j = a + 1 := ⟨j - 1, by omega⟩
  obtain ⟨k, rfl⟩ : ∃ a, k = a + 1 := ⟨k - 1, by omega⟩
  unfold codivAt
  simp only [Nat.add_sub_cancel]
  have hi' : i < Nx := by omega
  have hj' : j < Ny := by omega
  have hk' : k < Nz := by omega
  unfold view3
  simp only [pos]
  rw [CT_x (fl_lt hi hj hk), CT_x (fl_lt hi' hj hk), CT_y (fl_lt hi hj hk), CT_y (fl_lt hi hj' hk),
    CT_z (fl_lt hi hj hk), CT_z (fl_lt hi hj hk')]
  simp only [extB_x v _ (Nat.succ_pos i), extB_y v _ (Nat.succ_pos j), extB_z v _ (Nat.succ_pos k), Nat.add_sub_cancel,
    Nat.succ_sub_one, view3, pos]
  ring

theorem eflux_advance (st : State K) {r : ℕ} (hr : r < 3 * (g.Nx * g.Ny * g.Nz)) (h1 : ieps r ≠ 0)
    (h2 : dualInvArea g bc r ≠ 0) (h3 : colMask g bc r = 1) :
    eflux g bc ieps (advance (build g bc ieps imu sigma dt uc) st) r = eflux g bc ieps st r + dt *
      (mulVec (3 * (g.Nx * g.Ny * g.Nz)) (transpose (C0 g.Nx g.Ny g.Nz))
          (fun q => rowMask g bc q * ((applyBC g bc (C0 g.Nx g.Ny g.Nz)).tL.array q *
            (advance (build g bc ieps imu sigma dt uc) st).H q)) r - current g bc st r) := by
  unfold eflux current
  rw [advance_E _ _ _ _ _ _ _ _ hr, h3]
  have h2' : (applyBC g bc (C0 g.Nx g.Ny g.Nz)).itA.array r ≠ 0 := h2
  unfold dualInvArea
  field_simp

/-- **C18 (one step).** At every node whose six adjacent edges are neither PEC (`ieps = 0` or masked) nor
degenerate (zero inverse dual area), one time step changes the electric charge (net electric flux
out of the dual cell) by exactly `-dt` times the net current out of the dual cell. -/
theorem C18_continuity (st : State K) (hst : st.step0 = false) {i j k : ℕ} (hi0 : 0 < i) (hj0 : 0 < j) (hk0 : 0 < k)
    (hi : i < g.Nx) (hj : j < g.Ny) (hk : k < g.Nz)
    (hedges : ∀ r ∈ nodeEdges g i j k, ieps r ≠ 0 ∧ dualInvArea g bc r ≠ 0 ∧ colMask g bc r = 1) :
    let st' := oneStep (build g bc ieps imu sigma dt uc) st
    codivAt (view3 g.Nx g.Ny g.Nz (eflux g bc ieps st')) i j k =
      codivAt (view3 g.Nx g.Ny g.Nz (eflux g bc ieps st)) i j k
        - dt * codivAt (view3 g.Nx g.Ny g.Nz (current g bc st)) i j k := by
  intro st'
  have hs' : st' = advance (build g bc ieps imu sigma dt uc) st := oneStep_started _ _ hst
  rw [hs']
  have hd := codiv_cocirc (fun q => rowMask g bc q * ((applyBC g bc (C0 g.Nx g.Ny g.Nz)).tL.array q *
            (advance (build g bc ieps imu sigma dt uc) st).H q)) hi0 hj0 hk0 hi hj hk
  have e : ∀ r ∈ nodeEdges g i j k, r < 3 * (g.Nx * g.Ny * g.Nz) → _ := fun r hm hr =>
    eflux_advance g bc ieps imu sigma dt uc st hr (hedges r hm).1 (hedges r hm).2.1 (hedges r hm).2.2
  unfold codivAt view3 at hd ⊢
  rw [e _ (by simp [nodeEdges]) (pos_lt (c := 0) (by omega) hi hj hk),
    e (pos g.Nx g.Ny g.Nz 0 (i - 1) j k) (by simp [nodeEdges]) (pos_lt (by omega) (by omega) hj hk),
    e (pos g.Nx g.Ny g.Nz 1 i j k) (by simp [nodeEdges]) (pos_lt (by omega) hi hj hk),
    e (pos g.Nx g.Ny g.Nz 1 i (j - 1) k) (by simp [nodeEdges]) (pos_lt (by omega) hi (by omega) hk),
    e (pos g.Nx g.Ny g.Nz 2 i j k) (by simp [nodeEdges]) (pos_lt (by omega) hi hj hk),
    e (pos g.Nx g.Ny g.Nz 2 i j (k - 1)) (by simp [nodeEdges]) (pos_lt (by omega) hi hj (by omega))]
  linear_combination dt * hd

/-- The total charge a run of `n` steps has driven out of the dual cell of a node. -/
def outflow (s : Solver K) (st : State K) (i j k : ℕ) : ℕ → K
  | 0 => 0
  | n + 1 => outflow s st i j k n +
      dt * codivAt (view3 g.Nx g.Ny g.Nz (current g bc ((oneStep s)^[n] st))) i j k

/-- **C18 (any number of steps).** The charge at such a node after `n` steps is the initial charge minus
everything the currents carried away; with a divergence-free current it never changes. -/
theorem C18_run (st : State K) (hst : st.step0 = false) {i j k : ℕ} (hi0 : 0 < i) (hj0 : 0 < j) (hk0 : 0 < k)
    (hi : i < g.Nx) (hj : j < g.Ny) (hk : k < g.Nz)
    (hedges : ∀ r ∈ nodeEdges g i j k, ieps r ≠ 0 ∧ dualInvArea g bc r ≠ 0 ∧ colMask g bc r = 1) (n : ℕ) :
    let s := build g bc ieps imu sigma dt uc
    codivAt (view3 g.Nx g.Ny g.Nz (eflux g bc ieps ((oneStep s)^[n] st))) i j k =
      codivAt (view3 g.Nx g.Ny g.Nz (eflux g bc ieps st)) i j k - outflow g bc dt s st i j k n := by
  intro s
  have h0 : ∀ n, ((oneStep s)^[n] st).step0 = false := by
    intro n
    induction n with
    | zero => exact hst
    | succ n ih => rw [Function.iterate_succ_apply', oneStep_started _ _ ih, advance_step0, ih]
  induction n with
  | zero => simp [outflow]
  | succ n ih =>
    rw [Function.iterate_succ_apply', C18_continuity g bc ieps imu sigma dt uc _ (h0 n) hi0 hj0 hk0 hi hj hk hedges, ih]
    simp only [outflow]
    ring

/-! ### C19 -/

/-- Dual edge lengths of the built solver. -/
def dualLen : Vec K := (applyBC g bc (C0 g.Nx g.Ny g.Nz)).tL.array

/-- Leapfrog energy of two consecutive states: `⟨E, eps E⟩ + ⟨H_prev, mu H_next⟩`, weighted by the
volumes `length * dual area` and `dual length * area`.  Entries with zero inverse permittivity or
zero inverse dual area (PEC, degenerate) have no weight (`x / 0 = 0`). -/
def energy (st st' : State K) : K :=
  ∑ r ∈ range (3 * (g.Nx * g.Ny * g.Nz)), g.L.array r / (ieps r * dualInvArea g bc r) * st.E r ^ 2 +
  ∑ r ∈ range (3 * (g.Nx * g.Ny * g.Nz)), dualLen g bc r / (g.iA.array r * imu r) * (st.H r * st'.H r)

/-- E is zero on every entry that is PEC by material or degenerate, unless the boundary mask already
removes it. -/
def DeadZero (st : State K) : Prop := ∀ r < 3 * (g.Nx * g.Ny * g.Nz),
  ieps r * dualInvArea g bc r = 0 → st.E r = 0 ∨ colMask g bc r = 0

theorem deadZero_advance (st : State K) (hd : DeadZero g bc ieps st) (hJ : ∀ r < 3 * (g.Nx * g.Ny * g.Nz), ieps r * st.J r = 0) :
    DeadZero g bc ieps (advance (build g bc ieps imu sigma dt uc) st) := by
  intro r hr h0
  rcases hd r hr h0 with h | h
  · left
    rw [advance_E _ _ _ _ _ _ _ _ hr, h, hJ r hr]
    have : ieps r * (applyBC g bc (C0 g.Nx g.Ny g.Nz)).itA.array r = 0 := h0
    rw [this]; ring
  · exact .inr h

theorem energy_advance (st : State K) (hd : DeadZero g bc ieps st)
    (hA : ∀ r < 3 * (g.Nx * g.Ny * g.Nz), g.iA.array r * imu r ≠ 0)
    (hJ : ∀ r < 3 * (g.Nx * g.Ny * g.Nz), ieps r * st.J r = 0) :
    let s := build g bc ieps imu sigma dt uc
    energy g bc ieps imu (advance s st) (advance s (advance s st)) = energy g bc ieps imu st (advance s st) := by
  intro s
  set n3 := 3 * (g.Nx * g.Ny * g.Nz) with hn3
  set st1 := advance s st with hst1
  set st2 := advance s st1 with hst2
  -- both curls through the masked matrix
  let Cm : Mat K := (applyBC g bc (C0 g.Nx g.Ny g.Nz)).C
  have eH : ∀ t : State K, ∀ r < n3, (advance s t).H r = t.H r - dt * (g.iA.array r * imu r *
      mulVec n3 Cm (fun q => g.L.array q * t.E q) r) := by
    intro t r hr
    have : (advance s t).H r = t.H r - dt * mulVec n3 (opH n3 g.iA.toarray imu Cm g.L.toarray) t.E r := rfl
    rw [this, opH_mulVec _ _ _ _ _ hr]; rfl
  have eE : ∀ r < n3, st1.E r = st.E r + dt * (ieps r * dualInvArea g bc r *
      mulVec n3 (transpose Cm) (fun q => dualLen g bc q * st1.H q) r) := by
    intro r hr
    have : st1.E r = st.E r + dt * (mulVec n3 (opE n3 ieps (dualInvArea g bc) Cm (dualLen g bc)) st1.H r - ieps r * st.J r) := rfl
    rw [this, opE_mulVec _ _ _ _ _ hr, hJ r hr, sub_zero]
  -- weights
  have wH : ∀ r < n3, dualLen g bc r / (g.iA.array r * imu r) * (st1.H r * st2.H r)
      - dualLen g bc r / (g.iA.array r * imu r) * (st.H r * st1.H r) =
      - dt * (dualLen g bc r * st1.H r * mulVec n3 Cm (fun q => g.L.array q * (st.E q + st1.E q)) r) := by
    intro r hr
    have h2 : st2.H r = _ := eH st1 r hr
    have h1 : st1.H r = _ := eH st r hr
    have hlin : mulVec n3 Cm (fun q => g.L.array q * (st.E q + st1.E q)) r =
        mulVec n3 Cm (fun q => g.L.array q * st.E q) r + mulVec n3 Cm (fun q => g.L.array q * st1.E q) r := by
      rw [← mulVec_add]; simp only [mul_add]
    have h0 : st.H r = st1.H r + dt * (g.iA.array r * imu r * mulVec n3 Cm (fun q => g.L.array q * st.E q) r) := by
      rw [h1]; ring
    rw [hlin, h2, h0]
    have hw : dualLen g bc r / (g.iA.array r * imu r) * (g.iA.array r * imu r) = dualLen g bc r :=
      div_mul_cancel₀ _ (hA r hr)
    generalize dualLen g bc r / (g.iA.array r * imu r) = w at hw ⊢
    rw [← hw]
    ring
  have wE : ∀ r < n3, g.L.array r / (ieps r * dualInvArea g bc r) * st1.E r ^ 2
      - g.L.array r / (ieps r * dualInvArea g bc r) * st.E r ^ 2 =
      dt * (mulVec n3 (transpose Cm) (fun q => dualLen g bc q * st1.H q) r * (g.L.array r * (st.E r + st1.E r))) := by
    intro r hr
    by_cases h0 : ieps r * dualInvArea g bc r = 0
    · have e1 : st1.E r = st.E r := by rw [eE r hr, h0]; ring
      rw [e1, h0, div_zero]
      rcases hd r hr h0 with h | h
      · rw [h]; ring
      · rw [applyBC_transpose_mulVec g bc _ _ hr, h]; ring
    · have hw : g.L.array r / (ieps r * dualInvArea g bc r) * (ieps r * dualInvArea g bc r) = g.L.array r :=
        div_mul_cancel₀ _ h0
      have e1 := eE r hr
      generalize g.L.array r / (ieps r * dualInvArea g bc r) = w at hw ⊢
      rw [← hw, e1]
      ring
  have key := inner_transpose n3 Cm (fun r => dualLen g bc r * st1.H r) (fun q => g.L.array q * (st.E q + st1.E q))
  have sH := sum_congr rfl fun r (hr : r ∈ range n3) => wH r (mem_range.1 hr)
  have sE := sum_congr rfl fun r (hr : r ∈ range n3) => wE r (mem_range.1 hr)
  rw [sum_sub_distrib] at sH sE
  rw [← mul_sum] at sH sE
  unfold energy
  rw [← hn3]
  linear_combination sH + sE - dt * key

/-- **C19.** For every grid with non-zero areas and permeabilities, every combination of the six
boundary names, every permittivity (PEC included) and every started state without current in a
solver without conductivity, in which E vanishes on PEC and degenerate entries, the
leapfrog energy is the same after every number of time steps. -/
theorem C19_energy_conserved (st : State K) (hst : st.step0 = false)
    (hA : ∀ r < 3 * (g.Nx * g.Ny * g.Nz), g.iA.array r * imu r ≠ 0)
    (huc : (build g bc ieps imu sigma dt uc).useConductivity = false)
    (hJ : ∀ r < 3 * (g.Nx * g.Ny * g.Nz), st.J r = 0) (hd : DeadZero g bc ieps st) (n : ℕ) :
    let s := build g bc ieps imu sigma dt uc
    energy g bc ieps imu ((oneStep s)^[n] st) ((oneStep s)^[n + 1] st) = energy g bc ieps imu st (oneStep s st) := by
  intro s
  have inv : ∀ n, ((oneStep s)^[n] st).step0 = false ∧ (∀ r < 3 * (g.Nx * g.Ny * g.Nz), ((oneStep s)^[n] st).J r = 0) ∧
      DeadZero g bc ieps ((oneStep s)^[n] st) := by
    intro n
    induction n with
    | zero => exact ⟨hst, hJ, hd⟩
    | succ n ih =>
      rw [Function.iterate_succ_apply', oneStep_started _ _ ih.1]
      refine ⟨ih.1, ?_, deadZero_advance g bc ieps imu sigma dt uc _ ih.2.2 (fun r hr => by rw [ih.2.1 r hr, mul_zero])⟩
      intro r hr
      have : (advance s ((oneStep s)^[n] st)).J = ((oneStep s)^[n] st).J := by
        unfold advance
        have : s.useConductivity = false := huc
        simp [this]
      rw [this]; exact ih.2.1 r hr
  induction n with
  | zero => rfl
  | succ n ih =>
    rw [← ih]
    have h1 : (oneStep s)^[n + 1] st = advance s ((oneStep s)^[n] st) := by
      rw [Function.iterate_succ_apply', oneStep_started _ _ (inv n).1]
    have h2 : (oneStep s)^[n + 1 + 1] st = advance s (advance s ((oneStep s)^[n] st)) := by
      rw [Function.iterate_succ_apply', oneStep_started _ _ (inv (n + 1)).1, h1]
    rw [h2, h1]
    exact energy_advance g bc ieps imu sigma dt uc _ (inv n).2.2 hA (fun r hr => by rw [(inv n).2.1 r hr, mul_zero])

end

/-! ### C21 -/

/-- Entry-wise linear combination of two states. -/
def lin (a b : K) (s t : State K) : State K :=
  ⟨fun n => a * s.E n + b * t.E n, fun n => a * s.H n + b * t.H n, fun n => a * s.J n + b * t.J n, s.step0⟩

/-- The third event is the same linear combination of the first two: a step of each, or an assignment to the same
entry of the combined value. -/
inductive LinEv (a b : K) : Ev K → Ev K → Ev K → Prop
  | step : LinEv a b .step .step .step
  | write (f : Which) (n : ℕ) (v w : K) : LinEv a b (.write f n v) (.write f n w) (.write f n (a * v + b * w))

/-- Event lists combined event by event. -/
inductive LinEvs (a b : K) : List (Ev K) → List (Ev K) → List (Ev K) → Prop
  | nil : LinEvs a b [] [] []
  | cons {e1 e2 e3 : Ev K} {l1 l2 l3 : List (Ev K)} (h : LinEv a b e1 e2 e3) (t : LinEvs a b l1 l2 l3) :
      LinEvs a b (e1 :: l1) (e2 :: l2) (e3 :: l3)

theorem advance_lin (s : Solver K) (a b : K) (st t : State K) :
    advance s (lin a b st t) = lin a b (advance s st) (advance s t) := by
  have hH : (advance s (lin a b st t)).H = fun n => a * (advance s st).H n + b * (advance s t).H n := by
    funext n
    simp only [advance, lin]
    rw [mulVec_add, mulVec_smul, mulVec_smul]
    ring
  have hE : (advance s (lin a b st t)).E = fun n => a * (advance s st).E n + b * (advance s t).E n := by
    funext n
    have e : (advance s (lin a b st t)).E n = (lin a b st t).E n + s.dt * (mulVec s.n3 s.M2 (advance s (lin a b st t)).H n
      - s.ieps n * (lin a b st t).J n) := rfl
    rw [e, hH, mulVec_add, mulVec_smul, mulVec_smul]
    simp only [advance, lin]
    ring
  have hJ : (advance s (lin a b st t)).J = fun n => a * (advance s st).J n + b * (advance s t).J n := by
    have e : ∀ x : State K, (advance s x).J = if s.useConductivity then fun i => s.sigma i * (advance s x).E i else x.J :=
      fun _ => rfl
    rw [e, e st, e t, hE]
    split_ifs
    · funext n; ring
    · rfl
  have h0 : (advance s (lin a b st t)).step0 = st.step0 := rfl
  cases hq : advance s (lin a b st t)
  rw [hq] at hH hE hJ h0
  simp only at hH hE hJ h0
  subst hH hE hJ h0
  rfl

theorem ghosts_lin (s : Solver K) (a b : K) (st t : State K) :
    setGhostsTo0 s (lin a b st t) = lin a b (setGhostsTo0 s st) (setGhostsTo0 s t) := by
  obtain ⟨ZH, hZH⟩ := ghostH_mask (K := K) s.Nx s.Ny s.Nz
  obtain ⟨ZE, hZE⟩ := ghostE_mask (K := K) s.Nx s.Ny s.Nz
  unfold setGhostsTo0 lin
  simp only [State.mk.injEq, and_true]
  refine ⟨?_, ?_⟩
  · funext n
    simp only [Solver.fld, hZE]
    split_ifs <;> ring
  · funext n
    simp only [Solver.fld, hZH]
    split_ifs <;> ring

theorem oneStep_lin (s : Solver K) (a b : K) (st t : State K) (h : st.step0 = t.step0) :
    oneStep s (lin a b st t) = lin a b (oneStep s st) (oneStep s t) := by
  unfold oneStep
  have e : (lin a b st t).step0 = st.step0 := rfl
  rw [e, ← h]
  split_ifs
  · rw [ghosts_lin, ← advance_lin]; rfl
  · exact advance_lin s a b st t

/-- **C21.** Time stepping is linear: for every solver, scalars `a`, `b`, two initial states (both
fresh or both started) and two source histories, the run of the combination is the combination of
the runs, in every entry, after any number of steps and writes. -/
theorem C21_superposition (s : Solver K) (a b : K) (st t : State K) (h : st.step0 = t.step0)
    {e1 e2 e3 : List (Ev K)} (he : LinEvs a b e1 e2 e3) :
    runEv s (lin a b st t) e3 = lin a b (runEv s st e1) (runEv s t e2) := by
  induction he generalizing st t with
  | nil => rfl
  | cons hev _ ih =>
    show runEv s (event s (lin a b st t) _) _ = lin a b (runEv s (event s st _) _) (runEv s (event s t _) _)
    cases hev with
    | step =>
      have h' : (oneStep s st).step0 = (oneStep s t).step0 := by
        unfold oneStep; rw [← h]; split_ifs
        · rfl
        · exact h
      show runEv s (oneStep s (lin a b st t)) _ = _
      rw [oneStep_lin s a b st t h]
      exact ih _ _ h'
    | write f n v w =>
      have up : ∀ (x y : Vec K), Function.update (fun m => a * x m + b * y m) n (a * v + b * w) =
          fun m => a * Function.update x n v m + b * Function.update y n w m := by
        intro x y; funext m
        by_cases hm : m = n
        · subst hm; simp
        · simp [Function.update_of_ne hm]
      cases f with
      | E =>
        have := ih { st with E := Function.update st.E n v } { t with E := Function.update t.E n w } h
        refine Eq.trans ?_ this; simp only [event, lin, up]
      | H =>
        have := ih { st with H := Function.update st.H n v } { t with H := Function.update t.H n w } h
        refine Eq.trans ?_ this; simp only [event, lin, up]
      | J =>
        have := ih { st with J := Function.update st.J n v } { t with J := Function.update t.J n w } h
        refine Eq.trans ?_ this; simp only [event, lin, up]

/-! ### C22 -/

/-- Every existing entry of E, H and J is zero. -/
def AllZero (s : Solver K) (st : State K) : Prop := ∀ r < s.n3, st.E r = 0 ∧ st.H r = 0 ∧ st.J r = 0

/-- **C22 (reset).** `reset_fields` sets every entry of E, H and J to zero, from every state. -/
theorem C22_reset (s : Solver K) (st : State K) : AllZero s (resetFields s st) := by
  intro r hr
  have key : ∀ a : Vec K, ((((s.fld a).setPart 0 (Fld.ravelF s.Nx s.Ny fun _ _ _ => 0)).setPart 1
      (Fld.ravelF s.Nx s.Ny fun _ _ _ => 0)).setPart 2 (Fld.ravelF s.Nx s.Ny fun _ _ _ => 0)).array r = 0 := by
    intro a
    have hN : (s.fld a).N = s.Nx * s.Ny * s.Nz := rfl
    have hr' : r < 3 * (s.Nx * s.Ny * s.Nz) := hr
    simp only [Fld.setPart, Fld.ravelF, Fld.N, Solver.fld]
    by_cases h1 : 2 * (s.Nx * s.Ny * s.Nz) ≤ r ∧ r < (2 + 1) * (s.Nx * s.Ny * s.Nz)
    · exact if_pos h1
    refine (if_neg h1).trans ?_
    by_cases h2 : 1 * (s.Nx * s.Ny * s.Nz) ≤ r ∧ r < (1 + 1) * (s.Nx * s.Ny * s.Nz)
    · exact if_pos h2
    refine (if_neg h2).trans ?_
    refine if_pos ⟨by omega, ?_⟩
    clear hN
    generalize s.Nx * s.Ny * s.Nz = N at *
    omega
  exact ⟨key _, key _, key _⟩

theorem mulVec_zero_below (n : ℕ) (M : Mat K) (v : Vec K) (h : ∀ j < n, v j = 0) (i : ℕ) : mulVec n M v i = 0 := by
  unfold mulVec
  exact sum_eq_zero fun j hj => by rw [h j (mem_range.1 hj), mul_zero]

theorem allZero_advance (s : Solver K) (st : State K) (h : AllZero s st) : AllZero s (advance s st) := by
  have hH : ∀ r < s.n3, (advance s st).H r = 0 := by
    intro r hr
    simp only [advance]
    rw [mulVec_zero_below _ _ _ (fun j hj => (h j hj).1), (h r hr).2.1]; ring
  have hE : ∀ r < s.n3, (advance s st).E r = 0 := by
    intro r hr
    have e : (advance s st).E r = st.E r + s.dt * (mulVec s.n3 s.M2 (advance s st).H r - s.ieps r * st.J r) := rfl
    rw [e, mulVec_zero_below _ _ _ hH, (h r hr).1, (h r hr).2.2]; ring
  intro r hr
  refine ⟨hE r hr, hH r hr, ?_⟩
  have e : (advance s st).J = if s.useConductivity then fun i => s.sigma i * (advance s st).E i else st.J := rfl
  rw [e]
  split_ifs
  · simp only; rw [hE r hr, mul_zero]
  · exact (h r hr).2.2

theorem allZero_oneStep (s : Solver K) (st : State K) (h : AllZero s st) : AllZero s (oneStep s st) := by
  unfold oneStep
  split_ifs
  · apply allZero_advance
    intro r hr
    obtain ⟨ZH, hZH⟩ := ghostH_mask (K := K) s.Nx s.Ny s.Nz
    obtain ⟨ZE, hZE⟩ := ghostE_mask (K := K) s.Nx s.Ny s.Nz
    simp only [setGhostsTo0, Solver.fld, hZH, hZE, (h r hr).1, (h r hr).2.1, (h r hr).2.2, ite_self, and_self]
  · exact allZero_advance s st h

/-- **C22 (quiescence).** A zero state stays exactly zero for any number of steps without sources, for
every solver (boundary conditions, materials, conductivity). -/
theorem C22_quiescent (s : Solver K) (st : State K) (h : AllZero s st) (n : ℕ) : AllZero s ((oneStep s)^[n] st) := by
  induction n with
  | zero => exact h
  | succ n ih => rw [Function.iterate_succ_apply']; exact allZero_oneStep s _ ih

/-- **C22.** A fresh solver without source stays at zero; so does a solver after `reset_fields` at any time. -/
theorem C22_fresh_and_reset (s : Solver K) (st : State K) (n : ℕ) :
    AllZero s ((oneStep s)^[n] initState) ∧ AllZero s ((oneStep s)^[n] (resetFields s st)) :=
  ⟨C22_quiescent s _ (fun _ _ => ⟨rfl, rfl, rfl⟩) n, C22_quiescent s _ (C22_reset s st) n⟩

/-! ### C23 -/

/-- The event does not assign entry `r` of E. -/
def Ev.NotEAt (r : ℕ) : Ev K → Prop
  | .write .E n _ => n ≠ r
  | _ => True

section
variable (g : Grid.Geom K) (bc : Faces String) (ieps imu sigma : Vec K) (dt : K) (uc : Bool)

theorem pec_advance (st : State K) {r : ℕ} (hr : r < 3 * (g.Nx * g.Ny * g.Nz)) (h : ieps r = 0) :
    (advance (build g bc ieps imu sigma dt uc) st).E r = st.E r := by
  rw [advance_E _ _ _ _ _ _ _ _ hr, h]; ring

/-- **C23.** An entry with infinite permittivity (`1/eps = 0`) keeps its E value for ever in a started
solver: for every grid, boundary choice, every history of steps and assignments of any field not
directly assigning this entry of E. -/
theorem C23_pec_frozen (st : State K) (hst : st.step0 = false) {r : ℕ} (hr : r < 3 * (g.Nx * g.Ny * g.Nz))
    (h : ieps r = 0) (evs : List (Ev K)) (hw : ∀ e ∈ evs, e.NotEAt r) :
    (runEv (build g bc ieps imu sigma dt uc) st evs).E r = st.E r := by
  induction evs generalizing st with
  | nil => rfl
  | cons e es ih =>
    have hes : ∀ e ∈ es, e.NotEAt r := fun e he => hw e (List.mem_cons_of_mem _ he)
    have he := hw e (List.mem_cons_self ..)
    show (runEv _ (event _ st e) es).E r = _
    cases e with
    | step =>
      rw [ih _ _ hes]
      · show (oneStep _ st).E r = _
        rw [oneStep_started _ _ hst, pec_advance _ _ _ _ _ _ _ _ hr h]
      · show (oneStep _ st).step0 = false
        rw [oneStep_started _ _ hst]; exact hst
    | write f n v =>
      cases f with
      | H => exact ih _ hst hes
      | J => exact ih _ hst hes
      | E =>
        exact (ih _ (show (event _ st (.write .E n v)).step0 = false from hst) hes).trans
          (Function.update_of_ne (Ne.symm he) _ _)

/-- **C23 (zero stays zero).** From any state, fresh or started, in which E is zero there, E is zero
there after every such history. -/
theorem C23_pec_zero (st : State K) {r : ℕ} (hr : r < 3 * (g.Nx * g.Ny * g.Nz))
    (h : ieps r = 0) (h0 : st.E r = 0) (evs : List (Ev K)) (hw : ∀ e ∈ evs, e.NotEAt r) :
    (runEv (build g bc ieps imu sigma dt uc) st evs).E r = 0 := by
  induction evs generalizing st with
  | nil => exact h0
  | cons e es ih =>
    have hes : ∀ e ∈ es, e.NotEAt r := fun e he => hw e (List.mem_cons_of_mem _ he)
    have he := hw e (List.mem_cons_self ..)
    show (runEv _ (event _ st e) es).E r = _
    cases e with
    | step =>
      refine ih _ ?_ hes
      show (oneStep _ st).E r = 0
      unfold oneStep
      split_ifs
      · rw [pec_advance _ _ _ _ _ _ _ _ hr h]
        obtain ⟨ZE, hZE⟩ := ghostE_mask (K := K) g.Nx g.Ny g.Nz
        simp only [setGhostsTo0, Solver.fld]
        have := hZE st.E r
        rw [h0, ite_self] at this
        exact this
      · rw [pec_advance _ _ _ _ _ _ _ _ hr h, h0]
    | write f n v =>
      cases f with
      | H => exact ih _ h0 hes
      | J => exact ih _ h0 hes
      | E =>
        refine ih _ ?_ hes
        show Function.update st.E n v r = 0
        rw [Function.update_of_ne (Ne.symm he), h0]

end

/-! ### Non-vacuity -/

open Grid in
/-- On every grid built from increasing axes all inverse areas are positive. -/
theorem iA_pos [LinearOrder K] [IsStrictOrderedRing K] (Nx Ny Nz : ℕ) (x y z : ℕ → K)
    (hx : Increasing x Nx) (hy : Increasing y Ny) (hz : Increasing z Nz) :
    ∀ r < 3 * (Nx * Ny * Nz), 0 < (computeGrid Nx Ny Nz x y z).iA.array r := by
  intro r hr
  have hN : 0 < Nx * Ny * Nz := by
    rcases Nat.eq_zero_or_pos (Nx * Ny * Nz) with h | h
    · rw [h] at hr; omega
    · exact h
  have hp : r % (Nx * Ny * Nz) < Nx * Ny * Nz := Nat.mod_lt _ hN
  obtain ⟨h1, h2, h3⟩ := Fld.digits_lt hp
  have hc : r / (Nx * Ny * Nz) < 3 := Nat.div_lt_of_lt_mul (by rwa [Nat.mul_comm] at hr)
  have h := C10_primary Nx Ny Nz x y z hx hy hz h1 h2 h3
  have e : (computeGrid Nx Ny Nz x y z).iA.array r = (computeGrid Nx Ny Nz x y z).iA.at3 (r / (Nx * Ny * Nz))
      (r % (Nx * Ny * Nz) % Nx) (r % (Nx * Ny * Nz) / Nx % Ny) (r % (Nx * Ny * Nz) / Nx / Ny) := by
    have hdig : r % (Nx * Ny * Nz) % Nx + Nx * (r % (Nx * Ny * Nz) / Nx % Ny + Ny * (r % (Nx * Ny * Nz) / Nx / Ny)) =
        r % (Nx * Ny * Nz) := by
      rw [Nat.mod_add_div (r % (Nx * Ny * Nz) / Nx) Ny, Nat.mod_add_div]
    show _ = (computeGrid Nx Ny Nz x y z).iA.array (r / (Nx * Ny * Nz) * (Nx * Ny * Nz) + (_ + Nx * (_ + Ny * _)))
    rw [hdig, Nat.mul_comm, Nat.div_add_mod]
  rw [e]
  have : r / (Nx * Ny * Nz) = 0 ∨ r / (Nx * Ny * Nz) = 1 ∨ r / (Nx * Ny * Nz) = 2 := by
    clear e h h1 h2 h3
    generalize r / (Nx * Ny * Nz) = q at *
    omega
  rcases this with q | q | q <;> rw [q]
  · exact h.2.2.2.1
  · exact h.2.2.2.2.1
  · exact h.2.2.2.2.2

open Grid in
/-- Away from the last layers the inverse dual areas are non-zero on every grid built from increasing axes. -/
theorem itA_ne [LinearOrder K] [IsStrictOrderedRing K] (Nx Ny Nz : ℕ) (x y z : ℕ → K)
    (hx : Increasing x Nx) (hy : Increasing y Ny) (hz : Increasing z Nz) {c i j k : ℕ} (hc : c < 3)
    (hi : i + 1 < Nx) (hj : j + 1 < Ny) (hk : k + 1 < Nz) :
    (computeGrid Nx Ny Nz x y z).itA.array (pos Nx Ny Nz c i j k) ≠ 0 := by
  have h := C11_positive Nx Ny Nz x y z hx hy hz (i := i) (j := j) (k := k) (by omega) (by omega) (by omega)
  have h0 := (h.1.2 hi).ne'
  have h1 := (h.2.1.2 hj).ne'
  have h2 := (h.2.2.2 hk).ne'
  have d := C10_dual Nx Ny Nz x y z (i := i) (j := j) (k := k) (by omega) (by omega) (by omega)
  have : c = 0 ∨ c = 1 ∨ c = 2 := by omega
  rcases this with rfl | rfl | rfl
  · exact fun e => by simpa [show (computeGrid Nx Ny Nz x y z).itA.at3 0 i j k = 0 from e] using (d 0 1 2 (by simp)).1 (mul_ne_zero h1 h2)
  · exact fun e => by simpa [show (computeGrid Nx Ny Nz x y z).itA.at3 1 i j k = 0 from e] using (d 1 0 2 (by simp)).1 (mul_ne_zero h0 h2)
  · exact fun e => by simpa [show (computeGrid Nx Ny Nz x y z).itA.at3 2 i j k = 0 from e] using (d 2 0 1 (by simp)).1 (mul_ne_zero h0 h1)

theorem demo_inc (n : ℕ) : Grid.Increasing Grid.demoAxis n := by
  intro i _; simp only [Grid.demoAxis]; push_cast; nlinarith [(Nat.cast_nonneg i : (0 : ℚ) ≤ i)]

/-- The hypotheses of C16-C19 are met by a 3×3×3 grid on the axis 0,1,4,9 with vacuum-like material and
mixed boundary names (no PMC). -/
example : let g := Grid.computeGrid 3 3 3 Grid.demoAxis Grid.demoAxis Grid.demoAxis
    let bc : Faces String := ⟨"PEC", "periodic", "electric", "abc", "pec", "Pec"⟩
    anyFace isPmcAny bc = false ∧ (∀ r < 3 * (g.Nx * g.Ny * g.Nz), g.iA.array r * (1 : ℚ) ≠ 0) ∧
    (1 + 1 < g.Nx ∧ 1 + 1 < g.Ny ∧ 0 + 1 < g.Nz) ∧
    (build g bc (fun _ => 1) (fun _ => 1) (fun _ => 0) (1 / 10) false).useConductivity = false := by
  intro g bc
  refine ⟨by decide, fun r hr => ?_, by decide, by decide⟩
  have := iA_pos 3 3 3 _ _ _ (demo_inc 3) (demo_inc 3) (demo_inc 3) r hr
  rw [mul_one]; exact this.ne'

/-- C18: an inner node of a 4×4×4 all-PEC box has six live edges. -/
example : let g := Grid.computeGrid 4 4 4 Grid.demoAxis Grid.demoAxis Grid.demoAxis
    let bc : Faces String := ⟨"pec", "pec", "pec", "pec", "pec", "pec"⟩
    ∀ r ∈ nodeEdges g 2 2 2, (1 : ℚ) ≠ 0 ∧ dualInvArea g bc r ≠ 0 ∧ colMask g bc r = 1 := by
  intro g bc r hr
  have hd : dualInvArea g bc = g.itA.array :=
    congrArg Fld.array (applyBC_metric g bc _ (by decide) (by decide)).2
  rw [hd]
  simp only [nodeEdges, List.mem_cons, List.not_mem_nil, or_false] at hr
  refine ⟨one_ne_zero, ?_, ?_⟩
  · rcases hr with rfl | rfl | rfl | rfl | rfl | rfl <;>
      exact itA_ne 4 4 4 _ _ _ (demo_inc 4) (demo_inc 4) (demo_inc 4) (by omega) (by omega) (by omega) (by omega)
  · rcases hr with rfl | rfl | rfl | rfl | rfl | rfl <;>
      exact colMask_interior g bc (by omega) (by decide) (by decide) (by decide) (by decide) (by decide) (by decide)

end Sol
end Wakis
