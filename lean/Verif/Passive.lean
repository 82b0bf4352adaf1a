import Verif.Reciprocity
import Verif.Stability3

/-!
# C112: passivity

Sources can take no more energy out of the fields than they put in.
-/

namespace Wakis
namespace Sol
open Finset Sparse Grid CurlBound
variable {K : Type _} [Field K]

/-! ### specification -/

/-- The work done by the sources `S` with current densities `w` against the fields `E` in the first `n` steps of length `dt`: minus current (`w / itA`: density times dual area) times voltage (`L E`) times
`dt`, with the mean of the voltages at the beginning and the end of each step. -/
def sourceWork (L itA : Vec K) (dt : K) (S : List ℕ) (w : ℕ → ℕ → K) (E : ℕ → Vec K) (n : ℕ) : K :=
  -∑ m ∈ range n, ∑ r ∈ S.toFinset, dt * (w m r / itA r) * (L r * ((E m r + E (m + 1) r) / 2))

/-! ### the balance -/
section
variable (g : Geom K) (bc : Faces String) (ieps imu sigma : Vec K) (dt : K) (uc : Bool)

/-- The work done on the current is what the leapfrog energy loses (`energy_loss`, for any current that leaves the dead entries at zero). -/
theorem energy_work (st : State K) (hd : DeadZero g bc ieps st)
    (hA : ∀ r < 3 * (g.Nx * g.Ny * g.Nz), g.iA.array r * imu r ≠ 0)
    (hd1 : DeadZero g bc ieps (advance (build g bc ieps imu sigma dt uc) st)) :
    let s := build g bc ieps imu sigma dt uc
    energy g bc ieps imu (advance s st) (advance s (advance s st)) = energy g bc ieps imu st (advance s st) -
      ∑ r ∈ range (3 * (g.Nx * g.Ny * g.Nz)), g.L.array r / (ieps r * dualInvArea g bc r) *
        (dt * (ieps r * st.J r) * (st.E r + (advance s st).E r)) := by
  intro s
  set n3 := 3 * (g.Nx * g.Ny * g.Nz) with hn3
  set st1 := advance s st with hst1
  set st2 := advance s st1 with hst2
  let Cm : Mat K := (applyBC g bc (C0 g.Nx g.Ny g.Nz)).C
  have eH : ∀ t : State K, ∀ r < n3, (advance s t).H r = t.H r - dt * (g.iA.array r * imu r *
      mulVec n3 Cm (fun q => g.L.array q * t.E q) r) := by
    intro t r hr
    have : (advance s t).H r = t.H r - dt * mulVec n3 (opH n3 g.iA.toarray imu Cm g.L.toarray) t.E r := rfl
    rw [this, opH_mulVec _ _ _ _ _ hr]; rfl
  have eE : ∀ r < n3, st1.E r = st.E r + dt * (ieps r * dualInvArea g bc r *
      mulVec n3 (transpose Cm) (fun q => dualLen g bc q * st1.H q) r - ieps r * st.J r) := by
    intro r hr
    have : st1.E r = st.E r + dt * (mulVec n3 (opE n3 ieps (dualInvArea g bc) Cm (dualLen g bc)) st1.H r - ieps r * st.J r) := rfl
    rw [this, opE_mulVec _ _ _ _ _ hr]
  have wH : ∀ r < n3, dualLen g bc r / (g.iA.array r * imu r) * (st1.H r * st2.H r)
      - dualLen g bc r / (g.iA.array r * imu r) * (st.H r * st1.H r) =
      - dt * (dualLen g bc r * st1.H r * mulVec n3 Cm (fun q => g.L.array q * (st.E q + st1.E q)) r) := by
    intro r hr
    have h2 : st2.H r = _ := eH st1 r hr
    have h1 : st1.H r = _ := eH st r hr
    have hlin : mulVec n3 Cm (fun q => g.L.array q * (st.E q + st1.E q)) r =
        mulVec n3 Cm (fun q => g.L.array q * st.E q) r + mulVec n3 Cm (fun q => g.L.array q * st1.E q) r := by
      rw [← mulVec_add]; simp only [mul_add]
    have h0 : st.H r = st1.H r + dt * (g.iA.array r * imu r * mulVec n3 Cm (fun q => g.L.array q * st.E q) r) := by
      rw [h1]; ring
    rw [hlin, h2, h0]
    have hw : dualLen g bc r / (g.iA.array r * imu r) * (g.iA.array r * imu r) = dualLen g bc r :=
      div_mul_cancel₀ _ (hA r hr)
    generalize dualLen g bc r / (g.iA.array r * imu r) = w at hw ⊢
    rw [← hw]
    ring
  have wE : ∀ r < n3, g.L.array r / (ieps r * dualInvArea g bc r) * st1.E r ^ 2
      - g.L.array r / (ieps r * dualInvArea g bc r) * st.E r ^ 2 =
      dt * (mulVec n3 (transpose Cm) (fun q => dualLen g bc q * st1.H q) r * (g.L.array r * (st.E r + st1.E r))) -
        g.L.array r / (ieps r * dualInvArea g bc r) * (dt * (ieps r * st.J r) * (st.E r + st1.E r)) := by
    intro r hr
    by_cases h0 : ieps r * dualInvArea g bc r = 0
    · rw [h0, div_zero]
      by_cases hc : colMask g bc r = 0
      · rw [applyBC_transpose_mulVec g bc _ _ hr, hc]; ring
      · have z0 := (hd r hr h0).resolve_right hc
        have z1 : st1.E r = 0 := (hd1 r hr h0).resolve_right hc
        rw [z0, z1]; ring
    · have hw : g.L.array r / (ieps r * dualInvArea g bc r) * (ieps r * dualInvArea g bc r) = g.L.array r :=
        div_mul_cancel₀ _ h0
      have e1 := eE r hr
      generalize g.L.array r / (ieps r * dualInvArea g bc r) = w at hw ⊢
      rw [← hw, e1]
      ring
  have key := inner_transpose n3 Cm (fun r => dualLen g bc r * st1.H r) (fun q => g.L.array q * (st.E q + st1.E q))
  have sH := sum_congr rfl fun r (hr : r ∈ range n3) => wH r (mem_range.1 hr)
  have sE := sum_congr rfl fun r (hr : r ∈ range n3) => wE r (mem_range.1 hr)
  rw [sum_sub_distrib] at sH sE
  rw [sum_sub_distrib] at sE
  rw [← mul_sum] at sH sE
  unfold energy
  rw [← hn3]
  linear_combination sH + sE - dt * key

/-- A source outside the degenerate entries leaves the dead entries at zero. -/
theorem drive_deadZero (S : List ℕ) (w : ℕ → ℕ → K) (hS : ∀ r ∈ S, dualInvArea g bc r ≠ 0) (n : ℕ) :
    DeadZero g bc ieps (drive (build g bc ieps imu sigma dt uc) S w n) := by
  intro r hr h0
  left
  rcases mul_eq_zero.1 h0 with h | h
  · rw [drive_E rfl hr, h, zero_mul]
  · exact drive_dead rfl hr h (fun hr' => hS r hr' h) n

/-- The leapfrog energy of the run before step `n`. -/
def runEnergy (s : Solver K) (S : List ℕ) (w : ℕ → ℕ → K) (n : ℕ) : K := energy g bc ieps imu (drive s S w n) (advance s (drive s S w n))

theorem runEnergy_succ (S : List ℕ) (w : ℕ → ℕ → K) (hS : ∀ r ∈ S, dualInvArea g bc r ≠ 0) (hA : ∀ r < 3 * (g.Nx * g.Ny * g.Nz), g.iA.array r * imu r ≠ 0) (n : ℕ) :
    let s := build g bc ieps imu sigma dt uc
    runEnergy g bc ieps imu s S w (n + 1) = runEnergy g bc ieps imu s S w n - ∑ r ∈ range (3 * (g.Nx * g.Ny * g.Nz)), g.L.array r / (ieps r * dualInvArea g bc r) *
      (dt * (ieps r * (before s S w n).J r) * ((drive s S w n).E r + (drive s S w (n + 1)).E r)) := by
  intro s
  obtain ⟨e, h, _, _⟩ := drive_advance s S w n
  have hd0 : DeadZero g bc ieps (before s S w n) := drive_deadZero g bc ieps imu sigma dt uc S w hS n
  have hd1 : DeadZero g bc ieps (advance s (before s S w n)) := by
    intro r hr h0
    have := drive_deadZero g bc ieps imu sigma dt uc S w hS (n + 1) r hr h0
    rw [← e]; exact this
  have k := energy_work g bc ieps imu sigma dt uc (before s S w n) hd0 hA hd1
  have a1 : energy g bc ieps imu (before s S w n) (advance s (before s S w n)) = runEnergy g bc ieps imu s S w n := rfl
  have a2 : energy g bc ieps imu (advance s (before s S w n)) (advance s (advance s (before s S w n))) = runEnergy g bc ieps imu s S w (n + 1) := by
    unfold runEnergy energy
    have q : (advance s (drive s S w (n + 1))).H = (advance s (advance s (before s S w n))).H := by
      funext r
      show (drive s S w (n + 1)).H r - s.dt * mulVec s.n3 s.M1 (drive s S w (n + 1)).E r = (advance s (before s S w n)).H r - s.dt * mulVec s.n3 s.M1 (advance s (before s S w n)).E r
      rw [e, h]
    rw [q, e, h]
  rw [← a2, k, a1, e]
  rfl
end

section
variable [LinearOrder K] [IsStrictOrderedRing K]
variable {Nx Ny Nz : ℕ} {x y z : ℕ → K} {mx my mz : K}
variable {bc : Faces String} {ieps imu sigma : Vec K} {dt eps0 mu0 κ α : K} {uc : Bool}

set_option maxHeartbeats 1600000 in
/-- Passivity under the curl bound. -/
theorem passive_of {g : Geom K} {C : K} (hC : CurlOK g bc C) (hm : Admissible (3 * (g.Nx * g.Ny * g.Nz)) eps0 mu0 ieps imu)
    (hdt : dt ^ 2 * C ≤ κ * (eps0 * mu0)) (hα : 0 ≤ α) (h1 : κ + α / 2 < 1)
    (hσ : (build g bc ieps imu sigma dt uc).useConductivity = true → ∀ r < 3 * (g.Nx * g.Ny * g.Nz),
      0 ≤ dt * ieps r * sigma r ∧ dt * ieps r * sigma r ≤ α) (S : List ℕ) (w : ℕ → ℕ → K)
    (hS : ∀ r ∈ S, r < 3 * (g.Nx * g.Ny * g.Nz) ∧ dualInvArea g bc r ≠ 0) (n : ℕ) :
    let s := build g bc ieps imu sigma dt uc
    (1 - (κ + α / 2)) * fieldEnergy g bc ieps imu (drive s S w n) ≤ 6 * sourceWork g.L.array (dualInvArea g bc) dt S w (fun m => (drive s S w m).E) n := by
  intro s
  set n3 := 3 * (g.Nx * g.Ny * g.Nz) with hn3
  have hA : ∀ r < 3 * (g.Nx * g.Ny * g.Nz), g.iA.array r * imu r ≠ 0 := by
    intro r hr
    obtain ⟨_, _, hA, _⟩ := hC.signs r hr
    exact mul_ne_zero hA.ne' (hm.imu_pos r hr).ne'
  set wE : Vec K := fun r => g.L.array r / (ieps r * dualInvArea g bc r) with hwE
  have wE0 : ∀ r < n3, 0 ≤ wE r := by
    intro r hr
    obtain ⟨hL, _, _, hT⟩ := hC.signs r hr
    have hi := hm.ieps_nonneg r hr
    simp only [hwE]; positivity
  have hS' : ∀ r ∈ S, dualInvArea g bc r ≠ 0 := fun r hr => (hS r hr).2
  -- conductivity acts where no source writes
  set a : Vec K := fun r => if r ∈ S then 0 else dt * ieps r * condOf s r with ha
  have a01 : ∀ r < n3, 0 ≤ a r ∧ a r ≤ α := by
    intro r hr
    simp only [ha]
    split_ifs with h
    · exact ⟨le_rfl, hα⟩
    · unfold condOf
      split_ifs with hu
      · exact hσ hu r hr
      · rw [mul_zero]; exact ⟨le_rfl, hα⟩
  set V : ℕ → K := fun n => runEnergy g bc ieps imu s S w n - 1 / 2 * ∑ r ∈ range n3, wE r * (a r * (drive s S w n).E r ^ 2) with hV
  have low : (1 - (κ + α / 2)) * fieldEnergy g bc ieps imu (drive s S w n) ≤ 3 * V n := by
    have b := (energy_bounds_of (sigma := sigma) (uc := uc) hC hm hdt hα h1 (drive s S w n) (drive_deadZero g bc ieps imu sigma dt uc S w hS' n)).1
    refine b.trans (mul_le_mul_of_nonneg_left (sub_le_sub_left ?_ _) (by norm_num))
    rw [mul_sum, mul_sum]
    refine sum_le_sum fun r hr => ?_
    have hr := mem_range.1 hr
    have := mul_le_mul_of_nonneg_left (mul_le_mul_of_nonneg_right (a01 r hr).2 (sq_nonneg ((drive s S w n).E r))) (wE0 r hr)
    have e : α / 2 * (g.L.array r / (ieps r * dualInvArea g bc r) * (drive s S w n).E r ^ 2) = 1 / 2 * (wE r * (α * (drive s S w n).E r ^ 2)) := by
      simp only [hwE]; ring
    exact (mul_le_mul_of_nonneg_left this (by norm_num)).trans (le_of_eq e.symm)
  -- one step
  have step : ∀ n, V (n + 1) ≤ V n - 2 * ∑ r ∈ S.toFinset, dt * (w n r / dualInvArea g bc r) * (g.L.array r * (((drive s S w n).E r + (drive s S w (n + 1)).E r) / 2)) := by
    intro n
    have k := runEnergy_succ g bc ieps imu sigma dt uc S w hS' hA n
    have hsub : S.toFinset ⊆ range n3 := fun r hr => mem_range.2 (hS r (List.mem_toFinset.1 hr)).1
    have e1 : ∑ r ∈ S.toFinset, dt * (w n r / dualInvArea g bc r) * (g.L.array r * (((drive s S w n).E r + (drive s S w (n + 1)).E r) / 2)) =
        ∑ r ∈ range n3, if r ∈ S then dt * (w n r / dualInvArea g bc r) * (g.L.array r * (((drive s S w n).E r + (drive s S w (n + 1)).E r) / 2)) else 0 := by
      rw [← sum_subset hsub]
      · exact sum_congr rfl fun r hr => by rw [if_pos (List.mem_toFinset.1 hr)]
      · intro r _ hr; rw [if_neg (fun h => hr (List.mem_toFinset.2 h))]
    rw [e1]
    simp only [hV]
    have k' : runEnergy g bc ieps imu s S w (n + 1) = runEnergy g bc ieps imu s S w n - ∑ r ∈ range n3, g.L.array r / (ieps r * dualInvArea g bc r) *
      (dt * (ieps r * (before s S w n).J r) * ((drive s S w n).E r + (drive s S w (n + 1)).E r)) := k
    rw [k']
    have key : 1 / 2 * ∑ r ∈ range n3, wE r * (a r * (drive s S w n).E r ^ 2) +
        2 * (∑ r ∈ range n3, if r ∈ S then dt * (w n r / dualInvArea g bc r) * (g.L.array r * (((drive s S w n).E r + (drive s S w (n + 1)).E r) / 2)) else 0) ≤
        (∑ r ∈ range n3, g.L.array r / (ieps r * dualInvArea g bc r) * (dt * (ieps r * (before s S w n).J r) * ((drive s S w n).E r + (drive s S w (n + 1)).E r))) +
        1 / 2 * ∑ r ∈ range n3, wE r * (a r * (drive s S w (n + 1)).E r ^ 2) := by
      rw [mul_sum, mul_sum, mul_sum, ← sum_add_distrib, ← sum_add_distrib]
      refine sum_le_sum fun r hr => ?_
      have hr := mem_range.1 hr
      have bJ : (before s S w n).J r = if r ∈ S then w n r else (drive s S w n).J r := rfl
      by_cases h : r ∈ S
      · have a0 : a r = 0 := by simp only [ha]; rw [if_pos h]
        rw [a0, if_pos h, bJ, if_pos h]
        refine le_of_eq ?_
        by_cases hi : ieps r = 0
        · have z : ∀ m, (drive s S w m).E r = 0 := fun m => by rw [drive_E rfl hr, hi, zero_mul]
          rw [z, z]; ring
        · have hT := hS' r h
          field_simp
          ring
      · rw [if_neg h, bJ, if_neg h, drive_J h]
        have a0 : a r = dt * ieps r * condOf s r := by simp only [ha]; rw [if_neg h]
        have w0 := wE0 r hr
        have := mul_nonneg w0 (mul_nonneg (a01 r hr).1 (sq_nonneg ((drive s S w n).E r + (drive s S w (n + 1)).E r)))
        have e : g.L.array r / (ieps r * dualInvArea g bc r) * (dt * (ieps r * (condOf s r * (drive s S w n).E r)) * ((drive s S w n).E r + (drive s S w (n + 1)).E r)) =
            wE r * (a r * ((drive s S w n).E r * ((drive s S w n).E r + (drive s S w (n + 1)).E r))) := by
          rw [a0]; simp only [hwE]; ring
        rw [e]
        have e2 : wE r * (a r * ((drive s S w n).E r * ((drive s S w n).E r + (drive s S w (n + 1)).E r))) + 1 / 2 * (wE r * (a r * (drive s S w (n + 1)).E r ^ 2)) -
            1 / 2 * (wE r * (a r * (drive s S w n).E r ^ 2)) = 1 / 2 * (wE r * (a r * ((drive s S w n).E r + (drive s S w (n + 1)).E r) ^ 2)) := by ring
        linarith
    linarith
  have V0 : V 0 = 0 := by
    simp only [hV, runEnergy, energy]
    have z1 : ∀ r, (drive s S w 0).E r = 0 := fun _ => rfl
    have z2 : ∀ r, (drive s S w 0).H r = 0 := fun _ => rfl
    simp [z1, z2]
  have all : ∀ n, V n ≤ 2 * sourceWork g.L.array (dualInvArea g bc) dt S w (fun m => (drive s S w m).E) n := by
    intro n
    induction n with
    | zero => rw [V0]; simp [sourceWork]
    | succ n ih =>
      have st := step n
      have e : sourceWork g.L.array (dualInvArea g bc) dt S w (fun m => (drive s S w m).E) (n + 1) = sourceWork g.L.array (dualInvArea g bc) dt S w (fun m => (drive s S w m).E) n -
          ∑ r ∈ S.toFinset, dt * (w n r / dualInvArea g bc r) * (g.L.array r * (((drive s S w n).E r + (drive s S w (n + 1)).E r) / 2)) := by
        unfold sourceWork
        rw [sum_range_succ]; ring
      rw [e]; linarith
  linarith [all n]

/-- **C112 (passivity, any time step below the limit).** Every face electric, magnetic or PML, passive materials, conducting or not, cell lengths at least `mx`, `my`, `mz`, a time step with `κ + α/2 < 1` (as in C20).  For all
sources outside the degenerate last layer, with all currents, after all numbers of steps: the field energy is at most `6/(1 - κ - α/2)` times the work the sources have done. -/
theorem C112_passive_walls (hmx : 0 < mx) (hmy : 0 < my) (hmz : 0 < mz) (hx : ∀ i < Nx, mx ≤ x (i + 1) - x i) (hy : ∀ i < Ny, my ≤ y (i + 1) - y i) (hz : ∀ i < Nz, mz ≤ z (i + 1) - z i)
    (hbc : Walls bc) (hm : Admissible (3 * (Nx * Ny * Nz)) eps0 mu0 ieps imu)
    (hdt : dt ^ 2 * (1 / mx ^ 2 + 1 / my ^ 2 + 1 / mz ^ 2) ≤ κ * (eps0 * mu0)) (hα : 0 ≤ α) (h1 : κ + α / 2 < 1)
    (hσ : (build (computeGrid Nx Ny Nz x y z) bc ieps imu sigma dt uc).useConductivity = true → ∀ r < 3 * (Nx * Ny * Nz),
      0 ≤ dt * ieps r * sigma r ∧ dt * ieps r * sigma r ≤ α) (S : List ℕ) (w : ℕ → ℕ → K)
    (hS : ∀ r ∈ S, r < 3 * (Nx * Ny * Nz) ∧ dualInvArea (computeGrid Nx Ny Nz x y z) bc r ≠ 0) (n : ℕ) :
    let g := computeGrid Nx Ny Nz x y z
    let s := build g bc ieps imu sigma dt uc
    (1 - (κ + α / 2)) * fieldEnergy g bc ieps imu (drive s S w n) ≤ 6 * sourceWork g.L.array (dualInvArea g bc) dt S w (fun m => (drive s S w m).E) n := by
  exact passive_of (walls_ok hmx hmy hmz hx hy hz hbc) hm hdt hα h1 hσ S w hS n

/-- **C112 (passivity, uniform grids, every boundary).** As `C112_passive_walls`, for equal cells and any six boundary names. -/
theorem C112_passive_uniform {dx dy dz : K} (hdx : 0 < dx) (hdy : 0 < dy) (hdz : 0 < dz) (hx : ∀ i < Nx, x (i + 1) - x i = dx) (hy : ∀ i < Ny, y (i + 1) - y i = dy) (hz : ∀ i < Nz, z (i + 1) - z i = dz)
    (hm : Admissible (3 * (Nx * Ny * Nz)) eps0 mu0 ieps imu)
    (hdt : dt ^ 2 * (1 / dx ^ 2 + 1 / dy ^ 2 + 1 / dz ^ 2) ≤ κ * (eps0 * mu0)) (hα : 0 ≤ α) (h1 : κ + α / 2 < 1)
    (hσ : (build (computeGrid Nx Ny Nz x y z) bc ieps imu sigma dt uc).useConductivity = true → ∀ r < 3 * (Nx * Ny * Nz),
      0 ≤ dt * ieps r * sigma r ∧ dt * ieps r * sigma r ≤ α) (S : List ℕ) (w : ℕ → ℕ → K)
    (hS : ∀ r ∈ S, r < 3 * (Nx * Ny * Nz) ∧ dualInvArea (computeGrid Nx Ny Nz x y z) bc r ≠ 0) (n : ℕ) :
    let g := computeGrid Nx Ny Nz x y z
    let s := build g bc ieps imu sigma dt uc
    (1 - (κ + α / 2)) * fieldEnergy g bc ieps imu (drive s S w n) ≤ 6 * sourceWork g.L.array (dualInvArea g bc) dt S w (fun m => (drive s S w m).E) n :=
  passive_of (uniform_ok hdx hdy hdz hx hy hz bc) hm hdt hα h1 hσ S w hS n
end

/-- **C112 (passivity).** A solver built on any grid with increasing axes from passive materials, conducting or not, every face electric, magnetic or PML, the automatic time step with `cfln² < 1` (`cfln² < 1/2` if
conductivity is in use).  For all sets of edges outside the last layers and all currents in them: at all times the sources have done more work than they got back, and the field energy is at most a constant
times that work. -/
theorem C112_passive {c eps0 mu0 cfln : ℝ} {nPml Nx Ny Nz : ℕ} {x y z : ℕ → ℝ}
    (hx : Increasing x Nx) (hy : Increasing y Ny) (hz : Increasing z Nz) {bc : Faces String} (hbc : Walls bc)
    {bg : MatSpec ℝ} {dict : String → Option (MatSpec ℝ)} {solids : List Solid} {t : Mats ℝ} {dt : ℝ}
    (he : 0 < eps0) (hu : 0 < mu0) (hc : 0 < c) (hcc : c ^ 2 * (eps0 * mu0) = 1) (h0 : 0 ≤ cfln)
    (hbg : ∀ m, MeansMaterial bg m → m.Passive)
    (hsol : ∀ s ∈ solids, ∀ spec m, dict s.1 = some spec → MeansMaterial spec m → m.Passive)
    (h : setUp c eps0 mu0 cfln none nPml Nx Ny Nz x y z bc bg dict solids = .ok (t, dt))
    (hq : cfln ^ 2 + (if t.useCond then 1 / 2 else 0) < 1) (S : List ℕ) (w : ℕ → ℕ → ℝ)
    (hS : ∀ r ∈ S, ∃ d i j k, d < 3 ∧ i + 1 < Nx ∧ j + 1 < Ny ∧ k + 1 < Nz ∧ r = pos Nx Ny Nz d i j k) (n : ℕ) :
    let g := computeGrid Nx Ny Nz x y z
    let s := build g bc t.ieps.array t.imu.array t.sigma.array dt t.useCond
    let work := sourceWork g.L.array g.itA.array dt S w (fun m => (drive s S w m).E) n
    0 ≤ work ∧ fieldEnergy g bc t.ieps.array t.imu.array (drive s S w n) ≤ 6 / (1 - (cfln ^ 2 + if t.useCond then 1 / 2 else 0)) * work := by
  intro g s work
  have ne : 0 < Nx ∧ 0 < Ny ∧ 0 < Nz := setUp_nonempty h
  obtain ⟨hN, hpml, hm, hs, hch⟩ := setUp_tensors ne.1 ne.2.1 ne.2.2 he hu hbg hsol h
  obtain ⟨hd0, mx, my, mz, px, py, pz, lx, ly, lz, key⟩ := chooseDt_cfl hx hy hz he hu
    (fun r hr => by rw [hN] at hr; exact ⟨hm.ieps_nonneg r hr, hs r hr⟩) hc hcc h0 hch
  obtain ⟨habc, hper⟩ := hbc.names
  have da : dualInvArea g bc = g.itA.array := congrArg Fld.array (applyBC_metric g bc (C0 g.Nx g.Ny g.Nz) hper habc).2
  have huc : s.useConductivity = t.useCond := by
    show (anyFace isPml bc || t.useCond) = t.useCond
    cases hp : anyFace isPml bc with
    | false => rfl
    | true => rw [hpml hp]; rfl
  have e : (if t.useCond then 1 / 2 else 0 : ℝ) = (if t.useCond then 1 else 0 : ℝ) / 2 := by split_ifs <;> norm_num
  rw [e] at hq ⊢
  have main := C112_passive_walls (sigma := t.sigma.array) (uc := t.useCond) px py pz lx ly lz hbc hm key (α := if t.useCond then 1 else 0) (by split_ifs <;> norm_num) hq (by
    intro hu' r hr
    have hu2 : t.useCond = true := by rw [← huc]; exact hu'
    have := C30_damping hch hu2 hd0 (n := r) (by rw [hN]; exact hr) (hm.ieps_nonneg r hr) (hs r hr)
    rw [if_pos hu2]
    constructor <;> nlinarith) S w (by
    intro r hr
    obtain ⟨d, i, j, k, hd, hi, hj, hk, rfl⟩ := hS r hr
    refine ⟨pos_lt hd (by omega) (by omega) (by omega), ?_⟩
    show dualInvArea g bc _ ≠ 0
    rw [da]
    exact itA_ne Nx Ny Nz x y z hx hy hz hd hi hj hk) n
  have main' : (1 - (cfln ^ 2 + (if t.useCond then 1 else 0) / 2)) * fieldEnergy g bc t.ieps.array t.imu.array (drive s S w n) ≤
      6 * sourceWork g.L.array (dualInvArea g bc) dt S w (fun m => (drive s S w m).E) n := main
  rw [da] at main'
  have F0 := fieldEnergy_nonneg px py pz lx ly lz hbc hm (drive s S w n)
  have hk : 0 < 1 - (cfln ^ 2 + (if t.useCond then 1 else 0 : ℝ) / 2) := sub_pos.2 hq
  have hwork : (1 - (cfln ^ 2 + (if t.useCond then 1 else 0 : ℝ) / 2)) * fieldEnergy g bc t.ieps.array t.imu.array (drive s S w n) ≤ 6 * work := main'
  constructor
  · have : 0 ≤ (1 - (cfln ^ 2 + (if t.useCond then 1 else 0 : ℝ) / 2)) * fieldEnergy g bc t.ieps.array t.imu.array (drive s S w n) := mul_nonneg hk.le F0
    linarith
  · rw [div_mul_eq_mul_div, le_div_iff₀ hk]
    linarith

/-! ### cases -/

/-- The first step of a source at rest takes `w² L / itA` times `ieps dt²/2`. -/
theorem work_one (g : Geom K) (bc : Faces String) (ieps imu sigma : Vec K) (dt : K) (uc : Bool) {b : ℕ} (hb : b < 3 * (g.Nx * g.Ny * g.Nz)) (w : ℕ → ℕ → K) :
    sourceWork g.L.array (dualInvArea g bc) dt [b] w (fun m => (drive (build g bc ieps imu sigma dt uc) [b] w m).E) 1 =
      dt ^ 2 / 2 * (ieps b * (g.L.array b / dualInvArea g bc b) * w 0 b ^ 2) := by
  obtain ⟨s, hs⟩ : ∃ s, s = build g bc ieps imu sigma dt uc := ⟨_, rfl⟩
  rw [← hs]
  have H1 : ∀ r < 3 * (g.Nx * g.Ny * g.Nz), (drive s [b] w 1).H r = 0 := fun r hr => by
    rw [drive_H hs hr, show passed g bc dt (fun n => (drive s [b] w n).E) 1 r = 0 by simp [passed, drive, initState], mul_zero]
  have E1 : (drive s [b] w 1).E b = ieps b * -(dt * w 0 b) := by
    rw [drive_E hs hb]
    have z : ∑ q ∈ range (3 * (g.Nx * g.Ny * g.Nz)), curlM g bc q b * (dualLen g bc q * (drive s [b] w 1).H q) = 0 := sum_eq_zero fun q hq => by rw [H1 q (mem_range.1 hq)]; ring
    have bJ : (before s [b] w 0).J b = w 0 b := by
      show (if b ∈ [b] then w 0 b else 0) = _
      simp
    show ieps b * ((0 : K) + dt * (dualInvArea g bc b * (∑ q ∈ range (3 * (g.Nx * g.Ny * g.Nz)), curlM g bc q b * (dualLen g bc q * (drive s [b] w 1).H q)) - (before s [b] w 0).J b)) = _
    rw [z, bJ]; ring
  have E0 : (drive s [b] w 0).E b = 0 := rfl
  simp only [sourceWork, range_one, sum_singleton, List.toFinset_cons, List.toFinset_nil, insert_empty_eq, E0, E1]
  ring

/-- The hypotheses of `C112_passive` (and with them those of `C112_passive_walls`) are met by a 4×4×5 domain with PML, a conducting background and a source of any current in a z edge; a first step with
current takes positive work. -/
example : ∃ t dt, setUp 1 1 1 (1 / 2) none 2 4 4 5 (fun i => (i : ℝ) ^ 2) (fun i => (i : ℝ) ^ 2) (fun i => (i : ℝ) ^ 2) wBc
    (.vals ⟨.fin 2, .fin 1, some 3⟩) (fun _ => none) [] = .ok (t, dt) ∧
    ∀ (w : ℕ → ℕ → ℝ) (n : ℕ), 0 ≤ sourceWork (computeGrid 4 4 5 (fun i => (i : ℝ) ^ 2) (fun i => (i : ℝ) ^ 2) (fun i => (i : ℝ) ^ 2)).L.array
      (computeGrid 4 4 5 (fun i => (i : ℝ) ^ 2) (fun i => (i : ℝ) ^ 2) (fun i => (i : ℝ) ^ 2)).itA.array dt [pos 4 4 5 2 1 1 1] w
      (fun m => (drive (build (computeGrid 4 4 5 (fun i => (i : ℝ) ^ 2) (fun i => (i : ℝ) ^ 2) (fun i => (i : ℝ) ^ 2)) wBc t.ieps.array t.imu.array t.sigma.array dt t.useCond)
        [pos 4 4 5 2 1 1 1] w m).E) n := by
  obtain ⟨t, dt, h, hpas, _⟩ := setUp_case
  have inc : ∀ n, Increasing (fun i => (i : ℝ) ^ 2) n := by
    intro n i _
    have : (0 : ℝ) ≤ i := Nat.cast_nonneg i
    show (i : ℝ) ^ 2 < ((i + 1 : ℕ) : ℝ) ^ 2
    push_cast
    nlinarith
  refine ⟨t, dt, h, fun w n => ?_⟩
  exact (C112_passive (inc 4) (inc 4) (inc 5) wBc_walls one_pos one_pos one_pos (by norm_num) (by norm_num) hpas (by simp) h (by split_ifs <;> norm_num) [pos 4 4 5 2 1 1 1] w
    (by intro r hr; exact ⟨2, 1, 1, 1, by omega, by omega, by omega, by omega, by simpa using hr⟩) n).1

end Sol
end Wakis
