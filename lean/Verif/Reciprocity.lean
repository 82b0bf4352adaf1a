import Verif.Stability
import Verif.Lifecycle
import Mathlib.RingTheory.PowerSeries.Basic
import Mathlib.RingTheory.PowerSeries.NoZeroDivisors

/-!
# C111: reciprocity

The voltage along an edge b caused by a current through an edge a is the voltage along a caused by the same current through b.
-/

namespace Wakis
namespace Sol
open Finset Sparse Grid

variable {K : Type*} [Field K]

/-! ### specification -/

/-- What a source does before a step: it writes its values into entries of J. -/
def sources (S : List ℕ) (w : ℕ → K) : List (Ev K) := S.map fun r => .write .J r (w r)

/-- A run from zero fields: before step `n` the entries `S` of J are assigned the values `w n`. -/
def drive (s : Solver K) (S : List ℕ) (w : ℕ → ℕ → K) : ℕ → State K
  | 0 => initState
  | n + 1 => runEv s (drive s S w n) (sources S (w n) ++ [.step])

/-- The reaction of the currents `w` in the entries `S` on the fields `E`, up to step `n`: voltage times current, summed over the entries and over pairs of steps that add up to `n`.  `L` is the length of
the edge and `1/itA` the area the current density flows through. -/
def reaction (L itA : Vec K) (S : List ℕ) (w : ℕ → ℕ → K) (E : ℕ → Vec K) (n : ℕ) : K :=
  ∑ p ∈ antidiagonal n, ∑ r ∈ S.toFinset, (w p.1 r * (itA r)⁻¹) * (L r * E p.2 r)

/-! ### algebra -/

/-- One side of the reciprocity relation, written with terms that are symmetric in the two runs. -/
theorem recip_half {R : Type*} [CommRing R] (N : ℕ) (C : ℕ → ℕ → R) (d X : R) (L tA itA tL c ie σ : ℕ → R) {φ ψ e j φ' ψ' e' : ℕ → R}
    (hφ' : ∀ r < N, φ' r * (1 - X) = -(d * X * ∑ q ∈ range N, C r q * (L q * e' q)))
    (hψ : ∀ r < N, ψ r * (1 - X) = d * (itA r * (∑ q ∈ range N, C q r * (tL q * (c q * φ q))) - X * (σ r * e r + j r)))
    (he : ∀ r < N, e r = ie r * ψ r) (he' : ∀ r < N, e' r = ie r * ψ' r) (ht : ∀ r < N, tA r * itA r * e' r = e' r) :
    d * X ^ 2 * ∑ r ∈ range N, L r * tA r * j r * e' r = -(∑ q ∈ range N, tL q * c q * (φ q * φ' q) * (1 - X)) - (∑ r ∈ range N, L r * tA r * ie r * (ψ r * ψ' r) * X * (1 - X)) -
      d * X ^ 2 * ∑ r ∈ range N, L r * tA r * σ r * (e r * e' r) := by
  have h1 : ∑ q ∈ range N, tL q * c q * (φ q * φ' q) * (1 - X) = -(∑ r ∈ range N, d * X * (L r * e' r) * ∑ q ∈ range N, C q r * (tL q * (c q * φ q))) := by
    have : ∀ q ∈ range N, tL q * c q * (φ q * φ' q) * (1 - X) = -(∑ r ∈ range N, d * X * (L r * e' r) * (C q r * (tL q * (c q * φ q)))) := by
      intro q hq
      have : tL q * c q * (φ q * φ' q) * (1 - X) = tL q * c q * φ q * (φ' q * (1 - X)) := by ring
      rw [this, hφ' q (mem_range.1 hq), mul_neg, mul_sum, mul_sum]
      congr 1
      exact sum_congr rfl fun r _ => by ring
    rw [sum_congr rfl this, sum_neg_distrib, sum_comm]
    congr 1
    exact sum_congr rfl fun r _ => by rw [mul_sum]
  rw [h1, neg_neg, mul_sum, mul_sum, ← sum_sub_distrib, ← sum_sub_distrib]
  refine sum_congr rfl fun r hr => ?_
  have hr' := mem_range.1 hr
  have p := hψ r hr'
  have t := ht r hr'
  have e1 := he' r hr'
  generalize (∑ q ∈ range N, C q r * (tL q * (c q * φ q))) = Q at p ⊢
  -- multiply the E equation by `L tA X e'`
  linear_combination (d * X * L r * Q) * t + (L r * tA r * X * e' r) * p - (L r * tA r * X * (1 - X) * ψ r) * e1

theorem recip_alg {R : Type*} [CommRing R] [IsDomain R] (N : ℕ) (C : ℕ → ℕ → R) {d X : R} (hd : d ≠ 0) (hX : X ≠ 0) (L tA itA tL c ie σ : ℕ → R) {φ ψ e j φ' ψ' e' j' : ℕ → R}
    (hφ : ∀ r < N, φ r * (1 - X) = -(d * X * ∑ q ∈ range N, C r q * (L q * e q)))
    (hψ : ∀ r < N, ψ r * (1 - X) = d * (itA r * (∑ q ∈ range N, C q r * (tL q * (c q * φ q))) - X * (σ r * e r + j r)))
    (he : ∀ r < N, e r = ie r * ψ r) (ht : ∀ r < N, tA r * itA r * e r = e r)
    (hφ' : ∀ r < N, φ' r * (1 - X) = -(d * X * ∑ q ∈ range N, C r q * (L q * e' q)))
    (hψ' : ∀ r < N, ψ' r * (1 - X) = d * (itA r * (∑ q ∈ range N, C q r * (tL q * (c q * φ' q))) - X * (σ r * e' r + j' r)))
    (he' : ∀ r < N, e' r = ie r * ψ' r) (ht' : ∀ r < N, tA r * itA r * e' r = e' r) :
    ∑ r ∈ range N, L r * tA r * j r * e' r = ∑ r ∈ range N, L r * tA r * j' r * e r := by
  have a := recip_half N C d X L tA itA tL c ie σ hφ' hψ he he' ht'
  have b := recip_half N C d X L tA itA tL c ie σ hφ hψ' he' he ht
  refine mul_left_cancel₀ (mul_ne_zero hd (pow_ne_zero 2 hX)) ?_
  rw [a, b]
  congr 1
  · congr 1
    · congr 1
      exact sum_congr rfl fun r _ => by ring
    · exact sum_congr rfl fun r _ => by ring
  · congr 1
    exact sum_congr rfl fun r _ => by ring

/-! ### the run as power series -/

section run
variable (s : Solver K) (S : List ℕ) (w : ℕ → ℕ → K)

theorem sources_run (st : State K) (v : ℕ → K) : runEv s st (sources S v) = { st with J := fun r => if r ∈ S then v r else st.J r } := by
  induction S generalizing st with
  | nil => simp [sources, runEv]
  | cons a S ih =>
    show runEv s (event s st (.write .J a (v a))) (sources S v) = _
    rw [ih]
    simp only [event]
    congr 1
    funext r
    rw [Function.update_apply]
    by_cases h : r ∈ S <;> by_cases h' : r = a <;> simp [h, h']

/-- The state in which step `n` is taken. -/
def before (n : ℕ) : State K := { drive s S w n with J := fun r => if r ∈ S then w n r else (drive s S w n).J r }

theorem drive_succ (n : ℕ) : drive s S w (n + 1) = oneStep s (before s S w n) := by
  show runEv s _ (sources S (w n) ++ [.step]) = _
  unfold runEv
  rw [List.foldl_append]
  show event s (runEv s _ _) .step = _
  rw [sources_run]
  rfl

theorem ghosts_zero (v : Vec K) : setGhostsTo0 s { (initState : State K) with J := v } = { (initState : State K) with J := v } := by
  obtain ⟨Z, hZ⟩ := ghostE_mask (K := K) s.Nx s.Ny s.Nz
  obtain ⟨Z', hZ'⟩ := ghostH_mask (K := K) s.Nx s.Ny s.Nz
  unfold setGhostsTo0
  simp only [Solver.fld, initState]
  congr 1
  · funext n; rw [hZ]; split_ifs <;> rfl
  · funext n; rw [hZ']; split_ifs <;> rfl

/-- Every step of the run is the update without the first-step branch. -/
theorem drive_advance (n : ℕ) : (drive s S w (n + 1)).E = (advance s (before s S w n)).E ∧ (drive s S w (n + 1)).H = (advance s (before s S w n)).H ∧
    (drive s S w (n + 1)).J = (advance s (before s S w n)).J ∧ (drive s S w (n + 1)).step0 = false := by
  rw [drive_succ]
  cases n with
  | zero =>
    have : before s S w 0 = { (initState : State K) with J := fun r => if r ∈ S then w 0 r else (initState : State K).J r } := rfl
    unfold oneStep
    rw [if_pos (by rw [this]; rfl), this, ghosts_zero]
    exact ⟨rfl, rfl, rfl, rfl⟩
  | succ n =>
    have h0 : (before s S w (n + 1)).step0 = false := by
      show (drive s S w (n + 1)).step0 = false
      rw [drive_succ]
      unfold oneStep
      split_ifs with h
      · rfl
      · simpa [advance] using h
    unfold oneStep
    rw [if_neg (by rw [h0]; simp)]
    exact ⟨rfl, rfl, rfl, h0⟩

end run

section built
variable (g : Geom K) (bc : Faces String) (ieps imu sigma : Vec K) (dt : K) (uc : Bool)

/-- Conductivity, where the solver uses it. -/
def condOf (s : Solver K) (r : ℕ) : K := if s.useConductivity then s.sigma r else 0

variable {g bc ieps imu sigma dt uc}
variable {s : Solver K} (hs : s = build g bc ieps imu sigma dt uc) {S : List ℕ} {w : ℕ → ℕ → K}

/-- Where no source writes, J is the conduction current. -/
theorem drive_J {r : ℕ} (hr : r ∉ S) (n : ℕ) : (drive s S w n).J r = condOf s r * (drive s S w n).E r := by
  induction n with
  | zero => simp [drive, initState]
  | succ n ih =>
    obtain ⟨hE, _, hJ, _⟩ := drive_advance s S w n
    rw [hJ, hE]
    by_cases hu : s.useConductivity = true
    · simp [advance, condOf, hu]
    · have h0 : (before s S w n).J r = 0 := by
        show (if r ∈ S then w n r else (drive s S w n).J r) = 0
        rw [if_neg hr, ih]; simp [condOf, hu]
      simp [advance, condOf, hu, h0]

theorem before_J (hS : ∀ r ∈ S, condOf s r = 0) (r n : ℕ) : (before s S w n).J r = condOf s r * (drive s S w n).E r + if r ∈ S then w n r else 0 := by
  show (if r ∈ S then w n r else (drive s S w n).J r) = _
  by_cases h : r ∈ S
  · rw [if_pos h, if_pos h, hS r h]; ring
  · rw [if_neg h, if_neg h, drive_J h]; ring

/-- The curl matrix with the boundary masks, solverFIT3D.py:714-882. -/
def curlM (g : Geom K) (bc : Faces String) : Mat K := (applyBC g bc (C0 g.Nx g.Ny g.Nz)).C

/-- The flux that has passed each face. -/
def passed (g : Geom K) (bc : Faces String) (dt : K) (E : ℕ → Vec K) : ℕ → Vec K
  | 0 => fun _ => 0
  | n + 1 => fun r => passed g bc dt E n r - dt * ∑ q ∈ range (3 * (g.Nx * g.Ny * g.Nz)), curlM g bc r q * (g.L.array q * E n q)

/-- The charge that has passed each dual face. -/
def disp (g : Geom K) (bc : Faces String) (dt : K) (H J : ℕ → Vec K) : ℕ → Vec K
  | 0 => fun _ => 0
  | n + 1 => fun r => disp g bc dt H J n r + dt * (dualInvArea g bc r * (∑ q ∈ range (3 * (g.Nx * g.Ny * g.Nz)), curlM g bc q r * (dualLen g bc q * H (n + 1) q)) - J n r)

include hs
theorem drive_H {r : ℕ} (hr : r < 3 * (g.Nx * g.Ny * g.Nz)) (n : ℕ) : (drive s S w n).H r = g.iA.array r * imu r * passed g bc dt (fun n => (drive s S w n).E) n r := by
  induction n with
  | zero => simp [drive, initState, passed]
  | succ n ih =>
    rw [(drive_advance s S w n).2.1]
    have : (advance s (before s S w n)).H r = (drive s S w n).H r - dt * mulVec (3 * (g.Nx * g.Ny * g.Nz)) (opH (3 * (g.Nx * g.Ny * g.Nz)) g.iA.toarray imu (curlM g bc) g.L.toarray) (drive s S w n).E r := by
      subst hs; rfl
    rw [this, opH_mulVec _ _ _ _ _ hr, ih]
    show _ - dt * (g.iA.array r * imu r * ∑ q ∈ range _, curlM g bc r q * (g.L.array q * (drive s S w n).E q)) = g.iA.array r * imu r * (_ - dt * _)
    ring

theorem drive_E {r : ℕ} (hr : r < 3 * (g.Nx * g.Ny * g.Nz)) (n : ℕ) : (drive s S w n).E r = ieps r * disp g bc dt (fun n => (drive s S w n).H) (fun n => (before s S w n).J) n r := by
  induction n with
  | zero => simp [drive, initState, disp]
  | succ n ih =>
    have hH := (drive_advance s S w n).2.1
    rw [(drive_advance s S w n).1]
    have : (advance s (before s S w n)).E r = (drive s S w n).E r + dt * (mulVec (3 * (g.Nx * g.Ny * g.Nz)) (opE (3 * (g.Nx * g.Ny * g.Nz)) ieps (dualInvArea g bc) (curlM g bc) (dualLen g bc)) (advance s (before s S w n)).H r -
        ieps r * (before s S w n).J r) := by
      subst hs; rfl
    rw [this, opE_mulVec _ _ _ _ _ hr, ih, ← hH]
    show _ + dt * (ieps r * dualInvArea g bc r * (∑ q ∈ range _, curlM g bc q r * (dualLen g bc q * (drive s S w (n + 1)).H q)) - _) = ieps r * (_ + dt * (dualInvArea g bc r * (∑ q ∈ range _, curlM g bc q r * (dualLen g bc q * (drive s S w (n + 1)).H q)) - _))
    ring

/-- Without dual area there is no field unless a source writes there. -/
theorem drive_dead {r : ℕ} (hr : r < 3 * (g.Nx * g.Ny * g.Nz)) (h0 : dualInvArea g bc r = 0) (hS : r ∉ S) (n : ℕ) : (drive s S w n).E r = 0 := by
  induction n with
  | zero => rfl
  | succ n ih =>
    rw [drive_E hs hr] at ih ⊢
    have hJ : (before s S w n).J r = 0 := by
      show (if r ∈ S then w n r else (drive s S w n).J r) = 0
      rw [if_neg hS, drive_J hS, drive_E hs hr, ih, mul_zero]
    show ieps r * (_ + dt * (dualInvArea g bc r * _ - (before s S w n).J r)) = 0
    rw [h0, hJ, mul_add, ih]; ring

omit hs

open PowerSeries in
/-- **C111 (reaction).** Two runs of one solver from zero fields, with any currents in any edges outside conductors: the currents of the first react on the fields of the second as those of the second on
the fields of the first. -/
theorem C111_reaction (g : Geom K) (bc : Faces String) (ieps imu sigma : Vec K) (dt : K) (uc : Bool) (hdt : dt ≠ 0) {S S' : List ℕ} (w w' : ℕ → ℕ → K)
    (hS : ∀ r ∈ S ++ S', r < 3 * (g.Nx * g.Ny * g.Nz) ∧ dualInvArea g bc r ≠ 0 ∧ ((build g bc ieps imu sigma dt uc).useConductivity = true → sigma r = 0)) (n : ℕ) :
    reaction g.L.array (dualInvArea g bc) S w (fun m => (drive (build g bc ieps imu sigma dt uc) S' w' m).E) n =
      reaction g.L.array (dualInvArea g bc) S' w' (fun m => (drive (build g bc ieps imu sigma dt uc) S w m).E) n := by
  obtain ⟨s, hs⟩ : ∃ s, s = build g bc ieps imu sigma dt uc := ⟨_, rfl⟩
  rw [← hs] at hS ⊢
  set N := 3 * (g.Nx * g.Ny * g.Nz) with hN
  have hc : ∀ r ∈ S ++ S', condOf s r = 0 := by
    intro r hr
    unfold condOf
    split_ifs with hu
    · rw [show s.sigma = sigma by subst hs; rfl]
      exact (hS r hr).2.2 hu
    · rfl
  -- the equations of one run
  have eqs : ∀ (T : List ℕ) (v : ℕ → ℕ → K), (∀ r ∈ T, r ∈ S ++ S') →
      (∀ r < N, (mk fun m => passed g bc dt (fun n => (drive s T v n).E) m r) * (1 - X) = -(C dt * X * ∑ q ∈ range N, C (curlM g bc r q) * (C (g.L.array q) * mk fun m => (drive s T v m).E q))) ∧
      (∀ r < N, (mk fun m => disp g bc dt (fun n => (drive s T v n).H) (fun n => (before s T v n).J) m r) * (1 - X) =
        C dt * (C (dualInvArea g bc r) * (∑ q ∈ range N, C (curlM g bc q r) * (C (dualLen g bc q) * (C (g.iA.array q * imu q) * mk fun m => passed g bc dt (fun n => (drive s T v n).E) m q))) -
          X * (C (condOf s r) * (mk fun m => (drive s T v m).E r) + mk fun m => if r ∈ T then v m r else 0))) ∧
      (∀ r < N, (mk fun m => (drive s T v m).E r) = C (ieps r) * mk fun m => disp g bc dt (fun n => (drive s T v n).H) (fun n => (before s T v n).J) m r) ∧
      (∀ r < N, C ((dualInvArea g bc r)⁻¹) * C (dualInvArea g bc r) * (mk fun m => (drive s T v m).E r) = mk fun m => (drive s T v m).E r) := by
    intro T v hT
    refine ⟨fun r hr => ?_, fun r hr => ?_, fun r hr => ?_, fun r hr => ?_⟩
    · ext m
      rw [show ∀ f : PowerSeries K, -(C dt * X * f) = -((C dt * f) * X) by intros; ring, mul_sub, mul_one, map_sub, map_neg]
      cases m with
      | zero => simp [coeff_zero_mul_X, passed]
      | succ m =>
        rw [coeff_succ_mul_X, coeff_succ_mul_X, coeff_C_mul, map_sum, coeff_mk, coeff_mk]
        simp only [coeff_C_mul, coeff_mk]
        show passed g bc dt _ m r - dt * _ - _ = _
        ring
    · ext m
      rw [mul_sub, mul_one, map_sub, coeff_C_mul, map_sub, coeff_C_mul, map_sum, mul_comm X]
      have hH : ∀ m, ∀ q ∈ range N, (coeff m) (C (curlM g bc q r) * (C (dualLen g bc q) * (C (g.iA.array q * imu q) * mk fun m => passed g bc dt (fun n => (drive s T v n).E) m q))) =
          curlM g bc q r * (dualLen g bc q * (drive s T v m).H q) := by
        intro m q hq
        rw [coeff_C_mul, coeff_C_mul, coeff_C_mul, coeff_mk, drive_H hs (mem_range.1 hq)]
      rw [sum_congr rfl (hH m)]
      cases m with
      | zero =>
        rw [coeff_zero_mul_X, coeff_zero_mul_X, coeff_mk]
        simp [disp, drive, initState]
      | succ m =>
        rw [coeff_succ_mul_X, coeff_succ_mul_X, map_add, coeff_C_mul, coeff_mk, coeff_mk, coeff_mk, coeff_mk, ← before_J (fun r hr => hc r (hT r hr))]
        show disp g bc dt _ _ m r + dt * _ - _ = _
        ring
    · ext m
      rw [coeff_C_mul, coeff_mk, coeff_mk, drive_E hs hr]
    · by_cases h0 : dualInvArea g bc r = 0
      · have hrT : r ∉ T := fun h => (hS r (hT r h)).2.1 h0
        have : (mk fun m => (drive s T v m).E r) = 0 := by
          ext m; rw [coeff_mk, drive_dead hs hr h0 hrT, map_zero]
        rw [this, mul_zero]
      · rw [← map_mul, inv_mul_cancel₀ h0, map_one, one_mul]
  obtain ⟨a1, a2, a3, a4⟩ := eqs S w fun r hr => List.mem_append_left _ hr
  obtain ⟨b1, b2, b3, b4⟩ := eqs S' w' fun r hr => List.mem_append_right _ hr
  have key := recip_alg N (fun r q => C (curlM g bc r q)) (d := C dt) (X := X) (by simpa using hdt) X_ne_zero (fun r => C (g.L.array r)) (fun r => C ((dualInvArea g bc r)⁻¹)) (fun r => C (dualInvArea g bc r))
    (fun r => C (dualLen g bc r)) (fun r => C (g.iA.array r * imu r)) (fun r => C (ieps r)) (fun r => C (condOf s r)) a1 a2 a3 a4 b1 b2 b3 b4
  have rd : ∀ (T T' : List ℕ) (v : ℕ → ℕ → K) (E : ℕ → Vec K), (∀ r ∈ T, r ∈ S ++ S') → (coeff n) (∑ r ∈ range N, C (g.L.array r) * C ((dualInvArea g bc r)⁻¹) * (mk fun m => if r ∈ T then v m r else 0) * mk fun m => E m r) =
      reaction g.L.array (dualInvArea g bc) T v E n := by
    intro T T' v E hT
    unfold reaction
    rw [map_sum, sum_comm]
    have hsub : T.toFinset ⊆ range N := fun r hr => mem_range.2 (hS r (hT r (List.mem_toFinset.1 hr))).1
    rw [← sum_subset hsub]
    · refine sum_congr rfl fun r hr => ?_
      rw [mul_assoc, ← map_mul, coeff_C_mul, coeff_mul, mul_sum]
      refine sum_congr rfl fun p _ => ?_
      rw [coeff_mk, coeff_mk, if_pos (List.mem_toFinset.1 hr)]
      ring
    · intro r _ hr
      have : (mk fun m => if r ∈ T then v m r else 0) = 0 := by
        ext m; rw [coeff_mk, if_neg (fun h => hr (List.mem_toFinset.2 h)), map_zero]
      rw [this]; simp
  rw [← rd S S' w _ fun r hr => List.mem_append_left _ hr, ← rd S' S w' _ fun r hr => List.mem_append_right _ hr, key]

/-- Without currents nothing happens. -/
theorem drive_silent (s : Solver K) (S : List ℕ) {w : ℕ → ℕ → K} (hw : ∀ n r, w n r = 0) (n : ℕ) :
    (drive s S w n).E = (fun _ => 0) ∧ (drive s S w n).H = (fun _ => 0) ∧ (drive s S w n).J = fun _ => 0 := by
  induction n with
  | zero => exact ⟨rfl, rfl, rfl⟩
  | succ n ih =>
    obtain ⟨hE, hH, hJ⟩ := ih
    obtain ⟨e, h, j, _⟩ := drive_advance s S w n
    have bJ : (before s S w n).J = fun _ => 0 := by
      funext r
      show (if r ∈ S then w n r else (drive s S w n).J r) = 0
      rw [hw, hJ]; simp
    have bE : (before s S w n).E = fun _ => 0 := hE
    have bH : (before s S w n).H = fun _ => 0 := hH
    have aH : (advance s (before s S w n)).H = fun _ => 0 := by
      funext r; simp [advance, bE, bH, mulVec]
    have aE : (advance s (before s S w n)).E = fun _ => 0 := by
      funext r; simp [advance, bE, bH, bJ, mulVec]
    refine ⟨e.trans aE, h.trans aH, j.trans ?_⟩
    have : (advance s (before s S w n)).J = if s.useConductivity then fun i => s.sigma i * (advance s (before s S w n)).E i else (before s S w n).J := rfl
    rw [this, aE, bJ]
    split_ifs <;> simp

open PowerSeries in
/-- **C111 (reciprocity).** The voltage along edge `b` caused by a current with any waveform through edge `a` is, after every number of steps, the voltage along `a` caused by the same current through `b`:
for every grid, material, conductivity elsewhere, and boundary (electric, magnetic, open, periodic, PML). -/
theorem C111_reciprocity (g : Geom K) (bc : Faces String) (ieps imu sigma : Vec K) (dt : K) (uc : Bool) (hdt : dt ≠ 0) {a b : ℕ} (I : ℕ → K)
    (ha : a < 3 * (g.Nx * g.Ny * g.Nz)) (hb : b < 3 * (g.Nx * g.Ny * g.Nz)) (hda : dualInvArea g bc a ≠ 0) (hdb : dualInvArea g bc b ≠ 0)
    (hc : (build g bc ieps imu sigma dt uc).useConductivity = true → sigma a = 0 ∧ sigma b = 0) (n : ℕ) :
    g.L.array b * (drive (build g bc ieps imu sigma dt uc) [a] (fun m _ => I m * dualInvArea g bc a) n).E b =
      g.L.array a * (drive (build g bc ieps imu sigma dt uc) [b] (fun m _ => I m * dualInvArea g bc b) n).E a := by
  by_cases hI : mk I = 0
  · have h0 : ∀ m, I m = 0 := fun m => by simpa using congrArg (coeff m) hI
    rw [(drive_silent _ [a] (fun m r => by rw [h0, zero_mul]) n).1, (drive_silent _ [b] (fun m r => by rw [h0, zero_mul]) n).1]
    simp
  set s := build g bc ieps imu sigma dt uc with hs
  have key : mk I * (mk fun m => g.L.array a * (drive s [b] (fun m _ => I m * dualInvArea g bc b) m).E a) = mk I * mk fun m => g.L.array b * (drive s [a] (fun m _ => I m * dualInvArea g bc a) m).E b := by
    ext m
    have r := C111_reaction g bc ieps imu sigma dt uc hdt (S := [a]) (S' := [b]) (fun m _ => I m * dualInvArea g bc a) (fun m _ => I m * dualInvArea g bc b) (by
      intro r hr
      simp only [List.cons_append, List.nil_append, List.mem_cons, List.not_mem_nil, or_false] at hr
      rcases hr with rfl | rfl
      · exact ⟨ha, hda, fun h => (hc h).1⟩
      · exact ⟨hb, hdb, fun h => (hc h).2⟩) m
    rw [← hs] at r
    unfold reaction at r
    simp only [List.toFinset_cons, List.toFinset_nil, insert_empty_eq, sum_singleton, mul_assoc, mul_inv_cancel_left₀ hda, mul_inv_cancel_left₀ hdb] at r
    rw [coeff_mul, coeff_mul]
    simpa only [coeff_mk] using r
  have := mul_left_cancel₀ hI key
  have := congrArg (coeff n) this
  rw [coeff_mk, coeff_mk] at this
  exact this.symm

/-! ### sources in conductors -/

/-- Runs with the source in edge `a` do not depend on the conductivity there: the source overwrites the conduction current. -/
theorem drive_own_sigma (g : Geom K) (bc : Faces String) (ieps imu sigma : Vec K) (dt : K) (uc : Bool) (a : ℕ) (v : K) (w : ℕ → ℕ → K) (n : ℕ) :
    (drive (build g bc ieps imu sigma dt uc) [a] w n).E = (drive (build g bc ieps imu (Function.update sigma a v) dt uc) [a] w n).E ∧
      (drive (build g bc ieps imu sigma dt uc) [a] w n).H = (drive (build g bc ieps imu (Function.update sigma a v) dt uc) [a] w n).H ∧
      ∀ r, r ≠ a → (drive (build g bc ieps imu sigma dt uc) [a] w n).J r = (drive (build g bc ieps imu (Function.update sigma a v) dt uc) [a] w n).J r := by
  induction n with
  | zero => exact ⟨rfl, rfl, fun _ _ => rfl⟩
  | succ n ih =>
    obtain ⟨hE, hH, hJ⟩ := ih
    set s := build g bc ieps imu sigma dt uc with hs
    set s' := build g bc ieps imu (Function.update sigma a v) dt uc with hs'
    obtain ⟨e, h, j, _⟩ := drive_advance s [a] w n
    obtain ⟨e', h', j', _⟩ := drive_advance s' [a] w n
    have bJ : (before s [a] w n).J = (before s' [a] w n).J := by
      funext r
      show (if r ∈ [a] then w n r else (drive s [a] w n).J r) = if r ∈ [a] then w n r else (drive s' [a] w n).J r
      by_cases hr : r = a
      · simp [hr]
      · simp [hr, hJ r hr]
    have aH : (advance s (before s [a] w n)).H = (advance s' (before s' [a] w n)).H := by
      funext r
      show (drive s [a] w n).H r - dt * mulVec s.n3 s.M1 (drive s [a] w n).E r = (drive s' [a] w n).H r - dt * mulVec s'.n3 s'.M1 (drive s' [a] w n).E r
      rw [hE, hH]; rfl
    have aE : (advance s (before s [a] w n)).E = (advance s' (before s' [a] w n)).E := by
      funext r
      show (drive s [a] w n).E r + dt * (mulVec s.n3 s.M2 (advance s (before s [a] w n)).H r - ieps r * (before s [a] w n).J r) =
        (drive s' [a] w n).E r + dt * (mulVec s'.n3 s'.M2 (advance s' (before s' [a] w n)).H r - ieps r * (before s' [a] w n).J r)
      rw [hE, aH, bJ]; rfl
    refine ⟨by rw [e, e', aE], by rw [h, h', aH], fun r hr => ?_⟩
    rw [j, j']
    have q : (advance s (before s [a] w n)).J = if s.useConductivity then fun i => sigma i * (advance s (before s [a] w n)).E i else (before s [a] w n).J := rfl
    have q' : (advance s' (before s' [a] w n)).J = if s.useConductivity then fun i => Function.update sigma a v i * (advance s' (before s' [a] w n)).E i else (before s' [a] w n).J := rfl
    rw [q, q', aE, bJ]
    split_ifs
    · simp only [Function.update_of_ne hr]
    · rfl

/-- What reaches edge `a` two steps after an impulse in edge `b`. -/
theorem drive_two {g : Geom K} {bc : Faces String} {ieps imu sigma : Vec K} {dt : K} {uc : Bool} {a b : ℕ} (hab : a ≠ b) (ha : a < 3 * (g.Nx * g.Ny * g.Nz)) (hb : b < 3 * (g.Nx * g.Ny * g.Nz)) (w : ℕ → ℕ → K) :
    (drive (build g bc ieps imu sigma dt uc) [b] w 1).E a = 0 ∧
    (drive (build g bc ieps imu sigma dt uc) [b] w 2).E a = dt ^ 3 * (ieps a * dualInvArea g bc a * (ieps b * g.L.array b * w 0 b)) *
      ∑ q ∈ range (3 * (g.Nx * g.Ny * g.Nz)), curlM g bc q a * (dualLen g bc q * (g.iA.array q * imu q)) * curlM g bc q b := by
  obtain ⟨s, hs⟩ : ∃ s, s = build g bc ieps imu sigma dt uc := ⟨_, rfl⟩
  rw [← hs]
  set N := 3 * (g.Nx * g.Ny * g.Nz) with hN
  have p1 : ∀ r, passed g bc dt (fun n => (drive s [b] w n).E) 1 r = 0 := by
    intro r
    simp [passed, drive, initState]
  have H1 : ∀ r < N, (drive s [b] w 1).H r = 0 := fun r hr => by rw [drive_H hs hr, p1, mul_zero]
  have d1 : ∀ r < N, disp g bc dt (fun n => (drive s [b] w n).H) (fun n => (before s [b] w n).J) 1 r = if r = b then -(dt * w 0 b) else 0 := by
    intro r hr
    have z : ∑ q ∈ range N, curlM g bc q r * (dualLen g bc q * (drive s [b] w 1).H q) = 0 := sum_eq_zero fun q hq => by rw [H1 q (mem_range.1 hq)]; ring
    have bJ : (before s [b] w 0).J r = if r = b then w 0 r else 0 := by
      show (if r ∈ [b] then w 0 r else 0) = _
      simp
    show (0 : K) + dt * (dualInvArea g bc r * (∑ q ∈ range N, curlM g bc q r * (dualLen g bc q * (drive s [b] w 1).H q)) - (before s [b] w 0).J r) = _
    rw [z, bJ]
    split_ifs with h
    · rw [h]; ring
    · ring
  have E1 : ∀ r < N, (drive s [b] w 1).E r = if r = b then -(dt * (ieps b * w 0 b)) else 0 := by
    intro r hr
    rw [drive_E hs hr, d1 r hr]
    split_ifs with h
    · rw [h]; ring
    · ring
  have Ea : (drive s [b] w 1).E a = 0 := by rw [E1 a ha, if_neg hab]
  refine ⟨Ea, ?_⟩
  have p2 : ∀ r, passed g bc dt (fun n => (drive s [b] w n).E) 2 r = dt ^ 2 * (curlM g bc r b * (g.L.array b * (ieps b * w 0 b))) := by
    intro r
    show passed g bc dt (fun n => (drive s [b] w n).E) 1 r - dt * ∑ q ∈ range N, curlM g bc r q * (g.L.array q * (drive s [b] w 1).E q) = _
    rw [p1, sum_eq_single b]
    · rw [E1 b hb, if_pos rfl]; ring
    · intro q hq hqb; rw [E1 q (mem_range.1 hq), if_neg hqb]; ring
    · intro h; exact absurd (mem_range.2 hb) h
  have J1 : (before s [b] w 1).J a = 0 := by
    show (if a ∈ [b] then w 1 a else (drive s [b] w 1).J a) = 0
    rw [if_neg (by simpa using hab), drive_J (by simpa using hab), Ea, mul_zero]
  rw [drive_E hs ha]
  show ieps a * (disp g bc dt (fun n => (drive s [b] w n).H) (fun n => (before s [b] w n).J) 1 a +
    dt * (dualInvArea g bc a * (∑ q ∈ range N, curlM g bc q a * (dualLen g bc q * (drive s [b] w 2).H q)) - (before s [b] w 1).J a)) = _
  rw [d1 a ha, if_neg hab, J1]
  have : ∑ q ∈ range N, curlM g bc q a * (dualLen g bc q * (drive s [b] w 2).H q) =
      ∑ q ∈ range N, curlM g bc q a * (dualLen g bc q * (g.iA.array q * imu q)) * curlM g bc q b * (dt ^ 2 * (ieps b * g.L.array b * w 0 b)) := by
    refine sum_congr rfl fun q hq => ?_
    rw [drive_H hs (mem_range.1 hq), p2]; ring
  rw [this, ← sum_mul]
  ring

/-- Up to the second step the conductivity of an edge away from the source plays no role; in the third it takes away the conduction current. -/
theorem drive_three (g : Geom K) (bc : Faces String) (ieps imu sigma : Vec K) (dt : K) (uc : Bool) {a b : ℕ} (hab : a ≠ b) (ha : a < 3 * (g.Nx * g.Ny * g.Nz)) (hb : b < 3 * (g.Nx * g.Ny * g.Nz)) (w : ℕ → ℕ → K)
    (hu : (build g bc ieps imu sigma dt uc).useConductivity = true) :
    (drive (build g bc ieps imu sigma dt uc) [b] w 3).E a = (drive (build g bc ieps imu (Function.update sigma a 0) dt uc) [b] w 3).E a -
      dt * ieps a * sigma a * (drive (build g bc ieps imu sigma dt uc) [b] w 2).E a := by
  obtain ⟨s, hs⟩ : ∃ s, s = build g bc ieps imu sigma dt uc := ⟨_, rfl⟩
  obtain ⟨s', hs'⟩ : ∃ s, s = build g bc ieps imu (Function.update sigma a 0) dt uc := ⟨_, rfl⟩
  rw [← hs] at hu
  rw [← hs, ← hs']
  have hu' : s'.useConductivity = true := by rw [hs'] ; rw [hs] at hu; exact hu
  have e1 : s.M1 = s'.M1 := by rw [hs, hs']; rfl
  have e2 : s.M2 = s'.M2 := by rw [hs, hs']; rfl
  have e3 : s.n3 = s'.n3 := by rw [hs, hs']; rfl
  have e4 : s.ieps = s'.ieps := by rw [hs, hs']; rfl
  have e5 : s.dt = s'.dt := by rw [hs, hs']; rfl
  have sg : ∀ r, r ≠ a → s.sigma r = s'.sigma r := by
    intro r hr
    have h1 : s.sigma = sigma := by rw [hs]; rfl
    have h2 : s'.sigma = Function.update sigma a 0 := by rw [hs']; rfl
    rw [h1, h2, Function.update_of_ne hr]
  have z1 : (drive s [b] w 1).E a = 0 := by rw [hs]; exact (drive_two hab ha hb w).1
  -- one more step with equal fields and equal currents
  have next : ∀ n, (drive s [b] w n).E = (drive s' [b] w n).E → (drive s [b] w n).H = (drive s' [b] w n).H →
      (drive s [b] w (n + 1)).H = (drive s' [b] w (n + 1)).H ∧ ∀ r, (before s [b] w n).J r = (before s' [b] w n).J r → (drive s [b] w (n + 1)).E r = (drive s' [b] w (n + 1)).E r := by
    intro n hE hH
    obtain ⟨e, h, _, _⟩ := drive_advance s [b] w n
    obtain ⟨e', h', _, _⟩ := drive_advance s' [b] w n
    have aH : (advance s (before s [b] w n)).H = (advance s' (before s' [b] w n)).H := by
      funext r
      show (drive s [b] w n).H r - s.dt * mulVec s.n3 s.M1 (drive s [b] w n).E r = (drive s' [b] w n).H r - s'.dt * mulVec s'.n3 s'.M1 (drive s' [b] w n).E r
      rw [hE, hH, e1, e3, e5]
    refine ⟨by rw [h, h', aH], fun r hr => ?_⟩
    rw [e, e']
    show (drive s [b] w n).E r + s.dt * (mulVec s.n3 s.M2 (advance s (before s [b] w n)).H r - s.ieps r * (before s [b] w n).J r) =
      (drive s' [b] w n).E r + s'.dt * (mulVec s'.n3 s'.M2 (advance s' (before s' [b] w n)).H r - s'.ieps r * (before s' [b] w n).J r)
    rw [hE, aH, hr, e2, e3, e4, e5]
  have cur : ∀ n r, r ≠ a → (drive s [b] w n).E = (drive s' [b] w n).E → (before s [b] w n).J r = (before s' [b] w n).J r := by
    intro n r hr hE
    show (if r ∈ [b] then w n r else (drive s [b] w n).J r) = if r ∈ [b] then w n r else (drive s' [b] w n).J r
    by_cases h : r ∈ [b]
    · rw [if_pos h, if_pos h]
    · rw [if_neg h, if_neg h, drive_J h, drive_J h, hE]
      simp only [condOf, hu, hu', if_true, sg r hr]
  have cura : ∀ n, (drive s [b] w n).E = (drive s' [b] w n).E → (drive s [b] w n).E a = 0 → (before s [b] w n).J a = (before s' [b] w n).J a := by
    intro n hE h0
    have hn : a ∉ [b] := by simpa using hab
    show (if a ∈ [b] then w n a else (drive s [b] w n).J a) = if a ∈ [b] then w n a else (drive s' [b] w n).J a
    rw [if_neg hn, if_neg hn, drive_J hn, drive_J hn, ← hE, h0, mul_zero, mul_zero]
  have all : ∀ n, (drive s [b] w n).E = (drive s' [b] w n).E → (drive s [b] w n).H = (drive s' [b] w n).H → (drive s [b] w n).E a = 0 →
      (drive s [b] w (n + 1)).E = (drive s' [b] w (n + 1)).E ∧ (drive s [b] w (n + 1)).H = (drive s' [b] w (n + 1)).H := by
    intro n hE hH h0
    obtain ⟨h1, h2⟩ := next n hE hH
    refine ⟨?_, h1⟩
    funext r
    refine h2 r ?_
    by_cases hr : r = a
    · rw [hr]; exact cura n hE h0
    · exact cur n r hr hE
  obtain ⟨E1, H1⟩ := all 0 rfl rfl rfl
  obtain ⟨E2, H2⟩ := all 1 E1 H1 z1
  have H3 := (next 2 E2 H2).1
  have step3 : ∀ t : Solver K, (drive t [b] w 3).E a = (drive t [b] w 2).E a + t.dt * (mulVec t.n3 t.M2 (drive t [b] w 3).H a - t.ieps a * (before t [b] w 2).J a) := by
    intro t
    obtain ⟨e, h, _, _⟩ := drive_advance t [b] w 2
    rw [e, h]; rfl
  have hn : a ∉ [b] := by simpa using hab
  have J2 : (before s [b] w 2).J a = sigma a * (drive s [b] w 2).E a := by
    show (if a ∈ [b] then w 2 a else (drive s [b] w 2).J a) = _
    rw [if_neg hn, drive_J hn]
    simp only [condOf, hu, if_true]
    rw [show s.sigma = sigma by rw [hs]; rfl]
  have J2' : (before s' [b] w 2).J a = 0 := by
    show (if a ∈ [b] then w 2 a else (drive s' [b] w 2).J a) = _
    rw [if_neg hn, drive_J hn]
    simp only [condOf, hu', if_true]
    rw [show s'.sigma = Function.update sigma a 0 by rw [hs']; rfl, Function.update_self, zero_mul]
  rw [step3 s, step3 s', J2, J2', E2, H3, e2, e3, e4, e5, show s'.ieps = ieps by rw [hs']; rfl, show s'.dt = dt by rw [hs']; rfl]
  ring

/-- The current impulse: one unit in the first step, then none. -/
def impulse (n : ℕ) : K := if n = 0 then 1 else 0

/-- **C111 refuted (sources in conductors).** If edge `a` is conducting, edge `b` is not and a face touches both, the two voltages differ after three steps: the source in `a` overwrites the conduction
current of its edge. -/
theorem C111_conductor_refuted (g : Geom K) (bc : Faces String) (ieps imu sigma : Vec K) (dt : K) (uc : Bool) (hdt : dt ≠ 0) {a b : ℕ} (hab : a ≠ b)
    (ha : a < 3 * (g.Nx * g.Ny * g.Nz)) (hb : b < 3 * (g.Nx * g.Ny * g.Nz)) (hda : dualInvArea g bc a ≠ 0) (hdb : dualInvArea g bc b ≠ 0)
    (hu : (build g bc ieps imu sigma dt uc).useConductivity = true) (hσa : sigma a ≠ 0) (hσb : sigma b = 0) (hεa : ieps a ≠ 0) (hεb : ieps b ≠ 0) (hLa : g.L.array a ≠ 0) (hLb : g.L.array b ≠ 0)
    (hshare : ∑ q ∈ range (3 * (g.Nx * g.Ny * g.Nz)), curlM g bc q a * (dualLen g bc q * (g.iA.array q * imu q)) * curlM g bc q b ≠ 0) :
    g.L.array b * (drive (build g bc ieps imu sigma dt uc) [a] (fun m _ => impulse m * dualInvArea g bc a) 3).E b ≠
      g.L.array a * (drive (build g bc ieps imu sigma dt uc) [b] (fun m _ => impulse m * dualInvArea g bc b) 3).E a := by
  intro h
  have h1 := C111_reciprocity g bc ieps imu (Function.update sigma a 0) dt uc hdt impulse ha hb hda hdb
    (fun _ => ⟨Function.update_self .., by rw [Function.update_of_ne (Ne.symm hab), hσb]⟩) 3
  rw [← (drive_own_sigma g bc ieps imu sigma dt uc a 0 _ 3).1, h, drive_three g bc ieps imu sigma dt uc hab ha hb _ hu, (drive_two hab ha hb _).2] at h1
  have h2 : g.L.array a * (dt * ieps a * sigma a * (dt ^ 3 * (ieps a * dualInvArea g bc a * (ieps b * g.L.array b * (impulse 0 * dualInvArea g bc b))) *
      ∑ q ∈ range (3 * (g.Nx * g.Ny * g.Nz)), curlM g bc q a * (dualLen g bc q * (g.iA.array q * imu q)) * curlM g bc q b)) = 0 := by
    linear_combination -h1
  have hi : (impulse 0 : K) = 1 := by simp [impulse]
  rw [hi] at h2
  simp [hLa, hdt, hεa, hσa, hda, hεb, hLb, hdb] at h2
  exact hshare (by simpa using h2)

end built

/-! ### cases -/

def recGrid : Geom ℚ := computeGrid 3 3 3 (fun i => i) (fun i => i * i) fun i => 2 * i

/-- Two z edges of this grid. -/
def recA : ℕ := pos 3 3 3 2 1 1 1
def recB : ℕ := pos 3 3 3 2 0 1 1

/-- Reciprocity between these edges, with electric, magnetic and PML faces, a PEC cell and a conductor elsewhere. -/
example (I : ℕ → ℚ) (n : ℕ) : recGrid.L.array recB * (drive (build recGrid ⟨"pec", "pec", "pmc", "pec", "pml", "pml"⟩ (fun r => if r = 3 then 0 else 1 + r) (fun r => 2 / (1 + r)) (fun r => if r = 5 then 7 else 0) (1 / 2) true)
      [recA] (fun m _ => I m * dualInvArea recGrid ⟨"pec", "pec", "pmc", "pec", "pml", "pml"⟩ recA) n).E recB =
    recGrid.L.array recA * (drive (build recGrid ⟨"pec", "pec", "pmc", "pec", "pml", "pml"⟩ (fun r => if r = 3 then 0 else 1 + r) (fun r => 2 / (1 + r)) (fun r => if r = 5 then 7 else 0) (1 / 2) true)
      [recB] (fun m _ => I m * dualInvArea recGrid ⟨"pec", "pec", "pmc", "pec", "pml", "pml"⟩ recB) n).E recA :=
  C111_reciprocity recGrid _ _ _ _ _ _ (by norm_num) I (by decide) (by decide) (by decide +kernel) (by decide +kernel) (fun _ => by decide +kernel) n

/-- A conductor in edge A spoils it. -/
example : recGrid.L.array recB * (drive (build recGrid ⟨"open", "open", "open", "open", "open", "open"⟩ (fun _ => 1) (fun _ => 1) (fun r => if r = recA then 1 else 0) (1 / 2) true)
      [recA] (fun m _ => impulse m * dualInvArea recGrid ⟨"open", "open", "open", "open", "open", "open"⟩ recA) 3).E recB ≠
    recGrid.L.array recA * (drive (build recGrid ⟨"open", "open", "open", "open", "open", "open"⟩ (fun _ => 1) (fun _ => 1) (fun r => if r = recA then 1 else 0) (1 / 2) true)
      [recB] (fun m _ => impulse m * dualInvArea recGrid ⟨"open", "open", "open", "open", "open", "open"⟩ recB) 3).E recA :=
  C111_conductor_refuted recGrid _ _ _ _ _ _ (by norm_num) (by decide) (by decide) (by decide) (by decide +kernel) (by decide +kernel) (by decide +kernel) (by decide +kernel) (by decide +kernel)
    (by norm_num) (by norm_num) (by decide +kernel) (by decide +kernel) (by decide +kernel)

end Sol
end Wakis
