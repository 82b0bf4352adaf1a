import Verif.CurlBound
import Verif.SolverBC
import Verif.TimeStep

/-!
# C20: the automatic time step gives stable runs

Closed box (six faces `electric`/`pec`), no conductivity, no current.  `fieldEnergy` is the field energy of
one state; the theorem bounds it, after every number of time steps, by a constant times its initial value.
-/

namespace Wakis
namespace Sol
open Finset Sparse Grid CurlBound
variable {K : Type _} [Field K]

/-- Field energy of a state: `Σ eps E² · (edge length · dual area) + Σ mu H² · (dual length · area)`.
Entries with zero inverse permittivity or zero inverse dual area carry no weight (`x / 0 = 0`). -/
def fieldEnergy (g : Geom K) (bc : Faces String) (ieps imu : Vec K) (st : State K) : K :=
  ∑ r ∈ range (3 * (g.Nx * g.Ny * g.Nz)), g.L.array r / (ieps r * dualInvArea g bc r) * st.E r ^ 2 +
  ∑ r ∈ range (3 * (g.Nx * g.Ny * g.Nz)), dualLen g bc r / (g.iA.array r * imu r) * st.H r ^ 2

/-- All six faces electric or pec (upper or lower case). -/
def AllPec (bc : Faces String) : Prop := ∀ axis s, axis < 3 →
  pyLower (faceName bc axis s) = "electric" ∨ pyLower (faceName bc axis s) = "pec"

theorem AllPec.names {bc : Faces String} (h : AllPec bc) :
    (∀ a s, a < 3 → isPec (faceName bc a s) = true) ∧ anyFace isPmcAny bc = false ∧ anyFace isAbc bc = false ∧
    anyFace isPml bc = false ∧ (isPeriodic bc.xlo || isPeriodic bc.ylo || isPeriodic bc.zlo) = false := by
  have f : ∀ s, pyLower s = "electric" ∨ pyLower s = "pec" →
      isPec s = true ∧ isPmcAny s = false ∧ isAbc s = false ∧ isPml s = false ∧ isPeriodic s = false := by
    rintro s (e | e) <;> simp [isPec, isPmcAny, isAbc, isPml, isPeriodic, e]
  have h1 := f _ (h 0 .lo (by decide))
  have h2 := f _ (h 0 .hi (by decide))
  have h3 := f _ (h 1 .lo (by decide))
  have h4 := f _ (h 1 .hi (by decide))
  have h5 := f _ (h 2 .lo (by decide))
  have h6 := f _ (h 2 .hi (by decide))
  simp only [faceName, Faces.lo, Faces.hi, if_true, if_false, one_ne_zero, OfNat.ofNat_ne_zero, OfNat.ofNat_ne_one] at h1 h2 h3 h4 h5 h6
  refine ⟨fun a s ha => (f _ (h a s ha)).1, ?_, ?_, ?_, ?_⟩
  all_goals simp only [anyFace, h1, h2, h3, h4, h5, h6, Bool.or_self]

/-! ### flat sums -/

theorem sum_range_mul (a b : ℕ) (f : ℕ → K) :
    ∑ p ∈ range (a * b), f p = ∑ k ∈ range b, ∑ q ∈ range a, f (q + a * k) := by
  induction b with
  | zero => simp
  | succ b ih =>
    rw [Nat.mul_succ, sum_range_add, ih, sum_range_succ]
    congr 1
    exact sum_congr rfl fun q _ => by rw [Nat.add_comm]

theorem sum_cells (Nx Ny Nz : ℕ) (f : ℕ → K) :
    ∑ p ∈ range (Nx * Ny * Nz), f p = S3 Nx Ny Nz fun i j k => f (fl Nx Ny i j k) := by
  rw [S3_x, Nat.mul_assoc, sum_range_mul, sum_range_mul Ny Nz (fun m => ∑ q ∈ range Nx, f (q + Nx * m)), sum_comm]
  rfl

/-- A sum over the flat three-component array, cell by cell. -/
theorem sum_flat (Nx Ny Nz : ℕ) (f : ℕ → K) :
    ∑ r ∈ range (3 * (Nx * Ny * Nz)), f r =
      S3 Nx Ny Nz fun i j k => f (pos Nx Ny Nz 0 i j k) + f (pos Nx Ny Nz 1 i j k) + f (pos Nx Ny Nz 2 i j k) := by
  rw [sum_range_three]
  simp only [sum_range_succ, range_zero, sum_empty, zero_add, S3_add, Nat.zero_mul, Nat.one_mul]
  rw [sum_cells, sum_cells, sum_cells]
  simp only [pos, Nat.zero_mul, Nat.one_mul, Nat.zero_add]

/-! ### the metric -/

section
variable [LinearOrder K] [IsStrictOrderedRing K]

/-- The axis of a grid whose cell lengths are at least `m`. -/
def mkAxis (x : ℕ → K) (n : ℕ) (m : K) (hm : 0 < m) (h : ∀ i < n, m ≤ x (i + 1) - x i) : Axis K where
  N := n
  d := fun i => x (i + 1) - x i
  t := fun i => tilde x n (i + 1) - tilde x n i
  m := m
  hm := hm
  hd := fun i hi => .inr (h i hi)
  ht := by
    rintro i ⟨_, hi⟩
    rw [tilde_diff x n i two_ne_zero (by omega), if_pos hi]
    have h1 := h i (by omega)
    have h2 := h (i + 1) hi
    rw [le_div_iff₀ (by norm_num)]
    linarith
  h0 := by
    intro i hi
    rw [tilde_diff x n i two_ne_zero hi]
    split_ifs with h'
    · have h1 := h i hi
      have h2 := h (i + 1) h'
      apply div_nonneg <;> linarith
    · exact le_rfl

theorem increasing_of {x : ℕ → K} {n : ℕ} {m : K} (hm : 0 < m) (h : ∀ i < n, m ≤ x (i + 1) - x i) : Increasing x n := by
  intro i hi
  have := h i hi
  linarith

omit [IsStrictOrderedRing K] in
theorem one_div_guardedInv (a : K) : 1 / guardedInv a = a := by
  unfold guardedInv
  split_ifs with h
  · rw [one_div_one_div]
  · rw [not_not.1 h, div_zero]

section
variable {Nx Ny Nz : ℕ} {x y z : ℕ → K} {mx my mz : K} (hmx : 0 < mx) (hmy : 0 < my) (hmz : 0 < mz)
  (hx : ∀ i < Nx, mx ≤ x (i + 1) - x i) (hy : ∀ i < Ny, my ≤ y (i + 1) - y i) (hz : ∀ i < Nz, mz ≤ z (i + 1) - z i)

include hx hy hz in
theorem weights_cell {i j k : ℕ} (hi : i < Nx) (hj : j < Ny) (hk : k < Nz) :
    let g := computeGrid Nx Ny Nz x y z
    let X := mkAxis x Nx mx hmx hx
    let Y := mkAxis y Ny my hmy hy
    let Z := mkAxis z Nz mz hmz hz
    let P := fun c => pos Nx Ny Nz c i j k
    (g.tL.array (P 0) * g.iA.array (P 0) = X.t i / (Y.d j * Z.d k) ∧ g.tL.array (P 1) * g.iA.array (P 1) = Y.t j / (X.d i * Z.d k) ∧
      g.tL.array (P 2) * g.iA.array (P 2) = Z.t k / (X.d i * Y.d j)) ∧
    (1 / g.itA.array (P 0) / g.L.array (P 0) = Y.t j * Z.t k / X.d i ∧ 1 / g.itA.array (P 1) / g.L.array (P 1) = X.t i * Z.t k / Y.d j ∧
      1 / g.itA.array (P 2) / g.L.array (P 2) = X.t i * Y.t j / Z.d k) ∧
    (∀ c < 3, 0 < g.L.array (P c) ∧ 0 ≤ g.tL.array (P c) ∧ 0 < g.iA.array (P c) ∧ 0 ≤ g.itA.array (P c)) := by
  intro g X Y Z P
  have eL : ∀ c < 3, g.L.array (P c) = _ := fun c hc => diffField_at3 x y z hc hi hj hk
  have et : ∀ c < 3, g.tL.array (P c) = _ := fun c hc => diffField_at3 (tilde x Nx) (tilde y Ny) (tilde z Nz) hc hi hj hk
  have eA : ∀ c < 3, g.iA.array (P c) = _ := fun c hc => invArea_at3 (Nx := Nx) (Ny := Ny) (Nz := Nz) g.L rfl rfl hc hi hj hk
  have eT : ∀ c < 3, g.itA.array (P c) = _ := fun c hc => invDualArea_at3 (Nx := Nx) (Ny := Ny) (Nz := Nz) g.tL rfl rfl hc hi hj hk
  have L0 : g.L.array (P 0) = X.d i := by rw [eL 0 (by omega)]; rfl
  have L1 : g.L.array (P 1) = Y.d j := by rw [eL 1 (by omega)]; rfl
  have L2 : g.L.array (P 2) = Z.d k := by rw [eL 2 (by omega)]; rfl
  have t0 : g.tL.array (P 0) = X.t i := by rw [et 0 (by omega)]; rfl
  have t1 : g.tL.array (P 1) = Y.t j := by rw [et 1 (by omega)]; rfl
  have t2 : g.tL.array (P 2) = Z.t k := by rw [et 2 (by omega)]; rfl
  have A0 : g.iA.array (P 0) = 1 / (Y.d j * Z.d k) := by
    rw [eA 0 (by omega), ← L1, ← L2]; rfl
  have A1 : g.iA.array (P 1) = 1 / (X.d i * Z.d k) := by
    rw [eA 1 (by omega), ← L0, ← L2]; rfl
  have A2 : g.iA.array (P 2) = 1 / (X.d i * Y.d j) := by
    rw [eA 2 (by omega), ← L0, ← L1]; rfl
  have T0 : g.itA.array (P 0) = guardedInv (Y.t j * Z.t k) := by
    rw [eT 0 (by omega), ← t1, ← t2]; rfl
  have T1 : g.itA.array (P 1) = guardedInv (X.t i * Z.t k) := by
    rw [eT 1 (by omega), ← t0, ← t2]; rfl
  have T2 : g.itA.array (P 2) = guardedInv (X.t i * Y.t j) := by
    rw [eT 2 (by omega), ← t0, ← t1]; rfl
  have dx : 0 < X.d i := hmx.trans_le (hx i hi)
  have dy : 0 < Y.d j := hmy.trans_le (hy j hj)
  have dz : 0 < Z.d k := hmz.trans_le (hz k hk)
  have tx := X.h0 i hi
  have ty := Y.h0 j hj
  have tz := Z.h0 k hk
  have gn : ∀ a : K, 0 ≤ a → 0 ≤ guardedInv a := by
    intro a ha; unfold guardedInv; split_ifs
    · positivity
    · exact le_rfl
  refine ⟨⟨?_, ?_, ?_⟩, ⟨?_, ?_, ?_⟩, ?_⟩
  · rw [t0, A0, mul_one_div]
  · rw [t1, A1, mul_one_div]
  · rw [t2, A2, mul_one_div]
  · rw [T0, L0, one_div_guardedInv]
  · rw [T1, L1, one_div_guardedInv]
  · rw [T2, L2, one_div_guardedInv]
  · intro c hc
    have hc' : c = 0 ∨ c = 1 ∨ c = 2 := by omega
    rcases hc' with rfl | rfl | rfl
    · rw [L0, t0, A0, T0]; exact ⟨dx, tx, by positivity, gn _ (by positivity)⟩
    · rw [L1, t1, A1, T1]; exact ⟨dy, ty, by positivity, gn _ (by positivity)⟩
    · rw [L2, t2, A2, T2]; exact ⟨dz, tz, by positivity, gn _ (by positivity)⟩

/-- Every flat index below `3N` is a component of a cell. -/
theorem pos_surj {Nx Ny Nz r : ℕ} (hr : r < 3 * (Nx * Ny * Nz)) :
    ∃ c i j k, c < 3 ∧ i < Nx ∧ j < Ny ∧ k < Nz ∧ r = pos Nx Ny Nz c i j k := by
  have hN : 0 < Nx * Ny * Nz := by
    rcases Nat.eq_zero_or_pos (Nx * Ny * Nz) with h | h
    · rw [h] at hr; omega
    · exact h
  obtain ⟨i, j, k, hi, hj, hk, h⟩ := pos_decode (Nat.mod_lt r hN)
  refine ⟨r / (Nx * Ny * Nz), i, j, k, Nat.div_lt_of_lt_mul (by rwa [Nat.mul_comm] at hr), hi, hj, hk, ?_⟩
  rw [pos, ← h, Nat.mul_comm, Nat.div_add_mod]

include hmx hmy hmz hx hy hz in
theorem metric_signs {r : ℕ} (hr : r < 3 * (Nx * Ny * Nz)) :
    let g := computeGrid Nx Ny Nz x y z
    0 < g.L.array r ∧ 0 ≤ g.tL.array r ∧ 0 < g.iA.array r ∧ 0 ≤ g.itA.array r := by
  obtain ⟨c, i, j, k, hc, hi, hj, hk, rfl⟩ := pos_surj hr
  exact (weights_cell hmx hmy hmz hx hy hz hi hj hk).2.2 c hc

/-! ### the curl bound on the flat arrays -/

/-- Every face clears the tangential E (electric, pec or pml). -/
def PecLike (bc : Faces String) : Prop := ∀ axis s, axis < 3 → isPec (faceName bc axis s) = true

theorem AllPec.like {bc : Faces String} (h : AllPec bc) : PecLike bc := h.names.1

theorem colMask_closed (g : Geom K) {bc : Faces String} (h : PecLike bc) {c i j k : ℕ} (hc : c < 3) (hi : i < g.Nx) (hj : j < g.Ny)
    (hk : k < g.Nz) {axis : ℕ} (ha : axis < 3) (hne : axis ≠ c) (s : Side) (hon : OnFace g.Nx g.Ny g.Nz axis s i j k) :
    colMask g bc (pos g.Nx g.Ny g.Nz c i j k) = 0 := by
  rw [colMask_pos g bc hc hi hj hk]
  refine maskVal_zero _ _ _ _ hc ha hne hon fun a ha3 hac => ⟨fun h0 => ?_, fun h1 => ?_⟩
  · rw [pecFaces_lo]; exact if_pos (h a .lo ha3)
  · rw [pecFaces_hi]; exact if_pos (h a .hi ha3)

theorem colMask_01 (g : Geom K) {bc : Faces String} (h : PecLike bc) {r : ℕ} (hr : r < 3 * (g.Nx * g.Ny * g.Nz)) :
    colMask g bc r = 0 ∨ colMask g bc r = 1 := by
  obtain ⟨c, i, j, k, hc, hi, hj, hk, rfl⟩ := pos_surj hr
  rcases maskVal_cases (K := K) g bc (i := i) (j := j) (k := k) hc with h1 | ⟨a, s, ha, hac, hon, _⟩
  · right; rw [colMask_pos g bc hc hi hj hk, h1]
  · left; exact colMask_closed g h hc hi hj hk ha hac s hon

include hmx hmy hmz hx hy hz in
/-- The curl of the masked edge voltages, in the weights of the grid. -/
theorem flat_curl_bound {bc : Faces String} (h : PecLike bc) (e : Vec K) :
    let g := computeGrid Nx Ny Nz x y z
    let v : Vec K := fun q => colMask g bc q * e q
    ∑ r ∈ range (3 * (Nx * Ny * Nz)), g.tL.array r * g.iA.array r * mulVec (3 * (Nx * Ny * Nz)) (C0 Nx Ny Nz) v r ^ 2 ≤
      4 * (1 / mx ^ 2 + 1 / my ^ 2 + 1 / mz ^ 2) *
        ∑ r ∈ range (3 * (Nx * Ny * Nz)), 1 / g.itA.array r / g.L.array r * v r ^ 2 := by
  intro g v
  have hv : ∀ c, c < 3 → ∀ i j k, i < Nx → j < Ny → k < Nz → ∀ axis, axis < 3 → axis ≠ c → ∀ s, OnFace Nx Ny Nz axis s i j k →
      v (pos Nx Ny Nz c i j k) = 0 := by
    intro c hc i j k hi hj hk axis ha hne s hon
    have : colMask g bc (pos Nx Ny Nz c i j k) = 0 := colMask_closed g h hc hi hj hk ha hne s hon
    simp only [v, this, zero_mul]
  have hface : ∀ c, c < 3 → ∀ axis, axis < 3 → axis ≠ c → ∀ i j k, ¬Inner (coord axis Nx Ny Nz) (coord axis i j k) →
      view0 Nx Ny Nz v c i j k = 0 := by
    intro c hc axis ha hne i j k hin
    unfold view0
    split_ifs with hr
    · have h3 : coord axis i j k < coord axis Nx Ny Nz := by
        have : axis = 0 ∨ axis = 1 ∨ axis = 2 := by omega
        rcases this with rfl | rfl | rfl
        · exact hr.1
        · exact hr.2.1
        · exact hr.2.2
      by_cases h0 : coord axis i j k = 0
      · exact hv c hc i j k hr.1 hr.2.1 hr.2.2 axis ha hne .lo h0
      · refine hv c hc i j k hr.1 hr.2.1 hr.2.2 axis ha hne .hi ?_
        unfold Inner at hin
        show coord axis i j k = coord axis Nx Ny Nz - 1
        omega
    · rfl
  have hcl : Closed (mkAxis x Nx mx hmx hx) (mkAxis y Ny my hmy hy) (mkAxis z Nz mz hmz hz) (view0 Nx Ny Nz v) :=
    ⟨fun i j k => hface 0 (by decide) 1 (by decide) (by decide) i j k, fun i j k => hface 0 (by decide) 2 (by decide) (by decide) i j k,
     fun i j k => hface 1 (by decide) 0 (by decide) (by decide) i j k, fun i j k => hface 1 (by decide) 2 (by decide) (by decide) i j k,
     fun i j k => hface 2 (by decide) 0 (by decide) (by decide) i j k, fun i j k => hface 2 (by decide) 1 (by decide) (by decide) i j k⟩
  have key := curl_bound _ _ _ _ hcl
  have e1 : ∑ r ∈ range (3 * (Nx * Ny * Nz)), g.tL.array r * g.iA.array r * mulVec (3 * (Nx * Ny * Nz)) (C0 Nx Ny Nz) v r ^ 2 =
      S3 Nx Ny Nz (faceSq (mkAxis x Nx mx hmx hx) (mkAxis y Ny my hmy hy) (mkAxis z Nz mz hmz hz) (view0 Nx Ny Nz v)) := by
    rw [sum_flat]
    refine S3_congr fun i hi j hj k hk => ?_
    have w := (weights_cell hmx hmy hmz hx hy hz hi hj hk).1
    have hc : ∀ c, c < 3 → mulVec (3 * (Nx * Ny * Nz)) (C0 Nx Ny Nz) v (pos Nx Ny Nz c i j k) = circ (view0 Nx Ny Nz v) c i j k := by
      intro c hc
      refine C0_circ0 v hc hi hj hk (fun c' h1 h2 j' k' h3 h4 => ?_) (fun c' h1 h2 i' k' h3 h4 => ?_)
      · exact hv c' h1 0 j' k' (by omega) h3 h4 0 (by decide) (Ne.symm h2) .lo rfl
      · exact hv c' h1 i' 0 k' h3 (by omega) h4 1 (by decide) (Ne.symm h2) .lo rfl
    rw [hc 0 (by decide), hc 1 (by decide), hc 2 (by decide)]
    unfold faceSq
    rw [← w.1, ← w.2.1, ← w.2.2]
  have e2 : ∑ r ∈ range (3 * (Nx * Ny * Nz)), 1 / g.itA.array r / g.L.array r * v r ^ 2 =
      S3 Nx Ny Nz (edgeSq (mkAxis x Nx mx hmx hx) (mkAxis y Ny my hmy hy) (mkAxis z Nz mz hmz hz) (view0 Nx Ny Nz v)) := by
    rw [sum_flat]
    refine S3_congr fun i hi j hj k hk => ?_
    have w := (weights_cell hmx hmy hmz hx hy hz hi hj hk).2.1
    unfold edgeSq view0
    rw [← w.1, ← w.2.1, ← w.2.2]
    simp only [hi, hj, hk, and_self, if_true]
    rfl
  rw [e1, e2]
  exact key

/-! ### energy estimates -/

/-- Algebra of one entry of H. -/
theorem prod_split (H D : K) : H * (H - D) = (H - D / 2) ^ 2 - D ^ 2 / 4 := by ring

section
variable {bc : Faces String} {ieps imu sigma : Vec K} {dt eps0 mu0 κ : K}

/-- Admissible material: relative permittivity and permeability at least one (`ieps = 0` is PEC). -/
structure Admissible (n3 : ℕ) (eps0 mu0 : K) (ieps imu : Vec K) : Prop where
  eps0_pos : 0 < eps0
  mu0_pos : 0 < mu0
  ieps_nonneg : ∀ r < n3, 0 ≤ ieps r
  ieps_le : ∀ r < n3, ieps r ≤ 1 / eps0
  imu_pos : ∀ r < n3, 0 < imu r
  imu_le : ∀ r < n3, imu r ≤ 1 / mu0

include hmx hmy hmz hx hy hz in
/-- The energy of the change of H in a step is at most `4 κ` times the energy of E. -/
theorem jump_le (hbc : AllPec bc) (hm : Admissible (3 * (Nx * Ny * Nz)) eps0 mu0 ieps imu)
    (hdt : dt ^ 2 * (1 / mx ^ 2 + 1 / my ^ 2 + 1 / mz ^ 2) ≤ κ * (eps0 * mu0)) (st : State K)
    (hd : DeadZero (computeGrid Nx Ny Nz x y z) bc ieps st) :
    let g := computeGrid Nx Ny Nz x y z
    let s := build g bc ieps imu sigma dt false
    ∑ r ∈ range (3 * (Nx * Ny * Nz)), dualLen g bc r / (g.iA.array r * imu r) * (st.H r - (advance s st).H r) ^ 2 ≤
      4 * κ * ∑ r ∈ range (3 * (Nx * Ny * Nz)), g.L.array r / (ieps r * dualInvArea g bc r) * st.E r ^ 2 := by
  intro g s
  obtain ⟨_, hpmc, habc, _, hper⟩ := hbc.names
  have dl : dualLen g bc = g.tL.array := congrArg Fld.array (applyBC_metric g bc (C0 g.Nx g.Ny g.Nz) hper habc).1
  have da : dualInvArea g bc = g.itA.array := congrArg Fld.array (applyBC_metric g bc (C0 g.Nx g.Ny g.Nz) hper habc).2
  set n3 := 3 * (Nx * Ny * Nz) with hn3
  have he := hm.eps0_pos
  have hu := hm.mu0_pos
  -- the circulation
  set v : Vec K := fun q => colMask g bc q * (g.L.array q * st.E q) with hv
  have hb := flat_curl_bound hmx hmy hmz hx hy hz hbc.like (fun q => g.L.array q * st.E q)
  have h1 : ∀ r ∈ range n3, dualLen g bc r / (g.iA.array r * imu r) * (st.H r - (advance s st).H r) ^ 2 ≤
      dt ^ 2 / mu0 * (g.tL.array r * g.iA.array r * mulVec n3 (C0 Nx Ny Nz) v r ^ 2) := by
    intro r hr
    have hr := mem_range.1 hr
    obtain ⟨_, ht, hA, _⟩ := metric_signs hmx hmy hmz hx hy hz hr
    have hi := hm.imu_pos r hr
    have hi' := hm.imu_le r hr
    have e : (advance s st).H r = _ := advance_H g bc ieps imu sigma dt false st hr
    rw [e, dl, rowMask_one g bc hpmc]
    have e2 : g.tL.array r / (g.iA.array r * imu r) * (st.H r - (st.H r - dt * (g.iA.array r * imu r * (1 * mulVec n3 (C0 Nx Ny Nz) v r)))) ^ 2 =
        dt ^ 2 * imu r * (g.tL.array r * g.iA.array r * mulVec n3 (C0 Nx Ny Nz) v r ^ 2) := by
      have : g.iA.array r ≠ 0 := hA.ne'
      have := hi.ne'
      field_simp
      ring
    refine (le_of_eq e2).trans ?_
    refine mul_le_mul_of_nonneg_right ?_ (by positivity)
    rw [div_eq_mul_one_div]
    exact mul_le_mul_of_nonneg_left hi' (sq_nonneg _)
  have h2 : ∀ r ∈ range n3, 1 / g.itA.array r / g.L.array r * v r ^ 2 ≤
      1 / eps0 * (g.L.array r / (ieps r * dualInvArea g bc r) * st.E r ^ 2) := by
    intro r hr
    have hr := mem_range.1 hr
    obtain ⟨hL, _, _, hT⟩ := metric_signs hmx hmy hmz hx hy hz hr
    have hi := hm.ieps_nonneg r hr
    have hi' := hm.ieps_le r hr
    have hpos : 0 ≤ 1 / eps0 * (g.L.array r / (ieps r * dualInvArea g bc r) * st.E r ^ 2) := by
      rw [da]; positivity
    rcases colMask_01 g hbc.like hr with h0 | h0
    · simp only [hv, h0]; simpa using hpos
    · by_cases hz0 : ieps r * dualInvArea g bc r = 0
      · rcases hd r hr hz0 with h | h
        · simp only [hv, h]; simp
        · rw [h0] at h; exact absurd h one_ne_zero
      · rw [da] at hz0 ⊢
        have hi2 : 0 < ieps r := lt_of_le_of_ne hi (fun h => hz0 (by rw [← h]; ring))
        have hT2 : 0 < g.itA.array r := lt_of_le_of_ne hT (fun h => hz0 (by rw [← h]; ring))
        have e1 : 1 / g.itA.array r / g.L.array r * v r ^ 2 = g.L.array r * st.E r ^ 2 / g.itA.array r * 1 := by
          simp only [hv, h0]
          field_simp
        have e2 : 1 / eps0 * (g.L.array r / (ieps r * g.itA.array r) * st.E r ^ 2) =
            g.L.array r * st.E r ^ 2 / g.itA.array r * (1 / (eps0 * ieps r)) := by
          field_simp
        rw [e1, e2]
        refine mul_le_mul_of_nonneg_left ?_ (by positivity)
        rw [le_div_iff₀ (by positivity), one_mul]
        rw [le_div_iff₀ he] at hi'
        linarith
  have s1 := sum_le_sum h1
  have s2 := sum_le_sum h2
  rw [← mul_sum] at s1 s2
  set a := ∑ r ∈ range n3, g.L.array r / (ieps r * dualInvArea g bc r) * st.E r ^ 2 with ha
  have ha0 : 0 ≤ a := by
    refine sum_nonneg fun r hr => ?_
    have hr := mem_range.1 hr
    obtain ⟨hL, _, _, hT⟩ := metric_signs hmx hmy hmz hx hy hz hr
    have hi := hm.ieps_nonneg r hr
    rw [da]; positivity
  set S := 1 / mx ^ 2 + 1 / my ^ 2 + 1 / mz ^ 2 with hS
  have hS0 : 0 ≤ S := by positivity
  refine s1.trans ?_
  have s3 := mul_le_mul_of_nonneg_left (hb.trans (mul_le_mul_of_nonneg_left s2 (by positivity : (0 : K) ≤ 4 * S)))
    (by positivity : 0 ≤ dt ^ 2 / mu0)
  refine s3.trans ?_
  have e : dt ^ 2 / mu0 * (4 * S * (1 / eps0 * a)) = 4 * (dt ^ 2 * S / (eps0 * mu0)) * a := by field_simp
  rw [e]
  refine mul_le_mul_of_nonneg_right ?_ ha0
  have : dt ^ 2 * S / (eps0 * mu0) ≤ κ := by rw [div_le_iff₀ (by positivity)]; exact hdt
  linarith

include hmx hmy hmz hx hy hz in
/-- The leapfrog energy controls the field energy, and is controlled by it. -/
theorem energy_bounds (hbc : AllPec bc) (hm : Admissible (3 * (Nx * Ny * Nz)) eps0 mu0 ieps imu)
    (hdt : dt ^ 2 * (1 / mx ^ 2 + 1 / my ^ 2 + 1 / mz ^ 2) ≤ κ * (eps0 * mu0)) (h1 : κ < 1) (st : State K)
    (hd : DeadZero (computeGrid Nx Ny Nz x y z) bc ieps st) :
    let g := computeGrid Nx Ny Nz x y z
    let s := build g bc ieps imu sigma dt false
    (1 - κ) * fieldEnergy g bc ieps imu st ≤ 3 * energy g bc ieps imu st (advance s st) ∧
    energy g bc ieps imu st (advance s st) ≤ 2 * fieldEnergy g bc ieps imu st := by
  intro g s
  have hj := jump_le (sigma := sigma) hmx hmy hmz hx hy hz hbc hm hdt st hd
  obtain ⟨_, hpmc, habc, _, hper⟩ := hbc.names
  have dl : dualLen g bc = g.tL.array := congrArg Fld.array (applyBC_metric g bc (C0 g.Nx g.Ny g.Nz) hper habc).1
  have da : dualInvArea g bc = g.itA.array := congrArg Fld.array (applyBC_metric g bc (C0 g.Nx g.Ny g.Nz) hper habc).2
  have k0 : 0 ≤ κ := by
    have he := hm.eps0_pos
    have hu := hm.mu0_pos
    have : 0 ≤ κ * (eps0 * mu0) := le_trans (by positivity) hdt
    exact nonneg_of_mul_nonneg_left this (by positivity)
  set n3 := 3 * (Nx * Ny * Nz) with hn3
  set w : Vec K := fun r => dualLen g bc r / (g.iA.array r * imu r) with hw
  have w0 : ∀ r < n3, 0 ≤ w r := by
    intro r hr
    obtain ⟨_, ht, hA, _⟩ := metric_signs hmx hmy hmz hx hy hz hr
    have hi := hm.imu_pos r hr
    simp only [hw, dl]; positivity
  set D : Vec K := fun r => st.H r - (advance s st).H r with hD
  set a := ∑ r ∈ range n3, g.L.array r / (ieps r * dualInvArea g bc r) * st.E r ^ 2 with ha
  have ha0 : 0 ≤ a := by
    refine sum_nonneg fun r hr => ?_
    have hr := mem_range.1 hr
    obtain ⟨hL, _, _, hT⟩ := metric_signs hmx hmy hmz hx hy hz hr
    have hi := hm.ieps_nonneg r hr
    rw [da]; positivity
  set b := ∑ r ∈ range n3, w r * st.H r ^ 2 with hb
  set m := ∑ r ∈ range n3, w r * (st.H r - D r / 2) ^ 2 with hmm
  set d := ∑ r ∈ range n3, w r * D r ^ 2 with hdd
  have hb0 : 0 ≤ b := sum_nonneg fun r hr => mul_nonneg (w0 r (mem_range.1 hr)) (sq_nonneg _)
  have hm0 : 0 ≤ m := sum_nonneg fun r hr => mul_nonneg (w0 r (mem_range.1 hr)) (sq_nonneg _)
  have hF : fieldEnergy g bc ieps imu st = a + b := rfl
  have hQ : energy g bc ieps imu st (advance s st) = a + m - d / 4 := by
    have : energy g bc ieps imu st (advance s st) = a + ∑ r ∈ range n3, w r * (st.H r * (advance s st).H r) := rfl
    rw [this, add_sub_assoc, hmm, hdd, sum_div, ← sum_sub_distrib]
    congr 1
    refine sum_congr rfl fun r _ => ?_
    have : (advance s st).H r = st.H r - D r := by simp only [hD]; ring
    rw [this, prod_split]; ring
  have hbm : b ≤ 2 * m + d / 2 := by
    rw [hb, hmm, hdd, mul_sum, sum_div, ← sum_add_distrib]
    refine sum_le_sum fun r hr => ?_
    have := w0 r (mem_range.1 hr)
    have e : 2 * (w r * (st.H r - D r / 2) ^ 2) + w r * D r ^ 2 / 2 - w r * st.H r ^ 2 = w r * (st.H r - D r) ^ 2 := by ring
    have : 0 ≤ w r * (st.H r - D r) ^ 2 := mul_nonneg this (sq_nonneg _)
    linarith
  have hmb : m ≤ 2 * b + d / 2 := by
    rw [hb, hmm, hdd, mul_sum, sum_div, ← sum_add_distrib]
    refine sum_le_sum fun r hr => ?_
    have := w0 r (mem_range.1 hr)
    have e : 2 * (w r * st.H r ^ 2) + w r * D r ^ 2 / 2 - w r * (st.H r - D r / 2) ^ 2 = w r * (st.H r + D r / 2) ^ 2 := by ring
    have : 0 ≤ w r * (st.H r + D r / 2) ^ 2 := mul_nonneg this (sq_nonneg _)
    linarith
  have hj' : d ≤ 4 * κ * a := hj
  rw [hF, hQ]
  constructor
  · nlinarith [mul_nonneg k0 ha0, mul_nonneg k0 hm0, mul_nonneg (sub_nonneg.2 h1.le) ha0, mul_nonneg (sub_nonneg.2 h1.le) hm0,
      mul_nonneg k0 (mul_nonneg (sub_nonneg.2 h1.le) ha0)]
  · nlinarith [mul_nonneg k0 ha0, mul_nonneg (sub_nonneg.2 h1.le) ha0]

end

/-! ### the first step of a fresh solver -/

omit [LinearOrder K] [IsStrictOrderedRing K] in
theorem setPlane_or (f : Fld K) (a m c n : ℕ) :
    (setPlane f a m c fun _ _ _ => 0).array n = f.array n ∨ (setPlane f a m c fun _ _ _ => 0).array n = 0 := by
  simp only [setPlane, Fld.setPart, Fld.ravelF, Fld.reshapeF, Fld.part]
  split_ifs with h1 h2
  · exact .inr rfl
  · left
    rw [Nat.mod_add_div ((n - c * f.N) / f.Nx) f.Ny, Nat.mod_add_div]
    congr 1
    omega
  · exact .inl rfl

omit [LinearOrder K] [IsStrictOrderedRing K] in
/-- Clearing the ghost layers keeps or zeroes every entry. -/
theorem ghostE_or (f : Fld K) (n : ℕ) : (ghostE f).array n = f.array n ∨ (ghostE f).array n = 0 := by
  unfold ghostE
  rcases setPlane_or (setPlane (setPlane f 0 (f.Nx - 1) 0 fun _ _ _ => 0) 1 (f.Ny - 1) 1 fun _ _ _ => 0) 2 (f.Nz - 1) 2 n with h | h
  · rw [h]
    rcases setPlane_or (setPlane f 0 (f.Nx - 1) 0 fun _ _ _ => 0) 1 (f.Ny - 1) 1 n with h | h
    · rw [h]; exact setPlane_or _ _ _ _ _
    · exact .inr h
  · exact .inr h

omit [LinearOrder K] [IsStrictOrderedRing K] in
theorem ghostH_or (f : Fld K) (n : ℕ) : (ghostH f).array n = f.array n ∨ (ghostH f).array n = 0 := by
  have tr : ∀ (f' : Fld K) (a m c : ℕ), (f'.array n = f.array n ∨ f'.array n = 0) →
      ((setPlane f' a m c fun _ _ _ => 0).array n = f.array n ∨ (setPlane f' a m c fun _ _ _ => 0).array n = 0) := by
    intro f' a m c h
    rcases setPlane_or f' a m c n with h' | h'
    · rw [h']; exact h
    · exact .inr h'
  unfold ghostH
  simp only [ne_eq, not_true_eq_false, one_ne_zero, not_false_eq_true, if_true, if_false, OfNat.ofNat_ne_zero,
      OfNat.ofNat_ne_one, OfNat.zero_ne_ofNat, zero_ne_one, OfNat.one_ne_ofNat]
  repeat' first
    | exact .inl rfl
    | refine tr _ _ _ _ ?_

section
variable {bc : Faces String} {ieps imu sigma : Vec K} {dt eps0 mu0 κ : K}

include hmx hmy hmz hx hy hz in
/-- **C20 (any time step below the limit).** Closed PEC box on any grid with cell lengths at least `mx`, `my`,
`mz`, relative permittivity and permeability at least one or PEC, no conductivity and no current.  If
`dt² c² (1/mx² + 1/my² + 1/mz²) ≤ κ < 1`, the field energy after every number of steps is at most
`6 / (1 - κ)` times the initial one. -/
theorem C20_bounded_energy_partial (hbc : AllPec bc) (hm : Admissible (3 * (Nx * Ny * Nz)) eps0 mu0 ieps imu)
    (hdt : dt ^ 2 * (1 / mx ^ 2 + 1 / my ^ 2 + 1 / mz ^ 2) ≤ κ * (eps0 * mu0)) (h1 : κ < 1) (st : State K)
    (hJ : ∀ r < 3 * (Nx * Ny * Nz), st.J r = 0)
    (hd : DeadZero (computeGrid Nx Ny Nz x y z) bc ieps st) (n : ℕ) :
    let g := computeGrid Nx Ny Nz x y z
    let s := build g bc ieps imu sigma dt false
    fieldEnergy g bc ieps imu ((oneStep s)^[n] st) ≤ 6 / (1 - κ) * fieldEnergy g bc ieps imu st := by
  intro g s
  have hk : 0 < 1 - κ := sub_pos.2 h1
  obtain ⟨_, hpmc, habc, hpml, hper⟩ := hbc.names
  have dl : dualLen g bc = g.tL.array := congrArg Fld.array (applyBC_metric g bc (C0 g.Nx g.Ny g.Nz) hper habc).1
  have da : dualInvArea g bc = g.itA.array := congrArg Fld.array (applyBC_metric g bc (C0 g.Nx g.Ny g.Nz) hper habc).2
  have hA : ∀ r < 3 * (g.Nx * g.Ny * g.Nz), g.iA.array r * imu r ≠ 0 := by
    intro r hr
    obtain ⟨_, _, hA, _⟩ := metric_signs hmx hmy hmz hx hy hz hr
    exact mul_ne_zero hA.ne' (hm.imu_pos r hr).ne'
  have huc : s.useConductivity = false := by
    show (anyFace isPml bc || false) = false
    rw [hpml]; rfl
  have wE : ∀ r < 3 * (Nx * Ny * Nz), 0 ≤ g.L.array r / (ieps r * dualInvArea g bc r) := by
    intro r hr
    obtain ⟨hL, _, _, hT⟩ := metric_signs hmx hmy hmz hx hy hz hr
    have hi := hm.ieps_nonneg r hr
    rw [da]; positivity
  have wH : ∀ r < 3 * (Nx * Ny * Nz), 0 ≤ dualLen g bc r / (g.iA.array r * imu r) := by
    intro r hr
    obtain ⟨_, ht, hA, _⟩ := metric_signs hmx hmy hmz hx hy hz hr
    have hi := hm.imu_pos r hr
    rw [dl]; positivity
  -- started states
  have started : ∀ (st : State K), st.step0 = false → (∀ r < 3 * (Nx * Ny * Nz), st.J r = 0) → DeadZero g bc ieps st → ∀ n,
      fieldEnergy g bc ieps imu ((oneStep s)^[n] st) ≤ 6 / (1 - κ) * fieldEnergy g bc ieps imu st := by
    intro st hst hJ hd n
    have hc := C19_energy_conserved g bc ieps imu sigma dt false st hst hA huc hJ hd n
    have inv : ∀ n, ((oneStep s)^[n] st).step0 = false ∧ (∀ r < 3 * (Nx * Ny * Nz), ((oneStep s)^[n] st).J r = 0) ∧
        DeadZero g bc ieps ((oneStep s)^[n] st) := by
      intro n
      induction n with
      | zero => exact ⟨hst, hJ, hd⟩
      | succ n ih =>
        rw [Function.iterate_succ_apply', oneStep_started _ _ ih.1]
        refine ⟨ih.1, ?_, deadZero_advance g bc ieps imu sigma dt false _ ih.2.2 (fun r hr => by rw [ih.2.1 r hr, mul_zero])⟩
        intro r hr
        have : (advance s ((oneStep s)^[n] st)).J = ((oneStep s)^[n] st).J := by
          unfold advance
          simp [huc]
        rw [this]; exact ih.2.1 r hr
    have b1 := (energy_bounds (sigma := sigma) hmx hmy hmz hx hy hz hbc hm hdt h1 _ (inv n).2.2).1
    have b0 := (energy_bounds (sigma := sigma) hmx hmy hmz hx hy hz hbc hm hdt h1 st hd).2
    rw [← oneStep_started _ _ (inv n).1, ← Function.iterate_succ_apply' (oneStep s)] at b1
    rw [← oneStep_started _ _ hst] at b0
    have hc' : energy g bc ieps imu ((oneStep s)^[n] st) ((oneStep s)^[n + 1] st) = energy g bc ieps imu st (oneStep s st) := hc
    have b2 : (1 - κ) * fieldEnergy g bc ieps imu ((oneStep s)^[n] st) ≤ 6 * fieldEnergy g bc ieps imu st := by
      calc (1 - κ) * fieldEnergy g bc ieps imu ((oneStep s)^[n] st)
          ≤ 3 * energy g bc ieps imu ((oneStep s)^[n] st) ((oneStep s)^[n + 1] st) := b1
        _ = 3 * energy g bc ieps imu st (oneStep s st) := by rw [hc']
        _ ≤ 3 * (2 * fieldEnergy g bc ieps imu st) := by
            have : energy g bc ieps imu st (oneStep s st) ≤ 2 * fieldEnergy g bc ieps imu st := b0
            linarith
        _ = _ := by ring
    rw [div_mul_eq_mul_div, le_div_iff₀ hk]
    linarith
  have F0 : ∀ st : State K, 0 ≤ fieldEnergy g bc ieps imu st := by
    intro st
    refine add_nonneg (sum_nonneg fun r hr => ?_) (sum_nonneg fun r hr => ?_)
    · exact mul_nonneg (wE r (mem_range.1 hr)) (sq_nonneg _)
    · exact mul_nonneg (wH r (mem_range.1 hr)) (sq_nonneg _)
  have k0 : 0 ≤ κ := by
    have he := hm.eps0_pos
    have hu := hm.mu0_pos
    have : 0 ≤ κ * (eps0 * mu0) := le_trans (by positivity) hdt
    exact nonneg_of_mul_nonneg_left this (by positivity)
  by_cases hst : st.step0 = true
  · cases n with
    | zero =>
      have : 1 ≤ 6 / (1 - κ) := by rw [le_div_iff₀ hk]; linarith
      have := mul_le_mul_of_nonneg_right this (F0 st)
      simpa using this
    | succ n =>
      set st' : State K := { setGhostsTo0 s st with step0 := false } with hst'
      have e : (oneStep s)^[n + 1] st = (oneStep s)^[n + 1] st' := by
        rw [Function.iterate_succ_apply, Function.iterate_succ_apply]
        congr 1
        rw [oneStep_started s st' rfl]
        simp [oneStep, hst, hst']
      rw [e]
      have oE : ∀ r, st'.E r = st.E r ∨ st'.E r = 0 := fun r => ghostE_or (s.fld st.E) r
      have oH : ∀ r, st'.H r = st.H r ∨ st'.H r = 0 := fun r => ghostH_or (s.fld st.H) r
      have sq : ∀ {a b : K}, a = b ∨ a = 0 → a ^ 2 ≤ b ^ 2 := by
        rintro a b (h | h)
        · rw [h]
        · rw [h]; nlinarith [sq_nonneg b]
      have hd' : DeadZero g bc ieps st' := by
        intro r hr h0
        rcases hd r hr h0 with h | h
        · left
          rcases oE r with h' | h'
          · rw [h', h]
          · exact h'
        · exact .inr h
      have b := started st' rfl (fun r hr => hJ r hr) hd' (n + 1)
      refine b.trans (mul_le_mul_of_nonneg_left ?_ (by positivity))
      refine add_le_add (sum_le_sum fun r hr => ?_) (sum_le_sum fun r hr => ?_)
      · exact mul_le_mul_of_nonneg_left (sq (oE r)) (wE r (mem_range.1 hr))
      · exact mul_le_mul_of_nonneg_left (sq (oH r)) (wH r (mem_range.1 hr))
  · exact started st (by simpa using hst) hJ hd n
end
end
end

/-! ### C20 with the automatic time step -/

/-- **C20.** A closed PEC box on any grid with increasing axes, relative permittivity and permeability at least
one (or PEC cells), no conductivity, no current, `c = 1/√(eps0 mu0)`, and the time step chosen automatically
with `0 ≤ cfln < 1`: after every number of steps, from every initial state, the field energy is at most
`6 / (1 - cfln²)` times its initial value.  Partial: the boundary must be PEC on all faces; with the other
boundary names the curl matrix couples the last cell of a row to the first of the next one (C25, C27). -/
theorem C20_cfl_stable_partial {Nx Ny Nz : ℕ} {x y z : ℕ → ℝ} (hx : Increasing x Nx) (hy : Increasing y Ny) (hz : Increasing z Nz)
    {bc : Faces String} (hbc : AllPec bc) {t : Mats ℝ} {c cfln eps0 mu0 dt : ℝ}
    (hm : Admissible (3 * (Nx * Ny * Nz)) eps0 mu0 t.ieps.array t.imu.array) (hnc : t.useCond = false)
    (hc : 0 < c) (hcc : c ^ 2 * (eps0 * mu0) = 1) (h0 : 0 ≤ cfln) (h1 : cfln < 1)
    (hdt : chooseDt c cfln none (diffs x Nx) (diffs y Ny) (diffs z Nz) t = .ok dt)
    (st : State ℝ) (hJ : ∀ r < 3 * (Nx * Ny * Nz), st.J r = 0)
    (hd : DeadZero (computeGrid Nx Ny Nz x y z) bc t.ieps.array st) (n : ℕ) :
    let g := computeGrid Nx Ny Nz x y z
    let s := build g bc t.ieps.array t.imu.array t.sigma.array dt t.useCond
    fieldEnergy g bc t.ieps.array t.imu.array ((oneStep s)^[n] st) ≤
      6 / (1 - cfln ^ 2) * fieldEnergy g bc t.ieps.array t.imu.array st := by
  intro g s
  have e : chooseDt c cfln none (diffs x Nx) (diffs y Ny) (diffs z Nz) t =
      (cflDt c cfln (diffs x Nx) (diffs y Ny) (diffs z Nz)).bind (limitDt t) := rfl
  rw [e] at hdt
  cases hcf : cflDt c cfln (diffs x Nx) (diffs y Ny) (diffs z Nz) with
  | error e => rw [hcf] at hdt; simp [Except.bind] at hdt
  | ok d0 =>
    rw [hcf] at hdt
    have hd0 : d0 = dt := by
      have : (if t.useCond = true then (do
        let tm ← pyMin (taus t)
        return if tm < d0 then tm else d0 : Py ℝ) else .ok d0) = .ok dt := hdt
      rw [hnc] at this
      simpa using this
    subst hd0
    have hcf' := hcf
    unfold cflDt at hcf'
    cases hmx : pyMin (diffs x Nx) with
    | error e => rw [hmx] at hcf'; simp [bind, Except.bind] at hcf'
    | ok mx =>
    cases hmy : pyMin (diffs y Ny) with
    | error e => rw [hmx, hmy] at hcf'; simp [bind, Except.bind] at hcf'
    | ok my =>
    cases hmz : pyMin (diffs z Nz) with
    | error e => rw [hmx, hmy, hmz] at hcf'; simp [bind, Except.bind] at hcf'
    | ok mz =>
    have memd : ∀ {x : ℕ → ℝ} {n i : ℕ}, i < n → x (i + 1) - x i ∈ diffs x n := fun hi =>
      List.mem_map.2 ⟨_, List.mem_range.2 hi, rfl⟩
    have posd : ∀ {x : ℕ → ℝ} {n : ℕ}, Increasing x n → ∀ a ∈ diffs x n, 0 < a := by
      intro x n h a ha
      obtain ⟨i, hi, rfl⟩ := List.mem_map.1 ha
      exact sub_pos.2 (h i (List.mem_range.1 hi))
    obtain ⟨mxm, mxl⟩ := pyMin_spec hmx
    obtain ⟨mym, myl⟩ := pyMin_spec hmy
    obtain ⟨mzm, mzl⟩ := pyMin_spec hmz
    obtain ⟨hd00, hcfl⟩ := C30_cfl hc h0 (posd hx) (posd hy) (posd hz) hcf
    have hl := hcfl mx mxm my mym mz mzm
    set S := 1 / mx ^ 2 + 1 / my ^ 2 + 1 / mz ^ 2 with hS
    have px := posd hx _ mxm
    have py := posd hy _ mym
    have pz := posd hz _ mzm
    have hS0 : 0 ≤ S := by positivity
    have key : d0 ^ 2 * S ≤ cfln ^ 2 * (eps0 * mu0) := by
      have h2 : (c * d0 * Real.sqrt S) ^ 2 ≤ cfln ^ 2 := by
        apply pow_le_pow_left₀ (by positivity) hl
      rw [mul_pow, Real.sq_sqrt hS0] at h2
      have he : 0 < eps0 * mu0 := mul_pos hm.eps0_pos hm.mu0_pos
      have h3 := mul_le_mul_of_nonneg_right h2 he.le
      calc d0 ^ 2 * S = (c ^ 2 * (eps0 * mu0)) * (d0 ^ 2 * S) := by rw [hcc, one_mul]
        _ = (c * d0) ^ 2 * S * (eps0 * mu0) := by ring
        _ ≤ _ := h3
    have hk : cfln ^ 2 < 1 := by nlinarith
    have := C20_bounded_energy_partial (sigma := t.sigma.array) px py pz (fun i hi => mxl _ (memd hi)) (fun i hi => myl _ (memd hi))
      (fun i hi => mzl _ (memd hi)) hbc hm key hk st hJ hd n
    simp only [s, hnc]
    exact this

/-- **C20 (every entry).** Under the same hypotheses each single value stays bounded for all times: for every
component and cell that is not PEC by material and not in a last layer, `|E|` (and, for positive dual length,
`|H|`) never exceeds a bound fixed by the initial energy. -/
theorem C20_values_bounded_partial {Nx Ny Nz : ℕ} {x y z : ℕ → ℝ} (hx : Increasing x Nx) (hy : Increasing y Ny) (hz : Increasing z Nz)
    {bc : Faces String} (hbc : AllPec bc) {t : Mats ℝ} {c cfln eps0 mu0 dt : ℝ}
    (hm : Admissible (3 * (Nx * Ny * Nz)) eps0 mu0 t.ieps.array t.imu.array) (hnc : t.useCond = false)
    (hc : 0 < c) (hcc : c ^ 2 * (eps0 * mu0) = 1) (h0 : 0 ≤ cfln) (h1 : cfln < 1)
    (hdt : chooseDt c cfln none (diffs x Nx) (diffs y Ny) (diffs z Nz) t = .ok dt)
    (st : State ℝ) (hJ : ∀ r < 3 * (Nx * Ny * Nz), st.J r = 0)
    (hd : DeadZero (computeGrid Nx Ny Nz x y z) bc t.ieps.array st) {a i j k : ℕ} (ha : a < 3) (hi : i + 1 < Nx) (hj : j + 1 < Ny)
    (hk : k + 1 < Nz) (hlive : t.ieps.array (pos Nx Ny Nz a i j k) ≠ 0) :
    let g := computeGrid Nx Ny Nz x y z
    let s := build g bc t.ieps.array t.imu.array t.sigma.array dt t.useCond
    ∃ B, ∀ n, |((oneStep s)^[n] st).E (pos Nx Ny Nz a i j k)| ≤ B ∧ |((oneStep s)^[n] st).H (pos Nx Ny Nz a i j k)| ≤ B := by
  intro g s
  have hi' : i < Nx := by omega
  have hj' : j < Ny := by omega
  have hk' : k < Nz := by omega
  set P := pos Nx Ny Nz a i j k with hP
  have hPn : P < 3 * (Nx * Ny * Nz) := pos_lt ha hi' hj' hk'
  obtain ⟨_, hpmc, habc, hpml, hper⟩ := hbc.names
  have dl : dualLen g bc = g.tL.array := congrArg Fld.array (applyBC_metric g bc (C0 g.Nx g.Ny g.Nz) hper habc).1
  have da : dualInvArea g bc = g.itA.array := congrArg Fld.array (applyBC_metric g bc (C0 g.Nx g.Ny g.Nz) hper habc).2
  -- the lower bounds of the cell lengths only matter for the signs
  obtain ⟨mx, px, lx⟩ : ∃ m : ℝ, 0 < m ∧ ∀ i < Nx, m ≤ x (i + 1) - x i := by
    obtain ⟨b, hb, hmin⟩ := Finset.exists_min_image (range Nx) (fun i => x (i + 1) - x i) ⟨i, mem_range.2 hi'⟩
    exact ⟨x (b + 1) - x b, sub_pos.2 (hx b (mem_range.1 hb)), fun i hi => hmin i (mem_range.2 hi)⟩
  obtain ⟨my, py, ly⟩ : ∃ m : ℝ, 0 < m ∧ ∀ i < Ny, m ≤ y (i + 1) - y i := by
    obtain ⟨b, hb, hmin⟩ := Finset.exists_min_image (range Ny) (fun i => y (i + 1) - y i) ⟨j, mem_range.2 hj'⟩
    exact ⟨y (b + 1) - y b, sub_pos.2 (hy b (mem_range.1 hb)), fun i hi => hmin i (mem_range.2 hi)⟩
  obtain ⟨mz, pz, lz⟩ : ∃ m : ℝ, 0 < m ∧ ∀ i < Nz, m ≤ z (i + 1) - z i := by
    obtain ⟨b, hb, hmin⟩ := Finset.exists_min_image (range Nz) (fun i => z (i + 1) - z i) ⟨k, mem_range.2 hk'⟩
    exact ⟨z (b + 1) - z b, sub_pos.2 (hz b (mem_range.1 hb)), fun i hi => hmin i (mem_range.2 hi)⟩
  have sg := fun r hr => metric_signs px py pz lx ly lz (r := r) hr
  set wE : ℕ → ℝ := fun r => g.L.array r / (t.ieps.array r * dualInvArea g bc r) with hwE
  set wH : ℕ → ℝ := fun r => dualLen g bc r / (g.iA.array r * t.imu.array r) with hwH
  have wE0 : ∀ r < 3 * (Nx * Ny * Nz), 0 ≤ wE r := by
    intro r hr
    obtain ⟨hL, _, _, hT⟩ := sg r hr
    have hi := hm.ieps_nonneg r hr
    simp only [hwE, da]; positivity
  have wH0 : ∀ r < 3 * (Nx * Ny * Nz), 0 ≤ wH r := by
    intro r hr
    obtain ⟨_, ht, hA, _⟩ := sg r hr
    have hi := hm.imu_pos r hr
    simp only [hwH, dl]; positivity
  have wEP : 0 < wE P := by
    obtain ⟨hL, _, _, hT⟩ := sg P hPn
    have h2 : 0 < t.ieps.array P := lt_of_le_of_ne (hm.ieps_nonneg P hPn) (Ne.symm hlive)
    have h3 : 0 < g.itA.array P := lt_of_le_of_ne hT (Ne.symm (itA_ne Nx Ny Nz x y z hx hy hz ha hi hj hk))
    simp only [hwE, da]; positivity
  have wHP : 0 < wH P := by
    obtain ⟨_, ht, hA, _⟩ := sg P hPn
    have hi2 := hm.imu_pos P hPn
    have h3 : 0 < g.tL.array P := by
      have h := C11_positive Nx Ny Nz x y z hx hy hz (i := i) (j := j) (k := k) hi' hj' hk'
      have hc' : a = 0 ∨ a = 1 ∨ a = 2 := by omega
      rw [hP]
      rcases hc' with rfl | rfl | rfl
      · exact h.1.2 hi
      · exact h.2.1.2 hj
      · exact h.2.2.2 hk
    simp only [hwH, dl]; positivity
  set M := 6 / (1 - cfln ^ 2) * fieldEnergy g bc t.ieps.array t.imu.array st with hM
  refine ⟨Real.sqrt (M / wE P) + Real.sqrt (M / wH P), fun n => ?_⟩
  have hF : fieldEnergy g bc t.ieps.array t.imu.array ((oneStep s)^[n] st) ≤ M :=
    C20_cfl_stable_partial hx hy hz hbc hm hnc hc hcc h0 h1 hdt st hJ hd n
  set u := (oneStep s)^[n] st with hu
  have sE := single_le_sum (f := fun r => wE r * u.E r ^ 2)
    (fun r hr => mul_nonneg (wE0 r (mem_range.1 hr)) (sq_nonneg _)) (mem_range.2 hPn)
  have sH := single_le_sum (f := fun r => wH r * u.H r ^ 2)
    (fun r hr => mul_nonneg (wH0 r (mem_range.1 hr)) (sq_nonneg _)) (mem_range.2 hPn)
  have nE : 0 ≤ ∑ r ∈ range (3 * (Nx * Ny * Nz)), wE r * u.E r ^ 2 :=
    sum_nonneg fun r hr => mul_nonneg (wE0 r (mem_range.1 hr)) (sq_nonneg _)
  have nH : 0 ≤ ∑ r ∈ range (3 * (Nx * Ny * Nz)), wH r * u.H r ^ 2 :=
    sum_nonneg fun r hr => mul_nonneg (wH0 r (mem_range.1 hr)) (sq_nonneg _)
  have hsum : fieldEnergy g bc t.ieps.array t.imu.array u = ∑ r ∈ range (3 * (Nx * Ny * Nz)), wE r * u.E r ^ 2 +
      ∑ r ∈ range (3 * (Nx * Ny * Nz)), wH r * u.H r ^ 2 := rfl
  have q1 := Real.sqrt_nonneg (M / wE P)
  have q2 := Real.sqrt_nonneg (M / wH P)
  constructor
  · have : |u.E P| ≤ Real.sqrt (M / wE P) := by
      apply Real.abs_le_sqrt
      rw [le_div_iff₀ wEP]
      linarith
    linarith
  · have : |u.H P| ≤ Real.sqrt (M / wH P) := by
      apply Real.abs_le_sqrt
      rw [le_div_iff₀ wHP]
      linarith
    linarith

/-! ### Non-vacuity -/

/-- A 4×4×4 all-PEC box on the non-uniform axis 0, 1, 4, 9, 16 with vacuum (units with `eps0 = mu0 = 1`), `dt = 1/2`
and one excited edge meets the hypotheses of `C20_bounded_energy_partial` with `κ = 3/4`, with positive energy. -/
example : let g := computeGrid 4 4 4 demoAxis demoAxis demoAxis
    let bc : Faces String := ⟨"pec", "PEC", "electric", "Electric", "pec", "pec"⟩
    let st : State ℚ := ⟨fun r => if r = pos 4 4 4 2 1 1 1 then 1 else 0, fun _ => 0, fun _ => 0, true⟩
    AllPec bc ∧ Admissible (3 * (4 * 4 * 4)) (1 : ℚ) 1 (fun _ => 1) (fun _ => 1) ∧
    (∀ i < 4, (1 : ℚ) ≤ demoAxis (i + 1) - demoAxis i) ∧ (1 / 2 : ℚ) ^ 2 * (1 / 1 ^ 2 + 1 / 1 ^ 2 + 1 / 1 ^ 2) ≤ 3 / 4 * (1 * 1) ∧
    DeadZero g bc (fun _ => 1) st ∧ 0 < fieldEnergy g bc (fun _ => 1) (fun _ => 1) st := by
  intro g bc st
  have hb : AllPec bc := by
    intro axis s ha
    have : axis = 0 ∨ axis = 1 ∨ axis = 2 := by omega
    rcases this with rfl | rfl | rfl <;> cases s <;> decide
  have hm : Admissible (3 * (4 * 4 * 4)) (1 : ℚ) 1 (fun _ => 1) (fun _ => 1) :=
    ⟨one_pos, one_pos, fun _ _ => zero_le_one, fun _ _ => by norm_num, fun _ _ => one_pos, fun _ _ => by norm_num⟩
  have hl : ∀ i < 4, (1 : ℚ) ≤ demoAxis (i + 1) - demoAxis i := by
    intro i _; simp only [demoAxis]; push_cast; nlinarith [(Nat.cast_nonneg i : (0 : ℚ) ≤ i)]
  have dl : dualLen g bc = g.tL.array := congrArg Fld.array (applyBC_metric g bc (C0 g.Nx g.Ny g.Nz) (by decide) (by decide)).1
  have da : dualInvArea g bc = g.itA.array := congrArg Fld.array (applyBC_metric g bc (C0 g.Nx g.Ny g.Nz) (by decide) (by decide)).2
  have hne : g.itA.array (pos 4 4 4 2 1 1 1) ≠ 0 := itA_ne 4 4 4 _ _ _ (demo_inc 4) (demo_inc 4) (demo_inc 4) (by omega) (by omega) (by omega) (by omega)
  have sg := fun r hr => metric_signs (K := ℚ) one_pos one_pos one_pos hl hl hl (r := r) hr
  refine ⟨hb, hm, hl, by norm_num, ?_, ?_⟩
  · intro r hr h0
    left
    by_cases h : r = pos 4 4 4 2 1 1 1
    · rw [h, da, one_mul] at h0; exact absurd h0 hne
    · simp [st, h]
  · refine add_pos_of_pos_of_nonneg ?_ (le_of_eq ?_)
    · refine sum_pos' (fun r hr => ?_) ⟨pos 4 4 4 2 1 1 1, mem_range.2 (by decide), ?_⟩
      · obtain ⟨hL, _, _, hT⟩ := sg r (mem_range.1 hr)
        rw [da]
        have : 0 ≤ g.L.array r / (1 * g.itA.array r) := div_nonneg hL.le (by rw [one_mul]; exact hT)
        exact mul_nonneg this (sq_nonneg _)
      · obtain ⟨hL, _, _, hT⟩ := sg (pos 4 4 4 2 1 1 1) (by decide)
        rw [da]
        have h1 : 0 < g.itA.array (pos 4 4 4 2 1 1 1) := lt_of_le_of_ne hT (Ne.symm hne)
        have h2 : 0 < g.L.array (pos 4 4 4 2 1 1 1) / (1 * g.itA.array (pos 4 4 4 2 1 1 1)) := div_pos hL (by rw [one_mul]; exact h1)
        have h3 : st.E (pos 4 4 4 2 1 1 1) = 1 := by simp [st]
        rw [h3]
        have : (1 : ℚ) ^ 2 = 1 := one_pow 2
        rw [this, mul_one]; exact h2
    · symm
      refine sum_eq_zero fun r _ => ?_
      show _ * (0 : ℚ) ^ 2 = 0
      ring

/-- An automatic time step exists for such a box (`c = 1`, `cfln = 1/2`). -/
example : ∃ dt, chooseDt 1 (1 / 2) none (diffs (fun i => (i : ℝ) ^ 2) 4) (diffs (fun i => (i : ℝ) ^ 2) 4) (diffs (fun i => (i : ℝ) ^ 2) 4)
    ⟨Fld.new 4 4 4 true, Fld.new 4 4 4 true, Fld.new 4 4 4, false⟩ = .ok dt := ⟨_, rfl⟩

/-! ### The claim is false for periodic boundaries on non-uniform grids -/

/-- Nodes 0, 1, 2 (x and z axes of the counterexample). -/
def uAx : ℕ → ℚ := fun i => i
/-- Nodes 0, 1, 17. -/
def uAy : ℕ → ℚ := fun i => if i ≤ 1 then i else 17 + 10 * (i - 2)
/-- The 2×2×2 grid. -/
def uG : Geom ℚ := computeGrid 2 2 2 uAx uAy uAx
/-- All faces periodic. -/
def uBc : Faces String := ⟨"periodic", "periodic", "periodic", "periodic", "periodic", "periodic"⟩
/-- Vacuum on one edge, PEC on all others. -/
def uEps : Vec ℚ := fun r => if r = pos 2 2 2 1 0 1 0 then 1 else 0
/-- One excited edge: y component of cell (0,1,0). -/
def uE : Vec ℚ := fun r => if r = pos 2 2 2 1 0 1 0 then 1 else 0
/-- The magnetic field of the growing mode. -/
def uH : Vec ℚ := fun r => 1 / 6 * (uG.iA.array r * mulVec (3 * (2 * 2 * 2)) (C0 2 2 2) (fun q => uG.L.array q * uE q) r)
/-- The solver of the counterexample, `dt = 1/2`. -/
def uS : Solver ℚ := build uG uBc uEps (fun _ => 1) (fun _ => 0) (1 / 2) false

/-- The state is `c` times the growing mode. -/
def Fol (c : ℚ) (st : State ℚ) : Prop := st.step0 = false ∧ (∀ r < 24, st.E r = c * uE r ∧ st.H r = c * uH r ∧ st.J r = 0)

theorem fol_step {c : ℚ} {st : State ℚ} (h : Fol c st) : Fol (-2 * c) (oneStep uS st) := by
  obtain ⟨h0, h⟩ := h
  rw [oneStep_started _ _ h0]
  have mv : ∀ r < 24, mulVec (3 * (uG.Nx * uG.Ny * uG.Nz)) (C0 uG.Nx uG.Ny uG.Nz)
      (fun q => colMask uG uBc q * (uG.L.array q * st.E q)) r =
      c * mulVec (3 * (2 * 2 * 2)) (C0 2 2 2) (fun q => uG.L.array q * uE q) r := by
    intro r hr
    unfold mulVec
    rw [mul_sum]
    refine sum_congr rfl fun q hq => ?_
    have hq' : q < 24 := mem_range.1 hq
    beta_reduce
    rw [colMask_one uG uBc (by decide), (h q hq').1]
    show C0 2 2 2 r q * _ = c * (C0 2 2 2 r q * _)
    ring
  have hH : ∀ r < 24, (advance uS st).H r = -2 * c * uH r := by
    intro r hr
    have e : (advance uS st).H r = _ := advance_H uG uBc uEps (fun _ => 1) (fun _ => 0) (1 / 2) false st hr
    rw [e, mv r hr, rowMask_one uG uBc (by decide), (h r hr).2.1]
    unfold uH
    ring
  refine ⟨h0, fun r hr => ⟨?_, hH r hr, ?_⟩⟩
  · have e : (advance uS st).E r = _ := advance_E uG uBc uEps (fun _ => 1) (fun _ => 0) (1 / 2) false st hr
    rw [e, (h r hr).1, (h r hr).2.2]
    by_cases hP : r = pos 2 2 2 1 0 1 0
    · have hc : mulVec (3 * (uG.Nx * uG.Ny * uG.Nz)) (transpose (C0 uG.Nx uG.Ny uG.Nz)) (fun q => rowMask uG uBc q *
          ((applyBC uG uBc (C0 uG.Nx uG.Ny uG.Nz)).tL.array q * (advance uS st).H q)) r =
          c * mulVec (3 * (2 * 2 * 2)) (transpose (C0 2 2 2)) (fun q => dualLen uG uBc q * (-2 * uH q)) r := by
        unfold mulVec
        rw [mul_sum]
        refine sum_congr rfl fun q hq => ?_
        have hq' : q < 24 := mem_range.1 hq
        beta_reduce
        rw [rowMask_one uG uBc (by decide), hH q hq']
        show transpose (C0 2 2 2) r q * (1 * (dualLen uG uBc q * _)) = c * (transpose (C0 2 2 2) r q * _)
        ring
      have key : mulVec (3 * (2 * 2 * 2)) (transpose (C0 2 2 2)) (fun q => dualLen uG uBc q * (-2 * uH q)) (pos 2 2 2 1 0 1 0) = -6 := by
        decide +kernel
      have key2 : (applyBC uG uBc (C0 uG.Nx uG.Ny uG.Nz)).itA.array (pos 2 2 2 1 0 1 0) = 1 := by decide +kernel
      have e2 : (advance (build uG uBc uEps (fun _ => 1) (fun _ => 0) (1 / 2) false) st) = advance uS st := rfl
      rw [e2, hc, colMask_one uG uBc (by decide), hP, key, key2]
      simp only [uE, uEps, if_true]
      ring
    · simp only [uE, uEps, if_neg hP]; ring
  · have : (advance uS st).J = st.J := by
      unfold advance
      have : uS.useConductivity = false := by decide
      simp [this]
    rw [this]; exact (h r hr).2.2

/-- **C20 fails for periodic boundaries.** 2×2×2 grid with x, z nodes 0, 1, 2 and y nodes 0, 1, 17, six periodic faces,
vacuum on one edge and PEC elsewhere, `dt = 1/2`, which satisfies `dt² c² (1/dx² + 1/dy² + 1/dz²) = 3/4 < 1` with the smallest cell lengths:
all other hypotheses of `C20_bounded_energy_partial` hold, and the field doubles in every step.  The cause is the
curl entry that couples the end of a row to the next row: it carries the length of the wrong cell. -/
theorem C20_periodic_unstable :
    ∃ (ieps : Vec ℚ) (st : State ℚ),
      Admissible (3 * (2 * 2 * 2)) 1 1 ieps (fun _ => 1) ∧ (∀ i < 2, (1 : ℚ) ≤ uAx (i + 1) - uAx i) ∧
      (∀ i < 2, (1 : ℚ) ≤ uAy (i + 1) - uAy i) ∧ (1 / 2 : ℚ) ^ 2 * (1 / 1 ^ 2 + 1 / 1 ^ 2 + 1 / 1 ^ 2) ≤ 3 / 4 * (1 * 1) ∧
      (∀ r, st.J r = 0) ∧ DeadZero uG uBc ieps st ∧
      ∀ n, ((oneStep (build uG uBc ieps (fun _ => 1) (fun _ => 0) (1 / 2) false))^[n] st).E (pos 2 2 2 1 0 1 0) = (-2) ^ n := by
  refine ⟨uEps, ⟨uE, uH, fun _ => 0, false⟩, ?_, by decide +kernel, by decide +kernel, by norm_num, fun _ => rfl, ?_, ?_⟩
  · refine ⟨one_pos, one_pos, fun r _ => ?_, fun r _ => ?_, fun _ _ => one_pos, fun _ _ => by norm_num⟩ <;>
      · unfold uEps; split_ifs <;> norm_num
  · intro r hr h0
    left
    by_cases hP : r = pos 2 2 2 1 0 1 0
    · subst hP
      have : uEps (pos 2 2 2 1 0 1 0) * dualInvArea uG uBc (pos 2 2 2 1 0 1 0) = 1 := by decide +kernel
      rw [this] at h0; exact absurd h0 one_ne_zero
    · show uE r = 0
      unfold uE
      rw [if_neg hP]
  · intro n
    have inv : ∀ n, Fol ((-2) ^ n) ((oneStep uS)^[n] ⟨uE, uH, fun _ => 0, false⟩) := by
      intro n
      induction n with
      | zero => exact ⟨rfl, fun r _ => ⟨by simp, by simp, rfl⟩⟩
      | succ n ih =>
        rw [Function.iterate_succ_apply', pow_succ, mul_comm]
        exact fol_step ih
    have := ((inv n).2 (pos 2 2 2 1 0 1 0) (by decide)).1
    rw [show uE (pos 2 2 2 1 0 1 0) = 1 from if_pos rfl, mul_one] at this
    exact this

end Sol
end Wakis
