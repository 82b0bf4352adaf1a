import Verif.SolverProps2
import Verif.SolverBC2

/-!
# C75: fields that are linear in position

A scheme for Maxwell's equations must reproduce the curl of fields that are linear in position, otherwise refining the mesh does not lead to the solution.
The small specification: E is sampled at the middle of each edge of a cell, H at the centre of each face.
-/

namespace Wakis
namespace Sol
open Finset Grid Sparse
variable {K : Type _} [Field K]

/-! ### specification -/

/-- The middle of cell `m` of an axis. -/
def mid (x : ℕ → K) (m : ℕ) : K := (x m + x (m + 1)) / 2

/-- The sample point of component `c` of E in cell `(i,j,k)`: the middle of the edge along axis `c` that starts at the low corner of the cell. -/
def edgePoint (x y z : ℕ → K) (c i j k : ℕ) : K × K × K := (if c = 0 then mid x i else x i, if c = 1 then mid y j else y j, if c = 2 then mid z k else z k)

/-- The sample point of component `c` of H: the centre of the low face of the cell with normal `c`. -/
def facePoint (x y z : ℕ → K) (c i j k : ℕ) : K × K × K := (if c = 0 then x i else mid x i, if c = 1 then y j else mid y j, if c = 2 then z k else mid z k)

/-- A vector field whose components are linear in position: component `c` at `p` is `a c + B c 0 * p.x + B c 1 * p.y + B c 2 * p.z`. -/
def linField (a : ℕ → K) (B : ℕ → ℕ → K) (c : ℕ) (p : K × K × K) : K := a c + B c 0 * p.1 + B c 1 * p.2.1 + B c 2 * p.2.2

/-- Its curl, which is constant: `(∂y Fz - ∂z Fy, ∂z Fx - ∂x Fz, ∂x Fy - ∂y Fx)`. -/
def curlOf (B : ℕ → ℕ → K) (c : ℕ) : K := if c = 0 then B 2 1 - B 1 2 else if c = 1 then B 0 2 - B 2 0 else B 1 0 - B 0 1

/-- E holds the samples of the linear field in every cell. -/
def SampledE (Nx Ny Nz : ℕ) (x y z : ℕ → K) (a : ℕ → K) (B : ℕ → ℕ → K) (E : ℕ → K) : Prop :=
  ∀ c < 3, ∀ i < Nx, ∀ j < Ny, ∀ k < Nz, E (pos Nx Ny Nz c i j k) = linField a B c (edgePoint x y z c i j k)

/-- H holds the samples of the linear field in every cell. -/
def SampledH (Nx Ny Nz : ℕ) (x y z : ℕ → K) (a : ℕ → K) (B : ℕ → ℕ → K) (H : ℕ → K) : Prop :=
  ∀ c < 3, ∀ i < Nx, ∀ j < Ny, ∀ k < Nz, H (pos Nx Ny Nz c i j k) = linField a B c (facePoint x y z c i j k)

/-! ### the E update in inner cells, for any boundary names -/

section
variable [DecidableEq K] {Nx Ny Nz : ℕ} {x y z : ℕ → K}

/-- The dual metric used by the solver is that of the grid except in the last layers. -/
theorem metric_inner (bc : Faces String) {c i j k : ℕ} (hc : c < 3) (hi : i + 1 < Nx) (hj : j + 1 < Ny) (hk : k + 1 < Nz) :
    let g := computeGrid Nx Ny Nz x y z
    (applyBC g bc (C0 Nx Ny Nz)).tL.array (pos Nx Ny Nz c i j k) = g.tL.array (pos Nx Ny Nz c i j k) ∧
      (applyBC g bc (C0 Nx Ny Nz)).itA.array (pos Nx Ny Nz c i j k) = g.itA.array (pos Nx Ny Nz c i j k) := by
  intro g
  have at_pos : ∀ f : Fld K, (f.Nx = Nx ∧ f.Ny = Ny ∧ f.Nz = Nz) → f.at3 c i j k = f.array (pos Nx Ny Nz c i j k) := by
    rintro f ⟨rfl, rfl, rfl⟩; rfl
  -- what is kept by every assignment
  let Good : Fld K × Fld K → Prop := fun m => (m.1.Nx = Nx ∧ m.1.Ny = Ny ∧ m.1.Nz = Nz) ∧ (m.2.Nx = Nx ∧ m.2.Ny = Ny ∧ m.2.Nz = Nz) ∧
    m.1.at3 c i j k = g.tL.at3 c i j k ∧ m.2.at3 c i j k = g.itA.at3 c i j k
  have wrap : ∀ m, Good m → ∀ axis < 3, Good (wrapMetric g.L g.iA m axis) := by
    rintro m ⟨⟨a1, a2, a3⟩, ⟨b1, b2, b3⟩, h1, h2⟩ axis ha
    refine ⟨⟨a1, a2, a3⟩, ⟨b1, b2, b3⟩, ?_, ?_⟩
    · rw [wrapMetric_tL _ _ _ _ _ (by omega) (by omega) (by omega), if_neg, h1]
      rintro ⟨-, e⟩
      unfold coord lastIdx coord at e
      rw [a1, a2, a3] at e
      split_ifs at e <;> omega
    · rw [wrapMetric_itA _ _ _ ha hc (by omega) (by omega) (by omega), if_neg, h2]
      rintro ⟨-, e⟩
      unfold coord lastIdx coord at e
      rw [b1, b2, b3] at e
      split_ifs at e <;> omega
  have ite : ∀ (b : Bool) m m', Good m → Good m' → Good (if b then m else m') := by
    intro b m m' h h'; cases b <;> assumption
  have h0 : Good (g.tL, g.itA) := ⟨⟨rfl, rfl, rfl⟩, ⟨rfl, rfl, rfl⟩, rfl, rfl⟩
  have hw : ∀ (b : Bool) m, Good m → ∀ axis < 3, Good (if b then wrapMetric g.L g.iA m axis else m) := fun b m h axis ha => ite b _ _ (wrap m h axis ha) h
  have h1 : Good (periodicMetric g bc) := by
    unfold periodicMetric
    exact ite _ _ _ (hw _ _ (hw _ _ (hw _ _ h0 0 (by decide)) 1 (by decide)) 2 (by decide)) h0
  have h2 : Good (abcMetric g bc (periodicMetric g bc)) := by
    unfold abcMetric
    exact ite _ _ _ (hw _ _ (hw _ _ (hw _ _ h1 0 (by decide)) 1 (by decide)) 2 (by decide)) h1
  exact ⟨(at_pos _ h2.1).symm.trans h2.2.2.1, (at_pos _ h2.2.1).symm.trans h2.2.2.2⟩

/-- **C16 (interior, any boundary names, E).** In a cell at least two layers away from the low faces and one from the high ones the E update is the documented stencil with the dual metric of the
grid, whatever the six boundary conditions are. -/
theorem C16_interior_E (bc : Faces String) (ieps imu sigma : Vec K) (dt : K) (uc : Bool) (st : State K) (hst : st.step0 = false) {c i j k : ℕ} (hc : c < 3)
    (hi0 : 1 < i) (hj0 : 1 < j) (hk0 : 1 < k) (hi : i + 1 < Nx) (hj : j + 1 < Ny) (hk : k + 1 < Nz) :
    let g := computeGrid Nx Ny Nz x y z
    let P := pos Nx Ny Nz c i j k
    let st' := oneStep (build g bc ieps imu sigma dt uc) st
    st'.E P = st.E P + dt * (ieps P * g.itA.array P * cocirc (view3 Nx Ny Nz fun q => g.tL.array q * st'.H q) c i j k - ieps P * st.J P) := by
  intro g P st'
  have hr : P < 3 * (g.Nx * g.Ny * g.Nz) := pos_lt hc (by show i < Nx; omega) (by show j < Ny; omega) (by show k < Nz; omega)
  have e0 : st' = advance (build g bc ieps imu sigma dt uc) st := oneStep_started _ _ hst
  rw [e0, advance_E _ _ _ _ _ _ _ _ hr, show colMask g bc P = 1 from colMask_interior g bc hc (by omega) (by omega) (by omega) hi hj hk, one_mul]
  have hct := CT_cocirc (Nx := Nx) (Ny := Ny) (Nz := Nz) (fun q => rowMask g bc q * ((applyBC g bc (C0 g.Nx g.Ny g.Nz)).tL.array q * (advance (build g bc ieps imu sigma dt uc) st).H q)) hc
    (by omega : i < Nx) (by omega : j < Ny) (by omega : k < Nz) (by omega) (by omega) (by omega)
  rw [show mulVec (3 * (g.Nx * g.Ny * g.Nz)) (transpose (C0 g.Nx g.Ny g.Nz)) _ P = _ from hct,
    show (applyBC g bc (C0 g.Nx g.Ny g.Nz)).itA.array P = g.itA.array P from (metric_inner (x := x) (y := y) (z := z) bc hc hi hj hk).2]
  have m : ∀ c < 3, ∀ i', 0 < i' → i' + 1 < Nx → ∀ j', 0 < j' → j' + 1 < Ny → ∀ k', 0 < k' → k' + 1 < Nz →
      view3 Nx Ny Nz (fun q => rowMask g bc q * ((applyBC g bc (C0 g.Nx g.Ny g.Nz)).tL.array q * (advance (build g bc ieps imu sigma dt uc) st).H q)) c i' j' k' =
        view3 Nx Ny Nz (fun q => g.tL.array q * (advance (build g bc ieps imu sigma dt uc) st).H q) c i' j' k' := by
    intro c hc i' h1 h2 j' h3 h4 k' h5 h6
    simp only [view3]
    rw [show rowMask g bc (pos Nx Ny Nz c i' j' k') = 1 from rowMask_interior g bc hc h1 h3 h5 h2 h4 h6, one_mul,
      show (applyBC g bc (C0 g.Nx g.Ny g.Nz)).tL.array (pos Nx Ny Nz c i' j' k') = g.tL.array (pos Nx Ny Nz c i' j' k') from (metric_inner (x := x) (y := y) (z := z) bc hc h2 h4 h6).1]
  congr 4
  unfold cocirc
  split_ifs
  · rw [m 2 (by omega) i (by omega) (by omega) j (by omega) (by omega) k (by omega) (by omega), m 2 (by omega) i (by omega) (by omega) (j - 1) (by omega) (by omega) k (by omega) (by omega),
      m 1 (by omega) i (by omega) (by omega) j (by omega) (by omega) k (by omega) (by omega), m 1 (by omega) i (by omega) (by omega) j (by omega) (by omega) (k - 1) (by omega) (by omega)]
  · rw [m 0 (by omega) i (by omega) (by omega) j (by omega) (by omega) k (by omega) (by omega), m 0 (by omega) i (by omega) (by omega) j (by omega) (by omega) (k - 1) (by omega) (by omega),
      m 2 (by omega) i (by omega) (by omega) j (by omega) (by omega) k (by omega) (by omega), m 2 (by omega) (i - 1) (by omega) (by omega) j (by omega) (by omega) k (by omega) (by omega)]
  · rw [m 1 (by omega) i (by omega) (by omega) j (by omega) (by omega) k (by omega) (by omega), m 1 (by omega) (i - 1) (by omega) (by omega) j (by omega) (by omega) k (by omega) (by omega),
      m 0 (by omega) i (by omega) (by omega) j (by omega) (by omega) k (by omega) (by omega), m 0 (by omega) i (by omega) (by omega) (j - 1) (by omega) (by omega) k (by omega) (by omega)]

end

/-! ### Faraday's law -/

section
variable [LinearOrder K] [IsStrictOrderedRing K] {Nx Ny Nz : ℕ} {x y z : ℕ → K}

/-- **C75 (Faraday's law).** On every grid, uniform or not, whatever the materials and the boundary conditions: if E holds the samples of a field linear in position, one step changes H in every
inner cell by exactly `-dt/mu` times the curl of that field. -/
theorem C75_faraday (hx : Increasing x Nx) (hy : Increasing y Ny) (hz : Increasing z Nz) (bc : Faces String) (ieps imu sigma : Vec K) (dt : K) (uc : Bool) (st : State K)
    (hst : st.step0 = false) {a : ℕ → K} {B : ℕ → ℕ → K} (hE : SampledE Nx Ny Nz x y z a B st.E) {c i j k : ℕ} (hc : c < 3)
    (hi0 : 0 < i) (hj0 : 0 < j) (hk0 : 0 < k) (hi : i + 2 < Nx) (hj : j + 2 < Ny) (hk : k + 2 < Nz) :
    let P := pos Nx Ny Nz c i j k
    (oneStep (build (computeGrid Nx Ny Nz x y z) bc ieps imu sigma dt uc) st).H P = st.H P - dt * (imu P * curlOf B c) := by
  intro P
  set g := computeGrid Nx Ny Nz x y z with hg
  have h := C16_interior g bc ieps imu sigma dt uc st hst hc hi0 hj0 hk0 hi hj hk
  simp only at h
  rw [show (oneStep (build g bc ieps imu sigma dt uc) st).H P = _ from h]
  have hL : ∀ c < 3, ∀ i < Nx, ∀ j < Ny, ∀ k < Nz, g.L.array (pos Nx Ny Nz c i j k) = if c = 0 then x (i + 1) - x i else if c = 1 then y (j + 1) - y j else z (k + 1) - z k := by
    intro c hc i hi j hj k hk
    exact diffField_at3 x y z hc hi hj hk
  have hv : ∀ c < 3, ∀ i < Nx, ∀ j < Ny, ∀ k < Nz, view3 Nx Ny Nz (fun q => g.L.array q * st.E q) c i j k =
      (if c = 0 then x (i + 1) - x i else if c = 1 then y (j + 1) - y j else z (k + 1) - z k) * linField a B c (edgePoint x y z c i j k) := by
    intro c hc i hi j hj k hk
    simp only [view3]
    rw [hL c hc i hi j hj k hk, hE c hc i hi j hj k hk]
  have hA := C10_primary Nx Ny Nz x y z hx hy hz (i := i) (j := j) (k := k) (by omega) (by omega) (by omega)
  simp only at hA
  rw [← hg] at hA
  have hLa : ∀ c < 3, g.L.at3 c i j k = if c = 0 then x (i + 1) - x i else if c = 1 then y (j + 1) - y j else z (k + 1) - z k := fun c hc => hL c hc i (by omega) j (by omega) k (by omega)
  rw [hLa 0 (by decide), hLa 1 (by decide), hLa 2 (by decide)] at hA
  simp only [if_true, one_ne_zero, OfNat.ofNat_ne_zero, OfNat.ofNat_ne_one, if_false] at hA
  have key : g.iA.array P * circ (view3 Nx Ny Nz fun q => g.L.array q * st.E q) c i j k = curlOf B c := by
    have : c = 0 ∨ c = 1 ∨ c = 2 := by omega
    rcases this with rfl | rfl | rfl
    · have e : circ (view3 Nx Ny Nz fun q => g.L.array q * st.E q) 0 i j k = ((y (j + 1) - y j) * (z (k + 1) - z k)) * (B 2 1 - B 1 2) := by
        unfold circ
        rw [if_pos rfl, hv 2 (by decide) i (by omega) (j + 1) (by omega) k (by omega), hv 2 (by decide) i (by omega) j (by omega) k (by omega),
          hv 1 (by decide) i (by omega) j (by omega) (k + 1) (by omega), hv 1 (by decide) i (by omega) j (by omega) k (by omega)]
        simp only [linField, edgePoint, mid, if_true, one_ne_zero, OfNat.ofNat_ne_zero, OfNat.ofNat_ne_one, if_false, OfNat.one_ne_ofNat]
        ring
      rw [e, ← mul_assoc, show g.iA.array P * ((y (j + 1) - y j) * (z (k + 1) - z k)) = 1 from hA.1, one_mul]
      rfl
    · have e : circ (view3 Nx Ny Nz fun q => g.L.array q * st.E q) 1 i j k = ((x (i + 1) - x i) * (z (k + 1) - z k)) * (B 0 2 - B 2 0) := by
        unfold circ
        rw [if_neg (by decide), if_pos rfl, hv 0 (by decide) i (by omega) j (by omega) (k + 1) (by omega), hv 0 (by decide) i (by omega) j (by omega) k (by omega),
          hv 2 (by decide) (i + 1) (by omega) j (by omega) k (by omega), hv 2 (by decide) i (by omega) j (by omega) k (by omega)]
        simp only [linField, edgePoint, mid, if_true, one_ne_zero, OfNat.ofNat_ne_zero, OfNat.ofNat_ne_one, if_false, OfNat.zero_ne_ofNat, zero_ne_one]
        ring
      rw [e, ← mul_assoc, show g.iA.array P * ((x (i + 1) - x i) * (z (k + 1) - z k)) = 1 from hA.2.1, one_mul]
      rfl
    · have e : circ (view3 Nx Ny Nz fun q => g.L.array q * st.E q) 2 i j k = ((x (i + 1) - x i) * (y (j + 1) - y j)) * (B 1 0 - B 0 1) := by
        unfold circ
        rw [if_neg (by decide), if_neg (by decide), hv 1 (by decide) (i + 1) (by omega) j (by omega) k (by omega), hv 1 (by decide) i (by omega) j (by omega) k (by omega),
          hv 0 (by decide) i (by omega) (j + 1) (by omega) k (by omega), hv 0 (by decide) i (by omega) j (by omega) k (by omega)]
        simp only [linField, edgePoint, mid, if_true, one_ne_zero, if_false, zero_ne_one, OfNat.zero_ne_ofNat, OfNat.one_ne_ofNat]
        ring
      rw [e, ← mul_assoc, show g.iA.array P * ((x (i + 1) - x i) * (y (j + 1) - y j)) = 1 from hA.2.2.1, one_mul]
      rfl
  rw [← key]
  show st.H P - dt * (g.iA.array P * imu P * circ (view3 Nx Ny Nz fun q => g.L.array q * st.E q) c i j k) = _
  ring

/-! ### Ampère's law -/

/-- The ratio of the distance between the centres of cells `m-1` and `m` to that between the centres of cells `m` and `m+1`. -/
def centreRatio (x : ℕ → K) (m : ℕ) : K := (mid x m - mid x (m - 1)) / (mid x (m + 1) - mid x m)

/-- **C75 (Ampère's law; what the code does).** If the new H holds the samples of a field linear in position, one step adds to E in every inner cell `dt/eps` times the curl of that field with each
derivative multiplied by the ratio of the distances to the previous and to the next cell centre, minus `dt/eps` times J. -/
theorem C75_ampere_actual (hx : Increasing x Nx) (hy : Increasing y Ny) (hz : Increasing z Nz) (bc : Faces String) (ieps imu sigma : Vec K) (dt : K) (uc : Bool) (st : State K)
    (hst : st.step0 = false) {a : ℕ → K} {B : ℕ → ℕ → K} {c i j k : ℕ} (hc : c < 3)
    (hH : SampledH Nx Ny Nz x y z a B (oneStep (build (computeGrid Nx Ny Nz x y z) bc ieps imu sigma dt uc) st).H)
    (hi0 : 1 < i) (hj0 : 1 < j) (hk0 : 1 < k) (hi : i + 1 < Nx) (hj : j + 1 < Ny) (hk : k + 1 < Nz) :
    let P := pos Nx Ny Nz c i j k
    (oneStep (build (computeGrid Nx Ny Nz x y z) bc ieps imu sigma dt uc) st).E P =
      st.E P + dt * (ieps P * (curlOf (fun c d => B c d * (if d = 0 then centreRatio x i else if d = 1 then centreRatio y j else centreRatio z k)) c - st.J P)) := by
  intro P
  set g := computeGrid Nx Ny Nz x y z with hg
  have h := C16_interior_E (x := x) (y := y) (z := z) bc ieps imu sigma dt uc st hst hc hi0 hj0 hk0 hi hj hk
  simp only at h
  rw [← hg] at h
  rw [show (oneStep (build g bc ieps imu sigma dt uc) st).E P = _ from h]
  have hT : ∀ c < 3, ∀ i, i + 1 < Nx → ∀ j, j + 1 < Ny → ∀ k, k + 1 < Nz → g.tL.array (pos Nx Ny Nz c i j k) =
      if c = 0 then mid x (i + 1) - mid x i else if c = 1 then mid y (j + 1) - mid y j else mid z (k + 1) - mid z k := by
    intro c hc i hi j hj k hk
    have := diffField_at3 (tilde x Nx) (tilde y Ny) (tilde z Nz) hc (by omega : i < Nx) (by omega : j < Ny) (by omega : k < Nz)
    rw [show g.tL.array (pos Nx Ny Nz c i j k) = _ from this]
    simp only [tilde, if_pos hi, if_pos hj, if_pos hk, if_pos (by omega : i < Nx), if_pos (by omega : j < Ny), if_pos (by omega : k < Nz), mid]
    split_ifs <;> ring
  have hv : ∀ c < 3, ∀ i, i + 1 < Nx → ∀ j, j + 1 < Ny → ∀ k, k + 1 < Nz → view3 Nx Ny Nz (fun q => g.tL.array q * (oneStep (build g bc ieps imu sigma dt uc) st).H q) c i j k =
      (if c = 0 then mid x (i + 1) - mid x i else if c = 1 then mid y (j + 1) - mid y j else mid z (k + 1) - mid z k) * linField a B c (facePoint x y z c i j k) := by
    intro c hc i hi j hj k hk
    simp only [view3]
    rw [hT c hc i hi j hj k hk, hH c hc i (by omega) j (by omega) k (by omega)]
  have dpos : ∀ {w : ℕ → K} {n m : ℕ}, Increasing w n → m + 1 < n → mid w (m + 1) - mid w m ≠ 0 := by
    intro w n m hw hm
    have h1 := hw m (by omega)
    have h2 := hw (m + 1) (by omega)
    unfold mid
    have : 0 < (w (m + 1) + w (m + 1 + 1)) / 2 - (w m + w (m + 1)) / 2 := by linarith
    exact this.ne'
  have nx := dpos hx hi
  have ny := dpos hy hj
  have nz := dpos hz hk
  have hA := C10_dual Nx Ny Nz x y z (i := i) (j := j) (k := k) (by omega) (by omega) (by omega)
  simp only at hA
  rw [← hg] at hA
  have hTa : ∀ c < 3, g.tL.at3 c i j k = if c = 0 then mid x (i + 1) - mid x i else if c = 1 then mid y (j + 1) - mid y j else mid z (k + 1) - mid z k := fun c hc => hT c hc i hi j hj k hk
  have hA0 := (hA 0 1 2 (by simp)).1
  have hA1 := (hA 1 0 2 (by simp)).1
  have hA2 := (hA 2 0 1 (by simp)).1
  rw [hTa 1 (by decide), hTa 2 (by decide)] at hA0
  rw [hTa 0 (by decide), hTa 2 (by decide)] at hA1
  rw [hTa 0 (by decide), hTa 1 (by decide)] at hA2
  simp only [if_true, one_ne_zero, OfNat.ofNat_ne_zero, OfNat.ofNat_ne_one, if_false] at hA0 hA1 hA2
  have key : g.itA.array P * cocirc (view3 Nx Ny Nz fun q => g.tL.array q * (oneStep (build g bc ieps imu sigma dt uc) st).H q) c i j k =
      curlOf (fun c d => B c d * (if d = 0 then centreRatio x i else if d = 1 then centreRatio y j else centreRatio z k)) c := by
    have : c = 0 ∨ c = 1 ∨ c = 2 := by omega
    rcases this with rfl | rfl | rfl
    · have e : cocirc (view3 Nx Ny Nz fun q => g.tL.array q * (oneStep (build g bc ieps imu sigma dt uc) st).H q) 0 i j k =
          (mid z (k + 1) - mid z k) * (B 2 1 * (mid y j - mid y (j - 1))) - (mid y (j + 1) - mid y j) * (B 1 2 * (mid z k - mid z (k - 1))) := by
        unfold cocirc
        rw [if_pos rfl, hv 2 (by decide) i hi j hj k hk, hv 2 (by decide) i hi (j - 1) (by omega) k hk, hv 1 (by decide) i hi j hj k hk, hv 1 (by decide) i hi j hj (k - 1) (by omega)]
        simp only [linField, facePoint, if_true, one_ne_zero, OfNat.ofNat_ne_zero, OfNat.ofNat_ne_one, if_false, OfNat.one_ne_ofNat]
        ring
      have q := hA0 (mul_ne_zero ny nz)
      have q' : g.itA.array P * ((mid y (j + 1) - mid y j) * (mid z (k + 1) - mid z k)) = 1 := q
      rw [e]
      simp only [curlOf, if_true, if_false, one_ne_zero, OfNat.ofNat_ne_zero, OfNat.ofNat_ne_one, centreRatio]
      field_simp
      linear_combination (B 2 1 * (mid y j - mid y (j - 1)) * (mid z (k + 1) - mid z k) - (mid y (j + 1) - mid y j) * (B 1 2 * (mid z k - mid z (k - 1)))) * q'
    · have e : cocirc (view3 Nx Ny Nz fun q => g.tL.array q * (oneStep (build g bc ieps imu sigma dt uc) st).H q) 1 i j k =
          (mid x (i + 1) - mid x i) * (B 0 2 * (mid z k - mid z (k - 1))) - (mid z (k + 1) - mid z k) * (B 2 0 * (mid x i - mid x (i - 1))) := by
        unfold cocirc
        rw [if_neg (by decide), if_pos rfl, hv 0 (by decide) i hi j hj k hk, hv 0 (by decide) i hi j hj (k - 1) (by omega), hv 2 (by decide) i hi j hj k hk, hv 2 (by decide) (i - 1) (by omega) j hj k hk]
        simp only [linField, facePoint, if_true, one_ne_zero, OfNat.ofNat_ne_zero, OfNat.ofNat_ne_one, if_false, OfNat.zero_ne_ofNat, zero_ne_one]
        ring
      have q := hA1 (mul_ne_zero nx nz)
      have q' : g.itA.array P * ((mid x (i + 1) - mid x i) * (mid z (k + 1) - mid z k)) = 1 := q
      rw [e]
      simp only [curlOf, if_true, if_false, one_ne_zero, OfNat.ofNat_ne_zero, OfNat.ofNat_ne_one, centreRatio]
      field_simp
      linear_combination ((mid x (i + 1) - mid x i) * (B 0 2 * (mid z k - mid z (k - 1))) - (mid z (k + 1) - mid z k) * (B 2 0 * (mid x i - mid x (i - 1)))) * q'
    · have e : cocirc (view3 Nx Ny Nz fun q => g.tL.array q * (oneStep (build g bc ieps imu sigma dt uc) st).H q) 2 i j k =
          (mid y (j + 1) - mid y j) * (B 1 0 * (mid x i - mid x (i - 1))) - (mid x (i + 1) - mid x i) * (B 0 1 * (mid y j - mid y (j - 1))) := by
        unfold cocirc
        rw [if_neg (by decide), if_neg (by decide), hv 1 (by decide) i hi j hj k hk, hv 1 (by decide) (i - 1) (by omega) j hj k hk, hv 0 (by decide) i hi j hj k hk, hv 0 (by decide) i hi (j - 1) (by omega) k hk]
        simp only [linField, facePoint, if_true, one_ne_zero, if_false, OfNat.zero_ne_ofNat, OfNat.one_ne_ofNat, zero_ne_one]
        ring
      have q := hA2 (mul_ne_zero nx ny)
      have q' : g.itA.array P * ((mid x (i + 1) - mid x i) * (mid y (j + 1) - mid y j)) = 1 := q
      rw [e]
      simp only [curlOf, if_true, if_false, one_ne_zero, OfNat.ofNat_ne_zero, OfNat.ofNat_ne_one, centreRatio]
      field_simp
      linear_combination ((mid y (j + 1) - mid y j) * (B 1 0 * (mid x i - mid x (i - 1))) - (mid x (i + 1) - mid x i) * (B 0 1 * (mid y j - mid y (j - 1)))) * q'
  rw [← key]
  show st.E P + dt * (ieps P * g.itA.array P * cocirc _ c i j k - ieps P * st.J P) = _
  ring

/-- **C75 (Ampère's law, partial).** Where the cells before and after a cell are as long as each other along every axis (in particular on every uniform grid), one step adds to E exactly
`dt/eps` times the curl of H minus J. Missing: non-uniform grids (`C75_ampere_refuted`, `C75_graded`). -/
theorem C75_ampere_partial (hx : Increasing x Nx) (hy : Increasing y Ny) (hz : Increasing z Nz) (bc : Faces String) (ieps imu sigma : Vec K) (dt : K) (uc : Bool) (st : State K)
    (hst : st.step0 = false) {a : ℕ → K} {B : ℕ → ℕ → K} {c i j k : ℕ} (hc : c < 3)
    (hH : SampledH Nx Ny Nz x y z a B (oneStep (build (computeGrid Nx Ny Nz x y z) bc ieps imu sigma dt uc) st).H)
    (hi0 : 1 < i) (hj0 : 1 < j) (hk0 : 1 < k) (hi : i + 1 < Nx) (hj : j + 1 < Ny) (hk : k + 1 < Nz)
    (ux : x i - x (i - 1) = x (i + 2) - x (i + 1)) (uy : y j - y (j - 1) = y (j + 2) - y (j + 1)) (uz : z k - z (k - 1) = z (k + 2) - z (k + 1)) :
    let P := pos Nx Ny Nz c i j k
    (oneStep (build (computeGrid Nx Ny Nz x y z) bc ieps imu sigma dt uc) st).E P = st.E P + dt * (ieps P * (curlOf B c - st.J P)) := by
  intro P
  have one : ∀ {w : ℕ → K} {n m : ℕ}, Increasing w n → 0 < m → m + 1 < n → w m - w (m - 1) = w (m + 2) - w (m + 1) → centreRatio w m = 1 := by
    intro w n m hw h0 hm e
    have h1 := hw m (by omega)
    have h2 := hw (m + 1) (by omega)
    unfold centreRatio mid
    rw [show m - 1 + 1 = m by omega, show m + 1 + 1 = m + 2 by omega] at *
    rw [div_eq_one_iff_eq]
    · linear_combination e / 2
    · have : 0 < (w (m + 1) + w (m + 2)) / 2 - (w m + w (m + 1)) / 2 := by linarith
      exact this.ne'
  have h := C75_ampere_actual hx hy hz bc ieps imu sigma dt uc st hst hc hH hi0 hj0 hk0 hi hj hk
  simp only at h
  rw [one hx (by omega) hi ux, one hy (by omega) hj uy, one hz (by omega) hk uz] at h
  simpa using h

/-- **C75 (graded meshes; refuted).** On an axis whose cells grow by a factor `r > 0` from one to the next, the derivative along this axis is multiplied by `1/r` in every cell, however small the
cells are: refining such a mesh does not reduce the error. -/
theorem C75_graded {w : ℕ → K} {h r : K} (hh : h ≠ 0) (hr : 0 < r) (hw : ∀ m, w (m + 1) - w m = h * r ^ m) {m : ℕ} (hm : 0 < m) : centreRatio w m = 1 / r := by
  obtain ⟨m, rfl⟩ : ∃ n, m = n + 1 := ⟨m - 1, by omega⟩
  unfold centreRatio mid
  simp only [Nat.add_sub_cancel]
  have e1 := hw m
  have e2 := hw (m + 1)
  have e3 := hw (m + 1 + 1)
  have p : (0 : K) < r ^ m := pow_pos hr m
  have n1 : (w (m + 1) + w (m + 1 + 1)) / 2 - (w m + w (m + 1)) / 2 = h * r ^ m * (1 + r) / 2 := by rw [pow_succ] at e2; linear_combination (e1 + e2) / 2
  have n2 : (w (m + 1 + 1) + w (m + 1 + 1 + 1)) / 2 - (w (m + 1) + w (m + 1 + 1)) / 2 = h * r ^ m * r * (1 + r) / 2 := by
    rw [pow_succ] at e2
    rw [pow_succ, pow_succ] at e3
    linear_combination (e2 + e3) / 2
  rw [n1, n2]
  have : (1 + r) ≠ 0 := by positivity
  have p' := p.ne'
  field_simp

end

/-! ### the hypotheses are met, and the counterexample -/

/-- Hz = y on a 4×4×4 grid with axes 0, 1, 4, 9, 16, sampled at the face centres; E and J are zero. -/
def demoLin : State ℚ := ⟨fun _ => 0, fun q => if q / 64 = 2 then mid demoAxis (q % 64 / 4 % 4) else 0, fun _ => 0, false⟩

def demoB (c d : ℕ) : ℚ := if c = 2 ∧ d = 1 then 1 else 0

def demoOpen : Faces String := ⟨"open", "open", "open", "open", "open", "open"⟩

theorem demoLin_H (dt : ℚ) : (oneStep (build (computeGrid 4 4 4 demoAxis demoAxis demoAxis) demoOpen (fun _ => 1) (fun _ => 1) (fun _ => 0) dt false) demoLin).H = demoLin.H := by
  rw [oneStep_started _ _ rfl]
  unfold advance
  funext q
  simp [demoLin, mulVec]

theorem demoLin_sampled : SampledH 4 4 4 demoAxis demoAxis demoAxis (fun _ => 0) demoB demoLin.H := by
  unfold SampledH
  decide +kernel

/-- **C75 (Ampère's law on non-uniform grids; refuted).** On a grid with axes 0, 1, 4, 9, 16 the field Hz = y, whose curl is the unit vector along x, drives E with two thirds of it. -/
theorem C75_ampere_refuted (dt : ℚ) :
    let st' := oneStep (build (computeGrid 4 4 4 demoAxis demoAxis demoAxis) demoOpen (fun _ => 1) (fun _ => 1) (fun _ => 0) dt false) demoLin
    SampledH 4 4 4 demoAxis demoAxis demoAxis (fun _ => 0) demoB st'.H ∧ curlOf demoB 0 = 1 ∧ demoLin.E (pos 4 4 4 0 2 2 2) = 0 ∧ demoLin.J (pos 4 4 4 0 2 2 2) = 0 ∧
      st'.E (pos 4 4 4 0 2 2 2) = dt * (2 / 3) := by
  intro st'
  have hs : SampledH 4 4 4 demoAxis demoAxis demoAxis (fun _ => 0) demoB st'.H := by
    show SampledH _ _ _ _ _ _ _ _ (oneStep _ _).H
    rw [demoLin_H]
    exact demoLin_sampled
  refine ⟨hs, by decide +kernel, rfl, rfl, ?_⟩
  have h := C75_ampere_actual (demo_inc 4) (demo_inc 4) (demo_inc 4) demoOpen (fun _ => 1) (fun _ => 1) (fun _ => 0) dt false demoLin rfl (c := 0) (by decide) hs
    (i := 2) (j := 2) (k := 2) (by decide) (by decide) (by decide) (by decide) (by decide) (by decide)
  simp only at h
  rw [show st'.E (pos 4 4 4 0 2 2 2) = _ from h]
  have e : curlOf (fun c d => demoB c d * (if d = 0 then centreRatio demoAxis 2 else if d = 1 then centreRatio demoAxis 2 else centreRatio demoAxis 2)) 0 = 2 / 3 := by decide +kernel
  rw [e]
  simp [demoLin]

/-- Faraday's law: Ez = x on the same grid, in cell (1,1,1). -/
example : SampledE 4 4 4 demoAxis demoAxis demoAxis (fun _ => 0) (fun c d => if c = 2 ∧ d = 0 then 1 else 0) (fun q => if q / 64 = 2 then demoAxis (q % 4) else 0) ∧ Increasing demoAxis 4 ∧ 1 + 2 < 4 := by
  refine ⟨?_, demo_inc 4, by decide⟩
  unfold SampledE
  decide +kernel

/-- The uniform case: Hz = y on the axis 0, 1, 2, 3, 4. -/
example : SampledH 4 4 4 (fun i => (i : ℚ)) (fun i => (i : ℚ)) (fun i => (i : ℚ)) (fun _ => 0) demoB (fun q => if q / 64 = 2 then mid (fun i => (i : ℚ)) (q % 64 / 4 % 4) else 0) ∧
    ((2 : ℕ) : ℚ) - ((1 : ℕ) : ℚ) = ((4 : ℕ) : ℚ) - ((3 : ℕ) : ℚ) := by
  refine ⟨?_, by norm_num⟩
  unfold SampledH
  decide +kernel

end Sol
end Wakis
