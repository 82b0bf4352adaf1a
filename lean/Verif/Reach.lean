import Verif.Shift
import Verif.Speed
import Verif.Consistency

/-!
# C128: what is out of reach does not matter

`wakis/solverFIT3D.py:379-400` `one_step`, with the set-up of 182-297 and the grid of `wakis/gridFIT3D.py:257-299`.
-/

namespace Wakis
namespace Sol
open Sparse Grid
variable {K : Type _} [Field K] [DecidableEq K]

/-! ### Specification -/

/-- A model: grid planes, boundary names, material arrays, time step. -/
structure Model (K : Type _) where
  Nx : ℕ
  Ny : ℕ
  Nz : ℕ
  x : ℕ → K
  y : ℕ → K
  z : ℕ → K
  bc : Faces String
  ieps : Vec K
  imu : Vec K
  sigma : Vec K
  dt : K
  uc : Bool

def Model.grid (M : Model K) : Geom K := computeGrid M.Nx M.Ny M.Nz M.x M.y M.z

def Model.solver (M : Model K) : Solver K := build M.grid M.bc M.ieps M.imu M.sigma M.dt M.uc

/-- Entry of component `c` of cell `(i, j, k)`. -/
def Model.at (M : Model K) (c i j k : ℕ) : ℕ := pos M.Nx M.Ny M.Nz c i j k

/-- The cell is at least two layers away from all faces. -/
def Model.Inner (M : Model K) (i j k : ℕ) : Prop := (2 ≤ i ∧ i + 3 ≤ M.Nx) ∧ (2 ≤ j ∧ j + 3 ≤ M.Ny) ∧ (2 ≤ k ∧ k + 3 ≤ M.Nz)

variable (A B : Model K) (ox oy oz : ℕ)

/-- Cell `(i, j, k)` of `A` and cell `(i+ox, j+oy, k+oz)` of `B` are inner cells of the same widths and material. -/
structure Alike (i j k : ℕ) : Prop where
  innerA : A.Inner i j k
  innerB : B.Inner (i + ox) (j + oy) (k + oz)
  dx : A.x (i + 1) - A.x i = B.x (i + ox + 1) - B.x (i + ox)
  dy : A.y (j + 1) - A.y j = B.y (j + oy + 1) - B.y (j + oy)
  dz : A.z (k + 1) - A.z k = B.z (k + oz + 1) - B.z (k + oz)
  ieps : ∀ c < 3, A.ieps (A.at c i j k) = B.ieps (B.at c (i + ox) (j + oy) (k + oz))
  imu : ∀ c < 3, A.imu (A.at c i j k) = B.imu (B.at c (i + ox) (j + oy) (k + oz))
  sigma : ∀ c < 3, A.sigma (A.at c i j k) = B.sigma (B.at c (i + ox) (j + oy) (k + oz))

/-- The fields of the two cells are the same. -/
def Equal (a b : State K) (i j k : ℕ) : Prop :=
  ∀ c < 3, a.E (A.at c i j k) = b.E (B.at c (i + ox) (j + oy) (k + oz)) ∧ a.H (A.at c i j k) = b.H (B.at c (i + ox) (j + oy) (k + oz)) ∧
    a.J (A.at c i j k) = b.J (B.at c (i + ox) (j + oy) (k + oz))

/-- E and H of the two cells are the same. -/
def EqualEH (a b : State K) (i j k : ℕ) : Prop :=
  ∀ c < 3, a.E (A.at c i j k) = b.E (B.at c (i + ox) (j + oy) (k + oz)) ∧ a.H (A.at c i j k) = b.H (B.at c (i + ox) (j + oy) (k + oz))

/-! ### The metric -/

variable {A B ox oy oz}

theorem L_at (M : Model K) {c i j k : ℕ} (hc : c < 3) (hi : i < M.Nx) (hj : j < M.Ny) (hk : k < M.Nz) :
    M.grid.L.array (M.at c i j k) = if c = 0 then M.x (i + 1) - M.x i else if c = 1 then M.y (j + 1) - M.y j else M.z (k + 1) - M.z k := diffField_at3 M.x M.y M.z hc hi hj hk

theorem tL_at (M : Model K) {c i j k : ℕ} (hc : c < 3) (hi : i + 1 < M.Nx) (hj : j + 1 < M.Ny) (hk : k + 1 < M.Nz) :
    M.grid.tL.array (M.at c i j k) = if c = 0 then ((M.x (i + 2) - M.x (i + 1)) + (M.x (i + 1) - M.x i)) / 2
      else if c = 1 then ((M.y (j + 2) - M.y (j + 1)) + (M.y (j + 1) - M.y j)) / 2 else ((M.z (k + 2) - M.z (k + 1)) + (M.z (k + 1) - M.z k)) / 2 := by
  refine (diffField_at3 (tilde M.x M.Nx) (tilde M.y M.Ny) (tilde M.z M.Nz) hc (by omega) (by omega) (by omega)).trans ?_
  unfold tilde
  rw [if_pos hi, if_pos hj, if_pos hk, if_pos (show i < M.Nx by omega), if_pos (show j < M.Ny by omega), if_pos (show k < M.Nz by omega)]
  split_ifs <;> ring

omit [DecidableEq K] [Field K] in
theorem others_lt (c : ℕ) : (others c).1 < 3 ∧ (others c).2 < 3 := by unfold others; split_ifs <;> decide

theorem primary_same {i j k : ℕ} (h : Alike A B ox oy oz i j k) {c : ℕ} (hc : c < 3) :
    A.grid.L.array (A.at c i j k) = B.grid.L.array (B.at c (i + ox) (j + oy) (k + oz)) ∧ A.grid.iA.array (A.at c i j k) = B.grid.iA.array (B.at c (i + ox) (j + oy) (k + oz)) := by
  obtain ⟨⟨p1, p2⟩, ⟨p3, p4⟩, ⟨p5, p6⟩⟩ := h.innerA
  obtain ⟨⟨q1, q2⟩, ⟨q3, q4⟩, ⟨q5, q6⟩⟩ := h.innerB
  have l : ∀ c < 3, A.grid.L.array (A.at c i j k) = B.grid.L.array (B.at c (i + ox) (j + oy) (k + oz)) := by
    intro c hc
    rw [L_at A hc (by omega) (by omega) (by omega), L_at B hc (by omega) (by omega) (by omega), h.dx, h.dy, h.dz]
  refine ⟨l c hc, ?_⟩
  have a : ∀ (M : Model K) (i j k : ℕ), i < M.Nx → j < M.Ny → k < M.Nz → M.grid.iA.array (M.at c i j k) = _ := fun M i j k hi hj hk => invArea_at3 M.grid.L rfl rfl hc hi hj hk
  have l' : ∀ c < 3, A.grid.L.at3 c i j k = B.grid.L.at3 c (i + ox) (j + oy) (k + oz) := l
  rw [a A i j k (by omega) (by omega) (by omega), a B _ _ _ (by omega) (by omega) (by omega), l' _ (others_lt c).1, l' _ (others_lt c).2]

theorem dual_same {i j k : ℕ} (h : Alike A B ox oy oz i j k) (hx : Alike A B ox oy oz (i + 1) j k) (hy : Alike A B ox oy oz i (j + 1) k) (hz : Alike A B ox oy oz i j (k + 1)) {c : ℕ} (hc : c < 3) :
    A.grid.tL.array (A.at c i j k) = B.grid.tL.array (B.at c (i + ox) (j + oy) (k + oz)) ∧ A.grid.itA.array (A.at c i j k) = B.grid.itA.array (B.at c (i + ox) (j + oy) (k + oz)) := by
  obtain ⟨⟨p1, p2⟩, ⟨p3, p4⟩, ⟨p5, p6⟩⟩ := h.innerA
  obtain ⟨⟨q1, q2⟩, ⟨q3, q4⟩, ⟨q5, q6⟩⟩ := h.innerB
  have e1 : i + 1 + ox = i + ox + 1 := by omega
  have e2 : j + 1 + oy = j + oy + 1 := by omega
  have e3 : k + 1 + oz = k + oz + 1 := by omega
  have x2 := hx.dx
  have y2 := hy.dy
  have z2 := hz.dz
  rw [e1] at x2
  rw [e2] at y2
  rw [e3] at z2
  have l : ∀ c < 3, A.grid.tL.array (A.at c i j k) = B.grid.tL.array (B.at c (i + ox) (j + oy) (k + oz)) := by
    intro c hc
    rw [tL_at A hc (by omega) (by omega) (by omega), tL_at B hc (by omega) (by omega) (by omega), ← h.dx, ← h.dy, ← h.dz]
    split_ifs
    · rw [show A.x (i + 2) - A.x (i + 1) = B.x (i + ox + 2) - B.x (i + ox + 1) from x2]
    · rw [show A.y (j + 2) - A.y (j + 1) = B.y (j + oy + 2) - B.y (j + oy + 1) from y2]
    · rw [show A.z (k + 2) - A.z (k + 1) = B.z (k + oz + 2) - B.z (k + oz + 1) from z2]
  refine ⟨l c hc, ?_⟩
  have a : ∀ (M : Model K) (i j k : ℕ), i < M.Nx → j < M.Ny → k < M.Nz → M.grid.itA.array (M.at c i j k) = _ := fun M i j k hi hj hk => invDualArea_at3 M.grid.tL rfl rfl hc hi hj hk
  have l' : ∀ c < 3, A.grid.tL.at3 c i j k = B.grid.tL.at3 c (i + ox) (j + oy) (k + oz) := l
  rw [a A i j k (by omega) (by omega) (by omega), a B _ _ _ (by omega) (by omega) (by omega), l' _ (others_lt c).1, l' _ (others_lt c).2]

/-! ### One step -/

theorem H_same (hr : A.dt = B.dt) {a b : State K} (ha : a.step0 = false) (hb : b.step0 = false) {i j k : ℕ}
    (hal : ∀ i' j' k', i ≤ i' → i' ≤ i + 1 → j ≤ j' → j' ≤ j + 1 → k ≤ k' → k' ≤ k + 1 → Alike A B ox oy oz i' j' k')
    (h : ∀ i' j' k', i ≤ i' → i' ≤ i + 1 → j ≤ j' → j' ≤ j + 1 → k ≤ k' → k' ≤ k + 1 → Equal A B ox oy oz a b i' j' k') {c : ℕ} (hc : c < 3) :
    (oneStep A.solver a).H (A.at c i j k) = (oneStep B.solver b).H (B.at c (i + ox) (j + oy) (k + oz)) := by
  have h0 := hal i j k le_rfl (by omega) le_rfl (by omega) le_rfl (by omega)
  obtain ⟨⟨p1, p2⟩, ⟨p3, p4⟩, ⟨p5, p6⟩⟩ := h0.innerA
  obtain ⟨⟨q1, q2⟩, ⟨q3, q4⟩, ⟨q5, q6⟩⟩ := h0.innerB
  have sA := C16_interior A.grid A.bc A.ieps A.imu A.sigma A.dt A.uc a ha hc (i := i) (j := j) (k := k) (by omega) (by omega) (by omega) (show i + 2 < A.Nx by omega) (show j + 2 < A.Ny by omega) (show k + 2 < A.Nz by omega)
  have sB := C16_interior B.grid B.bc B.ieps B.imu B.sigma B.dt B.uc b hb hc (i := i + ox) (j := j + oy) (k := k + oz) (by omega) (by omega) (by omega) (show i + ox + 2 < B.Nx by omega) (show j + oy + 2 < B.Ny by omega)
    (show k + oz + 2 < B.Nz by omega)
  have key : ∀ c' i' j' k', c' < 3 → i ≤ i' → i' ≤ i + 1 → j ≤ j' → j' ≤ j + 1 → k ≤ k' → k' ≤ k + 1 →
      view3 B.Nx B.Ny B.Nz (fun q => B.grid.L.array q * b.E q) c' (i' + ox) (j' + oy) (k' + oz) = view3 A.Nx A.Ny A.Nz (fun q => A.grid.L.array q * a.E q) c' i' j' k' := by
    intro c' i' j' k' hc' h1 h2 h3 h4 h5 h6
    have e1 := (primary_same (hal i' j' k' h1 h2 h3 h4 h5 h6) hc').1
    have e2 := (h i' j' k' h1 h2 h3 h4 h5 h6 c' hc').1
    show B.grid.L.array (B.at c' (i' + ox) (j' + oy) (k' + oz)) * b.E (B.at c' (i' + ox) (j' + oy) (k' + oz)) = A.grid.L.array (A.at c' i' j' k') * a.E (A.at c' i' j' k')
    rw [e1, e2]
  have hcirc : circ (view3 B.Nx B.Ny B.Nz fun q => B.grid.L.array q * b.E q) c (i + ox) (j + oy) (k + oz) = circ (view3 A.Nx A.Ny A.Nz fun q => A.grid.L.array q * a.E q) c i j k := by
    have e1 : i + ox + 1 = i + 1 + ox := by omega
    have e2 : j + oy + 1 = j + 1 + oy := by omega
    have e3 : k + oz + 1 = k + 1 + oz := by omega
    unfold circ
    rw [e1, e2, e3]
    split_ifs
    · rw [key 2 i (j + 1) k (by decide) (by omega) (by omega) (by omega) (by omega) (by omega) (by omega), key 2 i j k (by decide) (by omega) (by omega) (by omega) (by omega) (by omega) (by omega),
        key 1 i j (k + 1) (by decide) (by omega) (by omega) (by omega) (by omega) (by omega) (by omega), key 1 i j k (by decide) (by omega) (by omega) (by omega) (by omega) (by omega) (by omega)]
    · rw [key 0 i j (k + 1) (by decide) (by omega) (by omega) (by omega) (by omega) (by omega) (by omega), key 0 i j k (by decide) (by omega) (by omega) (by omega) (by omega) (by omega) (by omega),
        key 2 (i + 1) j k (by decide) (by omega) (by omega) (by omega) (by omega) (by omega) (by omega), key 2 i j k (by decide) (by omega) (by omega) (by omega) (by omega) (by omega) (by omega)]
    · rw [key 1 (i + 1) j k (by decide) (by omega) (by omega) (by omega) (by omega) (by omega) (by omega), key 1 i j k (by decide) (by omega) (by omega) (by omega) (by omega) (by omega) (by omega),
        key 0 i (j + 1) k (by decide) (by omega) (by omega) (by omega) (by omega) (by omega) (by omega), key 0 i j k (by decide) (by omega) (by omega) (by omega) (by omega) (by omega) (by omega)]
  refine Eq.trans sA (Eq.trans ?_ sB.symm)
  show a.H (A.at c i j k) - A.dt * (A.grid.iA.array (A.at c i j k) * A.imu (A.at c i j k) * circ (view3 A.Nx A.Ny A.Nz fun q => A.grid.L.array q * a.E q) c i j k) =
    b.H (B.at c (i + ox) (j + oy) (k + oz)) - B.dt * (B.grid.iA.array (B.at c (i + ox) (j + oy) (k + oz)) * B.imu (B.at c (i + ox) (j + oy) (k + oz)) *
      circ (view3 B.Nx B.Ny B.Nz fun q => B.grid.L.array q * b.E q) c (i + ox) (j + oy) (k + oz))
  rw [hcirc, hr, (primary_same h0 hc).2, h0.imu c hc, (h i j k le_rfl (by omega) le_rfl (by omega) le_rfl (by omega) c hc).2.1]

theorem step_started (hr : A.dt = B.dt) {a b : State K} (ha : a.step0 = false) (hb : b.step0 = false) {i j k : ℕ}
    (hal : ∀ i' j' k', Within 1 i j k i' j' k' → Alike A B ox oy oz i' j' k') (h : ∀ i' j' k', Within 1 i j k i' j' k' → Equal A B ox oy oz a b i' j' k') :
    EqualEH A B ox oy oz (oneStep A.solver a) (oneStep B.solver b) i j k := by
  have hw : ∀ i' j' k', i ≤ i' + 1 → i' ≤ i + 1 → j ≤ j' + 1 → j' ≤ j + 1 → k ≤ k' + 1 → k' ≤ k + 1 → Within 1 i j k i' j' k' := by intro i' j' k' _ _ _ _ _ _; unfold Within; omega
  have h0 := hal i j k (hw i j k (by omega) (by omega) (by omega) (by omega) (by omega) (by omega))
  have f0 := h i j k (hw i j k (by omega) (by omega) (by omega) (by omega) (by omega) (by omega))
  obtain ⟨⟨p1, p2⟩, ⟨p3, p4⟩, ⟨p5, p6⟩⟩ := h0.innerA
  obtain ⟨⟨q1, q2⟩, ⟨q3, q4⟩, ⟨q5, q6⟩⟩ := h0.innerB
  have hH : ∀ c' i' j' k', c' < 3 → i' ≤ i → i ≤ i' + 1 → j' ≤ j → j ≤ j' + 1 → k' ≤ k → k ≤ k' + 1 →
      (oneStep A.solver a).H (A.at c' i' j' k') = (oneStep B.solver b).H (B.at c' (i' + ox) (j' + oy) (k' + oz)) := by
    intro c' i' j' k' hc' h1 h2 h3 h4 h5 h6
    exact H_same hr ha hb (fun i2 j2 k2 b1 b2 b3 b4 b5 b6 => hal i2 j2 k2 (hw _ _ _ (by omega) (by omega) (by omega) (by omega) (by omega) (by omega)))
      (fun i2 j2 k2 b1 b2 b3 b4 b5 b6 => h i2 j2 k2 (hw _ _ _ (by omega) (by omega) (by omega) (by omega) (by omega) (by omega))) hc'
  have hE : ∀ c < 3, (oneStep A.solver a).E (A.at c i j k) = (oneStep B.solver b).E (B.at c (i + ox) (j + oy) (k + oz)) := by
    intro c hc
    have sA := C16_interior_E (Nx := A.Nx) (Ny := A.Ny) (Nz := A.Nz) (x := A.x) (y := A.y) (z := A.z) A.bc A.ieps A.imu A.sigma A.dt A.uc a ha hc (i := i) (j := j) (k := k) (by omega) (by omega) (by omega)
      (by omega) (by omega) (by omega)
    have sB := C16_interior_E (Nx := B.Nx) (Ny := B.Ny) (Nz := B.Nz) (x := B.x) (y := B.y) (z := B.z) B.bc B.ieps B.imu B.sigma B.dt B.uc b hb hc (i := i + ox) (j := j + oy) (k := k + oz) (by omega) (by omega) (by omega)
      (by omega) (by omega) (by omega)
    have du : ∀ c' i' j' k', c' < 3 → i' ≤ i → i ≤ i' + 1 → j' ≤ j → j ≤ j' + 1 → k' ≤ k → k ≤ k' + 1 → A.grid.tL.array (A.at c' i' j' k') = B.grid.tL.array (B.at c' (i' + ox) (j' + oy) (k' + oz)) ∧
        A.grid.itA.array (A.at c' i' j' k') = B.grid.itA.array (B.at c' (i' + ox) (j' + oy) (k' + oz)) := by
      intro c' i' j' k' hc' h1 h2 h3 h4 h5 h6
      exact dual_same (hal _ _ _ (hw _ _ _ (by omega) (by omega) (by omega) (by omega) (by omega) (by omega))) (hal _ _ _ (hw _ _ _ (by omega) (by omega) (by omega) (by omega) (by omega) (by omega)))
        (hal _ _ _ (hw _ _ _ (by omega) (by omega) (by omega) (by omega) (by omega) (by omega))) (hal _ _ _ (hw _ _ _ (by omega) (by omega) (by omega) (by omega) (by omega) (by omega))) hc'
    have key : ∀ c' i' j' k', c' < 3 → i' ≤ i → i ≤ i' + 1 → j' ≤ j → j ≤ j' + 1 → k' ≤ k → k ≤ k' + 1 →
        view3 B.Nx B.Ny B.Nz (fun q => B.grid.tL.array q * (oneStep B.solver b).H q) c' (i' + ox) (j' + oy) (k' + oz) = view3 A.Nx A.Ny A.Nz (fun q => A.grid.tL.array q * (oneStep A.solver a).H q) c' i' j' k' := by
      intro c' i' j' k' hc' h1 h2 h3 h4 h5 h6
      show B.grid.tL.array (B.at c' (i' + ox) (j' + oy) (k' + oz)) * (oneStep B.solver b).H (B.at c' (i' + ox) (j' + oy) (k' + oz)) = A.grid.tL.array (A.at c' i' j' k') * (oneStep A.solver a).H (A.at c' i' j' k')
      rw [(du c' i' j' k' hc' h1 h2 h3 h4 h5 h6).1, hH c' i' j' k' hc' h1 h2 h3 h4 h5 h6]
    have hco : cocirc (view3 B.Nx B.Ny B.Nz fun q => B.grid.tL.array q * (oneStep B.solver b).H q) c (i + ox) (j + oy) (k + oz) =
        cocirc (view3 A.Nx A.Ny A.Nz fun q => A.grid.tL.array q * (oneStep A.solver a).H q) c i j k := by
      have e1 : i + ox - 1 = i - 1 + ox := by omega
      have e2 : j + oy - 1 = j - 1 + oy := by omega
      have e3 : k + oz - 1 = k - 1 + oz := by omega
      unfold cocirc
      rw [e1, e2, e3]
      split_ifs
      · rw [key 2 i j k (by decide) (by omega) (by omega) (by omega) (by omega) (by omega) (by omega), key 2 i (j - 1) k (by decide) (by omega) (by omega) (by omega) (by omega) (by omega) (by omega),
          key 1 i j k (by decide) (by omega) (by omega) (by omega) (by omega) (by omega) (by omega), key 1 i j (k - 1) (by decide) (by omega) (by omega) (by omega) (by omega) (by omega) (by omega)]
      · rw [key 0 i j k (by decide) (by omega) (by omega) (by omega) (by omega) (by omega) (by omega), key 0 i j (k - 1) (by decide) (by omega) (by omega) (by omega) (by omega) (by omega) (by omega),
          key 2 i j k (by decide) (by omega) (by omega) (by omega) (by omega) (by omega) (by omega), key 2 (i - 1) j k (by decide) (by omega) (by omega) (by omega) (by omega) (by omega) (by omega)]
      · rw [key 1 i j k (by decide) (by omega) (by omega) (by omega) (by omega) (by omega) (by omega), key 1 (i - 1) j k (by decide) (by omega) (by omega) (by omega) (by omega) (by omega) (by omega),
          key 0 i j k (by decide) (by omega) (by omega) (by omega) (by omega) (by omega) (by omega), key 0 i (j - 1) k (by decide) (by omega) (by omega) (by omega) (by omega) (by omega) (by omega)]
    refine Eq.trans sA (Eq.trans ?_ sB.symm)
    show a.E (A.at c i j k) + A.dt * (A.ieps (A.at c i j k) * A.grid.itA.array (A.at c i j k) * cocirc (view3 A.Nx A.Ny A.Nz fun q => A.grid.tL.array q * (oneStep A.solver a).H q) c i j k -
        A.ieps (A.at c i j k) * a.J (A.at c i j k)) =
      b.E (B.at c (i + ox) (j + oy) (k + oz)) + B.dt * (B.ieps (B.at c (i + ox) (j + oy) (k + oz)) * B.grid.itA.array (B.at c (i + ox) (j + oy) (k + oz)) *
        cocirc (view3 B.Nx B.Ny B.Nz fun q => B.grid.tL.array q * (oneStep B.solver b).H q) c (i + ox) (j + oy) (k + oz) - B.ieps (B.at c (i + ox) (j + oy) (k + oz)) * b.J (B.at c (i + ox) (j + oy) (k + oz)))
    rw [hco, hr, (du c i j k hc le_rfl (by omega) le_rfl (by omega) le_rfl (by omega)).2, h0.ieps c hc, (f0 c hc).1, (f0 c hc).2.2]
  exact fun c hc => ⟨hE c hc, hH c i j k hc le_rfl (by omega) le_rfl (by omega) le_rfl (by omega)⟩

omit [DecidableEq K] in
theorem step_J (s : Solver K) (st : State K) (q : ℕ) : (oneStep s st).J q = if s.useConductivity then s.sigma q * (oneStep s st).E q else st.J q := by
  have key : ∀ t : State K, (advance s t).J q = if s.useConductivity then s.sigma q * (advance s t).E q else t.J q := by
    intro t
    show (if s.useConductivity then fun i => s.sigma i * (advance s t).E i else t.J) q = _
    split_ifs <;> rfl
  by_cases h : st.step0 = true
  · have e : oneStep s st = advance s { setGhostsTo0 s st with step0 := false } := by unfold oneStep; rw [if_pos h]
    rw [e]
    exact key _
  · have e : oneStep s st = advance s st := by unfold oneStep; rw [if_neg h]
    rw [e]
    exact key _

theorem step_any (hr : A.dt = B.dt) {a b : State K} (hf : a.step0 = b.step0) {i j k : ℕ}
    (hal : ∀ i' j' k', Within 1 i j k i' j' k' → Alike A B ox oy oz i' j' k') (h : ∀ i' j' k', Within 1 i j k i' j' k' → Equal A B ox oy oz a b i' j' k') :
    EqualEH A B ox oy oz (oneStep A.solver a) (oneStep B.solver b) i j k := by
  by_cases h0 : a.step0 = true
  · have key : ∀ (M : Model K) (s : State K), s.step0 = true → oneStep M.solver s = oneStep M.solver { setGhostsTo0 M.solver s with step0 := false } := by
      intro M s hs
      have e : ∀ t : State K, t.step0 = false → oneStep M.solver t = advance M.solver t := fun t ht => oneStep_started _ _ ht
      rw [e { setGhostsTo0 M.solver s with step0 := false } rfl]
      unfold oneStep
      rw [if_pos hs]
    rw [key A a h0, key B b (hf ▸ h0)]
    refine step_started hr rfl rfl hal fun i' j' k' hw c hc => ?_
    obtain ⟨⟨p1, p2⟩, ⟨p3, p4⟩, ⟨p5, p6⟩⟩ := (hal i' j' k' hw).innerA
    obtain ⟨⟨q1, q2⟩, ⟨q3, q4⟩, ⟨q5, q6⟩⟩ := (hal i' j' k' hw).innerB
    have clr : ∀ (M : Model K) (s : State K) (i j k : ℕ), i + 1 < M.Nx → j + 1 < M.Ny → k + 1 < M.Nz → (setGhostsTo0 M.solver s).E (M.at c i j k) = s.E (M.at c i j k) ∧
        (setGhostsTo0 M.solver s).H (M.at c i j k) = s.H (M.at c i j k) := by
      intro M s i j k hi hj hk
      have ne : ∀ a' < 3, ¬ coord a' i j k + 1 = coord a' M.Nx M.Ny M.Nz := by
        intro a' ha'
        rcases (by omega : a' = 0 ∨ a' = 1 ∨ a' = 2) with rfl | rfl | rfl
        · show ¬ i + 1 = M.Nx; omega
        · show ¬ j + 1 = M.Ny; omega
        · show ¬ k + 1 = M.Nz; omega
      refine ⟨(ghostE_at M.Nx M.Ny M.Nz s.E hc (by omega) (by omega) (by omega)).trans (if_neg (ne c hc)), ?_⟩
      rcases ghostH_at M.Nx M.Ny M.Nz s.H hc (show i < M.Nx by omega) (show j < M.Ny by omega) (show k < M.Nz by omega) with ⟨⟨a', h1, -, h3⟩, -⟩ | ⟨-, e⟩
      · exact absurd h3 (ne a' h1)
      · exact e
    obtain ⟨e1, e2, e3⟩ := h i' j' k' hw c hc
    have cA := clr A a i' j' k' (by omega) (by omega) (by omega)
    have cB := clr B b (i' + ox) (j' + oy) (k' + oz) (by omega) (by omega) (by omega)
    exact ⟨cA.1.trans (e1.trans cB.1.symm), cA.2.trans (e2.trans cB.2.symm), e3⟩
  · have ha : a.step0 = false := by simpa using h0
    exact step_started hr ha (hf ▸ ha) hal h

/-! ### C128 -/

/-- **C128 (same treatment of currents).** Two models (grids of any size, boundary names, materials) with the same time step, of which the cells within `N` cells of a place are inner cells of the
same widths and materials: if two runs start with the same fields there, and the assignments made before step `m` keep the fields equal within `N - m` cells, the fields at the place are the
same after `N` steps.  The size of the domain, the boundary conditions and what else is in the domain do not matter before the signal has come back.  Both models have conductivity (a PML
face or a conductive material) or none has. -/
theorem C128_out_of_reach_partial (hdt : A.dt = B.dt) (hcond : A.solver.useConductivity = B.solver.useConductivity) {N : ℕ} {S1 D1 S2 D2 : ℕ → State K} (r1 : Runs A.solver N S1 D1)
    (r2 : Runs B.solver N S2 D2) (h0 : (S1 0).step0 = (S2 0).step0) {i j k : ℕ}
    (hal : ∀ i' j' k', Within N i j k i' j' k' → Alike A B ox oy oz i' j' k') (hstart : ∀ i' j' k', Within N i j k i' j' k' → Equal A B ox oy oz (S1 0) (S2 0) i' j' k')
    (hw : ∀ m < N, ∀ i' j' k', Within (N - m) i j k i' j' k' → Equal A B ox oy oz (S1 m) (S2 m) i' j' k' → Equal A B ox oy oz (D1 m) (D2 m) i' j' k') :
    Equal A B ox oy oz (S1 N) (S2 N) i j k := by
  have main : ∀ m ≤ N, (S1 m).step0 = (S2 m).step0 ∧ ∀ i' j' k', Within (N - m) i j k i' j' k' → Equal A B ox oy oz (S1 m) (S2 m) i' j' k' := by
    intro m
    induction m with
    | zero => intro _; exact ⟨h0, hstart⟩
    | succ m ih =>
      intro hm
      obtain ⟨f, p⟩ := ih (by omega)
      have hf : (D1 m).step0 = (D2 m).step0 := by rw [r1.flag m hm, r2.flag m hm, f]
      rw [r1.step m hm, r2.step m hm]
      refine ⟨by rw [oneStep_flag, oneStep_flag], fun i' j' k' b4 => ?_⟩
      have hD : ∀ i2 j2 k2, Within 1 i' j' k' i2 j2 k2 → Equal A B ox oy oz (D1 m) (D2 m) i2 j2 k2 := fun i2 j2 k2 c4 => by
        have hwin : Within (N - m) i j k i2 j2 k2 := by unfold Within at *; omega
        exact hw m hm i2 j2 k2 hwin (p i2 j2 k2 hwin)
      have e := step_any hdt hf (fun i2 j2 k2 c4 => hal i2 j2 k2 (by unfold Within at *; omega)) hD
      have hA := hal i' j' k' (by unfold Within at *; omega)
      intro c hc
      refine ⟨(e c hc).1, (e c hc).2, ?_⟩
      rw [step_J, step_J, hcond, (e c hc).1, show A.solver.sigma (A.at c i' j' k') = _ from hA.sigma c hc, (hD i' j' k' (by unfold Within; omega) c hc).2.2]
      rfl
  exact (main N le_rfl).2 i j k (by unfold Within; omega)

/-- **C128 (driven currents).** The same with any boundary conditions, PML included, on one side only: if the cells are not conductive, and there are cells (`P`) whose current is set before every step
to the same values in both runs, all other currents being zero and never assigned (a beam; dipoles and pulses on J), then E and H are the same after `N` steps. -/
theorem C128_driven_currents (hdt : A.dt = B.dt) {N : ℕ} {S1 D1 S2 D2 : ℕ → State K} (r1 : Runs A.solver N S1 D1) (r2 : Runs B.solver N S2 D2) (h0 : (S1 0).step0 = (S2 0).step0) {i j k : ℕ}
    (hal : ∀ i' j' k', Within N i j k i' j' k' → Alike A B ox oy oz i' j' k') (hsig : ∀ i' j' k', Within N i j k i' j' k' → ∀ c < 3, A.sigma (A.at c i' j' k') = 0)
    (hstart : ∀ i' j' k', Within N i j k i' j' k' → EqualEH A B ox oy oz (S1 0) (S2 0) i' j' k') (P : ℕ → ℕ → ℕ → ℕ → Prop)
    (hJ0 : ∀ i' j' k', Within N i j k i' j' k' → ∀ c < 3, ¬ P c i' j' k' → (S1 0).J (A.at c i' j' k') = 0 ∧ (S2 0).J (B.at c (i' + ox) (j' + oy) (k' + oz)) = 0)
    (hEH : ∀ m < N, ∀ i' j' k', Within (N - m) i j k i' j' k' → EqualEH A B ox oy oz (S1 m) (S2 m) i' j' k' → EqualEH A B ox oy oz (D1 m) (D2 m) i' j' k')
    (hdrive : ∀ m < N, ∀ i' j' k', Within (N - m) i j k i' j' k' → ∀ c < 3, P c i' j' k' → (D1 m).J (A.at c i' j' k') = (D2 m).J (B.at c (i' + ox) (j' + oy) (k' + oz)))
    (hkeep : ∀ m < N, ∀ i' j' k', Within (N - m) i j k i' j' k' → ∀ c < 3, ¬ P c i' j' k' → (D1 m).J (A.at c i' j' k') = (S1 m).J (A.at c i' j' k') ∧
      (D2 m).J (B.at c (i' + ox) (j' + oy) (k' + oz)) = (S2 m).J (B.at c (i' + ox) (j' + oy) (k' + oz))) :
    EqualEH A B ox oy oz (S1 N) (S2 N) i j k := by
  have main : ∀ m ≤ N, (S1 m).step0 = (S2 m).step0 ∧ ∀ i' j' k', Within (N - m) i j k i' j' k' → EqualEH A B ox oy oz (S1 m) (S2 m) i' j' k' ∧
      ∀ c < 3, ¬ P c i' j' k' → (S1 m).J (A.at c i' j' k') = 0 ∧ (S2 m).J (B.at c (i' + ox) (j' + oy) (k' + oz)) = 0 := by
    intro m
    induction m with
    | zero => intro _; exact ⟨h0, fun i' j' k' hw => ⟨hstart i' j' k' hw, hJ0 i' j' k' hw⟩⟩
    | succ m ih =>
      intro hm
      obtain ⟨f, p⟩ := ih (by omega)
      have hf : (D1 m).step0 = (D2 m).step0 := by rw [r1.flag m hm, r2.flag m hm, f]
      rw [r1.step m hm, r2.step m hm]
      refine ⟨by rw [oneStep_flag, oneStep_flag], fun i' j' k' b4 => ?_⟩
      have hD : ∀ i2 j2 k2, Within 1 i' j' k' i2 j2 k2 → Equal A B ox oy oz (D1 m) (D2 m) i2 j2 k2 := fun i2 j2 k2 c4 c hc => by
        have hwin : Within (N - m) i j k i2 j2 k2 := by unfold Within at *; omega
        obtain ⟨pe, pj⟩ := p i2 j2 k2 hwin
        have de := hEH m hm i2 j2 k2 hwin pe c hc
        refine ⟨de.1, de.2, ?_⟩
        by_cases hP : P c i2 j2 k2
        · exact hdrive m hm i2 j2 k2 hwin c hc hP
        · obtain ⟨k1, k2⟩ := hkeep m hm i2 j2 k2 hwin c hc hP
          rw [k1, k2, (pj c hc hP).1, (pj c hc hP).2]
      have hN : Within N i j k i' j' k' := by unfold Within at *; omega
      have hm1 : Within (N - m) i j k i' j' k' := by unfold Within at *; omega
      have hA := hal i' j' k' hN
      refine ⟨step_any hdt hf (fun i2 j2 k2 c4 => hal i2 j2 k2 (by unfold Within at *; omega)) hD, fun c hc hP => ?_⟩
      obtain ⟨k1, k2⟩ := hkeep m hm i' j' k' hm1 c hc hP
      obtain ⟨z1, z2⟩ := (p i' j' k' hm1).2 c hc hP
      have s1 := hsig i' j' k' hN c hc
      have s2 : B.sigma (B.at c (i' + ox) (j' + oy) (k' + oz)) = 0 := (hA.sigma c hc).symm.trans s1
      rw [step_J, step_J, k1, k2, z1, z2, show A.solver.sigma (A.at c i' j' k') = 0 from s1, show B.solver.sigma (B.at c (i' + ox) (j' + oy) (k' + oz)) = 0 from s2, zero_mul, zero_mul, ite_self, ite_self]
      exact ⟨rfl, rfl⟩
  exact ((main N le_rfl).2 i j k (by unfold Within; omega)).1

/-- The property in full, for two models and a place: with all assignments of the same values. -/
def OutOfReach (A B : Model K) (ox oy oz : ℕ) : Prop :=
  ∀ (N i j k : ℕ) (S1 D1 S2 D2 : ℕ → State K), Runs A.solver N S1 D1 → Runs B.solver N S2 D2 → (S1 0).step0 = (S2 0).step0 →
    (∀ i' j' k', Within N i j k i' j' k' → Alike A B ox oy oz i' j' k') → (∀ i' j' k', Within N i j k i' j' k' → Equal A B ox oy oz (S1 0) (S2 0) i' j' k') →
    (∀ m < N, ∀ i' j' k', Within (N - m) i j k i' j' k' → Equal A B ox oy oz (S1 m) (S2 m) i' j' k' → Equal A B ox oy oz (D1 m) (D2 m) i' j' k') → Equal A B ox oy oz (S1 N) (S2 N) i j k

/-- **C128 (refuted for a current assigned once).** A PML face (or a conductive material) anywhere in one of the models changes, within a single step and at any distance, a current that was
assigned once: without it the current stays, with it the current is gone.  For all models with at least seven cells along each axis and the same cells. -/
theorem C128_current_refuted (hA : A.solver.useConductivity = false) (hB : B.solver.useConductivity = true) {i j k : ℕ} (hal : ∀ i' j' k', Within 1 i j k i' j' k' → Alike A B ox oy oz i' j' k')
    (hs : B.sigma (B.at 0 (i + ox) (j + oy) (k + oz)) = 0) : ¬ OutOfReach A B ox oy oz := by
  intro H
  let a : State K := ⟨fun _ => 0, fun _ => 0, fun _ => 1, false⟩
  let S : Model K → ℕ → State K := fun M n => (oneStep M.solver)^[n] a
  have run : ∀ M : Model K, Runs M.solver 1 (S M) (S M) := fun M => ⟨fun m _ => Function.iterate_succ_apply' .., fun _ _ => rfl⟩
  have h := (H 1 i j k (S A) (S A) (S B) (S B) (run A) (run B) rfl hal (fun _ _ _ _ _ _ => ⟨rfl, rfl, rfl⟩) (fun _ _ _ _ _ _ h => h) 0 (by decide)).2.2
  have e1 : (S A 1).J (A.at 0 i j k) = 1 := by
    show (oneStep A.solver a).J _ = 1
    rw [step_J, hA]
    rfl
  have e2 : (S B 1).J (B.at 0 (i + ox) (j + oy) (k + oz)) = 0 := by
    show (oneStep B.solver a).J _ = 0
    rw [step_J, hB, if_pos rfl, show B.solver.sigma _ = 0 from hs, zero_mul]
  rw [e1, e2] at h
  exact one_ne_zero h

/-! ### A concrete case -/

/-- A small closed box. -/
def boxA : Model ℚ := ⟨7, 7, 7, fun i => i, fun i => i, fun i => i, ⟨"pec", "pec", "pec", "pec", "pec", "pec"⟩, fun _ => 1, fun _ => 1, fun _ => 0, 1 / 2, false⟩

/-- A larger box with an absorbing layer, with another material and other cells outside the part it shares with `boxA`. -/
def boxB : Model ℚ := ⟨12, 12, 12, fun i => if i < 3 then 7 * i else 18 + i, fun i => i, fun i => i, ⟨"pml", "pml", "pec", "open", "pmc", "pec"⟩,
  fun q => if q % 12 < 3 then 5 else 1, fun _ => 1, fun _ => 0, 1 / 2, false⟩

theorem boxes_alike : ∀ i' j' k', Within 1 3 3 3 i' j' k' → Alike boxA boxB 3 3 3 i' j' k' := by
  intro i j k h
  obtain ⟨⟨h1, h2⟩, ⟨h3, h4⟩, ⟨h5, h6⟩⟩ := h
  refine ⟨?_, ?_, ?_, ?_, ?_, fun c hc => ?_, fun c hc => rfl, fun c hc => rfl⟩
  · show (2 ≤ i ∧ i + 3 ≤ 7) ∧ (2 ≤ j ∧ j + 3 ≤ 7) ∧ (2 ≤ k ∧ k + 3 ≤ 7); omega
  · show (2 ≤ i + 3 ∧ i + 3 + 3 ≤ 12) ∧ (2 ≤ j + 3 ∧ j + 3 + 3 ≤ 12) ∧ (2 ≤ k + 3 ∧ k + 3 + 3 ≤ 12); omega
  · show ((i + 1 : ℕ) : ℚ) - (i : ℚ) = (if i + 3 + 1 < 3 then 7 * ((i + 3 + 1 : ℕ) : ℚ) else 18 + ((i + 3 + 1 : ℕ) : ℚ)) - (if i + 3 < 3 then 7 * ((i + 3 : ℕ) : ℚ) else 18 + ((i + 3 : ℕ) : ℚ))
    rw [if_neg (by omega), if_neg (by omega)]
    push_cast
    ring
  · show ((j + 1 : ℕ) : ℚ) - (j : ℚ) = ((j + 3 + 1 : ℕ) : ℚ) - ((j + 3 : ℕ) : ℚ)
    push_cast
    ring
  · show ((k + 1 : ℕ) : ℚ) - (k : ℚ) = ((k + 3 + 1 : ℕ) : ℚ) - ((k + 3 : ℕ) : ℚ)
    push_cast
    ring
  · show (1 : ℚ) = if pos 12 12 12 c (i + 3) (j + 3) (k + 3) % 12 < 3 then 5 else 1
    rw [if_neg]
    unfold pos fl
    omega

/-- The hypotheses of both theorems and of the refutation are met. -/
example : boxA.dt = boxB.dt ∧ (∀ i' j' k', Within 1 3 3 3 i' j' k' → Alike boxA boxB 3 3 3 i' j' k') ∧ boxA.solver.useConductivity = false ∧ boxB.solver.useConductivity = true ∧
    ¬ OutOfReach boxA boxB 3 3 3 := by
  have hA : boxA.solver.useConductivity = false := by
    show (anyFace isPml boxA.bc || false) = false
    decide
  have hB : boxB.solver.useConductivity = true := by
    show (anyFace isPml boxB.bc || false) = true
    decide
  exact ⟨rfl, boxes_alike, hA, hB, C128_current_refuted hA hB boxes_alike rfl⟩

end Sol
end Wakis
