import Verif.GridProps
import Verif.GridIO
import Verif.MaterialModel

/-!
# C79: which cells belong to a solid (`_mark_cells_in_stl`); C80: default colours (`_assign_colors`), `wakis/gridFIT3D.py`

The geometry test of VTK is a parameter: `enclosed tol p` says whether `select_enclosed_points` with tolerance `tol` selects the point `p`.  The value VTK gives a cell from the marks of
its eight corners is a parameter too: `avg c` for `c` selected corners (the exact mean `c/8`, or the mean rounded to an integer, depending on the VTK version).
-/

namespace Wakis
namespace Grid
variable {K : Type _} [Field K] [LinearOrder K]

/-- `np.min` of the entries `0..n`. -/
def minTo (f : ℕ → K) : ℕ → K
  | 0 => f 0
  | n + 1 => min (minTo f n) (f (n + 1))

/-- gridFIT3D.py:455-457: the smallest cell length times `stl_tol`; `np.min` of an empty array raises. -/
def stlTolerance (Nx Ny Nz : ℕ) (x y z : ℕ → K) (stlTol : K) : Py K :=
  if Nx = 0 ∨ Ny = 0 ∨ Nz = 0 then .error .valueError
  else .ok (min (min (minTo (fun i => x (i + 1) - x i) (Nx - 1)) (minTo (fun i => y (i + 1) - y i) (Ny - 1))) (minTo (fun i => z (i + 1) - z i) (Nz - 1)) * stlTol)

/-- The eight corners of a cell. -/
def cellCorners (x y z : ℕ → K) (i j k : ℕ) : List (K × K × K) :=
  [(x i, y j, z k), (x (i + 1), y j, z k), (x i, y (j + 1), z k), (x (i + 1), y (j + 1), z k),
    (x i, y j, z (k + 1)), (x (i + 1), y j, z (k + 1)), (x i, y (j + 1), z (k + 1)), (x (i + 1), y (j + 1), z (k + 1))]

/-- gridFIT3D.py:448-492 `_mark_cells_in_stl` for one solid: `select.point_data_to_cell_data()["SelectedPoints"] > stl_tolerance`. -/
def markCells (avg : ℕ → K) (enclosed : K → K × K × K → Bool) (Nx Ny Nz : ℕ) (x y z : ℕ → K) (stlTol : K) : Py (ℕ → ℕ → ℕ → Bool) := do
  let tol ← stlTolerance Nx Ny Nz x y z stlTol
  return fun i j k => decide (tol < avg ((cellCorners x y z i j k).countP (enclosed tol)))

/-! ### Specification -/

/-- What a cell value must satisfy: none selected is zero, all selected is one, more selected corners do not lower it. -/
def CellMean (avg : ℕ → K) : Prop := avg 0 = 0 ∧ avg 8 = 1 ∧ Monotone avg

/-- A point is a corner of a cell: on each axis it is one of the two nodes of the cell. -/
def Corner (x y z : ℕ → K) (i j k : ℕ) (p : K × K × K) : Prop :=
  (p.1 = x i ∨ p.1 = x (i + 1)) ∧ (p.2.1 = y j ∨ p.2.1 = y (j + 1)) ∧ (p.2.2 = z k ∨ p.2.2 = z (k + 1))

/-- The exact mean. -/
def exactMean (c : ℕ) : K := (c : K) / 8

/-- The smallest cell length. -/
def Smallest (Nx Ny Nz : ℕ) (x y z : ℕ → K) (d : K) : Prop :=
  (∀ i < Nx, d ≤ x (i + 1) - x i) ∧ (∀ i < Ny, d ≤ y (i + 1) - y i) ∧ (∀ i < Nz, d ≤ z (i + 1) - z i) ∧
  ((∃ i < Nx, d = x (i + 1) - x i) ∨ (∃ i < Ny, d = y (i + 1) - y i) ∨ (∃ i < Nz, d = z (i + 1) - z i))

/-! ### Lemmas -/

omit [Field K] in
theorem minTo_le (f : ℕ → K) (n : ℕ) : ∀ i ≤ n, minTo f n ≤ f i := by
  induction n with
  | zero => intro i hi; rw [Nat.le_zero.1 hi]; exact le_rfl
  | succ n ih =>
    intro i hi
    rcases Nat.lt_or_ge i (n + 1) with h | h
    · exact (min_le_left _ _).trans (ih i (by omega))
    · rw [show i = n + 1 by omega]; exact min_le_right _ _

omit [Field K] in
theorem minTo_mem (f : ℕ → K) (n : ℕ) : ∃ i ≤ n, minTo f n = f i := by
  induction n with
  | zero => exact ⟨0, le_rfl, rfl⟩
  | succ n ih =>
    rcases min_choice (minTo f n) (f (n + 1)) with h | h
    · obtain ⟨i, hi, e⟩ := ih
      exact ⟨i, by omega, by rw [minTo, h, e]⟩
    · exact ⟨n + 1, le_rfl, h⟩

omit [Field K] in
theorem minTo_const (f : ℕ → K) (n : ℕ) (c : K) (h : ∀ i ≤ n, f i = c) : minTo f n = c := by
  obtain ⟨i, hi, e⟩ := minTo_mem f n
  rw [e, h i hi]

theorem stlTolerance_spec {Nx Ny Nz : ℕ} {x y z : ℕ → K} (stlTol : K) (hx : 0 < Nx) (hy : 0 < Ny) (hz : 0 < Nz) :
    ∃ d, Smallest Nx Ny Nz x y z d ∧ stlTolerance Nx Ny Nz x y z stlTol = .ok (d * stlTol) := by
  refine ⟨_, ⟨?_, ?_, ?_, ?_⟩, by unfold stlTolerance; rw [if_neg (by omega)]⟩
  · intro i hi
    exact ((min_le_left _ _).trans (min_le_left _ _)).trans (minTo_le (fun i => x (i + 1) - x i) (Nx - 1) i (by omega))
  · intro i hi
    exact ((min_le_left _ _).trans (min_le_right _ _)).trans (minTo_le (fun i => y (i + 1) - y i) (Ny - 1) i (by omega))
  · intro i hi
    exact (min_le_right _ _).trans (minTo_le (fun i => z (i + 1) - z i) (Nz - 1) i (by omega))
  · obtain ⟨a, ha, ea⟩ := minTo_mem (fun i => x (i + 1) - x i) (Nx - 1)
    obtain ⟨b, hb, eb⟩ := minTo_mem (fun i => y (i + 1) - y i) (Ny - 1)
    obtain ⟨c, hc, ec⟩ := minTo_mem (fun i => z (i + 1) - z i) (Nz - 1)
    rcases min_choice (min (minTo (fun i => x (i + 1) - x i) (Nx - 1)) (minTo (fun i => y (i + 1) - y i) (Ny - 1))) (minTo (fun i => z (i + 1) - z i) (Nz - 1)) with h | h
    · rcases min_choice (minTo (fun i => x (i + 1) - x i) (Nx - 1)) (minTo (fun i => y (i + 1) - y i) (Ny - 1)) with h' | h'
      · exact .inl ⟨a, by omega, by rw [h, h', ea]⟩
      · exact .inr (.inl ⟨b, by omega, by rw [h, h', eb]⟩)
    · exact .inr (.inr ⟨c, by omega, by rw [h, ec]⟩)

/-- The mask of a solid, from the tolerance. -/
theorem markCells_eq (avg : ℕ → K) (enclosed : K → K × K × K → Bool) {Nx Ny Nz : ℕ} {x y z : ℕ → K} {stlTol tol : K} (h : stlTolerance Nx Ny Nz x y z stlTol = .ok tol) :
    markCells avg enclosed Nx Ny Nz x y z stlTol = .ok fun i j k => decide (tol < avg ((cellCorners x y z i j k).countP (enclosed tol))) := by
  unfold markCells; rw [h]; rfl

omit [LinearOrder K] [Field K] in
theorem mem_cellCorners {x y z : ℕ → K} {i j k : ℕ} {p : K × K × K} : p ∈ cellCorners x y z i j k ↔ Corner x y z i j k p := by
  obtain ⟨a, b, c⟩ := p
  simp only [cellCorners, Corner, List.mem_cons, List.not_mem_nil, or_false, Prod.mk.injEq]
  tauto

/-! ### Theorems -/

/-- **C79 (partial: VTK's geometry test is a parameter, small tolerance).** Let `d` be the smallest cell length.  If `d * stl_tol` is not negative and less than one, a cell all of whose
corners are inside the solid is marked and a cell none of whose corners is inside is not; with exact means and `d * stl_tol < 1/8`, a cell is marked exactly when at least one of its
corners is inside. -/
theorem C79_mask_partial {avg : ℕ → K} (ha : CellMean avg) (enclosed : K → K × K × K → Bool) {Nx Ny Nz : ℕ} {x y z : ℕ → K} {stlTol : K} [IsStrictOrderedRing K] (hx : 0 < Nx)
    (hy : 0 < Ny) (hz : 0 < Nz) : ∃ d, Smallest Nx Ny Nz x y z d ∧ ∃ mask, markCells avg enclosed Nx Ny Nz x y z stlTol = .ok mask ∧ (0 ≤ d * stlTol → d * stlTol < 1 →
      ∀ i j k, ((∀ p, Corner x y z i j k p → enclosed (d * stlTol) p = true) → mask i j k = true) ∧
        ((∀ p, Corner x y z i j k p → enclosed (d * stlTol) p = false) → mask i j k = false) ∧
        (avg = exactMean → d * stlTol < 1 / 8 → (mask i j k = true ↔ ∃ p, Corner x y z i j k p ∧ enclosed (d * stlTol) p = true))) := by
  obtain ⟨d, hd, ht⟩ := stlTolerance_spec (x := x) (y := y) (z := z) stlTol hx hy hz
  refine ⟨d, hd, _, markCells_eq avg enclosed ht, ?_⟩
  intro h0 h1 i j k
  simp only [← mem_cellCorners]
  have hnone : (∀ p ∈ cellCorners x y z i j k, enclosed (d * stlTol) p = false) → decide (d * stlTol < avg ((cellCorners x y z i j k).countP (enclosed (d * stlTol)))) = false := by
    intro h
    rw [List.countP_eq_zero.2 (fun p hp => by rw [h p hp]; exact Bool.false_ne_true), ha.1]
    exact decide_eq_false (not_lt.2 h0)
  refine ⟨?_, hnone, ?_⟩
  · intro h
    rw [List.countP_eq_length.2 (fun p hp => h p hp)]
    show decide (d * stlTol < avg 8) = true
    rw [ha.2.1]
    exact decide_eq_true h1
  · intro he h8
    constructor
    · intro hm
      by_contra hno
      push Not at hno
      have := hnone fun p hp => by simpa using hno p hp
      rw [this] at hm
      exact Bool.false_ne_true hm
    · rintro ⟨p, hp, he'⟩
      have hpos : 0 < (cellCorners x y z i j k).countP (enclosed (d * stlTol)) := List.countP_pos_iff.2 ⟨p, hp, he'⟩
      refine decide_eq_true (h8.trans_le ?_)
      rw [he, exactMean]
      have : (1 : K) ≤ ((cellCorners x y z i j k).countP (enclosed (d * stlTol)) : ℕ) := by exact_mod_cast hpos
      linarith

/-- **C79 (larger solids mark more cells).** If every point inside one solid is inside another, every cell marked for the first is marked for the second. -/
theorem C79_monotone {avg : ℕ → K} (ha : CellMean avg) {small large : K → K × K × K → Bool} (hsub : ∀ tol p, small tol p = true → large tol p = true) {Nx Ny Nz : ℕ} {x y z : ℕ → K}
    {stlTol : K} {m1 m2 : ℕ → ℕ → ℕ → Bool} (h1 : markCells avg small Nx Ny Nz x y z stlTol = .ok m1) (h2 : markCells avg large Nx Ny Nz x y z stlTol = .ok m2) (i j k : ℕ)
    (hm : m1 i j k = true) : m2 i j k = true := by
  cases ht : stlTolerance Nx Ny Nz x y z stlTol with
  | error e => unfold markCells at h1; rw [ht] at h1; cases h1
  | ok tol =>
    rw [markCells_eq _ _ ht] at h1 h2
    cases h1; cases h2
    simp only [decide_eq_true_eq] at hm ⊢
    exact hm.trans_le (ha.2.2 (List.countP_mono_left fun p _ hp => hsub tol p hp))

/-- **C79 (refuted: independence of the unit).** The mark, a number between 0 and 1, is compared with a length: if the smallest cell length times `stl_tol` is one or more in the unit
used, no cell of any solid is marked. -/
theorem C79_unit_refuted {avg : ℕ → K} (ha : CellMean avg) (enclosed : K → K × K × K → Bool) {Nx Ny Nz : ℕ} {x y z : ℕ → K} {stlTol : K} (hx : 0 < Nx) (hy : 0 < Ny) (hz : 0 < Nz)
    (hbig : ∀ d, Smallest Nx Ny Nz x y z d → 1 ≤ d * stlTol) : ∃ mask, markCells avg enclosed Nx Ny Nz x y z stlTol = .ok mask ∧ ∀ i j k, mask i j k = false := by
  obtain ⟨d, hd, ht⟩ := stlTolerance_spec (x := x) (y := y) (z := z) stlTol hx hy hz
  refine ⟨_, markCells_eq avg enclosed ht, fun i j k => decide_eq_false (not_lt.2 ?_)⟩
  have hle : (cellCorners x y z i j k).countP (enclosed (d * stlTol)) ≤ 8 := List.countP_le_length
  calc _ ≤ avg 8 := ha.2.2 hle
    _ = 1 := ha.2.1
    _ ≤ _ := hbig d hd

/-- **C79 (refuted: thin solids).** A solid that contains no node of the grid marks no cell, whatever its volume. -/
theorem C79_thin_refuted {avg : ℕ → K} (ha : CellMean avg) (enclosed : K → K × K × K → Bool) {Nx Ny Nz : ℕ} {x y z : ℕ → K} {stlTol : K}
    (hno : ∀ tol i j k, i ≤ Nx → j ≤ Ny → k ≤ Nz → enclosed tol (x i, y j, z k) = false) (h0 : ∀ d, Smallest Nx Ny Nz x y z d → 0 ≤ d * stlTol) (hx : 0 < Nx) (hy : 0 < Ny)
    (hz : 0 < Nz) : ∃ mask, markCells avg enclosed Nx Ny Nz x y z stlTol = .ok mask ∧ ∀ i j k, i < Nx → j < Ny → k < Nz → mask i j k = false := by
  obtain ⟨d, hd, ht⟩ := stlTolerance_spec (x := x) (y := y) (z := z) stlTol hx hy hz
  refine ⟨_, markCells_eq avg enclosed ht, fun i j k hi hj hk => decide_eq_false (not_lt.2 ?_)⟩
  rw [List.countP_eq_zero.2, ha.1]
  · exact h0 d hd
  · intro p hp
    simp only [cellCorners, List.mem_cons, List.not_mem_nil, or_false] at hp
    rcases hp with rfl | rfl | rfl | rfl | rfl | rfl | rfl | rfl <;>
      (rw [hno _ _ _ _ (by omega) (by omega) (by omega)]; exact Bool.false_ne_true)

/-- **C79 (MPI).** With two or more ranks, the mask a rank computes for a solid is the mask of the grid of the whole domain at the same place, for every local layer, ghosts included. -/
theorem C79_mpi [CharZero K] (avg : ℕ → K) (enclosed : K → K × K × K → Bool) {rank size Nx Ny Nz : ℕ} (x y : ℕ → K) (zmin zmax stlTol : K) (hs : 2 ≤ size) (hr : rank < size)
    (hle : size ≤ Nz) (hx : 0 < Nx) (hy : 0 < Ny) : ∃ m : MpiZ K, mpiInitialize rank size Nz zmin zmax = .ok m ∧ ∃ mask whole,
      markCells avg enclosed Nx Ny m.Nz x y m.z stlTol = .ok mask ∧ markCells avg enclosed Nx Ny m.NZ x y (linspace zmin zmax m.NZ) stlTol = .ok whole ∧
      ∀ i j, ∀ l < m.Nz, mask i j l = whole i j (rank * (m.NZ / size) + l - ghostLo rank) := by
  obtain ⟨m, hm1, hm2, hm3, hm4, hm5, hm6, hm7⟩ := C12_local_grid (rank := rank) (size := size) (Nz := Nz) zmin zmax (by omega) hr hle
  have hNZ : 0 < m.NZ := by
    rcases Nat.eq_zero_or_pos m.NZ with h | h
    · rw [h] at hm5; simp at hm5
    · exact h
  have hNZ' : (m.NZ : K) ≠ 0 := by exact_mod_cast hNZ.ne'
  have hNz : 0 < m.Nz := by omega
  have lin : ∀ g ≤ m.NZ, linspace zmin zmax m.NZ g = zmin + g * ((zmax - zmin) / m.NZ) := by
    intro g hg
    unfold linspace
    split_ifs with hh
    · rw [hh.1, mul_div_cancel₀ _ hNZ']; ring
    · rfl
  have hloc : minTo (fun i => m.z (i + 1) - m.z i) (m.Nz - 1) = (zmax - zmin) / m.NZ := by
    refine minTo_const _ _ _ fun i hi => ?_
    rw [hm7 _ (by omega), hm7 _ (by omega)]; push_cast; ring
  have hglob : minTo (fun i => linspace zmin zmax m.NZ (i + 1) - linspace zmin zmax m.NZ i) (m.NZ - 1) = (zmax - zmin) / m.NZ := by
    refine minTo_const _ _ _ fun i hi => ?_
    rw [lin _ (by omega), lin _ (by omega)]; push_cast; ring
  have hst : stlTolerance Nx Ny m.Nz x y m.z stlTol = stlTolerance Nx Ny m.NZ x y (linspace zmin zmax m.NZ) stlTol := by
    unfold stlTolerance
    rw [if_neg (by omega), if_neg (by omega), hloc, hglob]
  obtain ⟨d, hd, ht⟩ := stlTolerance_spec (x := x) (y := y) (z := linspace zmin zmax m.NZ) stlTol hx hy hNZ
  refine ⟨m, hm1, _, _, markCells_eq avg enclosed (hst.trans ht), markCells_eq avg enclosed ht, ?_⟩
  intro i j l hl
  obtain ⟨hg1, hg2⟩ := C12_ghosts_inside hs hr hm2 hNZ (hm6 ▸ hl)
  have hnode : ∀ e ≤ 1, m.z (l + e) = linspace zmin zmax m.NZ (rank * (m.NZ / size) + l - ghostLo rank + e) := by
    intro e he
    rw [hm7 _ (by omega), lin _ (by omega)]
    have : ((rank * (m.NZ / size) + l - ghostLo rank + e : ℕ) : K) = (rank * (m.NZ / size) + (l + e) : ℕ) - (ghostLo rank : K) := by
      push_cast [Nat.cast_sub hg1]; ring
    rw [this]
  have hz0 := hnode 0 (by omega)
  have hz1 := hnode 1 (by omega)
  rw [Nat.add_zero, Nat.add_zero] at hz0
  have hc : cellCorners x y m.z i j l = cellCorners x y (linspace zmin zmax m.NZ) i j (rank * (m.NZ / size) + l - ghostLo rank) := by
    simp only [cellCorners, hz0, hz1]
  beta_reduce
  rw [hc]

/-- The exact mean and the mean rounded half up (four or more corners) are cell means. -/
theorem exactMean_mean [IsStrictOrderedRing K] : CellMean (exactMean : ℕ → K) := by
  refine ⟨by simp [exactMean], by norm_num [exactMean], fun a b h => ?_⟩
  have : (a : K) ≤ b := by exact_mod_cast h
  unfold exactMean
  linarith

theorem roundedMean_mean [IsStrictOrderedRing K] : CellMean (fun c => if 4 ≤ c then (1 : K) else 0) := by
  refine ⟨by simp, by simp, fun a b h => ?_⟩
  simp only
  split_ifs with h1 h2
  · exact le_rfl
  · omega
  · exact zero_le_one
  · exact le_rfl

/-- A block `0.5 < x < 2.5` in a grid of unit cells: the cells with a corner at 1 or 2 are marked. -/
def demoBlock : ℚ → ℚ × ℚ × ℚ → Bool := fun _ p => decide (1/2 < p.1 ∧ p.1 < 5/2)

example : ∃ mask, markCells exactMean demoBlock 4 1 1 (fun i => (i : ℚ)) (fun i => (i : ℚ)) (fun i => (i : ℚ)) (1/1000) = .ok mask ∧
    (List.range 4).map (fun i => mask i 0 0) = [true, true, true, false] := ⟨_, rfl, by decide +kernel⟩
/-- The same block in millimetre-like units with cells of length 1000: nothing. -/
example : ∃ mask, markCells exactMean (fun _ p => decide (500 < p.1 ∧ p.1 < 2500)) 4 1 1 (fun i => 1000 * (i : ℚ)) (fun i => 1000 * (i : ℚ)) (fun i => 1000 * (i : ℚ)) (1/1000) =
    .ok mask ∧ (List.range 4).map (fun i => mask i 0 0) = [false, false, false, false] := ⟨_, rfl, by decide +kernel⟩
/-- A plate between two nodes: nothing. -/
example : ∃ mask, markCells exactMean (fun _ p => decide (1/4 < p.1 ∧ p.1 < 3/4)) 4 1 1 (fun i => (i : ℚ)) (fun i => (i : ℚ)) (fun i => (i : ℚ)) (1/1000) = .ok mask ∧
    (List.range 4).map (fun i => mask i 0 0) = [false, false, false, false] := ⟨_, rfl, by decide +kernel⟩

/-! ### C80: default colours -/

/-- A relative permittivity as the user wrote it: a number, the object `np.inf` of the material library, or another infinite float (`float("inf")`). -/
inductive EpsArg (K : Type _)
  | num (v : K)
  | npInf
  | otherInf

/-- A material as the user wrote it: a name, or a list whose first entry is `eps` and whose length is `len`. -/
inductive MatArg (K : Type _)
  | name (s : String)
  | vals (eps : EpsArg K) (len : ℕ)

/-- The keys of materials.py:35-45 `material_colors`. -/
def colourKeys : List String := ["pec", "vacuum", "dielectric", "lossy metal", "copper", "berillium", "stainless steel", "martensite", "other"]

/-- gridFIT3D.py:790-806: the entry of `material_colors` used for a material.  `mat[0] is np.inf` compares objects. -/
def colourKey (m : MatArg K) : String :=
  match m with
  | .name s => if s ∈ colourKeys then s else "other"
  | .vals eps len =>
    if len = 2 then
      match eps with
      | .npInf => "pec"
      | .otherInf => "dielectric"
      | .num v => if 1 < v then "dielectric" else "vacuum"
    else if len = 3 then "lossy metal" else "other"

/-- **C80 (partial: names in lower case).** A name of the material library written in lower case gets the colour entry of that name; any name without an entry gets the entry `"other"`. -/
theorem C80_names_partial (s : String) : (s ∈ colourKeys → colourKey (.name s : MatArg K) = s) ∧ (s ∉ colourKeys → colourKey (.name s : MatArg K) = "other") :=
  ⟨fun h => if_pos h, fun h => if_neg h⟩

omit [LinearOrder K] in
/-- **C80 (the library has colours).** Every material of the library has a colour entry. -/
theorem C80_library (s : String) {m : Sol.Material K} (h : Sol.materialLib s = some m) : s ∈ colourKeys := by
  unfold Sol.materialLib at h
  simp only [colourKeys, List.mem_cons, List.not_mem_nil, or_false]
  split_ifs at h <;> tauto

/-- **C80 (values).** Lists: two entries with `np.inf` are shown as a perfect conductor, with a permittivity above one as a dielectric, otherwise as vacuum; three entries as a lossy metal. -/
theorem C80_values (v : K) : colourKey (.vals .npInf 2 : MatArg K) = "pec" ∧ (1 < v → colourKey (.vals (.num v) 2) = "dielectric") ∧
    (v ≤ 1 → colourKey (.vals (.num v) 2) = "vacuum") ∧ ∀ e : EpsArg K, colourKey (.vals e 3) = "lossy metal" := by
  refine ⟨rfl, fun h => ?_, fun h => ?_, fun e => rfl⟩
  · simp only [colourKey, if_true, if_pos h]
  · simp only [colourKey, if_true, if_neg (not_lt.2 h)]

/-- **C80 (refuted: names in capitals).** The solver takes `"PEC"` for the library material `"pec"`, the colours do not. -/
theorem C80_case_refuted : (Sol.materialLib (K := ℚ) (pyLower "PEC")).isSome = true ∧ colourKey (.name "PEC" : MatArg ℚ) = "other" ∧ colourKey (.name "pec" : MatArg ℚ) = "pec" := by
  decide +kernel

/-- **C80 (refuted: infinite permittivity).** An infinite permittivity that is not the object `np.inf` is shown as a dielectric. -/
theorem C80_inf_refuted : colourKey (.vals .otherInf 2 : MatArg ℚ) = "dielectric" := rfl

end Grid
end Wakis
