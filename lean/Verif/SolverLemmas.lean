import Verif.SolverModel

/-!
# Helper lemmas about the solver model
-/

namespace Wakis
namespace Sol
open Sparse Finset
variable {K : Type _} [Field K]

/-! ### operators -/

theorem opH_mulVec {n3 : ℕ} (iA imu L : Vec K) (C : Mat K) (e : Vec K) {i : ℕ} (hi : i < n3) :
    mulVec n3 (opH n3 iA imu C L) e i = iA i * imu i * mulVec n3 C (fun j => L j * e j) i := by
  unfold opH
  have h1 : ∀ j < n3, mmul n3 (mmul n3 (mmul n3 (diagM iA) (diagM imu)) C) (diagM L) i j =
      iA i * imu i * (C i j * L j) := by
    intro j hj
    rw [mmul_diag_right _ _ _ hj]
    have : mmul n3 (mmul n3 (diagM iA) (diagM imu)) C i j = mmul n3 (diagM fun i => iA i * imu i) C i j := by
      refine sum_congr rfl fun k hk => ?_
      rw [mmul_diag_left _ _ hi]
      unfold diagM
      split_ifs <;> simp
    rw [this, mmul_diag_left _ _ hi]
    ring
  unfold mulVec
  rw [mul_sum]
  refine sum_congr rfl fun j hj => ?_
  rw [h1 j (mem_range.1 hj)]
  ring

theorem opE_mulVec {n3 : ℕ} (ieps itA tL : Vec K) (C : Mat K) (h : Vec K) {i : ℕ} (hi : i < n3) :
    mulVec n3 (opE n3 ieps itA C tL) h i = ieps i * itA i * mulVec n3 (transpose C) (fun j => tL j * h j) i :=
  opH_mulVec ieps itA tL (transpose C) h hi

/-! ### boundary masks -/

/-- Column mask of the curl matrix (PEC branch). -/
def colMask (g : Grid.Geom K) (bc : Faces String) : Vec K :=
  if anyFace isPec bc then (bcMask g.Nx g.Ny g.Nz (pecFaces bc)).array else fun _ => 1

/-- Row mask of the curl matrix (PMC branch). -/
def rowMask (g : Grid.Geom K) (bc : Faces String) : Vec K :=
  if anyFace isPmcAny bc then (bcMask g.Nx g.Ny g.Nz (zeroWhere isPmcFace bc (pecFaces bc))).array
  else fun _ => 1

theorem applyBC_C (g : Grid.Geom K) (bc : Faces String) (C : Mat K) {r c : ℕ}
    (hr : r < 3 * (g.Nx * g.Ny * g.Nz)) (hc : c < 3 * (g.Nx * g.Ny * g.Nz)) :
    (applyBC g bc C).C r c = rowMask g bc r * (C r c * colMask g bc c) := by
  unfold applyBC rowMask colMask
  simp only [Fld.toarray]
  split_ifs
  · rw [mmul_diag_left _ _ hr, mmul_diag_right _ _ _ hc]
  · rw [mmul_diag_left _ _ hr]; ring
  · rw [mmul_diag_right _ _ _ hc]; ring
  · ring

theorem applyBC_mulVec (g : Grid.Geom K) (bc : Faces String) (C : Mat K) (v : Vec K) {r : ℕ}
    (hr : r < 3 * (g.Nx * g.Ny * g.Nz)) :
    mulVec (3 * (g.Nx * g.Ny * g.Nz)) (applyBC g bc C).C v r =
      rowMask g bc r * mulVec (3 * (g.Nx * g.Ny * g.Nz)) C (fun j => colMask g bc j * v j) r := by
  unfold mulVec
  rw [mul_sum]
  refine sum_congr rfl fun j hj => ?_
  rw [applyBC_C g bc C hr (mem_range.1 hj)]
  ring

theorem applyBC_transpose_mulVec (g : Grid.Geom K) (bc : Faces String) (C : Mat K) (v : Vec K) {r : ℕ}
    (hr : r < 3 * (g.Nx * g.Ny * g.Nz)) :
    mulVec (3 * (g.Nx * g.Ny * g.Nz)) (transpose (applyBC g bc C).C) v r =
      colMask g bc r * mulVec (3 * (g.Nx * g.Ny * g.Nz)) (transpose C) (fun j => rowMask g bc j * v j) r := by
  unfold mulVec
  rw [mul_sum]
  refine sum_congr rfl fun j hj => ?_
  simp only [transpose]
  rw [applyBC_C g bc C (mem_range.1 hj) hr]
  ring

/-! ### the stencil -/

/-- Component `c` of a flat array at flat cell `p`, zero beyond the last cell. -/
def ext (N : ℕ) (v : Vec K) (c p : ℕ) : K := if p < N then v (c * N + p) else 0

/-- Component `c` of a flat array at flat cell `p - off`, zero before the first cell. -/
def extB (N : ℕ) (v : Vec K) (c p off : ℕ) : K := if off ≤ p then v (c * N + (p - off)) else 0

section
variable {Nx Ny Nz p : ℕ}

theorem P_mulVec (hx : 0 < Nx) (hy : 0 < Ny) (axis : ℕ) (hp : p < Nx * Ny * Nz) (v : Vec K) (c : ℕ) :
    mulVec (Nx * Ny * Nz) (P Nx Ny axis) (fun q => v (c * (Nx * Ny * Nz) + q)) p =
      ext (Nx * Ny * Nz) v c (p + if axis = 0 then 1 else if axis = 1 then Nx else Nx * Ny)
        - ext (Nx * Ny * Nz) v c p := by
  unfold P
  have : 0 < (if axis = 0 then 1 else if axis = 1 then Nx else Nx * Ny) := by
    split_ifs
    · exact Nat.one_pos
    · exact hx
    · exact Nat.mul_pos hx hy
  rw [diags2_mulVec this hp]
  unfold ext
  rw [if_pos hp]

theorem PT_mulVec (hx : 0 < Nx) (hy : 0 < Ny) (axis : ℕ) (hp : p < Nx * Ny * Nz) (v : Vec K) (c : ℕ) :
    mulVec (Nx * Ny * Nz) (transpose (P Nx Ny axis)) (fun q => v (c * (Nx * Ny * Nz) + q)) p =
      extB (Nx * Ny * Nz) v c p (if axis = 0 then 1 else if axis = 1 then Nx else Nx * Ny)
        - v (c * (Nx * Ny * Nz) + p) := by
  unfold P
  have : 0 < (if axis = 0 then 1 else if axis = 1 then Nx else Nx * Ny) := by
    split_ifs
    · exact Nat.one_pos
    · exact hx
    · exact Nat.mul_pos hx hy
  rw [diags2_transpose_mulVec this hp]
  rfl

theorem pos_of_lt (hp : p < Nx * Ny * Nz) : 0 < Nx ∧ 0 < Ny ∧ 0 < Nz := by
  refine ⟨?_, ?_, ?_⟩ <;> rw [Nat.pos_iff_ne_zero] <;> rintro rfl <;> simp at hp

/-- The curl in flat-index form, x component. -/
theorem C0_x (hp : p < Nx * Ny * Nz) (v : Vec K) :
    mulVec (3 * (Nx * Ny * Nz)) (C0 Nx Ny Nz) v (0 * (Nx * Ny * Nz) + p) =
      (ext (Nx * Ny * Nz) v 2 (p + Nx) - ext (Nx * Ny * Nz) v 2 p)
        - (ext (Nx * Ny * Nz) v 1 (p + Nx * Ny) - ext (Nx * Ny * Nz) v 1 p) := by
  obtain ⟨hx, hy, -⟩ := pos_of_lt hp
  unfold C0
  rw [block3_mulVec _ _ hp, sum_range_succ, sum_range_succ, sum_range_one]
  simp only [curlBlocks]
  rw [mulVec_zeroMat, mulVec_neg, P_mulVec hx hy 2 hp v 1, P_mulVec hx hy 1 hp v 2]
  simp only [if_true, if_false, one_ne_zero, OfNat.ofNat_ne_zero, OfNat.ofNat_ne_one]
  ring

theorem C0_y (hp : p < Nx * Ny * Nz) (v : Vec K) :
    mulVec (3 * (Nx * Ny * Nz)) (C0 Nx Ny Nz) v (1 * (Nx * Ny * Nz) + p) =
      (ext (Nx * Ny * Nz) v 0 (p + Nx * Ny) - ext (Nx * Ny * Nz) v 0 p)
        - (ext (Nx * Ny * Nz) v 2 (p + 1) - ext (Nx * Ny * Nz) v 2 p) := by
  obtain ⟨hx, hy, -⟩ := pos_of_lt hp
  unfold C0
  rw [block3_mulVec _ _ hp, sum_range_succ, sum_range_succ, sum_range_one]
  simp only [curlBlocks]
  rw [mulVec_zeroMat, mulVec_neg, P_mulVec hx hy 2 hp v 0, P_mulVec hx hy 0 hp v 2]
  simp only [if_true, if_false, one_ne_zero, OfNat.ofNat_ne_zero, OfNat.ofNat_ne_one]
  ring

theorem C0_z (hp : p < Nx * Ny * Nz) (v : Vec K) :
    mulVec (3 * (Nx * Ny * Nz)) (C0 Nx Ny Nz) v (2 * (Nx * Ny * Nz) + p) =
      (ext (Nx * Ny * Nz) v 1 (p + 1) - ext (Nx * Ny * Nz) v 1 p)
        - (ext (Nx * Ny * Nz) v 0 (p + Nx) - ext (Nx * Ny * Nz) v 0 p) := by
  obtain ⟨hx, hy, -⟩ := pos_of_lt hp
  unfold C0
  rw [block3_mulVec _ _ hp, sum_range_succ, sum_range_succ, sum_range_one]
  simp only [curlBlocks]
  rw [mulVec_zeroMat, mulVec_neg, P_mulVec hx hy 1 hp v 0, P_mulVec hx hy 0 hp v 1]
  simp only [if_true, if_false, one_ne_zero, OfNat.ofNat_ne_zero, OfNat.ofNat_ne_one]
  ring

theorem mulVec_transpose_neg (n : ℕ) (M : Mat K) (v : Vec K) (i : ℕ) :
    mulVec n (transpose fun i j => - M i j) v i = - mulVec n (transpose M) v i :=
  mulVec_neg n (transpose M) v i

theorem mulVec_transpose_zeroMat (n : ℕ) (v : Vec K) (i : ℕ) : mulVec n (transpose fun _ _ => 0) v i = 0 :=
  mulVec_zeroMat n v i

/-- The transposed curl in flat-index form, x component. -/
theorem CT_x (hp : p < Nx * Ny * Nz) (v : Vec K) :
    mulVec (3 * (Nx * Ny * Nz)) (transpose (C0 Nx Ny Nz)) v (0 * (Nx * Ny * Nz) + p) =
      (v (2 * (Nx * Ny * Nz) + p) - extB (Nx * Ny * Nz) v 2 p Nx)
        - (v (1 * (Nx * Ny * Nz) + p) - extB (Nx * Ny * Nz) v 1 p (Nx * Ny)) := by
  obtain ⟨hx, hy, -⟩ := pos_of_lt hp
  unfold C0
  rw [block3_transpose, block3_mulVec _ _ hp, sum_range_succ, sum_range_succ, sum_range_one]
  simp only [curlBlocks]
  rw [mulVec_transpose_zeroMat, mulVec_transpose_neg, PT_mulVec hx hy 2 hp v 1, PT_mulVec hx hy 1 hp v 2]
  simp only [if_true, if_false, one_ne_zero, OfNat.ofNat_ne_zero, OfNat.ofNat_ne_one]
  ring

theorem CT_y (hp : p < Nx * Ny * Nz) (v : Vec K) :
    mulVec (3 * (Nx * Ny * Nz)) (transpose (C0 Nx Ny Nz)) v (1 * (Nx * Ny * Nz) + p) =
      (v (0 * (Nx * Ny * Nz) + p) - extB (Nx * Ny * Nz) v 0 p (Nx * Ny))
        - (v (2 * (Nx * Ny * Nz) + p) - extB (Nx * Ny * Nz) v 2 p 1) := by
  obtain ⟨hx, hy, -⟩ := pos_of_lt hp
  unfold C0
  rw [block3_transpose, block3_mulVec _ _ hp, sum_range_succ, sum_range_succ, sum_range_one]
  simp only [curlBlocks]
  rw [mulVec_transpose_zeroMat, mulVec_transpose_neg, PT_mulVec hx hy 2 hp v 0, PT_mulVec hx hy 0 hp v 2]
  simp only [if_true, if_false, one_ne_zero, OfNat.ofNat_ne_zero, OfNat.ofNat_ne_one]
  ring

theorem CT_z (hp : p < Nx * Ny * Nz) (v : Vec K) :
    mulVec (3 * (Nx * Ny * Nz)) (transpose (C0 Nx Ny Nz)) v (2 * (Nx * Ny * Nz) + p) =
      (v (1 * (Nx * Ny * Nz) + p) - extB (Nx * Ny * Nz) v 1 p 1)
        - (v (0 * (Nx * Ny * Nz) + p) - extB (Nx * Ny * Nz) v 0 p Nx) := by
  obtain ⟨hx, hy, -⟩ := pos_of_lt hp
  unfold C0
  rw [block3_transpose, block3_mulVec _ _ hp, sum_range_succ, sum_range_succ, sum_range_one]
  simp only [curlBlocks]
  rw [mulVec_transpose_zeroMat, mulVec_transpose_neg, PT_mulVec hx hy 1 hp v 0, PT_mulVec hx hy 0 hp v 1]
  simp only [if_true, if_false, one_ne_zero, OfNat.ofNat_ne_zero, OfNat.ofNat_ne_one]
  ring

end

/-! ### planes and masks -/

@[simp] theorem setPlane_Nx (f : Fld K) (a m c : ℕ) (v : ℕ → ℕ → ℕ → K) : (setPlane f a m c v).Nx = f.Nx := rfl
@[simp] theorem setPlane_Ny (f : Fld K) (a m c : ℕ) (v : ℕ → ℕ → ℕ → K) : (setPlane f a m c v).Ny = f.Ny := rfl
@[simp] theorem setPlane_Nz (f : Fld K) (a m c : ℕ) (v : ℕ → ℕ → ℕ → K) : (setPlane f a m c v).Nz = f.Nz := rfl

theorem setPlane_at3 {f : Fld K} {a m c c' i j k : ℕ} {v : ℕ → ℕ → ℕ → K} (hi : i < f.Nx) (hj : j < f.Ny)
    (hk : k < f.Nz) : (setPlane f a m c v).at3 c' i j k =
      if c' = c ∧ coord a i j k = m then v i j k else f.at3 c' i j k := by
  unfold setPlane
  rw [Fld.setPart_at3 hi hj hk]
  by_cases hc : c' = c
  · subst hc
    rw [if_pos rfl, Fld.ravelF_idx _ hi hj]
    simp only [true_and]
    rfl
  · rw [if_neg hc, if_neg (fun h => hc h.1)]

/-- Is position `m` of the axis the low end, the high end or neither; the high value wins. -/
def edge (lo hi : K) (n m : ℕ) (v : K) : K := if m = n - 1 then hi else if m = 0 then lo else v

@[simp] theorem maskComp_dims (w : Faces K) (f : Fld K) (d : ℕ) :
    (maskComp w f d).Nx = f.Nx ∧ (maskComp w f d).Ny = f.Ny ∧ (maskComp w f d).Nz = f.Nz := by
  unfold maskComp
  split_ifs <;> simp

theorem maskComp_at3 {w : Faces K} {f : Fld K} {d c i j k : ℕ} (hi : i < f.Nx) (hj : j < f.Ny) (hk : k < f.Nz)
    (hd : d < 3) : (maskComp w f d).at3 c i j k =
      if c ≠ d then f.at3 c i j k
      else if d = 0 then edge w.zlo w.zhi f.Nz k (edge w.ylo w.yhi f.Ny j (f.at3 c i j k))
      else if d = 1 then edge w.zlo w.zhi f.Nz k (edge w.xlo w.xhi f.Nx i (f.at3 c i j k))
      else edge w.ylo w.yhi f.Ny j (edge w.xlo w.xhi f.Nx i (f.at3 c i j k)) := by
  have hd' : d = 0 ∨ d = 1 ∨ d = 2 := by omega
  have hcd : c = d ∨ c ≠ d := eq_or_ne c d
  unfold maskComp
  rcases hd' with rfl | rfl | rfl <;>
  · simp only [ne_eq, not_true_eq_false, one_ne_zero, not_false_eq_true, if_true, if_false, OfNat.ofNat_ne_zero,
      OfNat.ofNat_ne_one, OfNat.zero_ne_ofNat, zero_ne_one, OfNat.one_ne_ofNat, setPlane_Nx, setPlane_Ny, setPlane_Nz]
    rw [setPlane_at3 (by simpa using hi) (by simpa using hj) (by simpa using hk),
      setPlane_at3 (by simpa using hi) (by simpa using hj) (by simpa using hk),
      setPlane_at3 (by simpa using hi) (by simpa using hj) (by simpa using hk), setPlane_at3 hi hj hk]
    simp only [coord, one_ne_zero, if_true, if_false, OfNat.ofNat_ne_zero, OfNat.ofNat_ne_one, edge]
    rcases hcd with hc | hc
    · subst hc; simp
    · simp [hc]

/-- **The boundary mask cell by cell**: the face written last wins on edges. -/
theorem bcMask_at3 {w : Faces K} {Nx Ny Nz c i j k : ℕ} (hi : i < Nx) (hj : j < Ny) (hk : k < Nz) (hc : c < 3) :
    (bcMask Nx Ny Nz w).at3 c i j k =
      if c = 0 then edge w.zlo w.zhi Nz k (edge w.ylo w.yhi Ny j 1)
      else if c = 1 then edge w.zlo w.zhi Nz k (edge w.xlo w.xhi Nx i 1)
      else edge w.ylo w.yhi Ny j (edge w.xlo w.xhi Nx i 1) := by
  unfold bcMask
  have d1 := maskComp_dims w (Fld.new Nx Ny Nz true) 0
  have d2 := maskComp_dims w (maskComp w (Fld.new Nx Ny Nz true) 0) 1
  have e : (Fld.new Nx Ny Nz true : Fld K).at3 c i j k = 1 := by simp [Fld.at3, Fld.part, Fld.new]
  have hx : (Fld.new Nx Ny Nz true : Fld K).Nx = Nx := rfl
  have hy : (Fld.new Nx Ny Nz true : Fld K).Ny = Ny := rfl
  have hz : (Fld.new Nx Ny Nz true : Fld K).Nz = Nz := rfl
  rw [maskComp_at3 (by rw [d2.1, d1.1]; exact hi) (by rw [d2.2.1, d1.2.1]; exact hj) (by rw [d2.2.2, d1.2.2]; exact hk)
    (by omega), maskComp_at3 (by rw [d1.1]; exact hi) (by rw [d1.2.1]; exact hj) (by rw [d1.2.2]; exact hk) (by omega),
    maskComp_at3 hi hj hk (by omega), e, d2.1, d2.2.1, d1.1, d1.2.1, d1.2.2, hx, hy, hz]
  have : c = 0 ∨ c = 1 ∨ c = 2 := by omega
  rcases this with rfl | rfl | rfl <;> simp

theorem ghostH_at3 {f : Fld K} {c i j k : ℕ} (hi : i < f.Nx) (hj : j < f.Ny) (hk : k < f.Nz) (hc : c < 3) :
    (ghostH f).at3 c i j k =
      if (c ≠ 0 ∧ i = f.Nx - 1) ∨ (c ≠ 1 ∧ j = f.Ny - 1) ∨ (c ≠ 2 ∧ k = f.Nz - 1) then 0 else f.at3 c i j k := by
  unfold ghostH
  simp only [ne_eq, not_true_eq_false, one_ne_zero, not_false_eq_true, if_true, if_false, OfNat.ofNat_ne_zero,
      OfNat.ofNat_ne_one, OfNat.zero_ne_ofNat, zero_ne_one, OfNat.one_ne_ofNat, setPlane_Nx, setPlane_Ny, setPlane_Nz]
  rw [setPlane_at3 (by simpa using hi) (by simpa using hj) (by simpa using hk),
    setPlane_at3 (by simpa using hi) (by simpa using hj) (by simpa using hk),
    setPlane_at3 (by simpa using hi) (by simpa using hj) (by simpa using hk),
    setPlane_at3 (by simpa using hi) (by simpa using hj) (by simpa using hk),
    setPlane_at3 (by simpa using hi) (by simpa using hj) (by simpa using hk), setPlane_at3 hi hj hk]
  have : c = 0 ∨ c = 1 ∨ c = 2 := by omega
  rcases this with rfl | rfl | rfl
  · simp [coord]; split_ifs <;> simp_all
  · simp [coord]; split_ifs <;> simp_all
  · simp [coord]; split_ifs <;> simp_all

theorem ghostE_at3 {f : Fld K} {c i j k : ℕ} (hi : i < f.Nx) (hj : j < f.Ny) (hk : k < f.Nz) (hc : c < 3) :
    (ghostE f).at3 c i j k =
      if (c = 0 ∧ i = f.Nx - 1) ∨ (c = 1 ∧ j = f.Ny - 1) ∨ (c = 2 ∧ k = f.Nz - 1) then 0 else f.at3 c i j k := by
  unfold ghostE
  rw [setPlane_at3 (by simpa using hi) (by simpa using hj) (by simpa using hk),
    setPlane_at3 (by simpa using hi) (by simpa using hj) (by simpa using hk), setPlane_at3 hi hj hk]
  have : c = 0 ∨ c = 1 ∨ c = 2 := by omega
  rcases this with rfl | rfl | rfl <;> simp [coord]

end Sol
end Wakis
