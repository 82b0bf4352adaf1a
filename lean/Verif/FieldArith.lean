import Verif.FieldProps
import Mathlib.Analysis.Real.Sqrt

/-!
# Field arithmetic and magnitude (C06, C08)
-/

namespace Wakis
namespace Fld
variable {K : Type _}

theorem three_parts_at3 {Nx Ny Nz : ℕ} [Zero K] [One K] (comp : ℕ → ℕ → K) {c i j k : ℕ}
    (hc : c < 3) (hi : i < Nx) (hj : j < Ny) (hk : k < Nz) :
    ((((new Nx Ny Nz : Fld K).setPart 0 (comp 0)).setPart 1 (comp 1)).setPart 2 (comp 2)).at3 c i j k
      = comp c (i + Nx * (j + Ny * k)) := by
  rw [setPart_at3 (by exact hi) (by exact hj) (by exact hk)]
  split_ifs with h2
  · subst h2; rfl
  rw [setPart_at3 (by exact hi) (by exact hj) (by exact hk)]
  split_ifs with h1
  · subst h1; rfl
  rw [setPart_at3 (by exact hi) (by exact hj) (by exact hk)]
  rw [if_pos (by omega)]
  have : c = 0 := by omega
  subst this; rfl

section
variable {f g h : Fld K} {c i j k : ℕ}

theorem mulMatrix_at3 [Mul K] [Zero K] [One K] (m : ℕ → ℕ → ℕ → K) (hc : c < 3) (hi : i < f.Nx)
    (hj : j < f.Ny) (hk : k < f.Nz) : (f.mulMatrix m).at3 c i j k = f.at3 c i j k * m i j k := by
  unfold mulMatrix
  rw [three_parts_at3 (fun c => ravelF f.Nx f.Ny fun i j k =>
    reshapeF f.Nx f.Ny (f.part c) i j k * m i j k) hc hi hj hk, ravelF_idx _ hi hj]
  rfl

theorem addMatrix_at3 [Add K] [Zero K] [One K] (m : ℕ → ℕ → ℕ → K) (hc : c < 3) (hi : i < f.Nx)
    (hj : j < f.Ny) (hk : k < f.Nz) : (f.addMatrix m).at3 c i j k = f.at3 c i j k + m i j k := by
  unfold addMatrix
  rw [three_parts_at3 (fun c => ravelF f.Nx f.Ny fun i j k =>
    reshapeF f.Nx f.Ny (f.part c) i j k + m i j k) hc hi hj hk, ravelF_idx _ hi hj]
  rfl

theorem add_at3 [Add K] [Zero K] [One K] (hx : g.Nx = f.Nx) (hy : g.Ny = f.Ny) (hz : g.Nz = f.Nz)
    (hc : c < 3) (hi : i < f.Nx) (hj : j < f.Ny) (hk : k < f.Nz) :
    (f.add g).at3 c i j k = f.at3 c i j k + g.at3 c i j k := by
  unfold add
  rw [three_parts_at3 (fun c p => f.part c p + g.part c p) hc hi hj hk]
  simp only [part, at3, hx, hy]

theorem mulScalar_at3 [Mul K] (s : K) : (f.mulScalar s).at3 c i j k = f.at3 c i j k * s := rfl

theorem get_at3 (key : CKey) (hc : Names key c) (hi : i < f.Nx) (hj : j < f.Ny) (hk : k < f.Nz) :
    f.get i j k key = .ok (f.at3 c i j k) :=
  get_eq (pyIndex_natCast hi) (pyIndex_natCast hj) (pyIndex_natCast hk) (names_iff.1 hc)
end

/-- The value of an operand at cell `(i,j,k)` of component `c`, for an operand of matching size. -/
def Operand.cellVal (f : Fld K) : Operand K → ℕ → ℕ → ℕ → ℕ → Py K
  | .number s, _, _, _, _ => .ok s
  | .npScalar s, _, _, _, _ => .ok s
  | .matrix m, _, i, j, k => .ok (m i j k)
  | .arr a, c, i, j, k => .ok (a (flatPos f.Nx f.Ny f.Nz c i j k))
  | .field g, c, i, j, k => g.get i j k (.num c)

/-- The operand has the size of the field (only a `Field` operand carries its own size). -/
def Operand.SameSize (f : Fld K) : Operand K → Prop
  | .field g => g.Nx = f.Nx ∧ g.Ny = f.Ny ∧ g.Nz = f.Nz
  | _ => True

theorem flatPos_eq (f : Fld K) (c i j k : ℕ) :
    flatPos f.Nx f.Ny f.Nz c i j k = c * f.N + (i + f.Nx * (j + f.Ny * k)) := by
  unfold flatPos N; ring

/-- **C06 (product).** Multiplying by a number, numpy scalar, matrix or flat array yields a field of
the same size whose every cell is the product of the operands' cells. -/
theorem C06_mul_pointwise [Mul K] [Zero K] [One K] (f r : Fld K) (o : Operand K)
    (hr : f.mul o = .ok r) :
    (r.Nx = f.Nx ∧ r.Ny = f.Ny ∧ r.Nz = f.Nz) ∧
    ∀ (key : CKey) (c i j k : ℕ) (a b : K), Names key c → i < f.Nx → j < f.Ny → k < f.Nz →
      f.get i j k key = .ok a → o.cellVal f c i j k = .ok b → r.get i j k key = .ok (a * b) := by
  have cmp : ∀ {key : CKey} {c : ℕ}, Names key c → c < 3 := fun hk => compOf_lt (names_iff.1 hk)
  cases o with
  | number s =>
    simp only [mul, Except.ok.injEq] at hr; subst hr
    refine ⟨⟨rfl, rfl, rfl⟩, fun key c i j k a b hc hi hj hk ha hb => ?_⟩
    rw [get_at3 key hc hi hj hk] at ha
    rw [get_at3 key hc (by exact hi) (by exact hj) (by exact hk)]
    simp only [Operand.cellVal, Except.ok.injEq] at ha hb
    subst ha hb; rfl
  | npScalar s =>
    simp only [mul, Except.ok.injEq] at hr; subst hr
    refine ⟨⟨rfl, rfl, rfl⟩, fun key c i j k a b hc hi hj hk ha hb => ?_⟩
    rw [get_at3 key hc hi hj hk] at ha
    rw [get_at3 key hc (by exact hi) (by exact hj) (by exact hk)]
    simp only [Operand.cellVal, Except.ok.injEq] at ha hb
    subst ha hb; rfl
  | arr s =>
    simp only [mul, Except.ok.injEq] at hr; subst hr
    refine ⟨⟨rfl, rfl, rfl⟩, fun key c i j k a b hc hi hj hk ha hb => ?_⟩
    rw [get_at3 key hc hi hj hk] at ha
    rw [get_at3 key hc (by exact hi) (by exact hj) (by exact hk)]
    simp only [Operand.cellVal, Except.ok.injEq] at ha hb
    subst ha hb; rw [flatPos_eq]; rfl
  | matrix m =>
    simp only [mul, Except.ok.injEq] at hr; subst hr
    refine ⟨⟨rfl, rfl, rfl⟩, fun key c i j k a b hc hi hj hk ha hb => ?_⟩
    rw [get_at3 key hc hi hj hk] at ha
    rw [get_at3 key hc (by exact hi) (by exact hj) (by exact hk), mulMatrix_at3 m (cmp hc) hi hj hk]
    simp only [Operand.cellVal, Except.ok.injEq] at ha hb
    subst ha hb; rfl
  | field g => simp [mul] at hr

/-- **C06 (sum).** Adding a field, numpy scalar, matrix or flat array is cell-wise addition. -/
theorem C06_add_pointwise [Add K] [Zero K] [One K] (f r : Fld K) (o : Operand K)
    (hs : o.SameSize f) (hr : f.addOp o = .ok r) :
    (r.Nx = f.Nx ∧ r.Ny = f.Ny ∧ r.Nz = f.Nz) ∧
    ∀ (key : CKey) (c i j k : ℕ) (a b : K), Names key c → i < f.Nx → j < f.Ny → k < f.Nz →
      f.get i j k key = .ok a → o.cellVal f c i j k = .ok b → r.get i j k key = .ok (a + b) := by
  have cmp : ∀ {key : CKey} {c : ℕ}, Names key c → c < 3 := fun hk => compOf_lt (names_iff.1 hk)
  cases o with
  | number s => simp [addOp] at hr
  | npScalar s =>
    simp only [addOp, Except.ok.injEq] at hr; subst hr
    refine ⟨⟨rfl, rfl, rfl⟩, fun key c i j k a b hc hi hj hk ha hb => ?_⟩
    rw [get_at3 key hc hi hj hk] at ha
    rw [get_at3 key hc (by exact hi) (by exact hj) (by exact hk)]
    simp only [Operand.cellVal, Except.ok.injEq] at ha hb
    subst ha hb; rfl
  | arr s =>
    simp only [addOp, Except.ok.injEq] at hr; subst hr
    refine ⟨⟨rfl, rfl, rfl⟩, fun key c i j k a b hc hi hj hk ha hb => ?_⟩
    rw [get_at3 key hc hi hj hk] at ha
    rw [get_at3 key hc (by exact hi) (by exact hj) (by exact hk)]
    simp only [Operand.cellVal, Except.ok.injEq] at ha hb
    subst ha hb; rw [flatPos_eq]; rfl
  | matrix m =>
    simp only [addOp, Except.ok.injEq] at hr; subst hr
    refine ⟨⟨rfl, rfl, rfl⟩, fun key c i j k a b hc hi hj hk ha hb => ?_⟩
    rw [get_at3 key hc hi hj hk] at ha
    rw [get_at3 key hc (by exact hi) (by exact hj) (by exact hk), addMatrix_at3 m (cmp hc) hi hj hk]
    simp only [Operand.cellVal, Except.ok.injEq] at ha hb
    subst ha hb; rfl
  | field g =>
    obtain ⟨ex, ey, ez⟩ := hs
    simp only [addOp, Except.ok.injEq] at hr; subst hr
    refine ⟨⟨rfl, rfl, rfl⟩, fun key c i j k a b hc hi hj hk ha hb => ?_⟩
    rw [get_at3 key hc hi hj hk] at ha
    simp only [Operand.cellVal] at hb
    rw [get_at3 (c := c) (.num c) (by simp [Names, cmp hc]) (by omega) (by omega) (by omega)] at hb
    rw [get_at3 key hc (by exact hi) (by exact hj) (by exact hk), add_at3 ex ey ez (cmp hc) hi hj hk]
    simp only [Except.ok.injEq] at ha hb
    subst ha hb; rfl

/-- **C06 (which operands are accepted).** `*` refuses exactly `Field` operands; `+` refuses exactly
plain Python numbers although its documentation lists scalars; `/` always raises. -/
theorem C06_operand_table [Mul K] [Add K] [Zero K] [One K] (f : Fld K) (o : Operand K) :
    ((∃ e, f.mul o = .error e) ↔ ∃ g, o = .field g) ∧
    ((∃ e, f.addOp o = .error e) ↔ ∃ s, o = .number s) ∧
    f.truediv o = .error .typeError := by
  refine ⟨?_, ?_, rfl⟩ <;> cases o <;> simp [mul, addOp]

@[simp] theorem add_Nx [Add K] [Zero K] [One K] (f g : Fld K) : (f.add g).Nx = f.Nx := rfl
@[simp] theorem add_Ny [Add K] [Zero K] [One K] (f g : Fld K) : (f.add g).Ny = f.Ny := rfl
@[simp] theorem add_Nz [Add K] [Zero K] [One K] (f g : Fld K) : (f.add g).Nz = f.Nz := rfl
@[simp] theorem mulMatrix_Nx [Mul K] [Zero K] [One K] (f : Fld K) (m) : (f.mulMatrix m).Nx = f.Nx := rfl
@[simp] theorem mulMatrix_Ny [Mul K] [Zero K] [One K] (f : Fld K) (m) : (f.mulMatrix m).Ny = f.Ny := rfl
@[simp] theorem mulMatrix_Nz [Mul K] [Zero K] [One K] (f : Fld K) (m) : (f.mulMatrix m).Nz = f.Nz := rfl
@[simp] theorem addMatrix_Nx [Add K] [Zero K] [One K] (f : Fld K) (m) : (f.addMatrix m).Nx = f.Nx := rfl
@[simp] theorem addMatrix_Ny [Add K] [Zero K] [One K] (f : Fld K) (m) : (f.addMatrix m).Ny = f.Ny := rfl
@[simp] theorem addMatrix_Nz [Add K] [Zero K] [One K] (f : Fld K) (m) : (f.addMatrix m).Nz = f.Nz := rfl

theorem mask_replace_at3 [Ring K] (f : Fld K) (mask : ℕ → ℕ → ℕ → Bool) (v : K)
    {c i j k : ℕ} (hc : c < 3) (hi : i < f.Nx) (hj : j < f.Ny) (hk : k < f.Nz) :
    ((f.add (f.mulMatrix fun i j k => -1 * (if mask i j k then 1 else 0))).addMatrix
        fun i j k => (if mask i j k then 1 else 0) * v).at3 c i j k
      = if mask i j k then v else f.at3 c i j k := by
  have h1 := addMatrix_at3 (f := f.add (f.mulMatrix fun i j k => -1 * (if mask i j k then 1 else 0)))
    (fun i j k => (if mask i j k then 1 else 0) * v) hc hi hj hk
  have h2 := add_at3 (f := f) (g := f.mulMatrix fun i j k => -1 * (if mask i j k then 1 else 0))
    rfl rfl rfl hc hi hj hk
  have h3 := mulMatrix_at3 (f := f) (fun i j k => -1 * (if mask i j k then 1 else 0)) hc hi hj hk
  rw [h1, h2, h3]
  cases mask i j k <;> simp

/-- **C06 (material law).** The masking idiom used by the material set-up,
`f += f * (-1.0 * mask)` followed by `f += mask * v`: inside the mask the new value replaces
the old one, outside the old one is kept. -/
theorem C06_mask_replace [Ring K] (f : Fld K) (mask : ℕ → ℕ → ℕ → Bool) (v : K)
    {key : CKey} {c i j k : ℕ} (hc : Names key c)
    (hi : i < f.Nx) (hj : j < f.Ny) (hk : k < f.Nz) {a : K} (ha : f.get i j k key = .ok a) :
    ((f.add (f.mulMatrix fun i j k => -1 * (if mask i j k then 1 else 0))).addMatrix
        fun i j k => (if mask i j k then 1 else 0) * v).get i j k key
      = .ok (if mask i j k then v else a) := by
  have hc3 : c < 3 := compOf_lt (names_iff.1 hc)
  rw [get_at3 key hc hi hj hk, Except.ok.injEq] at ha
  rw [get_at3 key hc (by simpa only [add_Nx, addMatrix_Nx] using hi)
    (by simpa only [add_Ny, addMatrix_Ny] using hj) (by simpa only [add_Nz, addMatrix_Nz] using hk)]
  rw [mask_replace_at3 f mask v hc3 hi hj hk, ha]

example : (demo.mulMatrix (fun i j k => i + 10 * j + 100 * k)).get 1 2 1 (.str "z")
    = .ok (35 * 121) ∧ (demo.addMatrix (fun i _ _ => i)).get 1 2 1 (.str "z") = .ok 36 := by
  refine ⟨rfl, rfl⟩

/-! ## C08 -/

/-- `np.sqrt(x**2 + y**2 + z**2)` over the reals. -/
noncomputable def norm3R (x y z : ℝ) : ℝ := Real.sqrt (x ^ 2 + y ^ 2 + z ^ 2)

/-- field.py:557-563 `get_abs(as_matrix=False)`. -/
noncomputable def absFlat (f : Fld ℝ) : ℕ → ℝ := fun p => norm3R (f.part 0 p) (f.part 1 p) (f.part 2 p)

/-- **C08.** The magnitude of a field is non-negative, squares to the sum of the squared components,
vanishes exactly where all components vanish, bounds each component, and the matrix and flat forms
agree. -/
theorem C08_magnitude (f : Fld ℝ) {i j k : ℕ} (hi : i < f.Nx) (hj : j < f.Ny) (hk : k < f.Nz)
    {x y z : ℝ} (hx : f.get i j k (.str "x") = .ok x) (hy : f.get i j k (.str "y") = .ok y)
    (hz : f.get i j k (.str "z") = .ok z) :
    ∃ m : ℝ, f.absWith norm3R i j k = m ∧ 0 ≤ m ∧ m ^ 2 = x ^ 2 + y ^ 2 + z ^ 2 ∧
      (m = 0 ↔ x = 0 ∧ y = 0 ∧ z = 0) ∧ |x| ≤ m ∧ |y| ≤ m ∧ |z| ≤ m ∧
      f.absFlat (i + j * f.Nx + k * f.Nx * f.Ny) = m := by
  rw [get_at3 (c := 0) _ (by simp [Names]) hi hj hk, Except.ok.injEq] at hx
  rw [get_at3 (c := 1) _ (by simp [Names]) hi hj hk, Except.ok.injEq] at hy
  rw [get_at3 (c := 2) _ (by simp [Names]) hi hj hk, Except.ok.injEq] at hz
  have hm : f.absWith norm3R i j k = Real.sqrt (x ^ 2 + y ^ 2 + z ^ 2) := by
    rw [← hx, ← hy, ← hz]; rfl
  have hpos : 0 ≤ x ^ 2 + y ^ 2 + z ^ 2 := by positivity
  refine ⟨_, hm, Real.sqrt_nonneg _, Real.sq_sqrt hpos, ?_, ?_, ?_, ?_, ?_⟩
  · rw [Real.sqrt_eq_zero hpos]
    constructor
    · intro h
      refine ⟨?_, ?_, ?_⟩ <;> nlinarith [sq_nonneg x, sq_nonneg y, sq_nonneg z]
    · rintro ⟨rfl, rfl, rfl⟩; norm_num
  · rw [← Real.sqrt_sq_eq_abs]; exact Real.sqrt_le_sqrt (by nlinarith [sq_nonneg y, sq_nonneg z])
  · rw [← Real.sqrt_sq_eq_abs]; exact Real.sqrt_le_sqrt (by nlinarith [sq_nonneg x, sq_nonneg z])
  · rw [← Real.sqrt_sq_eq_abs]; exact Real.sqrt_le_sqrt (by nlinarith [sq_nonneg x, sq_nonneg y])
  · rw [← hm]
    have e : i + j * f.Nx + k * f.Nx * f.Ny = i + f.Nx * (j + f.Ny * k) := by ring
    rw [e]; rfl

/-- **C08 (reading).** `field[i,j,k,'Abs']` in any letter case returns that magnitude. -/
theorem C08_get_abs (f : Fld ℝ) (s : String) (hs : pyLower s = "abs") (hne : s ≠ "x" ∧ s ≠ "y" ∧ s ≠ "z")
    {i j k : ℕ} (hi : i < f.Nx) (hj : j < f.Ny) (hk : k < f.Nz) :
    ∃ b, f.getitem norm3R (.int i) (.int j) (.int k) (.str s) = .ok b ∧
      b.val 0 0 0 = f.absWith norm3R i j k := by
  have : compOf (.str s) = none := by simp [compOf, hne.1, hne.2.1, hne.2.2]
  refine ⟨⟨[i], [j], [k], fun a b c => f.absWith norm3R ([i].getD a 0) ([j].getD b 0) ([k].getD c 0)⟩,
    ?_, ?_⟩
  · simp only [getitem, toMatrix, this, Option.map, isAbs, hs, beq_self_eq_true, if_true, index3,
      resolve3, mem_idx (pyIndex_natCast hi), mem_idx (pyIndex_natCast hj),
      mem_idx (pyIndex_natCast hk), bind, Except.bind, pure, Except.pure]
  · rfl

example : pyLower "Abs" = "abs" ∧ "Abs" ≠ "x" ∧ "Abs" ≠ "y" ∧ "Abs" ≠ "z" := by decide
example : (⟨1, 1, 1, fun n => if n = 0 then 3 else if n = 1 then 4 else 0⟩ : Fld ℝ).absWith norm3R 0 0 0 = 5 := by
  simp only [absWith, norm3R, reshapeF, part, N]
  norm_num
  rw [show (25 : ℝ) = 5 ^ 2 by norm_num]
  exact Real.sqrt_sq (by norm_num)

end Fld
end Wakis
