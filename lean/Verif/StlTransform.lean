import Mathlib.LinearAlgebra.Matrix.Notation
import Mathlib.LinearAlgebra.Matrix.Determinant.Basic
import Mathlib.Analysis.SpecialFunctions.Trigonometric.Basic
import Mathlib.Tactic.NoncommRing
import Mathlib.Tactic.LinearCombination

/-!
# C59: transformation of STL surfaces (`wakis/gridFIT3D.py:497-525 read_stl`)

A surface is the list of its vertices; the triangles refer to vertices by number and are not changed. The PyVista filters rotate counter-clockwise (seen against the axis) by an angle in degrees about
an axis through the origin, and scale about the origin.
-/

namespace Wakis
namespace Stl

/-- A vertex. -/
structure Pt where
  x : ℝ
  y : ℝ
  z : ℝ

@[ext] theorem Pt.ext' {p q : Pt} (h1 : p.x = q.x) (h2 : p.y = q.y) (h3 : p.z = q.z) : p = q := by
  cases p; cases q; simp_all

/-- Degrees to radians. -/
noncomputable def rad (deg : ℝ) : ℝ := deg * Real.pi / 180

/-- gridFIT3D.py:515 `surf.rotate_x(angle)` -/
noncomputable def rotateX (deg : ℝ) (p : Pt) : Pt := ⟨p.x, Real.cos (rad deg) * p.y - Real.sin (rad deg) * p.z, Real.sin (rad deg) * p.y + Real.cos (rad deg) * p.z⟩

/-- gridFIT3D.py:516 `surf.rotate_y(angle)` -/
noncomputable def rotateY (deg : ℝ) (p : Pt) : Pt := ⟨Real.cos (rad deg) * p.x + Real.sin (rad deg) * p.z, p.y, -Real.sin (rad deg) * p.x + Real.cos (rad deg) * p.z⟩

/-- gridFIT3D.py:517 `surf.rotate_z(angle)` -/
noncomputable def rotateZ (deg : ℝ) (p : Pt) : Pt := ⟨Real.cos (rad deg) * p.x - Real.sin (rad deg) * p.y, Real.sin (rad deg) * p.x + Real.cos (rad deg) * p.y, p.z⟩

/-- gridFIT3D.py:520 `surf.translate(t)` -/
def translate (t : Pt) (p : Pt) : Pt := ⟨p.x + t.x, p.y + t.y, p.z + t.z⟩

/-- gridFIT3D.py:523 `surf.scale(s)`, one factor per axis (a single number is used for all three). -/
def scale (s : Pt) (p : Pt) : Pt := ⟨s.x * p.x, s.y * p.y, s.z * p.z⟩

/-- gridFIT3D.py:512-525 `read_stl`, with the settings of the solid. -/
noncomputable def readStl (rot trans scl : Pt) (surf : List Pt) : List Pt :=
  let surf := surf.map (rotateX rot.x)
  let surf := surf.map (rotateY rot.y)
  let surf := surf.map (rotateZ rot.z)
  let surf := surf.map (translate trans)
  surf.map (scale scl)

/-! ### Specification -/

open Matrix

/-- Column vector. -/
def Pt.vec (p : Pt) : Fin 3 → ℝ := ![p.x, p.y, p.z]

/-- Rotation matrices about the axes, angles in radians. -/
noncomputable def Rx (a : ℝ) : Matrix (Fin 3) (Fin 3) ℝ := !![1, 0, 0; 0, Real.cos a, -Real.sin a; 0, Real.sin a, Real.cos a]
noncomputable def Ry (a : ℝ) : Matrix (Fin 3) (Fin 3) ℝ := !![Real.cos a, 0, Real.sin a; 0, 1, 0; -Real.sin a, 0, Real.cos a]
noncomputable def Rz (a : ℝ) : Matrix (Fin 3) (Fin 3) ℝ := !![Real.cos a, -Real.sin a, 0; Real.sin a, Real.cos a, 0; 0, 0, 1]

/-- The total rotation of a solid. -/
noncomputable def rotation (rot : Pt) : Matrix (Fin 3) (Fin 3) ℝ := Rz (rad rot.z) * Ry (rad rot.y) * Rx (rad rot.x)

theorem rotateX_vec (deg : ℝ) (p : Pt) : (rotateX deg p).vec = Rx (rad deg) *ᵥ p.vec := by
  unfold Pt.vec rotateX Rx
  ext i
  fin_cases i <;> simp [Matrix.mulVec, dotProduct, Fin.sum_univ_three] <;> ring

theorem rotateY_vec (deg : ℝ) (p : Pt) : (rotateY deg p).vec = Ry (rad deg) *ᵥ p.vec := by
  unfold Pt.vec rotateY Ry
  ext i
  fin_cases i <;> simp [Matrix.mulVec, dotProduct, Fin.sum_univ_three]

theorem rotateZ_vec (deg : ℝ) (p : Pt) : (rotateZ deg p).vec = Rz (rad deg) *ᵥ p.vec := by
  unfold Pt.vec rotateZ Rz
  ext i
  fin_cases i <;> simp [Matrix.mulVec, dotProduct, Fin.sum_univ_three] <;> ring

/-- **C59.** For every surface, every rotation, translation and scale, the number of vertices is kept and vertex `p` ends at `scale * (Rz Ry Rx p + t)`. -/
theorem C59_order (rot trans scl : Pt) (surf : List Pt) :
    (readStl rot trans scl surf).length = surf.length ∧
      ∀ (n : ℕ) (h : n < surf.length) (h' : n < (readStl rot trans scl surf).length), ((readStl rot trans scl surf)[n]).vec = scl.vec * ((Rz (rad rot.z) * Ry (rad rot.y) * Rx (rad rot.x)) *ᵥ (surf[n]).vec + trans.vec) := by
  have e : readStl rot trans scl surf = surf.map fun p => scale scl (translate trans (rotateZ rot.z (rotateY rot.y (rotateX rot.x p)))) := by
    unfold readStl
    simp only [List.map_map]
    rfl
  refine ⟨by rw [e, List.length_map], fun n h h' => ?_⟩
  have : (readStl rot trans scl surf)[n] = scale scl (translate trans (rotateZ rot.z (rotateY rot.y (rotateX rot.x surf[n])))) := by
    simp only [e, List.getElem_map]
  rw [this, ← Matrix.mulVec_mulVec, ← Matrix.mulVec_mulVec, ← rotateX_vec, ← rotateY_vec, ← rotateZ_vec]
  generalize rotateZ rot.z (rotateY rot.y (rotateX rot.x surf[n])) = q
  unfold Pt.vec scale translate
  ext i
  fin_cases i <;> simp

/-- Squared distance of two vertices. -/
def dist2 (p q : Pt) : ℝ := (p.x - q.x) ^ 2 + (p.y - q.y) ^ 2 + (p.z - q.z) ^ 2

theorem dist2_rotateX (d : ℝ) (p q : Pt) : dist2 (rotateX d p) (rotateX d q) = dist2 p q := by
  unfold dist2 rotateX
  linear_combination ((p.y - q.y) ^ 2 + (p.z - q.z) ^ 2) * Real.sin_sq_add_cos_sq (rad d)

theorem dist2_rotateY (d : ℝ) (p q : Pt) : dist2 (rotateY d p) (rotateY d q) = dist2 p q := by
  unfold dist2 rotateY
  linear_combination ((p.x - q.x) ^ 2 + (p.z - q.z) ^ 2) * Real.sin_sq_add_cos_sq (rad d)

theorem dist2_rotateZ (d : ℝ) (p q : Pt) : dist2 (rotateZ d p) (rotateZ d q) = dist2 p q := by
  unfold dist2 rotateZ
  linear_combination ((p.x - q.x) ^ 2 + (p.y - q.y) ^ 2) * Real.sin_sq_add_cos_sq (rad d)

/-- **C59 (shape).** With one scale factor `s` for the three axes, the distance of every two vertices is multiplied by `|s|`: the solid keeps its shape. -/
theorem C59_shape (rot trans : Pt) (s : ℝ) (surf : List Pt) (m n : ℕ) (hm : m < surf.length) (hn : n < surf.length)
    (hm' : m < (readStl rot trans ⟨s, s, s⟩ surf).length) (hn' : n < (readStl rot trans ⟨s, s, s⟩ surf).length) :
    dist2 ((readStl rot trans ⟨s, s, s⟩ surf)[m]) ((readStl rot trans ⟨s, s, s⟩ surf)[n]) = s ^ 2 * dist2 surf[m] surf[n] := by
  have e : readStl rot trans ⟨s, s, s⟩ surf = surf.map fun p => scale ⟨s, s, s⟩ (translate trans (rotateZ rot.z (rotateY rot.y (rotateX rot.x p)))) := by
    unfold readStl
    simp only [List.map_map]
    rfl
  simp only [e, List.getElem_map]
  rw [← dist2_rotateX rot.x surf[m], ← dist2_rotateY rot.y (rotateX rot.x surf[m]), ← dist2_rotateZ rot.z (rotateY rot.y (rotateX rot.x surf[m]))]
  unfold dist2 scale translate
  ring

/-- **C59 (no mirror image).** The rotation is proper: orthogonal with determinant one, so that solids are not mirrored. -/
theorem C59_proper (rot : Pt) : (rotation rot).det = 1 := by
  unfold rotation
  rw [Matrix.det_mul, Matrix.det_mul]
  have hx : (Rx (rad rot.x)).det = 1 := by
    rw [Rx, Matrix.det_fin_three]
    simp
    linear_combination Real.sin_sq_add_cos_sq (rad rot.x)
  have hy : (Ry (rad rot.y)).det = 1 := by
    rw [Ry, Matrix.det_fin_three]
    simp
    linear_combination Real.sin_sq_add_cos_sq (rad rot.y)
  have hz : (Rz (rad rot.z)).det = 1 := by
    rw [Rz, Matrix.det_fin_three]
    simp
    linear_combination Real.sin_sq_add_cos_sq (rad rot.z)
  rw [hx, hy, hz]
  norm_num

/-- **C59 (units of the translation).** The translation is scaled too: it is in the units of the file. -/
theorem C59_translation (rot trans scl p : Pt) (q0 q : Pt) (h0 : readStl rot ⟨0, 0, 0⟩ scl [p] = [q0]) (h : readStl rot trans scl [p] = [q]) :
    q.x = q0.x + scl.x * trans.x ∧ q.y = q0.y + scl.y * trans.y ∧ q.z = q0.z + scl.z * trans.z := by
  simp only [readStl, List.map_cons, List.map_nil, List.cons.injEq, and_true] at h0 h
  subst h0 h
  refine ⟨?_, ?_, ?_⟩ <;> simp only [scale, translate] <;> ring

/-- The order matters: a quarter turn about x and one about y do not commute. -/
theorem C59_order_matters : rotateY 90 (rotateX 90 ⟨0, 0, 1⟩) ≠ rotateX 90 (rotateY 90 ⟨0, 0, 1⟩) := by
  have hr : rad 90 = Real.pi / 2 := by unfold rad; ring
  intro h
  have := congrArg Pt.x h
  simp [rotateX, rotateY, hr] at this

example : ((readStl ⟨90, 0, 0⟩ ⟨0, 0, 1⟩ ⟨2, 2, 2⟩ [⟨0, 1, 0⟩, ⟨0, 0, 0⟩])).length = 2 := (C59_order _ _ _ _).1

end Stl
end Wakis
