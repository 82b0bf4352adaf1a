import Verif.WakeProps3d
import Verif.Edges
import Verif.Scale4
import Verif.Plots3

/-!
# Concrete cases for theorems whose own files have none (C66, C84, C85, C113, C115)
-/

namespace Wakis

namespace Wake

/-- The hypotheses of `C66_back_partial`: three cells of lengths 2, 5, 2 (the same from either end) with centres 1, 9/2, 8 and a field of one in the middle cell; the counter-moving particle gets minus the length 5. -/
example : integrateBack (⟨1, 1, 0, none, 0, true, 1⟩ : Par ℚ) ⟨8, 0, 8, [0, 1, 2], 1, 1, 20⟩ ⟨20, fun i => i, 3, fun k => if k = 0 then 1 else if k = 1 then 9 / 2 else 8, 3, fun k => if k = 1 then 5 else 2, []⟩
    (List.replicate 20 fun k => if k = 1 then 1 else 0) 0 0 = .ok (-5) := by
  rw [C66_back_partial _ _ _ _ (by norm_num) (by norm_num) (by norm_num)]
  · norm_num [Finset.sum_range_succ, seen]
  · intro k hk
    have : k < 3 := hk
    interval_cases k <;> norm_num
  · exact le_refl 3
  · intro k hk
    have : k < 3 := hk
    interval_cases k <;> norm_num

end Wake

namespace Sol
open Sparse Grid

/-- The hypotheses of `C115_fields`: the conducting box of `box_case` enlarged three times, with a current in one cell. -/
example : ∃ t t' : Mats ℝ, setUp 1 1 1 (1 / 2) (some (1 / 10 ^ 9)) 0 4 4 5 (fun i => (i : ℝ) ^ 2) (fun i => (i : ℝ) ^ 2) (fun i => (i : ℝ) ^ 2) ⟨"pec", "pec", "pmc", "pec", "periodic", "periodic"⟩
      (.vals ⟨.fin 2, .fin 1, some 3⟩) (fun _ => none) [] = .ok (t, 1 / 10 ^ 9) ∧
    setUp 1 1 1 (1 / 2) (some (3 * (1 / 10 ^ 9))) 0 4 4 5 (fun i => 3 * (i : ℝ) ^ 2) (fun i => 3 * (i : ℝ) ^ 2) (fun i => 3 * (i : ℝ) ^ 2) ⟨"pec", "pec", "pmc", "pec", "periodic", "periodic"⟩
      (scaleSpec 3 (.vals ⟨.fin 2, .fin 1, some 3⟩)) (fun _ => none) [] = .ok (t', 3 * (1 / 10 ^ 9)) := by
  obtain ⟨t, h⟩ := box_case
  obtain ⟨t', h', -⟩ := C115_fields (a := 3) (by norm_num) 1 (by decide) h
  exact ⟨t, t', h, h'⟩

end Sol

namespace Plot

/-- The hypotheses of `C113_indices`: the second of six z layers of a grid of 4 × 5 × 6 cells. -/
example : ∃ P, plot2D (serial (fun a _ _ => a) 4 5 6 pX pY pZ pF) "Hx" "z" (.sels (.slice (some 0) (some 4)) (.slice (some 0) (some 5)) (.int 2)) 0 = .ok P ∧ P.rows = 4 ∧ P.cols = 5 := by
  obtain ⟨P, h, h1, h2, -⟩ := C113_indices (fun a _ _ => a) (nx := 3) (ny := 4) (Nz := 6) (x := pX) (y := pY) (z := pZ) (F := pF) (fun i _ => by norm_num [pX]) (fun i _ => by norm_num [pY]) (fun _ => ⟨rfl, rfl, rfl⟩) (k := 2) (by norm_num)
    (field := "Hx") (component := "z") (comp := "x") (w := .H) (.inr ⟨by decide, by decide⟩) (.inl ⟨0, .inl ⟨rfl, rfl⟩⟩) 0
  exact ⟨P, h, h1, h2⟩

/-- The hypotheses of `C113_indices_refuted` on the same grid. -/
example : ∃ F : Sol.Which → Fld ℚ, ∃ P, plot2D (serial (fun a _ _ => a) 4 5 6 pX pY pZ F) "Ex" "z" (.sels (.slice (some 0) (some 4)) (.slice (some 0) (some 5)) (.int 2)) 0 = .ok P := by
  obtain ⟨F, -, P, h, -⟩ := C113_indices_refuted (fun a _ _ => a) (nx := 3) (ny := 4) (Nz := 6) (x := pX) (y := pY) (z := pZ) (by norm_num) (by norm_num) (fun i _ => by norm_num [pX]) pY_eq (k := 2) (by norm_num) 0
  exact ⟨F, P, h⟩

/-- The hypotheses of `C113_graded_refuted`: cells that grow along y. -/
example : ∃ F : Sol.Which → Fld ℚ, ∃ P, plot2D (serial (fun a _ _ => a) 4 3 6 pX pG pZ F) "Ex" "z" (.name "XY") (1 / 2) = .ok P := by
  obtain ⟨F, -, P, h, -⟩ := C113_graded_refuted (fun a _ _ => a) (Nx := 4) (Ny := 3) (Nz := 6) (by norm_num) (by norm_num) (by norm_num) (x := pX) (y := pG) (z := pZ) (fun i _ => by norm_num [pX])
    (fun i _ => by simp only [pG]; push_cast; nlinarith [(Nat.cast_nonneg i : (0 : ℚ) ≤ i)]) (fun h => by have := h.2 1 (by norm_num); norm_num [pG] at this) (pos := 1 / 2) (by norm_num) (by norm_num)
  exact ⟨F, P, h⟩

end Plot

namespace Cond
open Set

/-- The hypotheses of `C84_edge_partial`: the edge from -1 to -1/2 across the left face of the cavity `|x|, |y| < 3/4` … -/
example : ∃ l, edgeLength (outBox ![3 / 2, 3 / 2] ![0, 0]) ⟨![-1, 0], ![1 / 2, 1 / 2]⟩ 1e-8 0 ![0, 0] = .ok (.fin l) ∧
    LengthIs 1e-8 (1 / 2) (freeLength (outBox ![3 / 2, 3 / 2] ![0, 0]) 0 (Mesh.node ⟨![-1, 0], ![1 / 2, 1 / 2]⟩ ![0, 0]) (-1) (-1 / 2)) l := by
  have e : Mesh.node ⟨![-1, 0], ![1 / 2, 1 / 2]⟩ ![0, 0] (0 : Fin 2) = (-1 : ℝ) := by simp [Mesh.node]
  have key := C84_edge_partial (outBox ![3 / 2, 3 / 2] ![0, 0]) ⟨![-1, 0], ![1 / 2, 1 / 2]⟩ 1e-8 0 ![0, 0] (show (0 : ℝ) < 1 / 2 by norm_num) (by norm_num) (C83_box _ _) ?_
  · rw [e] at key
    have e2 : (-1 : ℝ) + 1 / 2 = -1 / 2 := by norm_num
    obtain ⟨l, h1, h2⟩ := key
    exact ⟨l, h1, e2 ▸ h2⟩
  · rw [e]
    show (frontier _ ∩ Icc (-1 - ((-1 : ℝ) + 1 / 2 - -1)) (-1 + 1 / 2 + (-1 + 1 / 2 - -1))).Subsingleton
    have hS : insideOnLine (outBox ![3 / 2, 3 / 2] ![0, 0]) 0 (Mesh.node ⟨![-1, 0], ![1 / 2, 1 / 2]⟩ ![0, 0]) = (Ioo (-3 / 4 : ℝ) (3 / 4))ᶜ := by
      have e1 : Mesh.node ⟨![-1, 0], ![1 / 2, 1 / 2]⟩ ![0, 0] (1 : Fin 2) = (0 : ℝ) := by simp [Mesh.node]
      ext t
      simp only [insideOnLine, outBox, Fin.forall_fin_two, mem_setOf_eq, mem_compl_iff, mem_Ioo]
      norm_num [Function.update, e1]
    rw [hS, frontier_compl, frontier_Ioo (by norm_num)]
    rintro a ⟨ha, ha'⟩ b ⟨hb, hb'⟩
    simp only [mem_insert_iff, mem_singleton_iff] at ha hb
    rcases ha with rfl | rfl <;> rcases hb with rfl | rfl <;> first | rfl | (exfalso; linarith [ha'.2, hb'.2])

/-- `C85_mesh3_partial`: as long along z as along y. -/
example : (mesh3 ![0, 0, 2] ![1, 3, 5] ![4, 6, 9]).node ![4, 6, 9] = ![1, 3, 5] :=
  (C85_mesh3_partial ![0, 0, 2] ![1, 3, 5] ![4, 6, 9] (by intro a; fin_cases a <;> decide)).2.2 (show (5 : ℝ) - 2 = 3 - 0 by norm_num)

end Cond
end Wakis
