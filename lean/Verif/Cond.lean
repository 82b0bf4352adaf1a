import Verif.Py
import Mathlib.Analysis.Real.Sqrt
import Mathlib.Topology.Order.DenselyOrdered
import Mathlib.Topology.Connected.Basic
import Mathlib.Topology.Order.IntermediateValue
import Mathlib.Analysis.Normed.Module.RCLike.Real
import Mathlib.Tactic.Linarith
import Mathlib.Tactic.Positivity
import Mathlib.Tactic.FieldSimp
import Mathlib.Tactic.Ring

/-!
# C83: conductors of the conformal FDTD grids

Model of `wakis/conductors.py` and `wakis/conductors3d.py`.  A conductor answers, for a point, whether it is inside, whether it is
outside, and where the grid line through the point along an axis crosses the surface.

The two files are modelled together: a conductor lives in `n` dimensions (`n = 2` for conductors.py, `n = 3` for conductors3d.py), a
point is a function on `Fin n`, and axis 0, 1, 2 stands for the suffix `_x`, `_y`, `_z` of the method called.
Floats are real numbers with the two special values `inf` and `nan`.
-/

namespace Wakis
namespace Cond
noncomputable section
open Set Classical

/-! ### Model -/

/-- A float as returned by an intersection method. -/
inductive Num
  | fin (x : ℝ)
  | inf
  | nan

/-- `np.sqrt`: `nan` on a negative number. -/
def npSqrt (a : ℝ) : Num := if 0 ≤ a then .fin (Real.sqrt a) else .nan

/-- `h + c`. -/
def Num.add : Num → ℝ → Num
  | .fin x, c => .fin (x + c)
  | .inf, _ => .inf
  | .nan, _ => .nan

/-- `-h` (only applied to values of `npSqrt`, never to `inf`). -/
def Num.neg : Num → Num
  | .fin x => .fin (-x)
  | .inf => .inf
  | .nan => .nan

/-- `abs(h - x)`. -/
def Num.dist : Num → ℝ → Num
  | .fin a, x => .fin |a - x|
  | .inf, _ => .inf
  | .nan, _ => .nan

/-- `a < b` on non-negative floats: false as soon as one of them is `nan`. -/
def Num.lt : Num → Num → Prop
  | .fin a, .fin b => a < b
  | .fin _, .inf => True
  | _, _ => False

/-- `if abs(x - inters_1) < abs(x - inters_2): return inters_1 else: return inters_2`, the end of most intersection methods
(conductors.py:28-31, 40-43, 119-122, 136-139, 166-169, 181-184; conductors3d.py, all classes but Plane and noConductor). -/
def pick (x : ℝ) (h₁ h₂ : Num) : Num := if Num.lt (h₁.dist x) (h₂.dist x) then h₁ else h₂

/-- A conductor object: `in_conductor`, `out_conductor` and `intersec_x`, `intersec_y`, `intersec_z`. -/
structure Conductor (n : ℕ) where
  inC : (Fin n → ℝ) → Prop
  outC : (Fin n → ℝ) → Py Prop
  hit : Fin n → (Fin n → ℝ) → Py Num

/-- `out_conductor` written as `not self.in_conductor(...)`. -/
def notIn {n : ℕ} (inC : (Fin n → ℝ) → Prop) (p : Fin n → ℝ) : Py Prop := .ok (¬ inC p)

/-- OutRect (conductors.py:5-46): conductor outside an open rectangle, and InCube (conductors3d.py:42-83): conductor outside an open
box (in spite of its name). `L` are the side lengths, `c` the centre. The two ends are computed as `-0.5*L + c` and that plus `L`. -/
def outBox {n : ℕ} (L c : Fin n → ℝ) : Conductor n where
  inC p := ¬ ∀ a, -0.5 * L a + c a < p a ∧ p a < 0.5 * L a + c a
  outC p := .ok (∀ a, -0.5 * L a + c a < p a ∧ p a < 0.5 * L a + c a)
  hit a p := .ok (pick (p a) (.fin (-0.5 * L a + c a)) (.fin (-0.5 * L a + c a + L a)))

/-- ImpFunc (conductors.py:49-67): level set of a function. The Newton-Krylov root finder is a parameter. -/
def impFunc (f : (Fin 2 → ℝ) → ℝ) (root : Fin 2 → (Fin 2 → ℝ) → Py Num) : Conductor 2 where
  inC p := f p > 0
  outC p := .ok (f p < 0)
  hit := root

/-- Plane in two dimensions (conductors.py:70-92), `m`, `q` Python floats, so that `y / m` raises for `m = 0`. A sign other than 1 and
-1 makes `in_conductor` return `None`, which counts as false. -/
def plane2 (m q tol : ℝ) (sign : ℤ) : Conductor 2 where
  inC p := if sign = 1 then p 1 - m * p 0 - q ≥ tol else if sign = -1 then p 1 - m * p 0 - q ≤ tol else False
  outC := notIn fun p => if sign = 1 then p 1 - m * p 0 - q ≥ tol else if sign = -1 then p 1 - m * p 0 - q ≤ tol else False
  hit a p := if a = 0 then (if m = 0 then .error .zeroDivisionError else .ok (.fin (p 1 / m - q / m))) else .ok (.fin (m * p 0 + q))

/-- The other coordinate of the plane. -/
def other (a : Fin 2) : Fin 2 := 1 - a

/-- InCircle (conductors.py:95-141). As in the code, the intersection along x is shifted by the centre's `y` and vice versa. -/
def inCircle (R : ℝ) (c : Fin 2 → ℝ) : Conductor 2 where
  inC p := (p 0 - c 0) ^ 2 + (p 1 - c 1) ^ 2 ≤ R ^ 2
  outC := notIn fun p => (p 0 - c 0) ^ 2 + (p 1 - c 1) ^ 2 ≤ R ^ 2
  hit a p :=
    if |p (other a) - c (other a)| ≤ R then
      .ok (pick (p a) ((npSqrt (R ^ 2 - (p (other a) - c (other a)) ^ 2)).add (c (other a)))
        ((npSqrt (R ^ 2 - (p (other a) - c (other a)) ^ 2)).neg.add (c (other a))))
    else .ok .inf

/-- OutCircle (conductors.py:144-186). -/
def outCircle (R : ℝ) (c : Fin 2 → ℝ) : Conductor 2 where
  inC p := (p 0 - c 0) ^ 2 + (p 1 - c 1) ^ 2 ≥ R ^ 2
  outC := notIn fun p => (p 0 - c 0) ^ 2 + (p 1 - c 1) ^ 2 ≥ R ^ 2
  hit a p :=
    .ok (pick (p a) ((npSqrt (R ^ 2 - (p (other a) - c (other a)) ^ 2)).add (c a))
      ((npSqrt (R ^ 2 - (p (other a) - c (other a)) ^ 2)).neg.add (c a)))

/-- The square under the root of the intersection methods of the spheres: the square of the radius less those of the two other
coordinates (conductors3d.py:106-110, 129-133, 151-155 and the same in OutSphere). -/
def sphereRoot (R : ℝ) (c : Fin 3 → ℝ) (a : Fin 3) (p : Fin 3 → ℝ) : ℝ := R ^ 2 - (p (a + 1) - c (a + 1)) ^ 2 - (p (a + 2) - c (a + 2)) ^ 2

/-- The intersection methods of both spheres (conductors3d.py:103-167, 246-310): the second candidate negates the centre too. -/
def sphereHit (R : ℝ) (c : Fin 3 → ℝ) (a : Fin 3) (p : Fin 3 → ℝ) : Py Num :=
  .ok (pick (p a) ((npSqrt (sphereRoot R c a p)).add (c a)) ((npSqrt (sphereRoot R c a p)).add (c a)).neg)

/-- InSphere (conductors3d.py:86-167). `out_conductor` calls itself for ever. -/
def inSphere (R : ℝ) (c : Fin 3 → ℝ) : Conductor 3 where
  inC p := (p 0 - c 0) ^ 2 + (p 1 - c 1) ^ 2 + (p 2 - c 2) ^ 2 ≤ R ^ 2
  outC _ := .error .recursionError
  hit := sphereHit R c

/-- OutSphere (conductors3d.py:228-310). -/
def outSphere (R : ℝ) (c : Fin 3 → ℝ) : Conductor 3 where
  inC p := (p 0 - c 0) ^ 2 + (p 1 - c 1) ^ 2 + (p 2 - c 2) ^ 2 ≥ R ^ 2
  outC := notIn fun p => (p 0 - c 0) ^ 2 + (p 1 - c 1) ^ 2 + (p 2 - c 2) ^ 2 ≥ R ^ 2
  hit := sphereHit R c

/-- Plane in space (conductors3d.py:187-225): the half space behind a point `q` with normal `nn`. -/
def plane3 (q nn : Fin 3 → ℝ) : Conductor 3 where
  inC p := nn 0 * (p 0 - q 0) + nn 1 * (p 1 - q 1) + nn 2 * (p 2 - q 2) ≤ 0
  outC := notIn fun p => nn 0 * (p 0 - q 0) + nn 1 * (p 1 - q 1) + nn 2 * (p 2 - q 2) ≤ 0
  hit a p := if nn a = 0 then .ok (.fin 1000)
    else .ok (.fin (-(nn (a + 1) * (p (a + 1) - q (a + 1)) + nn (a + 2) * (p (a + 2) - q (a + 2))) / nn a + q a))

/-- noConductor (conductors.py:220-231; conductors3d.py:170-184). -/
def noConductor (n : ℕ) : Conductor n where
  inC _ := False
  outC _ := .ok True
  hit _ _ := .ok (.fin 1000)

/-- `list_inters[np.argmin(dist_inters)]` for an array of objects: the first element is kept until one with a strictly smaller distance
comes (numpy's argmin of objects compares with `<`). -/
def nearestOf (x : ℝ) : Num → List Num → Num
  | best, [] => best
  | best, h :: hs => nearestOf x (if Num.lt (h.dist x) (best.dist x) then h else best) hs

/-- ConductorsAssembly (conductors.py:189-217; conductors3d.py:4-39). `np.argmin` of an empty array raises ValueError. -/
def assembly {n : ℕ} (cs : List (Conductor n)) : Conductor n where
  inC p := ∃ C ∈ cs, C.inC p
  outC := notIn fun p => ∃ C ∈ cs, C.inC p
  hit a p := do
    match ← cs.mapM fun C => C.hit a p with
    | [] => .error .valueError
    | h :: hs => return nearestOf (p a) h hs

/-! ### Specification -/

/-- The part of the grid line through `p` along axis `a` that is inside the conductor, by the coordinate along the axis. -/
def insideOnLine {n : ℕ} (C : Conductor n) (a : Fin n) (p : Fin n → ℝ) : Set ℝ := {t | C.inC (Function.update p a t)}

/-- `h` is the surface point of the set `S` of reals nearest to `x`; it is `inf` when `S` has no boundary. -/
def NearestSurface (S : Set ℝ) (x : ℝ) : Num → Prop
  | .fin b => b ∈ frontier S ∧ ∀ b' ∈ frontier S, |b - x| ≤ |b' - x|
  | .inf => frontier S = ∅
  | .nan => False

/-- The intersection methods do what they are for: asked from a point outside the conductor they return the nearest point, on the grid
line through it, of the surface of the conductor (`inf` if the line does not meet the surface). -/
def FindsSurface {n : ℕ} (C : Conductor n) : Prop :=
  ∀ a p, ¬ C.inC p → ∃ h, C.hit a p = .ok h ∧ NearestSurface (insideOnLine C a p) (p a) h

/-- `out_conductor` is the negation of `in_conductor`. -/
def Complementary {n : ℕ} (C : Conductor n) : Prop := ∀ p, ∃ b, C.outC p = .ok b ∧ (b ↔ ¬ C.inC p)

/-! ### C83: inside and outside -/

theorem C83_box_complementary {n : ℕ} (L c : Fin n → ℝ) : Complementary (outBox L c) := fun _ => ⟨_, rfl, by simp [outBox]⟩
theorem C83_plane2_complementary (m q tol : ℝ) (sign : ℤ) : Complementary (plane2 m q tol sign) := fun _ => ⟨_, rfl, Iff.rfl⟩
theorem C83_circle_complementary (R : ℝ) (c : Fin 2 → ℝ) : Complementary (inCircle R c) ∧ Complementary (outCircle R c) :=
  ⟨fun _ => ⟨_, rfl, Iff.rfl⟩, fun _ => ⟨_, rfl, Iff.rfl⟩⟩
theorem C83_space_complementary (R : ℝ) (c q nn : Fin 3 → ℝ) : Complementary (outSphere R c) ∧ Complementary (plane3 q nn) :=
  ⟨fun _ => ⟨_, rfl, Iff.rfl⟩, fun _ => ⟨_, rfl, Iff.rfl⟩⟩
theorem C83_none_complementary (n : ℕ) : Complementary (noConductor n) := fun _ => ⟨_, rfl, by simp [noConductor]⟩
theorem C83_assembly_complementary {n : ℕ} (cs : List (Conductor n)) : Complementary (assembly cs) := fun _ => ⟨_, rfl, Iff.rfl⟩

/-- An assembly is the union of its members. -/
theorem C83_assembly_inside {n : ℕ} (cs : List (Conductor n)) (p : Fin n → ℝ) : (assembly cs).inC p ↔ ∃ C ∈ cs, C.inC p := Iff.rfl

/-- Refuted for `ImpFunc`: wherever the function vanishes the point is neither inside nor outside. -/
theorem C83_impFunc_refuted (f : (Fin 2 → ℝ) → ℝ) (root) (p : Fin 2 → ℝ) (h : f p = 0) :
    ¬ (impFunc f root).inC p ∧ (impFunc f root).outC p = .ok False := by simp [impFunc, h]

/-- Away from the surface the two are complementary. -/
theorem C83_impFunc_partial (f : (Fin 2 → ℝ) → ℝ) (root) (p : Fin 2 → ℝ) (h : f p ≠ 0) :
    ∃ b, (impFunc f root).outC p = .ok b ∧ (b ↔ ¬ (impFunc f root).inC p) :=
  ⟨_, rfl, by simp only [impFunc, gt_iff_lt, not_lt]; exact ⟨le_of_lt, fun h' => lt_of_le_of_ne h' h⟩⟩

/-- Refuted for `InSphere`: asking for the outside never returns. -/
theorem C83_inSphere_out_refuted (R : ℝ) (c : Fin 3 → ℝ) (p : Fin 3 → ℝ) : (inSphere R c).outC p = .error .recursionError := rfl

/-- A sign other than 1 and -1 makes everything outside. -/
theorem C83_plane2_bad_sign (m q tol : ℝ) (sign : ℤ) (h1 : sign ≠ 1) (h2 : sign ≠ -1) (p) : ¬ (plane2 m q tol sign).inC p := by
  simp [plane2, h1, h2]

/-! ### Lines -/

/-- Between a point outside a set and one inside it there is a surface point. -/
lemma surface_between {S : Set ℝ} {x t : ℝ} (hx : x ∉ S) (ht : t ∈ S) : ∃ b ∈ frontier S, |b - x| ≤ |t - x| := by
  have key : ∃ b ∈ uIcc x t, b ∈ frontier S := by
    by_contra hno
    push Not at hno
    have hsub : uIcc x t ⊆ interior S ∪ interior Sᶜ := by
      intro b hb
      rw [← compl_frontier_eq_union_interior]; exact hno b hb
    have hpre : IsPreconnected (uIcc x t) := isPreconnected_uIcc
    have h1 : t ∈ interior S := by
      rcases hsub right_mem_uIcc with h | h
      · exact h
      · exact absurd ht (interior_subset h)
    have h2 : x ∈ interior Sᶜ := by
      rcases hsub left_mem_uIcc with h | h
      · exact absurd (interior_subset h) hx
      · exact h
    obtain ⟨b, _, hb1, hb2⟩ := hpre _ _ isOpen_interior isOpen_interior hsub ⟨t, right_mem_uIcc, h1⟩ ⟨x, left_mem_uIcc, h2⟩
    exact (interior_subset hb2) (interior_subset hb1)
  obtain ⟨b, hb, hf⟩ := key
  exact ⟨b, hf, abs_sub_left_of_mem_uIcc hb⟩

/-- Nothing of the set is nearer than the nearest surface point; without surface there is nothing. -/
lemma nothing_nearer {S : Set ℝ} {x : ℝ} (hx : x ∉ S) {b : ℝ} (h : NearestSurface S x (.fin b)) {t : ℝ} (ht : t ∈ S) : |b - x| ≤ |t - x| := by
  obtain ⟨b', hb', hle⟩ := surface_between hx ht
  exact (h.2 b' hb').trans hle

lemma nothing_inside {S : Set ℝ} {x : ℝ} (hx : x ∉ S) (h : NearestSurface S x .inf) : S = ∅ := by
  ext t
  refine ⟨fun ht => ?_, fun h => absurd h (by simp)⟩
  obtain ⟨b, hb, _⟩ := surface_between hx ht
  rw [show frontier S = ∅ from h] at hb
  exact absurd hb (by simp)

lemma union_fin {S T : Set ℝ} {x a : ℝ} (hS : x ∉ S) (hT : x ∉ T) (ha : NearestSurface S x (.fin a)) (hn : ∀ t ∈ T, |a - x| ≤ |t - x|)
    (hf : ∀ b ∈ frontier T, |a - x| ≤ |b - x|) : NearestSurface (S ∪ T) x (.fin a) := by
  refine ⟨?_, fun b hb => ?_⟩
  · rw [frontier_eq_closure_inter_closure]
    refine ⟨closure_mono subset_union_left ha.1.1, ?_⟩
    by_cases hax : a = x
    · subst hax
      exact subset_closure (by simp [hS, hT])
    · have hr : |a - x| ≠ 0 := by simpa [sub_eq_zero] using hax
      have hsub : Metric.ball x |a - x| ⊆ (S ∪ T)ᶜ := by
        intro t ht
        rw [Metric.mem_ball, Real.dist_eq] at ht
        simp only [compl_union, mem_inter_iff, mem_compl_iff]
        exact ⟨fun h => absurd (nothing_nearer hS ha h) (not_le.2 ht), fun h => absurd (hn t h) (not_le.2 ht)⟩
      have := closure_mono hsub
      rw [closure_ball x hr] at this
      exact this (by rw [Metric.mem_closedBall, Real.dist_eq])
  · rcases frontier_union_subset S T hb with h | h
    · exact ha.2 b h.1
    · exact hf b h.2

lemma union_nearest {S T : Set ℝ} {x : ℝ} {g h : Num} (hS : x ∉ S) (hT : x ∉ T) (hg : NearestSurface S x g) (hh : NearestSurface T x h) :
    NearestSurface (S ∪ T) x (if Num.lt (h.dist x) (g.dist x) then h else g) := by
  rcases g with a | _ | _
  · rcases h with b | _ | _
    · by_cases hlt : |b - x| < |a - x|
      · rw [if_pos (show Num.lt (Num.dist (.fin b) x) (Num.dist (.fin a) x) from hlt), union_comm]
        exact union_fin hT hS hh (fun t ht => hlt.le.trans (nothing_nearer hS hg ht)) (fun c hc => hlt.le.trans (hg.2 c hc))
      · rw [if_neg (show ¬ Num.lt (Num.dist (.fin b) x) (Num.dist (.fin a) x) from hlt)]
        have hle := not_lt.1 hlt
        exact union_fin hS hT hg (fun t ht => hle.trans (nothing_nearer hT hh ht)) (fun c hc => hle.trans (hh.2 c hc))
    · rw [if_neg (show ¬ Num.lt (Num.dist .inf x) (Num.dist (.fin a) x) from fun h => h), nothing_inside hT hh, union_empty]
      exact hg
    · exact absurd hh (fun h => h)
  · rw [nothing_inside hS hg, empty_union]
    rcases h with b | _ | _
    · rw [if_pos (show Num.lt (Num.dist (.fin b) x) (Num.dist .inf x) from trivial)]; exact hh
    · rw [if_neg (show ¬ Num.lt (Num.dist .inf x) (Num.dist .inf x) from fun h => h)]; exact hh
    · exact absurd hh (fun h => h)
  · exact absurd hg (fun h => h)

lemma nearestOf_spec {x : ℝ} : ∀ (Ss : List (Set ℝ × Num)) (S : Set ℝ) (g : Num), x ∉ S → NearestSurface S x g →
    (∀ q ∈ Ss, x ∉ q.1 ∧ NearestSurface q.1 x q.2) →
    NearestSurface (S ∪ {t | ∃ q ∈ Ss, t ∈ q.1}) x (nearestOf x g (Ss.map Prod.snd))
  | [], S, g, _, hg, _ => by simpa [nearestOf] using hg
  | q :: Ss, S, g, hS, hg, hall => by
    have hq := hall q (by simp)
    have := nearestOf_spec Ss (S ∪ q.1) _ (by simp [hS, hq.1]) (union_nearest hS hq.1 hg hq.2) (fun r hr => hall r (by simp [hr]))
    have he : S ∪ {t | ∃ r ∈ q :: Ss, t ∈ r.1} = (S ∪ q.1) ∪ {t | ∃ r ∈ Ss, t ∈ r.1} := by
      ext t; simp [or_assoc]
    rw [he]; exact this

lemma mapM_hits {n : ℕ} (a : Fin n) (p : Fin n → ℝ) : ∀ cs : List (Conductor n),
    (∀ C ∈ cs, ∃ h, C.hit a p = .ok h ∧ NearestSurface (insideOnLine C a p) (p a) h) →
    ∃ Ss : List (Set ℝ × Num), cs.mapM (fun C => C.hit a p) = .ok (Ss.map Prod.snd) ∧ Ss.map Prod.fst = cs.map (fun C => insideOnLine C a p) ∧
      ∀ q ∈ Ss, NearestSurface q.1 (p a) q.2
  | [], _ => ⟨[], rfl, rfl, by simp⟩
  | C :: cs, h => by
    obtain ⟨h0, e0, n0⟩ := h C (by simp)
    obtain ⟨Ss, e, e', n⟩ := mapM_hits a p cs (fun C' h' => h C' (by simp [h']))
    refine ⟨(insideOnLine C a p, h0) :: Ss, ?_, by simp [e'], ?_⟩
    · rw [List.mapM_cons, e0, e]; rfl
    · intro q hq
      rcases List.mem_cons.1 hq with rfl | hq
      · exact n0
      · exact n q hq

/-- **C83.** If the intersection methods of every member of a non-empty assembly find its surface, those of the assembly find the
surface of the union. -/
theorem C83_assembly {n : ℕ} (cs : List (Conductor n)) (hne : cs ≠ []) (h : ∀ C ∈ cs, FindsSurface C) : FindsSurface (assembly cs) := by
  intro a p hout
  have hout' : ∀ C ∈ cs, ¬ C.inC p := fun C hC hin => hout ⟨C, hC, hin⟩
  obtain ⟨Ss, e, e', hn⟩ := mapM_hits a p cs (fun C hC => h C hC a p (hout' C hC))
  have hx : ∀ q ∈ Ss, p a ∉ q.1 := by
    intro q hq
    have : q.1 ∈ cs.map (fun C => insideOnLine C a p) := e' ▸ List.mem_map_of_mem hq
    obtain ⟨C, hC, hE⟩ := List.mem_map.1 this
    rw [← hE]
    simpa [insideOnLine] using hout' C hC
  have hset : insideOnLine (assembly cs) a p = {t | ∃ q ∈ Ss, t ∈ q.1} := by
    ext t
    simp only [insideOnLine, assembly, mem_ofPred_eq]
    constructor
    · rintro ⟨C, hC, hin⟩
      have : insideOnLine C a p ∈ Ss.map Prod.fst := e' ▸ List.mem_map_of_mem (f := fun C => insideOnLine C a p) hC
      obtain ⟨q, hq, hE⟩ := List.mem_map.1 this
      exact ⟨q, hq, hE ▸ hin⟩
    · rintro ⟨q, hq, hin⟩
      have : q.1 ∈ cs.map (fun C => insideOnLine C a p) := e' ▸ List.mem_map_of_mem hq
      obtain ⟨C, hC, hE⟩ := List.mem_map.1 this
      exact ⟨C, hC, by rw [← hE] at hin; exact hin⟩
  rcases Ss with _ | ⟨q, Ss⟩
  · cases cs with
    | nil => exact absurd rfl hne
    | cons => simp at e'
  · refine ⟨nearestOf (p a) q.2 (Ss.map Prod.snd), ?_, ?_⟩
    · simp only [assembly, e]; rfl
    · have := nearestOf_spec Ss q.1 q.2 (hx q (by simp)) (hn q (by simp)) (fun r hr => ⟨hx r (by simp [hr]), hn r (by simp [hr])⟩)
      rw [hset]
      have he : {t | ∃ r ∈ q :: Ss, t ∈ r.1} = q.1 ∪ {t | ∃ r ∈ Ss, t ∈ r.1} := by ext t; simp
      rw [he]; exact this

/-- An empty assembly is nowhere inside, and its intersection methods raise. -/
theorem C83_assembly_empty (n : ℕ) (a : Fin n) (p : Fin n → ℝ) : ¬ (assembly ([] : List (Conductor n))).inC p ∧
    (assembly ([] : List (Conductor n))).hit a p = .error .valueError := ⟨by simp [assembly], rfl⟩

/-! ### C83: the shapes -/

lemma pick_pair {S : Set ℝ} {l r x : ℝ} (hS : frontier S = {l, r}) : NearestSurface S x (pick x (.fin l) (.fin r)) := by
  unfold pick
  split
  · rename_i h
    refine ⟨by rw [hS]; simp, fun b hb => ?_⟩
    rw [hS] at hb
    rcases hb with rfl | hb
    · exact le_rfl
    · rw [mem_singleton_iff.1 hb]; exact le_of_lt h
  · rename_i h
    refine ⟨by rw [hS]; simp, fun b hb => ?_⟩
    rw [hS] at hb
    rcases hb with rfl | hb
    · exact not_lt.1 h
    · rw [mem_singleton_iff.1 hb]

/-- **C83.** Outside of a box (two or three dimensions). -/
theorem C83_box {n : ℕ} (L c : Fin n → ℝ) : FindsSurface (outBox L c) := by
  intro a p hout
  have hin : ∀ a, -0.5 * L a + c a < p a ∧ p a < 0.5 * L a + c a := by simpa [outBox] using hout
  refine ⟨_, rfl, pick_pair ?_⟩
  have hL : -0.5 * L a + c a < 0.5 * L a + c a := (hin a).1.trans (hin a).2
  have : insideOnLine (outBox L c) a p = (Ioo (-0.5 * L a + c a) (0.5 * L a + c a))ᶜ := by
    ext t
    simp only [insideOnLine, outBox, mem_ofPred_eq, mem_compl_iff, mem_Ioo, not_iff_not]
    constructor
    · intro h; simpa using h a
    · intro h b
      by_cases hb : b = a
      · subst hb; simpa using h
      · simpa [hb] using hin b
  rw [this, frontier_compl, frontier_Ioo hL, show -0.5 * L a + c a + L a = 0.5 * L a + c a by ring]

lemma frontier_singleton_nearest {S : Set ℝ} {b x : ℝ} (h : frontier S = {b}) : NearestSurface S x (.fin b) :=
  ⟨by rw [h]; simp, fun b' hb' => by rw [h] at hb'; rw [mem_singleton_iff.1 hb']⟩

lemma frontier_half {k b : ℝ} (hk : k ≠ 0) : frontier {t : ℝ | 0 ≤ k * (b - t)} = {b} := by
  rcases lt_or_gt_of_ne hk with h | h
  · have : {t : ℝ | 0 ≤ k * (b - t)} = Ici b := by
      ext t
      simp only [mem_ofPred_eq, mem_Ici]
      constructor
      · intro h'; by_contra hb; nlinarith [not_le.1 hb]
      · intro h'; nlinarith
    rw [this, frontier_Ici]
  · have : {t : ℝ | 0 ≤ k * (b - t)} = Iic b := by
      ext t
      simp only [mem_ofPred_eq, mem_Iic]
      constructor
      · intro h'; by_contra hb; nlinarith [not_le.1 hb]
      · intro h'; nlinarith
    rw [this, frontier_Iic]

lemma plane2_frontier (m q : ℝ) (hm : m ≠ 0) (sign : ℤ) (hs : sign = 1 ∨ sign = -1) (a : Fin 2) (p : Fin 2 → ℝ) :
    frontier (insideOnLine (plane2 m q 0 sign) a p) = {if a = 0 then p 1 / m - q / m else m * p 0 + q} := by
  obtain rfl | rfl : a = 0 ∨ a = 1 := by fin_cases a <;> simp
  · rw [if_pos rfl]
    have hb : ∀ t : ℝ, p 1 - m * t - q = m * ((p 1 / m - q / m) - t) := by intro t; field_simp; ring
    rcases hs with rfl | rfl
    · rw [← frontier_half hm]
      congr 1; ext t
      simp only [insideOnLine, plane2, if_pos, mem_ofPred_eq, ge_iff_le]
      rw [show Function.update p 0 t 1 = p 1 by simp, show Function.update p 0 t 0 = t by simp, hb]
    · rw [← frontier_half (neg_ne_zero.2 hm)]
      congr 1; ext t
      simp only [insideOnLine, plane2, mem_ofPred_eq, show ¬ ((-1 : ℤ) = 1) by decide, if_false, if_true]
      rw [show Function.update p 0 t 1 = p 1 by simp, show Function.update p 0 t 0 = t by simp, hb, neg_mul, neg_nonneg]
  · rw [if_neg (by decide)]
    have hb : ∀ t : ℝ, t - m * p 0 - q = (-1) * ((m * p 0 + q) - t) := by intro t; ring
    rcases hs with rfl | rfl
    · rw [← frontier_half (show (-1 : ℝ) ≠ 0 by norm_num)]
      congr 1; ext t
      simp only [insideOnLine, plane2, if_pos, mem_ofPred_eq, ge_iff_le]
      rw [show Function.update p 1 t 1 = t by simp, show Function.update p 1 t 0 = p 0 by simp, hb]
    · rw [← frontier_half (show (1 : ℝ) ≠ 0 by norm_num)]
      congr 1; ext t
      simp only [insideOnLine, plane2, mem_ofPred_eq, show ¬ ((-1 : ℤ) = 1) by decide, if_false, if_true]
      rw [show Function.update p 1 t 1 = t by simp, show Function.update p 1 t 0 = p 0 by simp, hb, neg_one_mul, one_mul,
        neg_nonpos]

/-- **C83.** Plane of the two-dimensional code, neither horizontal nor shifted by a tolerance. -/
theorem C83_plane2_partial (m q : ℝ) (hm : m ≠ 0) (sign : ℤ) (hs : sign = 1 ∨ sign = -1) : FindsSurface (plane2 m q 0 sign) := by
  intro a p _
  refine ⟨.fin (if a = 0 then p 1 / m - q / m else m * p 0 + q), ?_, frontier_singleton_nearest (plane2_frontier m q hm sign hs a p)⟩
  simp only [plane2, if_neg hm]
  split <;> rfl

/-- Refuted with a tolerance: the surface is at `y = m x + q + tol`, the reported intersection is not. -/
theorem C83_plane2_tol_refuted (m q tol : ℝ) (ht : tol ≠ 0) : ¬ FindsSurface (plane2 m q tol 1) := by
  intro h
  obtain ⟨g, hg, hn⟩ := h 1 ![0, q + tol - 1] (by simp [plane2]; linarith)
  have hg' : g = .fin q := by
    have : (plane2 m q tol 1).hit 1 ![0, q + tol - 1] = .ok (.fin q) := by simp [plane2]
    rw [this] at hg; exact (Except.ok.inj hg).symm
  subst hg'
  have hS : insideOnLine (plane2 m q tol 1) 1 ![0, q + tol - 1] = Ici (q + tol) := by
    ext t; simp only [insideOnLine, plane2, if_pos, mem_ofPred_eq, ge_iff_le, mem_Ici]
    rw [show Function.update ![0, q + tol - 1] (1 : Fin 2) t 1 = t by simp, show Function.update ![0, q + tol - 1] (1 : Fin 2) t 0 = 0 by simp]
    constructor <;> intro h <;> linarith
  have := hn.1
  rw [hS, frontier_Ici, mem_singleton_iff] at this
  exact ht (by linarith)

/-- Refuted for a horizontal plane: asking for the intersection along x raises, although the line may meet the surface of another
member of an assembly. -/
theorem C83_plane2_flat_refuted (q tol : ℝ) (sign : ℤ) (C : Conductor 2) (p : Fin 2 → ℝ) :
    (plane2 0 q tol sign).hit 0 p = .error .zeroDivisionError ∧ (assembly [plane2 0 q tol sign, C]).hit 0 p = .error .zeroDivisionError :=
  have h : (plane2 0 q tol sign).hit 0 p = .error .zeroDivisionError := by simp [plane2]
  ⟨h, by simp only [assembly, List.mapM_cons, h]; rfl⟩

lemma abs_le_sqrt_iff {k x : ℝ} (hk : 0 ≤ k) : x ^ 2 ≤ k ↔ -Real.sqrt k ≤ x ∧ x ≤ Real.sqrt k := by
  rw [← abs_le, ← Real.sqrt_sq_eq_abs]; exact (Real.sqrt_le_sqrt_iff hk).symm

/-- The chord of a disc or ball. -/
lemma chord_in {k c x : ℝ} (hk : 0 ≤ k) :
    NearestSurface {t : ℝ | (t - c) ^ 2 ≤ k} x (pick x ((npSqrt k).add c) ((npSqrt k).neg.add c)) := by
  have hs := Real.sqrt_nonneg k
  simp only [npSqrt, if_pos hk, Num.add, Num.neg]
  apply pick_pair
  rw [pair_comm, show {t : ℝ | (t - c) ^ 2 ≤ k} = Icc (-Real.sqrt k + c) (Real.sqrt k + c) by
    ext t; simp only [mem_ofPred_eq, mem_Icc, abs_le_sqrt_iff hk]
    constructor <;> rintro ⟨h1, h2⟩ <;> constructor <;> linarith]
  exact frontier_Icc (by linarith)

lemma chord_out {k c x : ℝ} (hk : 0 < k) :
    NearestSurface {t : ℝ | k ≤ (t - c) ^ 2} x (pick x ((npSqrt k).add c) ((npSqrt k).neg.add c)) := by
  have hs := Real.sqrt_pos.2 hk
  simp only [npSqrt, if_pos hk.le, Num.add, Num.neg]
  apply pick_pair
  rw [pair_comm, show {t : ℝ | k ≤ (t - c) ^ 2} = (Ioo (-Real.sqrt k + c) (Real.sqrt k + c))ᶜ by
    ext t; simp only [mem_ofPred_eq, mem_compl_iff, mem_Ioo]
    rw [← not_lt, not_iff_not, ← Real.sqrt_lt_sqrt_iff (sq_nonneg _), Real.sqrt_sq_eq_abs, abs_lt]
    constructor <;> rintro ⟨h1, h2⟩ <;> constructor <;> linarith]
  rw [frontier_compl]
  exact frontier_Ioo (by linarith)

/-- **C83.** OutCircle. -/
theorem C83_outCircle (R : ℝ) (c : Fin 2 → ℝ) : FindsSurface (outCircle R c) := by
  intro a p hout
  have hout' : (p 0 - c 0) ^ 2 + (p 1 - c 1) ^ 2 < R ^ 2 := by simpa [outCircle] using hout
  refine ⟨_, rfl, ?_⟩
  obtain rfl | rfl : a = 0 ∨ a = 1 := by fin_cases a <;> simp
  · rw [show insideOnLine (outCircle R c) 0 p = {t : ℝ | R ^ 2 - (p (other 0) - c (other 0)) ^ 2 ≤ (t - c 0) ^ 2} by
      ext t; simp [insideOnLine, outCircle, other]]
    exact chord_out (by simp only [other]; norm_num; nlinarith [sq_nonneg (p 0 - c 0)])
  · rw [show insideOnLine (outCircle R c) 1 p = {t : ℝ | R ^ 2 - (p (other 1) - c (other 1)) ^ 2 ≤ (t - c 1) ^ 2} by
      ext t; simp [insideOnLine, outCircle, other, add_comm]]
    exact chord_out (by simp only [other]; norm_num; nlinarith [sq_nonneg (p 1 - c 1)])

/-- **C83.** InCircle, when the two coordinates of the centre are equal. -/
theorem C83_inCircle_partial (R : ℝ) (hR : 0 ≤ R) (c : Fin 2 → ℝ) (hc : c 0 = c 1) : FindsSurface (inCircle R c) := by
  have hcc : ∀ a, c (other a) = c a := by intro a; fin_cases a <;> simp [other, hc]
  have hset : ∀ a p, insideOnLine (inCircle R c) a p = {t : ℝ | (t - c a) ^ 2 ≤ R ^ 2 - (p (other a) - c (other a)) ^ 2} := by
    intro a p
    obtain rfl | rfl : a = 0 ∨ a = 1 := by fin_cases a <;> simp
    · ext t; simp [insideOnLine, inCircle, other, le_sub_iff_add_le]
    · ext t; simp [insideOnLine, inCircle, other, le_sub_iff_add_le, add_comm]
  intro a p _
  by_cases h : |p (other a) - c (other a)| ≤ R
  · refine ⟨_, by simp only [inCircle]; rw [if_pos h], ?_⟩
    rw [hset, hcc a]
    refine chord_in ?_
    rw [hcc a] at h
    have := sq_le_sq' (by linarith [abs_nonneg (p (other a) - c a)]) h
    rw [sq_abs] at this
    linarith
  · refine ⟨.inf, by simp only [inCircle]; rw [if_neg h], ?_⟩
    show frontier _ = ∅
    rw [hset, show {t : ℝ | (t - c a) ^ 2 ≤ R ^ 2 - (p (other a) - c (other a)) ^ 2} = ∅ by
      ext t
      simp only [mem_ofPred_eq, mem_empty_iff_false, iff_false, not_le]
      have : R ^ 2 < |p (other a) - c (other a)| ^ 2 := by nlinarith [not_le.1 h]
      rw [sq_abs] at this
      nlinarith [sq_nonneg (t - c a)]]
    exact frontier_empty

/-- Refuted in general: a disc of radius 1 centred at (3, 0). Asked from (0, 0), where the line y = 0 enters the disc at x = 2, the
intersection along x is reported at x = -1, outside the disc and far from its surface. -/
theorem C83_inCircle_refuted : (inCircle 1 ![3, 0]).hit 0 ![0, 0] = .ok (.fin (-1)) ∧ ¬ FindsSurface (inCircle 1 ![3, 0]) := by
  have h1 : (inCircle 1 ![3, 0]).hit 0 ![0, 0] = .ok (.fin (-1)) := by
    simp [inCircle, other, npSqrt, pick, Num.add, Num.neg, Num.dist, Num.lt]
  refine ⟨h1, fun h => ?_⟩
  obtain ⟨g, hg, hn⟩ := h 0 ![0, 0] (by simp [inCircle])
  rw [h1] at hg
  obtain rfl := Except.ok.inj hg
  have hS : insideOnLine (inCircle 1 ![3, 0]) 0 ![0, 0] = Icc 2 4 := by
    ext t
    simp only [insideOnLine, inCircle, mem_ofPred_eq, mem_Icc]
    rw [show Function.update ![(0:ℝ), 0] (0 : Fin 2) t 0 = t by simp, show Function.update ![(0:ℝ), 0] (0 : Fin 2) t 1 = 0 by simp]
    simp only [Matrix.cons_val_zero, Matrix.cons_val_one]
    constructor
    · intro h; constructor <;> nlinarith
    · rintro ⟨h1, h2⟩; nlinarith
  have := hn.1
  rw [hS, frontier_Icc (by norm_num)] at this
  norm_num at this

/-- **C83.** Spheres about the origin. -/
theorem C83_outSphere_partial (R : ℝ) : FindsSurface (outSphere R 0) := by
  intro a p hout
  have hout' : p 0 ^ 2 + p 1 ^ 2 + p 2 ^ 2 < R ^ 2 := by simpa [outSphere] using hout
  refine ⟨_, rfl, ?_⟩
  have hset : insideOnLine (outSphere R 0) a p = {t : ℝ | sphereRoot R 0 a p ≤ (t - 0) ^ 2} := by
    ext t
    fin_cases a <;> simp [insideOnLine, outSphere, sphereRoot] <;> constructor <;> intro h <;> linarith
  have hk : 0 < sphereRoot R 0 a p := by
    fin_cases a <;> simp [sphereRoot] <;> nlinarith [sq_nonneg (p 0), sq_nonneg (p 1), sq_nonneg (p 2)]
  have := chord_out (k := sphereRoot R 0 a p) (c := 0) (x := p a) hk
  rw [hset]
  simpa [npSqrt, hk.le, Num.add, Num.neg] using this

/-- InSphere about the origin, on lines that meet the ball. Missing: other centres (refuted) and lines that miss the ball. -/
theorem C83_inSphere_partial (R : ℝ) (a : Fin 3) (p : Fin 3 → ℝ) (hk : 0 ≤ sphereRoot R 0 a p) :
    ∃ h, (inSphere R 0).hit a p = .ok h ∧ NearestSurface (insideOnLine (inSphere R 0) a p) (p a) h := by
  refine ⟨_, rfl, ?_⟩
  have hset : insideOnLine (inSphere R 0) a p = {t : ℝ | (t - 0) ^ 2 ≤ sphereRoot R 0 a p} := by
    ext t
    fin_cases a <;> simp [insideOnLine, inSphere, sphereRoot] <;> constructor <;> intro h <;> linarith
  have := chord_in (k := sphereRoot R 0 a p) (c := 0) (x := p a) hk
  rw [hset]
  simpa [npSqrt, hk, Num.add, Num.neg] using this

/-- Refuted for a line that misses the ball: the answer is `nan`. In an assembly `nan` comes out if the ball is its first member. -/
theorem C83_inSphere_miss_refuted (R : ℝ) (c : Fin 3 → ℝ) (a : Fin 3) (p : Fin 3 → ℝ) (h : sphereRoot R c a p < 0) (C : Conductor 3)
    (g : Num) (hC : C.hit a p = .ok g) :
    (inSphere R c).hit a p = .ok .nan ∧ (assembly [inSphere R c, C]).hit a p = .ok .nan := by
  have h1 : (inSphere R c).hit a p = .ok .nan := by
    simp [inSphere, sphereHit, npSqrt, not_le.2 h, pick, Num.add, Num.neg, Num.dist, Num.lt]
  refine ⟨h1, ?_⟩
  simp only [assembly, List.mapM_cons, List.mapM_nil, h1, hC]
  show Except.ok (nearestOf (p a) Num.nan [g]) = _
  cases g <;> simp [nearestOf, Num.dist, Num.lt]

/-- Refuted off the origin: the unit sphere about (3, 0, 0). Asked from (5/2, 0, 0), where the surface is at x = 2 (and x = 4), the
intersection is reported at x = 4. -/
theorem C83_outSphere_refuted : (outSphere 1 ![3, 0, 0]).hit 0 ![5 / 2, 0, 0] = .ok (.fin 4) ∧ ¬ FindsSurface (outSphere 1 ![3, 0, 0]) := by
  have h1 : (outSphere 1 ![3, 0, 0]).hit 0 ![5 / 2, 0, 0] = .ok (.fin 4) := by
    have : sphereRoot 1 ![3, 0, 0] 0 ![5 / 2, 0, 0] = 1 := by simp [sphereRoot]
    simp only [outSphere, sphereHit, this]
    simp [npSqrt, pick, Num.add, Num.neg, Num.dist, Num.lt]
    norm_num
  refine ⟨h1, fun h => ?_⟩
  obtain ⟨g, hg, hn⟩ := h 0 ![5 / 2, 0, 0] (by simp [outSphere]; norm_num)
  rw [h1] at hg
  obtain rfl := Except.ok.inj hg
  have hS : (2 : ℝ) ∈ frontier (insideOnLine (outSphere 1 ![3, 0, 0]) 0 ![5 / 2, 0, 0]) := by
    rw [show insideOnLine (outSphere 1 ![3, 0, 0]) 0 ![5 / 2, 0, 0] = (Ioo 2 4)ᶜ by
      ext t
      simp only [insideOnLine, outSphere, mem_ofPred_eq, mem_compl_iff, mem_Ioo]
      rw [show Function.update ![(5 / 2 : ℝ), 0, 0] (0 : Fin 3) t 0 = t by simp, show Function.update ![(5 / 2 : ℝ), 0, 0] (0 : Fin 3) t 1 = 0 by simp,
        show Function.update ![(5 / 2 : ℝ), 0, 0] (0 : Fin 3) t 2 = 0 by simp]
      simp only [Matrix.cons_val, sub_self]
      constructor
      · rintro h ⟨h1, h2⟩; nlinarith
      · intro h
        by_cases h2 : 2 < t
        · have : 4 ≤ t := by by_contra h3; exact h ⟨h2, not_le.1 h3⟩
          nlinarith
        · nlinarith [not_lt.1 h2], frontier_compl, frontier_Ioo (by norm_num)]
    simp
  have := hn.2 2 hS
  norm_num [abs_of_pos, abs_of_neg] at this

lemma plane3_frontier (q nn : Fin 3 → ℝ) (a : Fin 3) (ha : nn a ≠ 0) (p : Fin 3 → ℝ) :
    frontier (insideOnLine (plane3 q nn) a p) = {-(nn (a + 1) * (p (a + 1) - q (a + 1)) + nn (a + 2) * (p (a + 2) - q (a + 2))) / nn a + q a} := by
  rw [← frontier_half ha]
  congr 1; ext t
  have : nn a * (-(nn (a + 1) * (p (a + 1) - q (a + 1)) + nn (a + 2) * (p (a + 2) - q (a + 2))) / nn a + q a - t) =
      -(nn a * (t - q a) + nn (a + 1) * (p (a + 1) - q (a + 1)) + nn (a + 2) * (p (a + 2) - q (a + 2))) := by
    field_simp; ring
  simp only [mem_ofPred_eq, this, insideOnLine, plane3]
  fin_cases a <;> simp <;> constructor <;> intro h <;> linarith

/-- **C83.** Plane of the three-dimensional code, along the axes it is not parallel to. -/
theorem C83_plane3_partial (q nn : Fin 3 → ℝ) (a : Fin 3) (ha : nn a ≠ 0) (p : Fin 3 → ℝ) :
    ∃ h, (plane3 q nn).hit a p = .ok h ∧ NearestSurface (insideOnLine (plane3 q nn) a p) (p a) h :=
  ⟨_, by simp only [plane3]; rw [if_neg ha], frontier_singleton_nearest (plane3_frontier q nn a ha p)⟩

/-- Refuted along an axis parallel to the plane: the line has no surface point and `1000` is reported instead of `inf`; in an assembly
this hides every surface that is farther away. -/
theorem C83_plane3_parallel_refuted (q nn : Fin 3 → ℝ) (a : Fin 3) (ha : nn a = 0) (p : Fin 3 → ℝ) :
    (plane3 q nn).hit a p = .ok (.fin 1000) ∧ frontier (insideOnLine (plane3 q nn) a p) = ∅ := by
  refine ⟨by simp [plane3, ha], ?_⟩
  by_cases h : (plane3 q nn).inC p
  · rw [show insideOnLine (plane3 q nn) a p = univ by
      ext t
      simp only [insideOnLine, mem_ofPred_eq, mem_univ, iff_true]
      simp only [plane3] at h ⊢
      fin_cases a <;> simp_all]
    exact frontier_univ
  · rw [show insideOnLine (plane3 q nn) a p = ∅ by
      ext t
      simp only [insideOnLine, mem_ofPred_eq, mem_empty_iff_false, iff_false]
      simp only [plane3] at h ⊢
      fin_cases a <;> simp_all]
    exact frontier_empty

/-- No conductor: nothing is inside, and the reported intersection is not on any surface. -/
theorem C83_none_refuted (n : ℕ) (a : Fin n) (p : Fin n → ℝ) : ¬ (noConductor n).inC p ∧ (noConductor n).hit a p = .ok (.fin 1000) ∧
    frontier (insideOnLine (noConductor n) a p) = ∅ := by
  refine ⟨fun h => h, rfl, ?_⟩
  rw [show insideOnLine (noConductor n) a p = ∅ by ext t; simp [insideOnLine, noConductor]]
  exact frontier_empty

/-- A cavity cut out by a rectangle, a slanted plane and a circle meets the hypotheses of `C83_assembly`. -/
example : FindsSurface (assembly [outBox ![4, 2] ![0, 0], plane2 1 1 0 1, outCircle 3 ![1, 2]]) :=
  C83_assembly _ (by simp) (by
    intro C hC
    simp only [List.mem_cons, List.not_mem_nil, or_false] at hC
    rcases hC with rfl | rfl | rfl
    · exact C83_box _ _
    · exact C83_plane2_partial 1 1 one_ne_zero 1 (Or.inl rfl)
    · exact C83_outCircle _ _)

/-- and has an outside. -/
example : ¬ (assembly [outBox ![4, 2] ![0, 0], plane2 1 1 0 1, outCircle 3 ![1, 2]]).inC ![0, 0] := by
  rintro ⟨C, hC, h⟩
  simp only [List.mem_cons, List.not_mem_nil, or_false] at hC
  rcases hC with rfl | rfl | rfl
  · revert h; simp [outBox]; norm_num
  · revert h; simp [plane2]
  · revert h; simp [outCircle]; norm_num

end
end Cond
end Wakis
