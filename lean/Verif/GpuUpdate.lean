import Verif.FieldGpu
import Verif.Lifecycle

/-!
# C36 on the GPU: `update_tensors` with `use_gpu=True`

`wakis/solverFIT3D.py:307-377`.  Places of arrays and matrices as in `FieldGpu`; the object as in `Lifecycle`.
-/

namespace Wakis
namespace Sol
open Sparse
variable {K : Type _} [Field K]

/-- A solver object with the places of its matrices, its tensors and its fields (all three fields are moved together: the user moves none of them here).  `imu` is never moved. -/
structure GObj (K : Type _) where
  o : Obj K
  matDev : Bool
  iepsDev : Bool
  sigmaDev : Bool
  fldDev : Bool

/-- solverFIT3D.py:111-329 with the packages for the GPU installed. -/
def gNew (g : Grid.Geom K) (bc : Faces String) (ieps imu sigma : Vec K) (dt : K) (uc useGpu : Bool) : GObj K := ⟨construct g bc ieps imu sigma dt uc, useGpu, useGpu, useGpu, useGpu⟩

/-- solverFIT3D.py:331-377 `update_tensors`.  `diags` (scipy) of a device array raises `TypeError` (CuPy refuses the implicit copy to the host), for `"all"` already at `ieps`; else the new
products are host matrices. -/
def gUpdate (x : GObj K) (t : String) : GObj K × Option PyErr :=
  if (t = "ieps" ∨ t = "all") ∧ x.iepsDev = true then (x, some .typeError)
  else if t = "sigma" ∧ x.sigmaDev = true then (x, some .typeError)
  else if t = "all" ∧ x.sigmaDev = true then ({ x with o := { x.o with iDeps := x.o.s.ieps, iDmu := x.o.imu } }, some .typeError)
  else
    match updateTensors x.o t with
    | (o, none) => ({ x with o := o, matDev := false }, none)
    | (o, some e) => ({ x with o := o }, some e)

/-- The solver and its fields as `gOneStep` takes them. -/
def GObj.parts (x : GObj K) : GSolver K × GState K :=
  (⟨x.o.s, x.matDev, x.iepsDev, x.sigmaDev⟩, ⟨⟨x.fldDev, x.o.st.E⟩, ⟨x.fldDev, x.o.st.H⟩, ⟨x.fldDev, x.o.st.J⟩, x.o.st.step0⟩)

/-- solverFIT3D.py:379-400 `_one_step`.  If it raises, the ghost cells have been cleared and the attributes deleted (first step) but the fields not advanced: the first product is the one that raises when the
matrices and the fields are in different places. -/
def gStep (x : GObj K) : GObj K × Option PyErr :=
  match gOneStep x.parts.1 x.parts.2 with
  | .ok g => ({ x with o := { x.o with st := g.st, ops := if x.o.st.step0 then none else x.o.ops } }, none)
  | .error e => ({ x with o := { x.o with st := if x.o.st.step0 then { setGhostsTo0 x.o.s x.o.st with step0 := false } else x.o.st, ops := if x.o.st.step0 then none else x.o.ops } }, some e)

/-- One operation of the user. -/
def gExec (x : GObj K) : Op K → GObj K × Option PyErr
  | .ev .step => gStep x
  | .update t => gUpdate x t
  | op => ({ x with o := (exec x.o op).1 }, none)

/-- A history (exceptions are caught and the program goes on). -/
def gExecs (x : GObj K) (l : List (Op K)) : GObj K := l.foldl (fun x op => (gExec x op).1) x

/-! ### Invariants -/

/-- Tensors and fields stay where they are; only `update_tensors` moves the matrices, to the host. -/
theorem gExec_places (x : GObj K) (op : Op K) : (gExec x op).1.iepsDev = x.iepsDev ∧ (gExec x op).1.sigmaDev = x.sigmaDev ∧ (gExec x op).1.fldDev = x.fldDev ∧
    (x.matDev = false → (gExec x op).1.matDev = false) := by
  have hu : ∀ t, (gUpdate x t).1.iepsDev = x.iepsDev ∧ (gUpdate x t).1.sigmaDev = x.sigmaDev ∧ (gUpdate x t).1.fldDev = x.fldDev ∧ (x.matDev = false → (gUpdate x t).1.matDev = false) := by
    intro t
    unfold gUpdate
    split_ifs
    · exact ⟨rfl, rfl, rfl, id⟩
    · exact ⟨rfl, rfl, rfl, id⟩
    · exact ⟨rfl, rfl, rfl, id⟩
    · cases updateTensors x.o t with
      | mk o e => cases e with
        | none => exact ⟨rfl, rfl, rfl, fun _ => rfl⟩
        | some e => exact ⟨rfl, rfl, rfl, id⟩
  have hs : (gStep x).1.iepsDev = x.iepsDev ∧ (gStep x).1.sigmaDev = x.sigmaDev ∧ (gStep x).1.fldDev = x.fldDev ∧ (x.matDev = false → (gStep x).1.matDev = false) := by
    unfold gStep
    cases gOneStep x.parts.1 x.parts.2 with
    | ok g => exact ⟨rfl, rfl, rfl, id⟩
    | error e => exact ⟨rfl, rfl, rfl, id⟩
  cases op with
  | ev e => cases e with
    | step => exact hs
    | write f n v => exact ⟨rfl, rfl, rfl, id⟩
  | ieps n v => exact ⟨rfl, rfl, rfl, id⟩
  | imu n v => exact ⟨rfl, rfl, rfl, id⟩
  | sigma n v => exact ⟨rfl, rfl, rfl, id⟩
  | update t => exact hu t

theorem gExecs_places (l : List (Op K)) (x : GObj K) : (gExecs x l).iepsDev = x.iepsDev ∧ (gExecs x l).sigmaDev = x.sigmaDev ∧ (gExecs x l).fldDev = x.fldDev ∧
    (x.matDev = false → (gExecs x l).matDev = false) := by
  induction l generalizing x with
  | nil => exact ⟨rfl, rfl, rfl, id⟩
  | cons op l ih =>
    obtain ⟨h1, h2, h3, h4⟩ := gExec_places x op
    obtain ⟨k1, k2, k3, k4⟩ := ih (gExec x op).1
    exact ⟨k1.trans h1, k2.trans h2, k3.trans h3, fun h => k4 (h4 h)⟩

/-- Steps of an object whose places are all alike are the steps on the host. -/
theorem gStep_same {x : GObj K} (h1 : x.matDev = x.fldDev) (h2 : x.iepsDev = x.fldDev) (h3 : x.sigmaDev = x.fldDev) : gStep x = ({ x with o := (exec x.o (.ev .step)).1 }, none) := by
  have hp : SamePlace x.parts.1 x.parts.2 := ⟨h1.symm, h1.symm, h1.symm, h2.trans h1.symm, fun _ => h3.trans h1.symm⟩
  unfold gStep
  rw [(C124_step _ _).1 hp]
  have h0 : x.parts.2.st = x.o.st := rfl
  have h5 : x.parts.1.s = x.o.s := rfl
  simp only [h0, h5]
  have h6 : ∀ s (st : State K), (oneStep s st).step0 = false := by
    intro s st
    unfold oneStep
    by_cases h : st.step0 = true
    · rw [if_pos h]; rfl
    · rw [if_neg h]; simpa [advance] using h
  have h7 : (⟨(oneStep x.o.s x.o.st).E, (oneStep x.o.s x.o.st).H, (oneStep x.o.s x.o.st).J, false⟩ : State K) = oneStep x.o.s x.o.st := by
    rw [← h6 x.o.s x.o.st]
  simp only [GState.st, exec, h7]

/-! ### C36 -/

/-- **C36 (refuted on the GPU).** With `use_gpu=True`, at every point of every history and for every name, `update_tensors` raises, or it makes all later time steps raise `TypeError`: the new
matrices are on the host, the fields are not.  With `"ieps"`, `"sigma"` and `"all"` it raises `TypeError` itself. -/
theorem C36_gpu_refuted (g : Grid.Geom K) (bc : Faces String) (ieps imu sigma : Vec K) (dt : K) (uc : Bool) (l : List (Op K)) (t : String) :
    let x := gExecs (gNew g bc ieps imu sigma dt uc true) l
    (t = "ieps" ∨ t = "sigma" ∨ t = "all" → (gUpdate x t).2 = some .typeError) ∧
    ((gUpdate x t).2 = none → ∀ l' : List (Op K), (gExec (gExecs (gUpdate x t).1 l') (.ev .step)).2 = some .typeError) := by
  intro x
  obtain ⟨h1, h2, h3, -⟩ := gExecs_places l (gNew g bc ieps imu sigma dt uc true)
  have h1 : x.iepsDev = true := h1
  have h2 : x.sigmaDev = true := h2
  have h3 : x.fldDev = true := h3
  refine ⟨?_, ?_⟩
  · rintro (rfl | rfl | rfl) <;> simp [gUpdate, h1, h2]
  · intro hu l'
    have hm : (gUpdate x t).1.matDev = false := by
      unfold gUpdate at hu ⊢
      split_ifs at hu ⊢
      revert hu
      cases updateTensors x.o t with
      | mk o e => cases e with
        | none => intro _; rfl
        | some e => intro h; cases h
    have hf : (gUpdate x t).1.fldDev = true := (gExec_places x (.update t)).2.2.1.trans h3
    obtain ⟨-, -, k3, k4⟩ := gExecs_places l' (gUpdate x t).1
    have hb : ¬ SamePlace (gExecs (gUpdate x t).1 l').parts.1 (gExecs (gUpdate x t).1 l').parts.2 := by
      intro h
      have h5 : (gExecs (gUpdate x t).1 l').fldDev = (gExecs (gUpdate x t).1 l').matDev := h.1
      rw [k3, hf, k4 hm] at h5
      cases h5
    show (gStep (gExecs (gUpdate x t).1 l')).2 = _
    unfold gStep
    rw [(C124_step _ _).2 hb]

/-- **C36 (host and GPU).** Without the GPU the object is the one of `C36_update_partial`, exceptions included; on the GPU it is, until the first call of `update_tensors`. -/
theorem C36_gpu_partial (g : Grid.Geom K) (bc : Faces String) (ieps imu sigma : Vec K) (dt : K) (uc useGpu : Bool) (l : List (Op K)) (hl : useGpu = true → ∀ t, .update t ∉ l) :
    (gExecs (gNew g bc ieps imu sigma dt uc useGpu) l).o = execs (construct g bc ieps imu sigma dt uc) l ∧
    ∀ op, (useGpu = true → ∀ t, op ≠ .update t) → (gExec (gExecs (gNew g bc ieps imu sigma dt uc useGpu) l) op).2 = (exec (execs (construct g bc ieps imu sigma dt uc) l) op).2 := by
  -- one operation
  have one : ∀ (x : GObj K) (op : Op K), x.matDev = useGpu → x.iepsDev = useGpu → x.sigmaDev = useGpu → x.fldDev = useGpu → (useGpu = true → ∀ t, op ≠ .update t) →
      (gExec x op).1.o = (exec x.o op).1 ∧ (gExec x op).2 = (exec x.o op).2 ∧ (gExec x op).1.matDev = useGpu := by
    intro x op h1 h2 h3 h4 ho
    cases op with
    | ev e => cases e with
      | step =>
        have h := gStep_same (h1.trans h4.symm) (h2.trans h4.symm) (h3.trans h4.symm)
        show (gStep x).1.o = _ ∧ (gStep x).2 = _ ∧ (gStep x).1.matDev = _
        rw [h]
        exact ⟨rfl, rfl, h1⟩
      | write f n v => exact ⟨rfl, rfl, h1⟩
    | ieps n v => exact ⟨rfl, rfl, h1⟩
    | imu n v => exact ⟨rfl, rfl, h1⟩
    | sigma n v => exact ⟨rfl, rfl, h1⟩
    | update t =>
      cases useGpu with
      | true => exact absurd rfl (ho rfl t)
      | false =>
        show (gUpdate x t).1.o = (updateTensors x.o t).1 ∧ (gUpdate x t).2 = (updateTensors x.o t).2 ∧ (gUpdate x t).1.matDev = false
        unfold gUpdate
        rw [if_neg (by simp [h2]), if_neg (by simp [h3]), if_neg (by simp [h3])]
        cases updateTensors x.o t with
        | mk o e => cases e with
          | none => exact ⟨rfl, rfl, rfl⟩
          | some e => exact ⟨rfl, rfl, h1⟩
  have main : ∀ (l : List (Op K)) (x : GObj K), x.matDev = useGpu → x.iepsDev = useGpu → x.sigmaDev = useGpu → x.fldDev = useGpu → (useGpu = true → ∀ t, .update t ∉ l) →
      (gExecs x l).o = execs x.o l ∧ (gExecs x l).matDev = useGpu := by
    intro l
    induction l with
    | nil => intro x h1 _ _ _ _; exact ⟨rfl, h1⟩
    | cons op l ih =>
      intro x h1 h2 h3 h4 hl
      obtain ⟨k1, -, k3⟩ := one x op h1 h2 h3 h4 (fun hg t ht => hl hg t (ht ▸ List.mem_cons_self))
      obtain ⟨p1, p2, p3, -⟩ := gExec_places x op
      obtain ⟨i1, i2⟩ := ih (gExec x op).1 k3 (p1.trans h2) (p2.trans h3) (p3.trans h4) (fun hg t ht => hl hg t (List.mem_cons_of_mem _ ht))
      refine ⟨i1.trans ?_, i2⟩
      rw [k1]
      rfl
  obtain ⟨m1, m2⟩ := main l (gNew g bc ieps imu sigma dt uc useGpu) rfl rfl rfl rfl hl
  obtain ⟨p1, p2, p3, -⟩ := gExecs_places l (gNew g bc ieps imu sigma dt uc useGpu)
  refine ⟨m1, fun op ho => ?_⟩
  have h := (one _ op m2 p1 p2 p3 ho).2.1
  rw [m1] at h
  exact h

/-! ### Cases -/

/-- Before the first step, `update_tensors("imu")` on the GPU succeeds: the second part of `C36_gpu_refuted` is met. -/
example (g : Grid.Geom ℚ) (bc : Faces String) (ieps imu sigma : Vec ℚ) : (gUpdate (gExecs (gNew g bc ieps imu sigma 1 false true) [.imu 3 2]) "imu").2 = none := rfl

/-- The hypotheses of `C36_gpu_partial`, on the GPU and on the host. -/
example (g : Grid.Geom ℚ) (bc : Faces String) (ieps imu sigma : Vec ℚ) : (gExecs (gNew g bc ieps imu sigma 1 true true) [.ieps 3 2, .ev .step]).o = execs (construct g bc ieps imu sigma 1 true) [.ieps 3 2, .ev .step] ∧
    (gExecs (gNew g bc ieps imu sigma 1 true false) [.update "all", .ev .step]).o = execs (construct g bc ieps imu sigma 1 true) [.update "all", .ev .step] :=
  ⟨(C36_gpu_partial g bc ieps imu sigma 1 true true _ (by simp)).1, (C36_gpu_partial g bc ieps imu sigma 1 true false _ (by simp)).1⟩

end Sol
end Wakis
