import Verif.MpiMonitor

/-!
# C146: a longitudinal wake run on several ranks fails at its first frame

`mpi_gather` chooses its branch with `type(x) is int` (solverFIT3D.py:579, 598, 618).  The cell numbers of the test particle come from `argmin` (routines.py:328-331) and are numpy integers, whose type is not `int`.  The model of
`mpi_gather` in MpiGather has one kind of integers, those of Python; here both kinds are kept apart.
-/

namespace Wakis
namespace Wake
open Src Sol Sparse Fld Mpi

noncomputable section

/-! ### Model -/

/-- An index as `mpi_gather` gets it: an `int`, a numpy integer or a slice. -/
inductive Idx
  | int (i : ℤ)
  | npint (i : ℤ)
  | slice (start stop : Option ℤ)

/-- What numpy selects with it (field.py:236-283): both kinds of integers select alike. -/
def Idx.sel : Idx → Sel
  | .int i => .int i
  | .npint i => .int i
  | .slice a b => .slice a b

/-- `type(i) is int`. -/
def Idx.isInt : Idx → Bool
  | .int _ => true
  | _ => false

/-- `i.stop - i.start`: integers of either kind have no such attributes. -/
def Idx.width : Idx → Py ℕ
  | .slice a b => extent (.slice a b)
  | _ => .error .attributeError

/-- solverFIT3D.py:579, 598-599, 618-619, 638-640: the numbers of rows and columns in the four branches (an axis numpy drops counts as 1). -/
def widths (x y : Idx) : Py (ℕ × ℕ) :=
  if x.isInt && y.isInt then .ok (1, 1)
  else if x.isInt then do
    let ny ← y.width
    return (1, ny)
  else if y.isInt then do
    let nx ← x.width
    return (nx, 1)
  else do
    let nx ← x.width
    let ny ← y.width
    return (nx, ny)

/-- solverFIT3D.py:520-659 `mpi_gather` on rank 0 with typed indices; otherwise as `Mpi.mpiGather`. -/
def gatherTyped (norm3 : ℝ → ℝ → ℝ → ℝ) (size NZ : ℕ) (fs : ℕ → Fld ℝ) (x y : Idx) (z : Sel) (c : Fld.CKey) : Py (Arr3 ℝ) := do
  let bufs ← locals norm3 fs x.sel y.sel c size
  let n ← widths x y
  let m ← Mpi.assemble size NZ n.1 n.2 (fun r => bufs.getD r ⟨0, fun _ => 0⟩) size
  let zs ← z.resolve NZ
  return ⟨n.1, n.2, zs.length, fun i j k => m i j (zs.getD k 0)⟩

/-- routines.py:332-338: the cells a wake run records; the numbers are those of `argmin`. -/
def recorded (long : Bool) (ixt iyt : ℕ) : Idx × Idx :=
  if long then (.npint ixt, .npint iyt)
  else (.slice (some ((ixt : ℤ) - 1)) (some (ixt + 2)), .slice (some ((iyt : ℤ) - 1)) (some (iyt + 2)))

/-- routines.py:396-400, 417: the frame the root writes. -/
def typedFrame (J : Mpi.Job ℝ) (s : ℕ → Solver ℝ) (mem : ℕ → State ℝ) (p : Idx × Idx) : Py (Arr3 ℝ) :=
  gatherTyped (fun a b c => Real.sqrt (a ^ 2 + b ^ 2 + c ^ 2)) J.size J.NZ (fun r => (s r).fld (mem r).E) p.1 p.2 (.slice (some 0) (some J.NZ)) (.str "z")

/-! ### Theorems -/

/-- Not a numpy integer. -/
def Idx.Plain : Idx → Prop
  | .npint _ => False
  | _ => True

theorem widths_plain {x y : Idx} (hx : x.Plain) (hy : y.Plain) : widths x y = (extent x.sel).bind fun nx => (extent y.sel).bind fun ny => .ok (nx, ny) := by
  cases x <;> cases y <;> first | exact hx.elim | exact hy.elim | rfl

theorem widths_npint {x y : Idx} (h : ¬ x.Plain ∨ ¬ y.Plain) (hy : ∀ a b, x = .slice a b → ∃ n, extent (.slice a b) = .ok n) : widths x y = .error .attributeError := by
  cases x with
  | int i => cases y with
    | npint j => rfl
    | int j => rcases h with h | h <;> exact absurd trivial h
    | slice a b => rcases h with h | h <;> exact absurd trivial h
  | npint i => cases y <;> rfl
  | slice a b =>
    cases y with
    | npint j =>
      obtain ⟨n, hn⟩ := hy a b rfl
      simp [widths, Idx.isInt, Idx.width, hn, bind, Except.bind]
    | int j => rcases h with h | h <;> exact absurd trivial h
    | slice a b => rcases h with h | h <;> exact absurd trivial h

/-- With Python's integers and slices this is the gather of C13. -/
theorem gatherTyped_plain (norm3 : ℝ → ℝ → ℝ → ℝ) (size NZ : ℕ) (fs : ℕ → Fld ℝ) {x y : Idx} (hx : x.Plain) (hy : y.Plain) (z : Sel) (c : Fld.CKey) :
    gatherTyped norm3 size NZ fs x y z c = mpiGather norm3 size NZ fs (some x.sel) (some y.sel) (some z) c := by
  unfold gatherTyped mpiGather
  rw [widths_plain hx hy]
  simp only [orFull, Option.getD_some, bind, Except.bind, pure, Except.pure]
  cases locals norm3 fs x.sel y.sel c size with
  | error e => rfl
  | ok b =>
    simp only
    cases extent x.sel with
    | error e => rfl
    | ok nx => cases extent y.sel <;> rfl

/-- **C13 (refuted for numpy integers).**  A gather of one column whose cell numbers are numpy integers fails, whenever the same gather with Python integers succeeds. -/
theorem C13_numpy_refuted {norm3 : ℝ → ℝ → ℝ → ℝ} {size NZ : ℕ} {fs : ℕ → Fld ℝ} {i j : ℤ} {z : Sel} {c : Fld.CKey} {A : Arr3 ℝ} (h : gatherTyped norm3 size NZ fs (.int i) (.int j) z c = .ok A) :
    gatherTyped norm3 size NZ fs (.npint i) (.npint j) z c = .error .attributeError := by
  unfold gatherTyped at h ⊢
  simp only [bind, Except.bind, Idx.sel] at h ⊢
  cases hl : locals norm3 fs (.int i) (.int j) c size with
  | error e => rw [hl] at h; simp at h
  | ok b => rfl

theorem Ends.mono {eager : ℕ → ℕ → Bool} {prog : ℕ → List (Instr (State ℝ) (ℕ → ℕ → ℝ))} {P Q : (ℕ → State ℝ) → Prop} (h : Ends eager prog P) (hpq : ∀ mem, P mem → Q mem) : Ends eager prog Q := by
  obtain ⟨total, ht⟩ := h
  exact ⟨total, fun l net hl => ⟨(ht l net hl).1, (ht l net hl).2.1, fun hd => hpq _ ((ht l net hl).2.2 hd)⟩⟩

/-- **C146 (refuted for longitudinal runs).**  In every setting of C146, whatever the schedule: a longitudinal wake run on several ranks cannot write a frame; rank 0 fails with an `AttributeError` in its gather (at the first frame, since
the same holds of every frame). -/
theorem C146_longitudinal_refuted {J : Mpi.Job ℝ} {s : ℕ → Solver ℝ} {S : Solver ℝ} {g : ℕ → Grd} {w : WakeArgs} {b : Beam} (h : Setting J s S g w b) {wakelength : ℝ} {mon : Option Monitor} {md : ℕ → Dset ℝ}
    {o : WakeOut} (ho : wakesolve S ((boxOf J).serial J.size) w wakelength true none mon md initState = .ok o) (hN : o.Nt ≤ 100000) (eager : ℕ → ℕ → Bool) :
    ∃ ixt iyt : ℕ, (∀ r < J.size, nearest (g r).Nx (g r).x w.xtest = .ok ixt ∧ nearest (g r).Ny (g r).y w.ytest = .ok iyt) ∧
      ∀ n < o.Nt, Ends eager (gatherPoint s g b J.size n) fun mem => typedFrame J s mem (recorded true ixt iyt) = .error .attributeError := by
  obtain ⟨ixt, iyt, h1, h2⟩ := C146_frames_partial h ho hN eager
  refine ⟨ixt, iyt, h1, fun n hn => (h2 n hn).mono fun mem => ?_⟩
  rintro ⟨A, hA, -⟩
  refine C13_numpy_refuted (A := A) (i := ixt) (j := iyt) ?_
  rw [gatherTyped_plain _ _ _ _ (x := .int ixt) (y := .int iyt) trivial trivial]
  exact hA

/-- **C146 (both planes; partial).**  Runs of both planes record slices, so they are not concerned: the frames are those of `C146_both_partial`. -/
theorem C146_both_typed_partial {J : Mpi.Job ℝ} {s : ℕ → Solver ℝ} {S : Solver ℝ} {g : ℕ → Grd} {w : WakeArgs} {b : Beam} (h : Setting J s S g w b) {wakelength : ℝ} {mon : Option Monitor} {md : ℕ → Dset ℝ}
    {ixt iyt : ℕ} (hx : ∀ r < J.size, nearest (g r).Nx (g r).x w.xtest = .ok ixt) (hy : ∀ r < J.size, nearest (g r).Ny (g r).y w.ytest = .ok iyt)
    (h1 : 0 < ixt) (h2 : ixt + 1 < J.Nx) (h3 : 0 < iyt) (h4 : iyt + 1 < J.Ny)
    {o : WakeOut} (ho : wakesolve S ((boxOf J).serial J.size) w wakelength false none mon md initState = .ok o) (hN : o.Nt ≤ 100000) (eager : ℕ → ℕ → Bool) :
    ∀ n < o.Nt, Ends eager (gatherPoint s g b J.size n) fun mem =>
      ∃ A name v, typedFrame J s mem (recorded false ixt iyt) = .ok A ∧ (A.n0, A.n1, A.n2) = (3, 3, J.NZ) ∧
        o.recording.file[n]? = some (name, .d3 3 3 J.NZ v) ∧ ∀ a : ℕ, a < 3 → ∀ c : ℕ, c < 3 → ∀ k < J.NZ, v a c k = A.val a c k := by
  intro n hn
  refine (C146_both_partial h hx hy h1 h2 h3 h4 ho hN eager n hn).mono fun mem => ?_
  rintro ⟨A, name, v, hA, hr⟩
  refine ⟨A, name, v, ?_, hr⟩
  rw [typedFrame, gatherTyped_plain _ _ _ _ (x := (recorded false ixt iyt).1) (y := (recorded false ixt iyt).2) trivial trivial]
  exact hA

/-- Non-vacuity: in the setting of C146 there is a longitudinal run of sixteen frames that fails so. -/
example (eager : ℕ → ℕ → Bool) : ∃ s S g b o ixt iyt, Setting pairJob s S g pairBeam b ∧
    wakesolve S ((boxOf pairJob).serial pairJob.size) pairBeam 1 true none none (fun _ => .d1 0 0) initState = .ok o ∧ o.Nt = 16 ∧
    ∀ n < 16, Ends eager (gatherPoint s g b pairJob.size n) fun mem => typedFrame pairJob s mem (recorded true ixt iyt) = .error .attributeError := by
  obtain ⟨s, S, g, b, o, h, p1, hN⟩ := pair_run
  obtain ⟨i, j, -, h2⟩ := C146_longitudinal_refuted h p1 (by omega) eager
  exact ⟨s, S, g, b, o, i, j, h, p1, hN, fun n hn => h2 n (by omega)⟩

end

end Wake
end Wakis
