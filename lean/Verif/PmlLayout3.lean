import Verif.Fdtd3
import Verif.PmlMono2

/-!
# C96: the absorbing layer blocks of the three-dimensional solver

Model of `connect_pmls`, `assemble_conductivities_pmls` and `assemble_coeffs_pmls` of `wakis/solver3D.py`.
-/

namespace Wakis
namespace L3
open S2 (Phys Ext)

/-! ### Model -/

/-- The index of a block in `blocks_mat`: 0, 1 and 2 along an axis are `low`, `box` and `high`. -/
abbrev Place := Ext × Ext × Ext

/-- The axes. -/
inductive Ax
  | x | y | z
  deriving DecidableEq

instance : Fintype Ext := ⟨⟨([.low, .box, .high] : List Ext), by decide⟩, by intro b; cases b <;> decide⟩
instance : Fintype Ax := ⟨⟨([.x, .y, .z] : List Ax), by decide⟩, by intro b; cases b <;> decide⟩

/-- `i_block`, `j_block` or `k_block`. -/
def at_ (q : Place) : Ax → Ext
  | .x => q.1
  | .y => q.2.1
  | .z => q.2.2

/-- Which entries of `bc_low` and `bc_high` are 'pml'. -/
structure Bc where
  lowX : Bool
  lowY : Bool
  lowZ : Bool
  highX : Bool
  highY : Bool
  highZ : Bool
  deriving DecidableEq

/-- `connect_pmls` (solver3D.py:137-589): the blocks in the order of `self.blocks`, each with the places whose cell counts it gets along the axes. -/
def created (bc : Bc) : List (Place × Place) :=
  let n (g : Bool) (q s : Place) : Bool × Place × Place := (g, q, s)
  let all := [
    n bc.lowX (.low, .box, .box) (.low, .box, .box),
    n (bc.lowX && bc.lowY) (.low, .low, .box) (.low, .low, .box),
    n (bc.lowX && bc.lowY && bc.lowZ) (.low, .low, .low) (.low, .low, .low),
    n (bc.lowX && bc.lowY && bc.highZ) (.low, .low, .high) (.low, .low, .high),
    n (bc.lowX && bc.highY) (.low, .high, .box) (.low, .high, .box),
    n (bc.lowX && bc.highY && bc.lowZ) (.low, .high, .low) (.low, .high, .low),
    n (bc.lowX && bc.highY && bc.highZ) (.low, .high, .high) (.low, .high, .high),
    n (bc.lowX && bc.lowZ) (.low, .box, .low) (.low, .box, .low),
    n (bc.lowX && bc.highZ) (.low, .box, .high) (.low, .box, .high),
    n bc.highX (.high, .box, .box) (.high, .box, .box),
    n (bc.highX && bc.lowY) (.high, .low, .box) (.high, .low, .box),
    n (bc.highX && bc.lowY && bc.lowZ) (.high, .low, .low) (.high, .low, .low),
    n (bc.highX && bc.lowY && bc.highZ) (.high, .low, .high) (.high, .low, .high),
    n (bc.highX && bc.highY) (.high, .high, .box) (.high, .high, .box),
    n (bc.highX && bc.highY && bc.lowZ) (.high, .high, .low) (.high, .high, .low),
    n (bc.highX && bc.highY && bc.highZ) (.high, .high, .high) (.high, .high, .high),
    n (bc.highX && bc.lowZ) (.high, .box, .low) (.high, .box, .low),
    n (bc.highX && bc.highZ) (.high, .box, .high) (.high, .box, .high),
    n bc.lowY (.box, .low, .box) (.box, .low, .box),
    n (bc.lowY && bc.lowZ) (.box, .low, .low) (.box, .low, .low),
    n (bc.lowY && bc.highZ) (.box, .low, .high) (.box, .low, .high),
    n bc.highY (.box, .high, .box) (.box, .high, .box),
    n (bc.highY && bc.lowZ) (.box, .high, .low) (.box, .low, .low),
    n (bc.highY && bc.highZ) (.box, .high, .high) (.box, .low, .high),
    n bc.lowZ (.box, .box, .low) (.box, .box, .low),
    n bc.highZ (.box, .box, .high) (.box, .box, .high)]
  (all.filter (·.1)).map (·.2)

/-- The blocks whose conductivities are written, in this order (solver3D.py:649-1270). Each has one loop for every axis along which it is not level with
the box. -/
def writes (bc : Bc) : List Place :=
  let n (g : Bool) (q : Place) : Bool × Place := (g, q)
  let all := [
    n bc.lowX (.low, .box, .box),
    n (bc.lowX && bc.lowY) (.low, .low, .box),
    n (bc.lowX && bc.lowY && bc.lowZ) (.low, .low, .low),
    n (bc.lowX && bc.lowY && bc.lowZ) (.low, .low, .high),
    n (bc.lowX && bc.highY) (.low, .high, .box),
    n (bc.lowX && bc.highY && bc.lowZ) (.low, .high, .low),
    n (bc.lowX && bc.highY && bc.lowZ) (.low, .high, .high),
    n (bc.lowX && bc.lowZ) (.low, .box, .low),
    n (bc.lowX && bc.highZ) (.low, .box, .high),
    n bc.highX (.high, .box, .box),
    n (bc.highX && bc.lowY) (.high, .low, .box),
    n (bc.highX && bc.lowY && bc.lowZ) (.high, .low, .low),
    n (bc.highX && bc.lowY && bc.lowZ) (.high, .low, .high),
    n (bc.highX && bc.highY) (.high, .high, .box),
    n (bc.highX && bc.highY && bc.lowZ) (.high, .high, .low),
    n (bc.highX && bc.highY && bc.lowZ) (.high, .high, .high),
    n (bc.highX && bc.lowZ) (.high, .box, .low),
    n (bc.highX && bc.highZ) (.high, .box, .high),
    n bc.lowY (.box, .low, .box),
    n (bc.lowY && bc.lowZ) (.box, .low, .low),
    n (bc.lowY && bc.highZ) (.box, .low, .high),
    n bc.highY (.box, .high, .box),
    n (bc.highY && bc.lowZ) (.box, .high, .low),
    n (bc.highY && bc.highZ) (.box, .high, .high),
    n bc.lowZ (.box, .box, .low),
    n bc.highZ (.box, .box, .high)]
  (all.filter (·.1)).map (·.2)

/-- Whether `blocks_mat[q]` is a block; the entry of the box is the solver. -/
def made (bc : Bc) (q : Place) : Bool := (created bc).any (·.1 = q)

/-- The places whose cell counts block `q` has, if it exists. -/
def sizes (bc : Bc) (q : Place) : Option Place := ((created bc).find? (·.1 = q)).map (·.2)

/-- Cell counts along the axes: those of the box, `N_pml_low` and `N_pml_high`, which are 0 without a layer (solver3D.py:49-74). -/
abbrev Cnt := Ax → Ext → ℕ

/-- The body of such a loop (solver3D.py:652-656 and the like): it reads the block and writes entry `-(n + 1)` (in a low layer) or `n` of an array with `c + 1` and
of one with `c` entries. -/
def body (block : Option ℕ) (e : Ext) (n : ℕ) : Py Unit :=
  match block with
  | none => .error .attributeError
  | some c =>
    let k : ℤ := if e = .low then -((n : ℤ) + 1) else n
    match pyIndex (c + 1) k with
    | .error x => .error x
    | .ok _ => match pyIndex c k with
      | .error x => .error x
      | .ok _ => .ok ()

/-- One loop over `n` in `range(N)`. -/
def loop (block : Option ℕ) (N : ℕ) (e : Ext) : Py Unit := (List.range N).forM (body block e)

/-- The loops for one block. -/
def fill (bc : Bc) (N : Cnt) (q : Place) : Py Unit :=
  [Ax.x, .y, .z].forM fun a => if at_ q a = .box then .ok () else loop ((sizes bc q).map fun s => N a (at_ s a)) (N a (at_ q a)) (at_ q a)

/-- `assemble_conductivities_pmls` as far as it can fail. -/
def build (bc : Bc) (N : Cnt) : Py Unit := (writes bc).forM (fill bc N)

noncomputable section

/-- The cell size in the maximum of a conductivity (solver3D.py:600-647). -/
def sizeUsed (dx dy _dz : ℝ) : Ax → Ext → ℝ
  | .x, .low => dx
  | _, _ => dy

/-- The conductivity arrays of block `q` after construction along axis `a`: that of the electric field, by node. Every entry is written at most once
(`writes_once`); the others keep their 0 (pmlBlock3D.py:61-66). -/
def sigma (p : Phys) (bc : Bc) (N : Cnt) (dx dy dz : ℝ) (q : Place) (a : Ax) (i : ℕ) : ℝ :=
  if q ∈ writes bc then
    match at_ q a with
    | .box => 0
    | .low => if 1 ≤ i ∧ i ≤ N a .low then S2.prof (S2.sigMax p (N a .low) (sizeUsed dx dy dz a .low)) (N a .low) (N a .low - i) else 0
    | .high => if i < N a .high then S2.prof (S2.sigMax p (N a .high) (sizeUsed dx dy dz a .high)) (N a .high) i else 0
  else 0

/-- That of the magnetic field, by cell. -/
def sigmaStar (p : Phys) (bc : Bc) (N : Cnt) (dx dy dz : ℝ) (q : Place) (a : Ax) (i : ℕ) : ℝ :=
  if q ∈ writes bc then
    match at_ q a with
    | .box => 0
    | .low => if i < N a .low then S2.prof (S2.sigMax p (N a .low) (sizeUsed dx dy dz a .low)) (N a .low) (N a .low - 1 - i) * (p.mu / p.eps) else 0
    | .high => if i < N a .high then S2.prof (S2.sigMax p (N a .high) (sizeUsed dx dy dz a .high)) (N a .high) i * (p.mu / p.eps) else 0
  else 0

end

/-! ### Specification -/

/-- Whether there is a layer on that side of the box, or the box itself. -/
def has (low high : Bool) : Ext → Bool
  | .low => low
  | .box => true
  | .high => high

/-- The blocks a box with these layers needs: all combinations of layers, without the box itself. -/
def needed (bc : Bc) (q : Place) : Bool :=
  has bc.lowX bc.highX q.1 && has bc.lowY bc.highY q.2.1 && has bc.lowZ bc.highZ q.2.2 && !decide (q = (.box, .box, .box))

/-- Layers have cells exactly where they are asked for. -/
structure Cnt.Ok (bc : Bc) (N : Cnt) : Prop where
  lowX : 0 < N .x .low ↔ bc.lowX = true
  lowY : 0 < N .y .low ↔ bc.lowY = true
  lowZ : 0 < N .z .low ↔ bc.lowZ = true
  highX : 0 < N .x .high ↔ bc.highX = true
  highY : 0 < N .y .high ↔ bc.highY = true
  highZ : 0 < N .z .high ↔ bc.highZ = true

/-- There is a layer at low z but not at high z, and layers along x and along y meet. -/
def LowCorner (bc : Bc) : Prop := (bc.lowZ = true ∧ bc.highZ = false) ∧ (bc.lowX = true ∨ bc.highX = true) ∧ (bc.lowY = true ∨ bc.highY = true)
/-- The same at high z. -/
def HighCorner (bc : Bc) : Prop := (bc.lowZ = false ∧ bc.highZ = true) ∧ (bc.lowX = true ∨ bc.highX = true) ∧ (bc.lowY = true ∨ bc.highY = true)
/-- A layer at high y meets one along z. -/
def HighYZ (bc : Bc) : Prop := bc.highY = true ∧ (bc.lowZ = true ∨ bc.highZ = true)

instance (bc : Bc) : Decidable (LowCorner bc) := by unfold LowCorner; infer_instance
instance (bc : Bc) : Decidable (HighCorner bc) := by unfold HighCorner; infer_instance
instance (bc : Bc) : Decidable (HighYZ bc) := by unfold HighYZ; infer_instance

/-! ### Theorems -/

/-- A statement for all combinations of layers. -/
lemma forall_bc {P : Bc → Prop} (h : ∀ a b c d e f, P ⟨a, b, c, d, e, f⟩) (bc : Bc) : P bc := h _ _ _ _ _ _

lemma writes_once (bc : Bc) : (writes bc).Nodup := by
  revert bc; exact forall_bc (by decide +kernel)

/-- **C96, blocks.** Exactly the needed blocks are created, each once. -/
theorem C96_blocks (bc : Bc) : ((created bc).map (·.1)).Nodup ∧ ∀ q, made bc q = needed bc q := by
  revert bc; exact forall_bc (by decide +kernel)

/-- **C96, cell counts.** All blocks have the cell counts of their place, except where a layer at high y meets one along z: there they have the cell count
of the layer at low y, along y. -/
theorem C96_sizes_partial (bc : Bc) (q : Place) (hq : needed bc q = true) :
    sizes bc q = some (if q.1 = .box ∧ q.2.1 = .high ∧ q.2.2 ≠ .box then (q.1, .low, q.2.2) else q) := by
  revert bc q; exact forall_bc (by decide +kernel)

lemma forM_cons {α : Type} {f : α → Py Unit} {a : α} {l : List α} : (a :: l).forM f = (f a >>= fun _ => l.forM f) := rfl

lemma forM_pre {α : Type} {f : α → Py Unit} {l m : List α} (h : l.forM f = .ok ()) : (l ++ m).forM f = m.forM f := by
  induction l with
  | nil => rfl
  | cons a l ih =>
    rw [List.cons_append, forM_cons]
    rw [forM_cons] at h
    cases ha : f a with
    | ok u => rw [ha] at h; exact ih h
    | error e => rw [ha] at h; cases h

lemma forM_ok {α : Type} {f : α → Py Unit} {l : List α} : l.forM f = .ok () ↔ ∀ x ∈ l, f x = .ok () := by
  induction l with
  | nil => simp [List.forM]; rfl
  | cons a l ih =>
    rw [forM_cons, List.forall_mem_cons, ← ih]
    cases h : f a with
    | ok u => exact ⟨fun hh => ⟨rfl, hh⟩, fun hh => hh.2⟩
    | error e => exact ⟨fun hh => (nomatch hh), fun hh => (nomatch hh.1)⟩

lemma forM_first {α : Type} {f : α → Py Unit} {l : List α} {good : α → Bool} (hg : ∀ x, good x = true → f x = .ok ()) {q : α} {e : PyErr}
    (hq : l.find? (fun x => !good x) = some q) (he : f q = .error e) : l.forM f = .error e := by
  induction l with
  | nil => cases hq
  | cons a l ih =>
    rw [forM_cons]
    rw [List.find?_cons] at hq
    cases ha : good a with
    | true =>
      rw [ha] at hq
      rw [hg a ha]
      exact ih hq
    | false =>
      rw [ha] at hq
      cases hq
      rw [he]; rfl

lemma loop_none {N : ℕ} {e : Ext} (h : 0 < N) : loop none N e = .error .attributeError := by
  obtain ⟨m, rfl⟩ : ∃ m, N = m + 1 := ⟨N - 1, by omega⟩
  unfold loop
  rw [List.range_succ_eq_map, forM_cons]; rfl

lemma loop_some {c N : ℕ} {e : Ext} (h : N ≤ c) : loop (some c) N e = .ok () := by
  unfold loop
  rw [forM_ok]
  intro n hn
  rw [List.mem_range] at hn
  have hi : ∀ m : ℕ, n < m → ∃ i, pyIndex m (if e = .low then -((n : ℤ) + 1) else n) = .ok i := by
    intro m hm
    unfold pyIndex
    split_ifs <;> first | exact ⟨_, rfl⟩ | (exfalso; omega)
  obtain ⟨i, hi1⟩ := hi (c + 1) (by omega)
  obtain ⟨j, hj1⟩ := hi c (by omega)
  simp only [body, hi1, hj1]

lemma loop_big {c N : ℕ} {e : Ext} (h : c < N) : loop (some c) N e = .error .indexError := by
  have e1 : List.range N = List.range c ++ (c :: (List.range (N - c - 1)).map (fun i => c + 1 + i)) := by
    apply List.ext_getElem
    · simp; omega
    · intro i h1 h2
      simp only [List.getElem_range]
      rcases Nat.lt_trichotomy i c with h3 | h3 | h3
      · rw [List.getElem_append_left (by simpa using h3)]; simp
      · subst h3; rw [List.getElem_append_right (by simp)]; simp
      · rw [List.getElem_append_right (by simp; omega), List.getElem_cons, dif_neg (by simp; omega)]
        simp; omega
  have hpre := loop_some (e := e) (le_refl c)
  unfold loop at hpre ⊢
  rw [e1, forM_pre hpre, forM_cons]
  have hi : ∃ i, pyIndex (c + 1) (if e = .low then -((c : ℤ) + 1) else c) = .ok i := by
    unfold pyIndex
    split_ifs <;> first | exact ⟨_, rfl⟩ | (exfalso; omega)
  have hj : pyIndex c (if e = .low then -((c : ℤ) + 1) else c) = .error .indexError := by
    unfold pyIndex
    split_ifs <;> first | rfl | (exfalso; omega)
  obtain ⟨i, hi⟩ := hi
  simp only [body, hi, hj]; rfl

/-- A block that exists with the cell counts of its place. -/
def good (bc : Bc) (q : Place) : Bool := decide (sizes bc q = some q)

lemma fill_good {bc : Bc} {N : Cnt} (q : Place) (h : good bc q = true) : fill bc N q = .ok () := by
  unfold fill
  rw [forM_ok]
  intro a _
  rw [of_decide_eq_true h]
  split_ifs
  · rfl
  · exact loop_some le_rfl

lemma fill_missing {bc : Bc} {N : Cnt} (q : Place) (h : sizes bc q = none) (hx : at_ q .x ≠ .box) (hN : 0 < N .x (at_ q .x)) :
    fill bc N q = .error .attributeError := by
  unfold fill
  rw [forM_cons, if_neg hx, h, Option.map_none, loop_none hN]; rfl

lemma fill_yz {bc : Bc} {N : Cnt} (q : Place) (hq : needed bc q = true) (h : q.1 = .box ∧ q.2.1 = .high ∧ q.2.2 ≠ .box) :
    fill bc N q = if N .y .high ≤ N .y .low then .ok () else .error .indexError := by
  have hs := C96_sizes_partial bc q hq
  rw [if_pos h] at hs
  obtain ⟨q1, q2, q3⟩ := q
  obtain ⟨rfl, rfl, h3⟩ := h
  unfold fill
  rw [forM_cons, hs]
  have e1 : (if at_ ((.box, .high, q3) : Place) .x = .box then (.ok () : Py Unit) else
    loop ((some ((.box, .low, q3) : Place)).map fun s => N .x (at_ s .x)) (N .x (at_ (.box, .high, q3) .x)) (at_ (.box, .high, q3) .x)) = .ok () := rfl
  rw [e1]
  show List.forM _ _ = _
  rw [forM_cons]
  have e2 : (if at_ ((.box, .high, q3) : Place) .y = .box then (.ok () : Py Unit) else
    loop ((some ((.box, .low, q3) : Place)).map fun s => N .y (at_ s .y)) (N .y (at_ (.box, .high, q3) .y)) (at_ (.box, .high, q3) .y)) =
      loop (some (N .y .low)) (N .y .high) .high := rfl
  rw [e2]
  by_cases hN : N .y .high ≤ N .y .low
  · rw [loop_some hN, if_pos hN]
    show List.forM _ _ = _
    rw [forM_cons]
    have e3 : (if at_ ((.box, .high, q3) : Place) .z = .box then (.ok () : Py Unit) else
      loop ((some ((.box, .low, q3) : Place)).map fun s => N .z (at_ s .z)) (N .z (at_ (.box, .high, q3) .z)) (at_ (.box, .high, q3) .z)) = .ok () := by
      rw [if_neg (show ¬ at_ ((.box, .high, q3) : Place) .z = .box from h3)]; exact loop_some le_rfl
    rw [e3]; rfl
  · rw [loop_big (by omega), if_neg hN]; rfl

/-- **C96, refuted.** If layers along x and y meet and there is a layer at low z but none at high z, the solver cannot be constructed. -/
theorem C96_corner_refuted (bc : Bc) (N : Cnt) (hN : N.Ok bc) (h : LowCorner bc) : build bc N = .error .attributeError := by
  have key : ∀ bc : Bc, LowCorner bc → ∃ q, (writes bc).find? (fun x => !good bc x) = some q ∧ sizes bc q = none ∧ at_ q .x ≠ .box ∧
      has bc.lowX bc.highX (at_ q .x) = true := forall_bc (by decide +kernel)
  obtain ⟨q, h1, h2, h3, h4⟩ := key bc h
  refine forM_first fill_good h1 (fill_missing q h2 h3 ?_)
  revert h3 h4
  cases at_ q .x with
  | low => exact fun _ hh => hN.lowX.2 hh
  | box => exact fun hh => absurd rfl hh
  | high => exact fun _ hh => hN.highX.2 hh

/-- **C96, refuted.** If a layer at high y meets one along z and has more cells than the one at low y (none if there is no such layer), the solver cannot be
constructed. -/
theorem C96_count_refuted (bc : Bc) (N : Cnt) (h : HighYZ bc) (hc : ¬ LowCorner bc) (hy : N .y .low < N .y .high) : build bc N = .error .indexError := by
  have key : ∀ bc : Bc, HighYZ bc → ¬ LowCorner bc → ∃ q, (writes bc).find? (fun x => !good bc x) = some q ∧ needed bc q = true ∧
      (q.1 = .box ∧ q.2.1 = .high ∧ q.2.2 ≠ .box) := forall_bc (by decide +kernel)
  obtain ⟨q, h1, h2, h3⟩ := key bc h hc
  exact forM_first fill_good h1 ((fill_yz q h2 h3).trans (if_neg (by omega)))

/-- **C96, which layers can be used.** In all other cases the solver can be constructed. (Wanted: it can always be constructed.) -/
theorem C96_built_partial (bc : Bc) (N : Cnt) (hN : N.Ok bc) :
    build bc N = .ok () ↔ ¬ LowCorner bc ∧ (HighYZ bc → N .y .high ≤ N .y .low) := by
  constructor
  · intro h
    refine ⟨fun hc => ?_, fun hyz => ?_⟩
    · rw [C96_corner_refuted bc N hN hc] at h; cases h
    · by_contra hlt
      by_cases hc : LowCorner bc
      · rw [C96_corner_refuted bc N hN hc] at h; cases h
      · rw [C96_count_refuted bc N hyz hc (by omega)] at h; cases h
  · rintro ⟨h1, h2⟩
    have key : ∀ bc : Bc, ¬ LowCorner bc → ∀ q ∈ writes bc, good bc q = true ∨
        (needed bc q = true ∧ (q.1 = .box ∧ q.2.1 = .high ∧ q.2.2 ≠ .box) ∧ HighYZ bc) := forall_bc (by decide +kernel)
    unfold build
    rw [forM_ok]
    intro q hq
    rcases key bc h1 q hq with h | ⟨h, h', h''⟩
    · exact fill_good q h
    · exact (fill_yz q h h').trans (if_pos (h2 h''))

/-- **C96, all around.** With layers on all sides that have the same cell counts at both ends of y, the solver can be constructed, and every block has the
cell counts of its place. -/
theorem C96_all_partial (N : Cnt) (hN : N.Ok ⟨true, true, true, true, true, true⟩) (hy : N .y .low = N .y .high) :
    build ⟨true, true, true, true, true, true⟩ N = .ok () ∧
      ∀ q, needed ⟨true, true, true, true, true, true⟩ q = true → ∃ s, sizes ⟨true, true, true, true, true, true⟩ q = some s ∧
        ∀ a, N a (at_ s a) = N a (at_ q a) := by
  refine ⟨(C96_built_partial _ N hN).2 ⟨by decide, fun _ => hy.ge⟩, fun q hq => ⟨_, C96_sizes_partial _ q hq, fun a => ?_⟩⟩
  split_ifs with h
  · obtain ⟨q1, q2, q3⟩ := q
    obtain ⟨rfl, rfl, -⟩ := h
    cases a
    · rfl
    · exact hy
    · rfl
  · rfl

noncomputable section

/-- Specification: the conductivity at a node of a layer of `N` cells grows with the third power of the distance from the box and vanishes next to it. The node on the
outer border does not matter: the electric field is not updated there. -/
def wantNode (m : ℝ) (N : ℕ) : Ext → ℕ → ℝ
  | .box, _ => 0
  | .low, i => if i = 0 then 0 else m * (((N - i : ℕ) : ℝ) / N) ^ 3
  | .high, i => if i < N then m * ((i : ℝ) / N) ^ 3 else 0

/-- **C96, conductivities.** When the solver can be constructed, every block has along every axis the conductivities of its layer, the same as all other blocks of
that layer; except that with a layer at high z but none at low z, the corners have none at all. -/
theorem C96_conductivity_partial (p : Phys) (bc : Bc) (N : Cnt) (dx dy dz : ℝ) (hN : N.Ok bc) (hok : build bc N = .ok ()) (hc : ¬ HighCorner bc) (q : Place)
    (hq : needed bc q = true) (a : Ax) (i : ℕ) (hi : i ≤ N a (at_ q a)) :
    sigma p bc N dx dy dz q a i =
      wantNode (S2.sigMax p (N a (at_ q a)) (sizeUsed dx dy dz a (at_ q a))) (N a (at_ q a)) (at_ q a) i := by
  have key : ∀ bc : Bc, ¬ LowCorner bc → ¬ HighCorner bc → ∀ q, needed bc q = true → q ∈ writes bc := forall_bc (by decide +kernel)
  unfold sigma
  rw [if_pos (key bc ((C96_built_partial bc N hN).1 hok).1 hc q hq)]
  revert hi
  cases at_ q a with
  | box => exact fun _ => rfl
  | low =>
    intro hi
    dsimp only [wantNode]
    by_cases h0 : i = 0
    · rw [if_neg (by omega), if_pos h0]
    · rw [if_pos ⟨by omega, hi⟩, if_neg h0]; rfl
  | high => exact fun _ => rfl

/-- **C96, refuted.** With a layer at high z but none at low z, where layers along x and y meet, the corners at high z are created but do not absorb. -/
theorem C96_highcorner_refuted (p : Phys) (bc : Bc) (N : Cnt) (dx dy dz : ℝ) (h : HighCorner bc) :
    ∃ q, needed bc q = true ∧ q.1 ≠ .box ∧ q.2.1 ≠ .box ∧ q.2.2 ≠ .box ∧ ∀ a i, sigma p bc N dx dy dz q a i = 0 ∧ sigmaStar p bc N dx dy dz q a i = 0 := by
  have key : ∀ bc : Bc, HighCorner bc → ∃ q, needed bc q = true ∧ q.1 ≠ .box ∧ q.2.1 ≠ .box ∧ q.2.2 ≠ .box ∧ q ∉ writes bc := forall_bc (by decide +kernel)
  obtain ⟨q, h1, h2, h3, h4, h5⟩ := key bc h
  exact ⟨q, h1, h2, h3, h4, fun a i => ⟨if_neg h5, if_neg h5⟩⟩

/-- **C96, strength of the layers.** The maximum belongs to the thickness of the layer, counted in cells of the size along its axis, at low x and along y; elsewhere
only if the cells are as large along y. -/
theorem C96_strength_partial (dx dy dz : ℝ) (a : Ax) (e : Ext) (he : e ≠ .box) :
    sizeUsed dx dy dz a e = (match a with | .x => dx | .y => dy | .z => dz) ↔
      (a = .x ∧ e = .low) ∨ a = .y ∨ (a = .x ∧ e = .high ∧ dx = dy) ∨ (a = .z ∧ dz = dy) := by
  cases a <;> cases e <;> simp_all [sizeUsed, eq_comm]

end

/-- Layers of ten cells on all sides, the default, can be used; one at low x, low y and low z only cannot; and one at high y and high z only cannot. -/
example : (∃ N : Cnt, N.Ok ⟨true, true, true, true, true, true⟩ ∧ build ⟨true, true, true, true, true, true⟩ N = .ok ()) ∧
    LowCorner ⟨true, true, true, false, false, false⟩ ∧ HighYZ ⟨false, false, false, false, true, true⟩ ∧ HighCorner ⟨true, true, false, true, true, true⟩ := by
  refine ⟨⟨fun _ _ => 10, ?_, ?_⟩, by decide, by decide, by decide⟩
  · constructor <;> simp
  · exact (C96_all_partial _ (by constructor <;> simp) rfl).1

end L3
end Wakis
