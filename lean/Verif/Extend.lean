import Verif.Areas
import Mathlib.Algebra.BigOperators.Fin
import Mathlib.Algebra.Order.BigOperators.Group.Finset

/-!
# C88: extension of unstable cells (enlarged cell technique)

Model of `compute_extensions` and its two active helpers in `wakis/grid2D.py` (called plane by plane by `wakis/grid3D.py`), and of the
`'ECT'` branch of the constructor.
-/

namespace Wakis
namespace Cond
noncomputable section
open Classical

/-! ### Model -/

/-- The read-only arguments (grid2D.py:264-283). -/
structure ExtIn where
  nx : ℕ
  ny : ℕ
  S : ℕ × ℕ → ℝ
  stab : ℕ × ℕ → ℝ
  int : ℕ × ℕ → Prop
  unst : ℕ × ℕ → Prop
  avail : ℕ × ℕ → Prop

/-- The arrays that are written: `S_red`, `S_enl`, `flag_ext_cell`, `flag_intr_cell`, `borrowing`. An entry of `borrowing` is the index
pair as written in the code, which may be -1, and the borrowed area (the fourth component is always `None`). -/
structure ExtSt where
  red : ℕ × ℕ → ℝ
  enl : ℕ × ℕ → ℝ
  ext : ℕ × ℕ → Prop
  intr : ℕ × ℕ → Prop
  bor : ℕ × ℕ → List ((ℤ × ℤ) × ℝ)

/-- `(ii + d1, jj + d2)`. -/
def shift (c : ℕ × ℕ) (d : ℤ × ℤ) : ℤ × ℤ := ((c.1 : ℤ) + d.1, (c.2 : ℤ) + d.2)

/-- The cell an index pair refers to: -1 wraps around, one past the end raises. -/
def cellAt (nx ny : ℕ) (q : ℤ × ℤ) : Py (ℕ × ℕ) := do return (← pyIndex nx q.1, ← pyIndex ny q.2)

/-- The loops `for ii in range(0, nx): for jj in range(0, ny)`. -/
def cells (nx ny : ℕ) : List (ℕ × ℕ) := (List.range nx).flatMap fun i => (List.range ny).map fun j => (i, j)

/-- One of the four attempts of the one-cell extension of cell `c` (grid2D.py:364-373 and the three that follow). -/
def tryOne (I : ExtIn) (c : ℕ × ℕ) (st : ExtSt) (d : ℤ × ℤ) : Py ExtSt := do
  let n ← cellAt I.nx I.ny (shift c d)
  let sExt := I.stab c - I.S c
  if I.S n > sExt ∧ I.avail n ∧ st.ext c then
    let patch := sExt * I.S n / I.S n
    if st.red n - patch > 0 then
      return { red := Function.update st.red n (st.red n - patch)
               enl := Function.update st.enl c (I.S c + patch)
               ext := Function.update st.ext c False
               intr := Function.update st.intr n True
               bor := Function.update st.bor c (st.bor c ++ [(shift c d, patch)]) }
    else return st
  else return st

/-- Order of the attempts (grid2D.py:365-412). -/
def near4 : List (ℤ × ℤ) := [(-1, 0), (0, -1), (0, 1), (1, 0)]

/-- `_compute_extensions_one_cell` (grid2D.py:349-412). -/
def oneCell (I : ExtIn) (st : ExtSt) : Py ExtSt :=
  (cells I.nx I.ny).foldlM (fun st c => if st.ext c then near4.foldlM (tryOne I c) st else return st) st

/-- Order of the neighbours (grid2D.py:541-550). -/
def near8 : List (ℤ × ℤ) := [(-1, 0), (1, 0), (0, -1), (0, 1), (-1, -1), (1, -1), (-1, 1), (1, 1)]

/-- `denom` (grid2D.py:541-550, 596-605). -/
def denom (I : ExtIn) (la : ℕ × ℕ → Prop) (ns : List (ℕ × ℕ)) : ℝ := (ns.map fun n => if la n then I.S n else 0).sum

/-- One pass of the loop body (grid2D.py:554-594): neighbours that would be left with nothing become locally unavailable. -/
def pass (I : ExtIn) (red : ℕ × ℕ → ℝ) (sExt den : ℝ) (ns : List (ℕ × ℕ)) (la : ℕ × ℕ → Prop) : (ℕ × ℕ → Prop) × Prop :=
  ns.foldl (fun s n => if s.1 n ∧ red n - sExt * I.S n / den ≤ 0 then (Function.update s.1 n False, True) else s) (la, False)

/-- `while denom >= S_ext and neg_cell` (grid2D.py:553-605). Every pass but the last makes a neighbour unavailable, so that nine passes are
enough; `fuel` counts them. -/
def shrink (I : ExtIn) (red : ℕ × ℕ → ℝ) (sExt : ℝ) (ns : List (ℕ × ℕ)) : ℕ → (ℕ × ℕ → Prop) → (ℕ × ℕ → Prop)
  | 0, la => la
  | fuel + 1, la =>
    if denom I la ns ≥ sExt then
      let p := pass I red sExt (denom I la ns) ns la
      if p.2 then shrink I red sExt ns fuel p.1 else p.1
    else la

/-- One of the eight loans (grid2D.py:609-656). -/
def lendOne (I : ExtIn) (sExt den : ℝ) (la : ℕ × ℕ → Prop) (c : ℕ × ℕ) (st : ExtSt) (q : (ℤ × ℤ) × (ℕ × ℕ)) : ExtSt :=
  if la q.2 then
    let patch := sExt * I.S q.2 / den
    { st with
      bor := Function.update st.bor c (st.bor c ++ [(q.1, patch)])
      intr := Function.update st.intr q.2 True
      enl := Function.update st.enl c (st.enl c + patch)
      red := Function.update st.red q.2 (st.red q.2 - patch) }
  else st

/-- Body of the loop of the eight-cell extension (grid2D.py:530-658). -/
def eightAt (I : ExtIn) (st : ExtSt) (c : ℕ × ℕ) : Py ExtSt :=
  if I.unst c ∧ I.int c ∧ st.ext c then do
    let ns ← near8.mapM fun d => cellAt I.nx I.ny (shift c d)
    let sExt := I.stab c - I.S c
    let la := shrink I st.red sExt ns 9 I.avail
    let st := { st with enl := Function.update st.enl c (I.S c) }
    if denom I la ns ≥ sExt then
      let st := ((near8.map (shift c)).zip ns).foldl (lendOne I sExt (denom I la ns) la c) st
      return { st with ext := Function.update st.ext c False }
    else return st
  else return st

/-- The eight-cell extension, done if a cell is still to be extended (grid2D.py:317-336). -/
def eightCells (I : ExtIn) (st : ExtSt) : Py ExtSt :=
  if ∃ c ∈ cells I.nx I.ny, st.ext c then (cells I.nx I.ny).foldlM (eightAt I) st else return st

/-- `compute_extensions` (grid2D.py:264-342). The printed counts are left out. -/
def extensions (I : ExtIn) (st : ExtSt) : Py ExtSt := do
  let st ← oneCell I st
  let st ← eightCells I st
  if ∃ c ∈ cells I.nx I.ny, st.ext c then .error .runtimeError else return st

/-- The state handed over by the constructor (grid2D.py:102-160): `flag_ext_cell` is a copy of `flag_unst_cell`, `S_red` and `S_enl`
are zero, nothing is borrowed. -/
def ectStart (I : ExtIn) : ExtSt where
  red _ := 0
  enl _ := 0
  ext := I.unst
  intr _ := False
  bor _ := []

/-! ### Specification -/

/-- What `mark_cells` guarantees: available and unstable cells are interior, and unstable cells are smaller than the stable size. -/
structure Marked (I : ExtIn) : Prop where
  avail : ∀ c, I.avail c → 0 < I.S c
  unst : ∀ c, I.unst c → I.int c ∧ I.S c < I.stab c

/-- The total area borrowed from cell `n`, by all cells. -/
def lent (I : ExtIn) (bor : ℕ × ℕ → List ((ℤ × ℤ) × ℝ)) (n : ℕ × ℕ) : ℝ :=
  ∑ c ∈ Finset.range I.nx ×ˢ Finset.range I.ny, ((bor c).map fun e => if cellAt I.nx I.ny e.1 = .ok n then e.2 else 0).sum

/-- The input of the extension in the constructor: areas and marks computed from the edge lengths (grid2D.py:102-160; grid3D.py does the
same in every plane of cells). -/
def ectIn (lx ly : ℕ → ℕ → ℝ) (dx dy : ℝ) (nx ny : ℕ) : ExtIn where
  nx := nx
  ny := ny
  S c := areas lx ly dx dy c.1 c.2
  stab c := (markCell lx ly (areas lx ly dx dy) dx dy c.1 c.2).stab
  int c := (markCell lx ly (areas lx ly dx dy) dx dy c.1 c.2).int
  unst c := (markCell lx ly (areas lx ly dx dy) dx dy c.1 c.2).unst
  avail c := (markCell lx ly (areas lx ly dx dy) dx dy c.1 c.2).avail

/-! ### The constructor: nothing can be borrowed -/

lemma mem_cells {nx ny : ℕ} {c : ℕ × ℕ} : c ∈ cells nx ny ↔ c.1 < nx ∧ c.2 < ny := by
  obtain ⟨i, j⟩ := c
  simp [cells]

lemma tryOne_empty (I : ExtIn) (hM : Marked I) (c : ℕ × ℕ) (hc : I.unst c) (st : ExtSt) (h0 : ∀ n, st.red n = 0) (d : ℤ × ℤ) :
    tryOne I c st d = (cellAt I.nx I.ny (shift c d)).map fun _ => st := by
  unfold tryOne
  cases h : cellAt I.nx I.ny (shift c d) with
  | error e => rfl
  | ok n =>
    show (if I.S n > I.stab c - I.S c ∧ I.avail n ∧ st.ext c then _ else _) = Except.ok st
    split_ifs with h1 h2
    · exfalso
      have hs := hM.avail n h1.2.1
      have hu := (hM.unst c hc).2
      rw [h0 n, mul_div_assoc, div_self hs.ne', mul_one] at h2
      linarith
    · rfl
    · rfl

lemma near4_empty (I : ExtIn) (hM : Marked I) (c : ℕ × ℕ) (hc : I.unst c) (st : ExtSt) (h0 : ∀ n, st.red n = 0) (hin : c.1 < I.nx ∧ c.2 < I.ny) :
    near4.foldlM (tryOne I c) st = if c.1 + 1 = I.nx ∨ c.2 + 1 = I.ny then .error .indexError else .ok st := by
  have hx0 : ∃ a, pyIndex I.nx ((c.1 : ℤ) + -1) = .ok a := by
    unfold pyIndex; split_ifs
    · exact ⟨_, rfl⟩
    · exact ⟨_, rfl⟩
    · exfalso; omega
  have hy0 : ∃ a, pyIndex I.ny ((c.2 : ℤ) + -1) = .ok a := by
    unfold pyIndex; split_ifs
    · exact ⟨_, rfl⟩
    · exact ⟨_, rfl⟩
    · exfalso; omega
  have hx : pyIndex I.nx ((c.1 : ℤ) + 0) = .ok c.1 := by unfold pyIndex; rw [if_pos (by omega)]; simp
  have hy : pyIndex I.ny ((c.2 : ℤ) + 0) = .ok c.2 := by unfold pyIndex; rw [if_pos (by omega)]; simp
  have hx1 : pyIndex I.nx ((c.1 : ℤ) + 1) = if c.1 + 1 = I.nx then .error .indexError else .ok (c.1 + 1) := by
    unfold pyIndex
    by_cases h : c.1 + 1 = I.nx
    · rw [if_neg (by omega), if_neg (by omega), if_pos h]
    · rw [if_pos (by omega), if_neg h]; congr 1
  have hy1 : pyIndex I.ny ((c.2 : ℤ) + 1) = if c.2 + 1 = I.ny then .error .indexError else .ok (c.2 + 1) := by
    unfold pyIndex
    by_cases h : c.2 + 1 = I.ny
    · rw [if_neg (by omega), if_neg (by omega), if_pos h]
    · rw [if_pos (by omega), if_neg h]; congr 1
  obtain ⟨a, ha⟩ := hx0
  obtain ⟨b, hb⟩ := hy0
  have t1 : tryOne I c st (-1, 0) = .ok st := by
    rw [tryOne_empty I hM c hc st h0]; simp only [cellAt, shift, ha, hy]; rfl
  have t2 : tryOne I c st (0, -1) = .ok st := by
    rw [tryOne_empty I hM c hc st h0]; simp only [cellAt, shift, hb, hx]; rfl
  have t3 : tryOne I c st (0, 1) = if c.2 + 1 = I.ny then .error .indexError else .ok st := by
    rw [tryOne_empty I hM c hc st h0]; simp only [cellAt, shift, hy1, hx]; split_ifs <;> rfl
  have t4 : tryOne I c st (1, 0) = if c.1 + 1 = I.nx then .error .indexError else .ok st := by
    rw [tryOne_empty I hM c hc st h0]; simp only [cellAt, shift, hx1, hy]; split_ifs <;> rfl
  rw [near4, List.foldlM_cons, t1]
  show List.foldlM _ st _ = _
  rw [List.foldlM_cons, t2]
  show List.foldlM _ st _ = _
  rw [List.foldlM_cons, t3]
  by_cases h1 : c.2 + 1 = I.ny
  · rw [if_pos (Or.inr h1), if_pos h1]; rfl
  · rw [if_neg h1]
    show List.foldlM _ st _ = _
    rw [List.foldlM_cons, t4]
    by_cases h2 : c.1 + 1 = I.nx
    · rw [if_pos (Or.inl h2), if_pos h2]; rfl
    · rw [if_neg h2, if_neg (by tauto)]; rfl

/-- A cell that needs an extension and lies in the last row or column. -/
def OnFarEdge (I : ExtIn) : Prop := ∃ c ∈ cells I.nx I.ny, I.unst c ∧ (c.1 + 1 = I.nx ∨ c.2 + 1 = I.ny)

lemma oneCell_empty (I : ExtIn) (hM : Marked I) (st : ExtSt) (h0 : ∀ n, st.red n = 0) (hext : st.ext = I.unst) :
    oneCell I st = if OnFarEdge I then .error .indexError else .ok st := by
  have gen : ∀ l : List (ℕ × ℕ), (∀ c ∈ l, c.1 < I.nx ∧ c.2 < I.ny) →
      l.foldlM (fun st c => if st.ext c then near4.foldlM (tryOne I c) st else return st) st =
        if ∃ c ∈ l, I.unst c ∧ (c.1 + 1 = I.nx ∨ c.2 + 1 = I.ny) then (.error .indexError : Py ExtSt) else .ok st := by
    intro l
    induction l with
    | nil => intro _; simp; rfl
    | cons c l ih =>
      intro hl
      rw [List.foldlM_cons]
      by_cases hu : I.unst c
      · rw [if_pos (by rw [hext]; exact hu), near4_empty I hM c hu st h0 (hl c (by simp))]
        by_cases hb : c.1 + 1 = I.nx ∨ c.2 + 1 = I.ny
        · rw [if_pos hb, if_pos ⟨c, by simp, hu, hb⟩]; rfl
        · rw [if_neg hb]
          show l.foldlM _ st = _
          rw [ih (fun c hc => hl c (by simp [hc]))]
          simp [hb]
      · rw [if_neg (by rw [hext]; exact hu)]
        show l.foldlM _ st = _
        rw [ih (fun c hc => hl c (by simp [hc]))]
        simp [hu]
  unfold oneCell
  rw [gen _ fun c hc => mem_cells.1 hc]
  unfold OnFarEdge
  congr

lemma pass_empty (I : ExtIn) (hM : Marked I) (red : ℕ × ℕ → ℝ) (h0 : ∀ n, red n = 0) (sExt den : ℝ) (hs : 0 < sExt) (hd : 0 < den) :
    ∀ (ns : List (ℕ × ℕ)) (la : ℕ × ℕ → Prop) (ng : Prop), (∀ n, la n → I.avail n) →
      let p := ns.foldl (fun s n => if s.1 n ∧ red n - sExt * I.S n / den ≤ 0 then (Function.update s.1 n False, True) else s) (la, ng)
      (∀ n ∈ ns, ¬ p.1 n) ∧ (∀ n, p.1 n → la n)
  | [], la, ng, _ => by simp
  | n :: ns, la, ng, hla => by
    simp only [List.foldl_cons]
    by_cases h : la n
    · have hpos : 0 < sExt * I.S n / den := div_pos (mul_pos hs (hM.avail n (hla n h))) hd
      rw [if_pos ⟨h, by rw [h0]; linarith⟩]
      have ih := pass_empty I hM red h0 sExt den hs hd ns (Function.update la n False) True (by
        intro m hm
        by_cases hmn : m = n
        · subst hmn; simp at hm
        · simp [hmn] at hm; exact hla m hm)
      dsimp only at ih ⊢
      refine ⟨?_, fun m hm => ?_⟩
      · intro m hm
        rcases List.mem_cons.1 hm with rfl | hm
        · intro hp; have := ih.2 _ hp; simp at this
        · exact ih.1 m hm
      · have := ih.2 m hm
        by_cases hmn : m = n
        · subst hmn; exact h
        · simpa [hmn] using this
    · rw [if_neg (by tauto)]
      have ih := pass_empty I hM red h0 sExt den hs hd ns la ng hla
      dsimp only at ih ⊢
      refine ⟨?_, ih.2⟩
      intro m hm
      rcases List.mem_cons.1 hm with rfl | hm
      · exact fun hp => h (ih.2 _ hp)
      · exact ih.1 m hm

lemma denom_none (I : ExtIn) (la : ℕ × ℕ → Prop) (ns : List (ℕ × ℕ)) (h : ∀ n ∈ ns, ¬ la n) : denom I la ns = 0 := by
  unfold denom
  rw [List.sum_eq_zero]
  intro x hx
  obtain ⟨n, hn, rfl⟩ := List.mem_map.1 hx
  rw [if_neg (h n hn)]

lemma shrink_empty (I : ExtIn) (hM : Marked I) (red : ℕ × ℕ → ℝ) (h0 : ∀ n, red n = 0) (sExt : ℝ) (hs : 0 < sExt) (ns : List (ℕ × ℕ)) :
    ∀ (fuel : ℕ) (la : ℕ × ℕ → Prop), (∀ n, la n → I.avail n) → denom I (shrink I red sExt ns (fuel + 1) la) ns < sExt
  | fuel, la, hla => by
    rw [shrink]
    split_ifs with h
    · dsimp only
      have hp := pass_empty I hM red h0 sExt (denom I la ns) hs (by linarith) ns la False hla
      have hz : denom I (pass I red sExt (denom I la ns) ns la).1 ns = 0 := denom_none I _ ns hp.1
      split_ifs with h2
      · cases fuel with
        | zero => rw [shrink, hz]; exact hs
        | succ f =>
          rw [shrink, if_neg (by rw [hz]; linarith), hz]; exact hs
      · rw [hz]; exact hs
    · exact not_le.1 h

/-- **C88, refuted.** The grid constructor with the enlarged cell technique never extends a cell: it fails as soon as one cell is unstable,
with IndexError if such a cell is in the last row or column and with RuntimeError otherwise. (The reason is that the area a cell can lend,
`S_red`, is created as zero and never set to the area of the cell.) -/
theorem C88_constructor_refuted (I : ExtIn) (hM : Marked I) :
    extensions I (ectStart I) =
      if OnFarEdge I then .error .indexError
      else if ∃ c ∈ cells I.nx I.ny, I.unst c then .error .runtimeError else .ok (ectStart I) := by
  unfold extensions
  rw [oneCell_empty I hM (ectStart I) (fun _ => rfl) rfl]
  by_cases hf : OnFarEdge I
  · rw [if_pos hf, if_pos hf]; rfl
  rw [if_neg hf, if_neg hf]
  by_cases hu : ∃ c ∈ cells I.nx I.ny, I.unst c
  · rw [if_pos hu]
    change Except.bind (eightCells I (ectStart I)) _ = _
    rw [eightCells, if_pos (show ∃ c ∈ cells I.nx I.ny, (ectStart I).ext c from hu)]
    have step : ∀ (l : List (ℕ × ℕ)) (st : ExtSt), (∀ c ∈ l, c ∈ cells I.nx I.ny) → (∀ n, st.red n = 0) → st.ext = I.unst →
        ∃ st', l.foldlM (eightAt I) st = .ok st' ∧ st'.ext = I.unst := by
      intro l
      induction l with
      | nil => intro st _ _ he; exact ⟨st, rfl, he⟩
      | cons c l ih =>
        intro st hl h0 he
        rw [List.foldlM_cons]
        have hone : ∃ st', eightAt I st c = .ok st' ∧ (∀ n, st'.red n = 0) ∧ st'.ext = I.unst := by
          unfold eightAt
          by_cases hc : I.unst c ∧ I.int c ∧ st.ext c
          · rw [if_pos hc]
            have hin := mem_cells.1 (hl c (by simp))
            have hnf : ¬ (c.1 + 1 = I.nx ∨ c.2 + 1 = I.ny) := fun h => hf ⟨c, hl c (by simp), hc.1, h⟩
            have hidx : ∀ (n k : ℕ) (d : ℤ), k < n → k + 1 ≠ n → (d = -1 ∨ d = 0 ∨ d = 1) → ∃ a, pyIndex n ((k : ℤ) + d) = .ok a := by
              intro n k d h1 h2 h3
              unfold pyIndex; split_ifs
              · exact ⟨_, rfl⟩
              · exact ⟨_, rfl⟩
              · exfalso; omega
            have hcell : ∀ d ∈ near8, ∃ n, cellAt I.nx I.ny (shift c d) = .ok n := by
              intro d hd
              have hd' : (d.1 = -1 ∨ d.1 = 0 ∨ d.1 = 1) ∧ (d.2 = -1 ∨ d.2 = 0 ∨ d.2 = 1) := by
                simp only [near8, List.mem_cons, List.not_mem_nil, or_false] at hd
                rcases hd with rfl | rfl | rfl | rfl | rfl | rfl | rfl | rfl <;> simp
              obtain ⟨a, ha⟩ := hidx I.nx c.1 d.1 hin.1 (by tauto) hd'.1
              obtain ⟨b, hb⟩ := hidx I.ny c.2 d.2 hin.2 (by tauto) hd'.2
              exact ⟨(a, b), by simp only [cellAt, shift, ha, hb]; rfl⟩
            have hmap : ∀ ds : List (ℤ × ℤ), (∀ d ∈ ds, ∃ n, cellAt I.nx I.ny (shift c d) = .ok n) →
                ∃ ns, ds.mapM (fun d => cellAt I.nx I.ny (shift c d)) = (.ok ns : Py _) := by
              intro ds
              induction ds with
              | nil => intro _; exact ⟨[], rfl⟩
              | cons d ds ihd =>
                intro h
                obtain ⟨n, hn⟩ := h d (by simp)
                obtain ⟨ns, hns⟩ := ihd (fun e he => h e (by simp [he]))
                exact ⟨n :: ns, by rw [List.mapM_cons, hn, hns]; rfl⟩
            obtain ⟨ns, hns⟩ := hmap near8 hcell
            rw [hns]
            have hden := shrink_empty I hM st.red h0 (I.stab c - I.S c) (by linarith [(hM.unst c hc.1).2]) ns 8 I.avail (fun _ h => h)
            show ∃ st', (if denom I (shrink I st.red (I.stab c - I.S c) ns 9 I.avail) ns ≥ I.stab c - I.S c then _ else _) = _ ∧ _
            rw [if_neg (not_le.2 hden)]
            exact ⟨_, rfl, h0, he⟩
          · rw [if_neg hc]; exact ⟨st, rfl, h0, he⟩
        obtain ⟨st1, e1, z1, x1⟩ := hone
        obtain ⟨st2, e2, x2⟩ := ih st1 (fun c hc => hl c (by simp [hc])) z1 x1
        exact ⟨st2, by rw [e1]; exact e2, x2⟩
    obtain ⟨st', e, hx⟩ := step (cells I.nx I.ny) (ectStart I) (fun _ h => h) (fun _ => rfl) rfl
    rw [e]
    show (if ∃ c ∈ cells I.nx I.ny, st'.ext c then _ else _) = _
    rw [hx, if_pos hu]
  · rw [if_neg hu]
    change Except.bind (eightCells I (ectStart I)) _ = _
    rw [eightCells, if_neg (show ¬ ∃ c ∈ cells I.nx I.ny, (ectStart I).ext c from hu)]
    show (if ∃ c ∈ cells I.nx I.ny, (ectStart I).ext c then _ else _) = _
    rw [if_neg (show ¬ ∃ c ∈ cells I.nx I.ny, (ectStart I).ext c from hu)]
    rfl

/-! ### What an extension does when cells have something to lend -/

lemma foldlM_inv {α σ : Type} (P : σ → Prop) (f : σ → α → Py σ) :
    ∀ (l : List α) (s s' : σ), (∀ a ∈ l, ∀ s s', P s → f s a = .ok s' → P s') → P s → l.foldlM f s = .ok s' → P s'
  | [], s, s', _, hs, h => by
    have : s = s' := Except.ok.inj h
    rwa [← this]
  | a :: l, s, s', hf, hs, h => by
    rw [List.foldlM_cons] at h
    cases h1 : f s a with
    | error e => rw [h1] at h; exact absurd h (by simp [bind, Except.bind])
    | ok s1 =>
      rw [h1] at h
      exact foldlM_inv P f l s1 s' (fun b hb => hf b (by simp [hb])) (hf a (by simp) s s1 hs h1) h

lemma lent_update (I : ExtIn) (bor : ℕ × ℕ → List ((ℤ × ℤ) × ℝ)) (c : ℕ × ℕ) (hc : c ∈ cells I.nx I.ny) (h0 : bor c = [])
    (l : List ((ℤ × ℤ) × ℝ)) (m : ℕ × ℕ) :
    lent I (Function.update bor c l) m = lent I bor m + (l.map fun e => if cellAt I.nx I.ny e.1 = .ok m then e.2 else 0).sum := by
  unfold lent
  have hc' : c ∈ Finset.range I.nx ×ˢ Finset.range I.ny := by simpa [mem_cells] using mem_cells.1 hc
  rw [← Finset.add_sum_erase _ _ hc', ← Finset.add_sum_erase (a := c) (f := fun c => ((bor c).map fun e => if cellAt I.nx I.ny e.1 = .ok m then e.2 else 0).sum) _ hc']
  rw [Function.update_self, h0]
  have : ∀ x ∈ (Finset.range I.nx ×ˢ Finset.range I.ny).erase c, Function.update bor c l x = bor x := fun x hx =>
    Function.update_of_ne (Finset.ne_of_mem_erase hx) _ _
  rw [Finset.sum_congr rfl fun x hx => by rw [this x hx]]
  simp
  ring

/-- What holds during the extensions. -/
structure ExtInv (I : ExtIn) (red0 : ℕ × ℕ → ℝ) (st : ExtSt) : Prop where
  red : ∀ n, st.red n = red0 n - lent I st.bor n
  done : ∀ c, I.unst c → ¬ st.ext c → st.enl c = I.stab c ∧ ((st.bor c).map (·.2)).sum = I.stab c - I.S c
  entry : ∀ c, ∀ e ∈ st.bor c, 0 < e.2 ∧ (∃ d ∈ near8, e.1 = shift c d) ∧ ∃ n, cellAt I.nx I.ny e.1 = .ok n ∧ I.avail n
  ext : ∀ c, st.ext c → I.unst c ∧ st.bor c = []
  other : ∀ c, ¬ I.unst c → st.bor c = []
  intr : ∀ n, st.intr n ↔ ∃ c, ∃ e ∈ st.bor c, cellAt I.nx I.ny e.1 = .ok n
  pos : 3 ≤ I.nx → 3 ≤ I.ny → ∀ c, ∀ e ∈ st.bor c, ∀ n, cellAt I.nx I.ny e.1 = .ok n → 0 < st.red n

lemma near4_sub {d : ℤ × ℤ} (h : d ∈ near4) : d ∈ near8 := by
  simp only [near4, near8, List.mem_cons, List.not_mem_nil, or_false] at *
  tauto

lemma tryOne_inv (I : ExtIn) (hM : Marked I) (red0 : ℕ × ℕ → ℝ) (c : ℕ × ℕ) (hc : c ∈ cells I.nx I.ny) (d : ℤ × ℤ) (hd : d ∈ near4)
    (st st' : ExtSt) (h : ExtInv I red0 st) (e : tryOne I c st d = .ok st') : ExtInv I red0 st' := by
  unfold tryOne at e
  cases hn : cellAt I.nx I.ny (shift c d) with
  | error x => rw [hn] at e; exact absurd e (by simp [bind, Except.bind])
  | ok n =>
    rw [hn] at e
    change (if I.S n > I.stab c - I.S c ∧ I.avail n ∧ st.ext c then _ else _) = _ at e
    split_ifs at e with h1 h2
    · obtain ⟨-, hav, hx⟩ := h1
      have hsn := hM.avail n hav
      have hu := (h.ext c hx).1
      have hb := (h.ext c hx).2
      have hlt := (hM.unst c hu).2
      have hpatch : (I.stab c - I.S c) * I.S n / I.S n = I.stab c - I.S c := by field_simp
      simp only [hpatch] at e h2
      have e' := (Except.ok.inj e).symm
      subst e'
      have hmem : ∀ c', ∀ x ∈ Function.update st.bor c (st.bor c ++ [(shift c d, I.stab c - I.S c)]) c',
          x ∈ st.bor c' ∨ (c' = c ∧ x = (shift c d, I.stab c - I.S c)) := by
        intro c' x hxm
        by_cases hcc : c' = c
        · subst hcc
          rw [Function.update_self, List.mem_append, List.mem_singleton] at hxm
          tauto
        · rw [Function.update_of_ne hcc] at hxm; exact .inl hxm
      refine ⟨fun m => ?_, fun c' hu' hx' => ?_, fun c' x hxm => ?_, fun c' hx' => ?_, fun c' hu' => ?_, fun m => ?_, fun h3 h4 c' x hxm m hm => ?_⟩
      · dsimp only
        rw [lent_update I st.bor c hc hb, hb]
        simp only [List.nil_append, List.map_cons, List.map_nil, List.sum_cons, List.sum_nil, hn, add_zero]
        by_cases hmn : m = n
        · subst hmn
          rw [Function.update_self, if_pos rfl, h.red]; ring
        · rw [Function.update_of_ne hmn, if_neg (by simpa using fun h => hmn h.symm), h.red]; ring
      · dsimp only at hx' ⊢
        by_cases hcc : c' = c
        · subst hcc
          rw [Function.update_self, Function.update_self, hb]
          simp
        · rw [Function.update_of_ne hcc] at hx' ⊢
          rw [Function.update_of_ne hcc]
          exact h.done c' hu' hx'
      · rcases hmem c' x hxm with hx0 | ⟨rfl, rfl⟩
        · exact h.entry c' x hx0
        · exact ⟨by dsimp only; linarith, ⟨d, near4_sub hd, rfl⟩, n, hn, hav⟩
      · dsimp only at hx' ⊢
        by_cases hcc : c' = c
        · subst hcc; simp at hx'
        · rw [Function.update_of_ne hcc] at hx' ⊢
          exact h.ext c' hx'
      · dsimp only
        have hcc : c' ≠ c := fun hcc => hu' (hcc ▸ hu)
        rw [Function.update_of_ne hcc]; exact h.other c' hu'
      · dsimp only
        by_cases hmn : m = n
        · subst hmn
          rw [Function.update_self]
          refine ⟨fun _ => ⟨c, (shift c d, I.stab c - I.S c), by simp, hn⟩, fun _ => trivial⟩
        · rw [Function.update_of_ne hmn, h.intr m]
          constructor
          · rintro ⟨c', x, hx1, hx2⟩
            refine ⟨c', x, ?_, hx2⟩
            by_cases hcc : c' = c
            · subst hcc; rw [Function.update_self]; simp [hx1]
            · rwa [Function.update_of_ne hcc]
          · rintro ⟨c', x, hx1, hx2⟩
            rcases hmem c' x hx1 with hx0 | ⟨rfl, rfl⟩
            · exact ⟨c', x, hx0, hx2⟩
            · rw [hn] at hx2; exact absurd (Except.ok.inj hx2).symm hmn
      · dsimp only
        by_cases hmn : m = n
        · subst hmn; rw [Function.update_self]; exact h2
        · rw [Function.update_of_ne hmn]
          rcases hmem c' x hxm with hx0 | ⟨rfl, rfl⟩
          · exact h.pos h3 h4 c' x hx0 m hm
          · rw [hn] at hm; exact absurd (Except.ok.inj hm).symm hmn
    · have := Except.ok.inj e; rwa [← this]
    · have := Except.ok.inj e; rwa [← this]

lemma oneCell_inv (I : ExtIn) (hM : Marked I) (red0 : ℕ × ℕ → ℝ) (st st' : ExtSt) (h : ExtInv I red0 st) (e : oneCell I st = .ok st') :
    ExtInv I red0 st' := by
  refine foldlM_inv (ExtInv I red0) _ _ _ _ (fun c hc s s' hs he => ?_) h e
  split_ifs at he with hx
  · exact foldlM_inv (ExtInv I red0) _ _ _ _ (fun d hd t t' ht hte => tryOne_inv I hM red0 c hc d hd t t' ht hte) hs he
  · have := Except.ok.inj he; rwa [← this]

/-- Number of listed neighbours that can lend. -/
def countAvail (la : ℕ × ℕ → Prop) (ns : List (ℕ × ℕ)) : ℕ := (ns.filter fun n => decide (la n)).length

lemma pass_spec (I : ExtIn) (red : ℕ × ℕ → ℝ) (sExt den : ℝ) :
    ∀ (ns : List (ℕ × ℕ)) (la : ℕ × ℕ → Prop) (ng : Prop),
      let p := ns.foldl (fun s n => if s.1 n ∧ red n - sExt * I.S n / den ≤ 0 then (Function.update s.1 n False, True) else s) (la, ng)
      (∀ n, p.1 n → la n) ∧ (¬ p.2 → ¬ ng ∧ p.1 = la ∧ ∀ n ∈ ns, la n → 0 < red n - sExt * I.S n / den) ∧
        (p.2 → ng ∨ ∃ n ∈ ns, la n ∧ ¬ p.1 n)
  | [], la, ng => by simp
  | n :: ns, la, ng => by
    simp only [List.foldl_cons]
    split_ifs with h
    · have ih := pass_spec I red sExt den ns (Function.update la n False) True
      dsimp only at ih ⊢
      refine ⟨fun m hm => ?_, fun hng => absurd trivial (ih.2.1 hng).1, fun _ => .inr ⟨n, by simp, h.1, fun hp => ?_⟩⟩
      · have := ih.1 m hm
        by_cases hmn : m = n
        · subst hmn; simp at this
        · simpa [hmn] using this
      · have := ih.1 n hp; simp at this
    · have ih := pass_spec I red sExt den ns la ng
      dsimp only at ih ⊢
      refine ⟨ih.1, fun hng => ⟨(ih.2.1 hng).1, (ih.2.1 hng).2.1, fun m hm hl => ?_⟩, fun hp => ?_⟩
      · rcases List.mem_cons.1 hm with rfl | hm
        · by_contra hcon; exact h ⟨hl, not_lt.1 hcon⟩
        · exact (ih.2.1 hng).2.2 m hm hl
      · rcases ih.2.2 hp with hn | ⟨m, hm, hl, hp1⟩
        · exact .inl hn
        · exact .inr ⟨m, by simp [hm], hl, hp1⟩

lemma countAvail_lt (la la' : ℕ × ℕ → Prop) (hsub : ∀ n, la' n → la n) :
    ∀ ns : List (ℕ × ℕ), countAvail la' ns ≤ countAvail la ns ∧ ((∃ n ∈ ns, la n ∧ ¬ la' n) → countAvail la' ns < countAvail la ns)
  | [] => by simp [countAvail]
  | n :: ns => by
    have ih := countAvail_lt la la' hsub ns
    unfold countAvail at ih ⊢
    by_cases h : la n
    · by_cases h' : la' n
      · simp only [List.filter_cons, h, h', decide_true, if_true, List.length_cons]
        refine ⟨by omega, fun ⟨m, hm, h1, h2⟩ => ?_⟩
        rcases List.mem_cons.1 hm with rfl | hm
        · exact absurd h' h2
        · have := ih.2 ⟨m, hm, h1, h2⟩; omega
      · simp only [List.filter_cons, h, h', decide_true, decide_false, if_true, List.length_cons]
        simp only [Bool.false_eq_true, if_false]
        exact ⟨by omega, fun _ => by omega⟩
    · have h' : ¬ la' n := fun hh => h (hsub n hh)
      simp only [List.filter_cons, h, h', decide_false, Bool.false_eq_true, if_false]
      refine ⟨ih.1, fun ⟨m, hm, h1, h2⟩ => ?_⟩
      rcases List.mem_cons.1 hm with rfl | hm
      · exact absurd h1 h
      · exact ih.2 ⟨m, hm, h1, h2⟩

lemma shrink_spec (I : ExtIn) (red : ℕ × ℕ → ℝ) (sExt : ℝ) (ns : List (ℕ × ℕ)) :
    ∀ (fuel : ℕ) (la : ℕ × ℕ → Prop), countAvail la ns < fuel →
      let r := shrink I red sExt ns fuel la
      (∀ n, r n → la n) ∧ (denom I r ns ≥ sExt → ∀ n ∈ ns, r n → 0 < red n - sExt * I.S n / denom I r ns) ∧
        ∀ k, shrink I red sExt ns (fuel + k) la = r
  | 0, la, h => absurd h (by omega)
  | fuel + 1, la, h => by
    have hs := pass_spec I red sExt (denom I la ns) ns la False
    dsimp only at hs ⊢
    change (∀ n, (pass I red sExt (denom I la ns) ns la).1 n → la n) ∧ (¬ (pass I red sExt (denom I la ns) ns la).2 → _ ∧ (pass I red sExt (denom I la ns) ns la).1 = la ∧ _) ∧ ((pass I red sExt (denom I la ns) ns la).2 → False ∨ ∃ n ∈ ns, la n ∧ ¬ (pass I red sExt (denom I la ns) ns la).1 n) at hs
    have hk : ∀ k, fuel + 1 + k = (fuel + k) + 1 := by omega
    by_cases hd : denom I la ns ≥ sExt
    · by_cases hp : (pass I red sExt (denom I la ns) ns la).2
      · have hlt := (countAvail_lt la _ hs.1 ns).2 ((hs.2.2 hp).resolve_left id)
        have ih := shrink_spec I red sExt ns fuel _ (show countAvail (pass I red sExt (denom I la ns) ns la).1 ns < fuel by omega)
        dsimp only at ih
        have e : ∀ k, shrink I red sExt ns (fuel + k + 1) la = shrink I red sExt ns (fuel + k) (pass I red sExt (denom I la ns) ns la).1 := by
          intro k
          rw [shrink, if_pos hd]; exact if_pos hp
        have e0 := e 0
        rw [Nat.add_zero] at e0
        rw [e0]
        exact ⟨fun n hn => hs.1 n (ih.1 n hn), ih.2.1, fun k => by rw [hk, e, ih.2.2]; rfl⟩
      · have e : ∀ k, shrink I red sExt ns (fuel + k + 1) la = la := by
          intro k
          rw [shrink, if_pos hd]
          exact (if_neg hp).trans (hs.2.1 hp).2.1
        have e0 := e 0
        rw [Nat.add_zero] at e0
        rw [e0]
        exact ⟨fun n hn => hn, fun _ => (hs.2.1 hp).2.2, fun k => by rw [hk, e]⟩
    · have e : ∀ k, shrink I red sExt ns (fuel + k + 1) la = la := by
        intro k
        rw [shrink, if_neg hd]
      have e0 := e 0
      rw [Nat.add_zero] at e0
      rw [e0]
      exact ⟨fun n hn => hn, fun h => absurd h hd, fun k => by rw [hk, e]⟩

lemma lend_spec (I : ExtIn) (sExt den : ℝ) (la : ℕ × ℕ → Prop) (c : ℕ × ℕ) :
    ∀ (L : List ((ℤ × ℤ) × (ℕ × ℕ))) (st : ExtSt),
      let r := L.foldl (lendOne I sExt den la c) st
      r.ext = st.ext ∧
      r.bor = Function.update st.bor c (st.bor c ++ (L.filter fun q => decide (la q.2)).map fun q => (q.1, sExt * I.S q.2 / den)) ∧
      (∀ m, r.red m = st.red m - (L.map fun q => if la q.2 ∧ q.2 = m then sExt * I.S q.2 / den else 0).sum) ∧
      r.enl = Function.update st.enl c (st.enl c + (L.map fun q => if la q.2 then sExt * I.S q.2 / den else 0).sum) ∧
      ∀ m, r.intr m ↔ st.intr m ∨ ∃ q ∈ L, la q.2 ∧ q.2 = m
  | [], st => by simp
  | q :: L, st => by
    have ih := lend_spec I sExt den la c L (lendOne I sExt den la c st q)
    dsimp only at ih ⊢
    rw [List.foldl_cons]
    by_cases h : la q.2
    · have hl : lendOne I sExt den la c st q = { st with
          bor := Function.update st.bor c (st.bor c ++ [(q.1, sExt * I.S q.2 / den)])
          intr := Function.update st.intr q.2 True
          enl := Function.update st.enl c (st.enl c + sExt * I.S q.2 / den)
          red := Function.update st.red q.2 (st.red q.2 - sExt * I.S q.2 / den) } := if_pos h
      rw [hl] at ih ⊢
      obtain ⟨i1, i2, i3, i4, i5⟩ := ih
      refine ⟨i1, ?_, fun m => ?_, ?_, fun m => ?_⟩
      · rw [i2]
        simp [h]
      · rw [i3 m]
        simp only [List.map_cons, List.sum_cons, h, true_and]
        by_cases hm : q.2 = m
        · subst hm; rw [Function.update_self, if_pos rfl]; ring
        · rw [Function.update_of_ne (fun h => hm h.symm), if_neg hm]; ring
      · rw [i4]
        simp only [List.map_cons, List.sum_cons, h, if_true, Function.update_self, Function.update_idem]
        rw [add_assoc]
      · rw [i5 m]
        by_cases hm : q.2 = m
        · subst hm; simp [h]
        · dsimp only
          rw [Function.update_of_ne (fun h => hm h.symm)]
          simp [hm]
    · have hl : lendOne I sExt den la c st q = st := if_neg h
      rw [hl] at ih ⊢
      obtain ⟨i1, i2, i3, i4, i5⟩ := ih
      refine ⟨i1, ?_, fun m => ?_, ?_, fun m => ?_⟩
      · rw [i2]; simp [h]
      · rw [i3 m]; simp [h]
      · rw [i4]; simp [h]
      · rw [i5 m]; simp [h]

lemma mapM_spec {α β γ : Type} (f : α → Py β) (g : α → γ) :
    ∀ (ds : List α) (ns : List β), ds.mapM f = .ok ns →
      ns.length = ds.length ∧ (∀ q ∈ (ds.map g).zip ns, ∃ d ∈ ds, q.1 = g d ∧ f d = .ok q.2) ∧ ∀ n ∈ ns, ∃ d ∈ ds, f d = .ok n
  | [], ns, h => by
    have : [] = ns := Except.ok.inj h
    subst this; simp
  | d :: ds, ns, h => by
    rw [List.mapM_cons] at h
    cases h1 : f d with
    | error e => rw [h1] at h; exact absurd h (by simp [bind, Except.bind])
    | ok n =>
      cases h2 : ds.mapM f with
      | error e => rw [h1, h2] at h; exact absurd h (by simp [bind, Except.bind])
      | ok ns' =>
        rw [h1, h2] at h
        have : n :: ns' = ns := Except.ok.inj h
        subst this
        have ih := mapM_spec f g ds ns' h2
        refine ⟨by simp [ih.1], ?_, ?_⟩
        · intro q hq
          simp only [List.map_cons, List.zip_cons_cons, List.mem_cons] at hq
          rcases hq with rfl | hq
          · exact ⟨d, by simp, rfl, h1⟩
          · obtain ⟨d', hd', hh⟩ := ih.2.1 q hq
            exact ⟨d', by simp [hd'], hh⟩
        · intro m hm
          rcases List.mem_cons.1 hm with rfl | hm
          · exact ⟨d, by simp, h1⟩
          · obtain ⟨d', hd', hh⟩ := ih.2.2 m hm
            exact ⟨d', by simp [hd'], hh⟩

lemma mapM_nodup {α β : Type} (f : α → Py β) :
    ∀ (ds : List α) (ns : List β), ds.Nodup → (∀ a ∈ ds, ∀ b ∈ ds, ∀ n, f a = .ok n → f b = .ok n → a = b) → ds.mapM f = .ok ns → ns.Nodup
  | [], ns, _, _, h => by
    have : [] = ns := Except.ok.inj h
    subst this; simp
  | d :: ds, ns, hd, hinj, h => by
    rw [List.mapM_cons] at h
    cases h1 : f d with
    | error e => rw [h1] at h; exact absurd h (by simp [bind, Except.bind])
    | ok n =>
      cases h2 : ds.mapM f with
      | error e => rw [h1, h2] at h; exact absurd h (by simp [bind, Except.bind])
      | ok ns' =>
        rw [h1, h2] at h
        have : n :: ns' = ns := Except.ok.inj h
        subst this
        rw [List.nodup_cons] at hd ⊢
        refine ⟨fun hn => ?_, mapM_nodup f ds ns' hd.2 (fun a ha b hb => hinj a (by simp [ha]) b (by simp [hb])) h2⟩
        obtain ⟨d', hd', hf⟩ := (mapM_spec f f ds ns' h2).2.2 n hn
        have := hinj d (by simp) d' (by simp [hd']) n h1 hf
        exact hd.1 (this ▸ hd')

lemma sum_filter_ite {α : Type} (p : α → Prop) (f : α → ℝ) :
    ∀ L : List α, ((L.filter fun q => decide (p q)).map f).sum = (L.map fun q => if p q then f q else 0).sum
  | [] => by simp
  | a :: L => by
    by_cases h : p a <;> simp [h, sum_filter_ite p f L]

lemma sum_single (m : ℕ × ℕ) (p : ℕ × ℕ → Prop) (f : ℕ × ℕ → ℝ) :
    ∀ L : List (ℕ × ℕ), L.Nodup → (L.map fun n => if p n ∧ n = m then f n else 0).sum = if m ∈ L ∧ p m then f m else 0
  | [], _ => by simp
  | a :: L, h => by
    rw [List.nodup_cons] at h
    rw [List.map_cons, List.sum_cons, sum_single m p f L h.2]
    by_cases ham : a = m
    · subst ham
      by_cases hp : p a <;> simp [h.1, hp]
    · have ham' : m ≠ a := fun h => ham h.symm
      by_cases hL : m ∈ L <;> simp [ham, hL, ham']

lemma near8_small {d : ℤ × ℤ} (hd : d ∈ near8) : (d.1 = -1 ∨ d.1 = 0 ∨ d.1 = 1) ∧ (d.2 = -1 ∨ d.2 = 0 ∨ d.2 = 1) := by
  simp only [near8, List.mem_cons, List.not_mem_nil, or_false] at hd
  rcases hd with rfl | rfl | rfl | rfl | rfl | rfl | rfl | rfl <;> simp

lemma cellAt_ok {nx ny : ℕ} {q : ℤ × ℤ} {n : ℕ × ℕ} (h : cellAt nx ny q = .ok n) : pyIndex nx q.1 = .ok n.1 ∧ pyIndex ny q.2 = .ok n.2 := by
  unfold cellAt at h
  cases h1 : pyIndex nx q.1 with
  | error e => rw [h1] at h; exact absurd h (by simp [bind, Except.bind])
  | ok a =>
    cases h2 : pyIndex ny q.2 with
    | error e => rw [h1, h2] at h; exact absurd h (by simp [bind, Except.bind])
    | ok b =>
      rw [h1, h2] at h
      have : (a, b) = n := Except.ok.inj h
      subst this
      exact ⟨rfl, rfl⟩

lemma near8_inj (nx ny : ℕ) (h3 : 3 ≤ nx) (h4 : 3 ≤ ny) (c : ℕ × ℕ) (d d' : ℤ × ℤ) (hd : d ∈ near8) (hd' : d' ∈ near8) (n : ℕ × ℕ)
    (h : cellAt nx ny (shift c d) = .ok n) (h' : cellAt nx ny (shift c d') = .ok n) : d = d' := by
  have s := near8_small hd
  have s' := near8_small hd'
  obtain ⟨a1, a2⟩ := cellAt_ok h
  obtain ⟨b1, b2⟩ := cellAt_ok h'
  rw [pyIndex_ok_iff] at a1 a2 b1 b2
  simp only [shift] at a1 a2 b1 b2
  ext <;> omega

lemma eightAt_inv (I : ExtIn) (hM : Marked I) (red0 : ℕ × ℕ → ℝ) (c : ℕ × ℕ) (hc : c ∈ cells I.nx I.ny) (st st' : ExtSt)
    (h : ExtInv I red0 st) (e : eightAt I st c = .ok st') : ExtInv I red0 st' := by
  unfold eightAt at e
  split_ifs at e with hcond
  swap
  · have := Except.ok.inj e; rwa [← this]
  obtain ⟨hu, -, hx⟩ := hcond
  have hb := (h.ext c hx).2
  have hlt := (hM.unst c hu).2
  cases hns : near8.mapM fun d => cellAt I.nx I.ny (shift c d) with
  | error x => rw [hns] at e; exact absurd e (by simp [bind, Except.bind])
  | ok ns =>
    rw [hns] at e
    change (if denom I (shrink I st.red (I.stab c - I.S c) ns 9 I.avail) ns ≥ I.stab c - I.S c then _ else _) = _ at e
    have hlen := (mapM_spec _ (shift c) near8 ns hns).1
    have hpair := (mapM_spec _ (shift c) near8 ns hns).2.1
    have hcount : countAvail I.avail ns < 9 := by
      unfold countAvail
      have := List.length_filter_le (fun n => decide (I.avail n)) ns
      have h8 : near8.length = 8 := rfl
      omega
    have hsh := shrink_spec I st.red (I.stab c - I.S c) ns 9 I.avail hcount
    dsimp only at hsh
    generalize hla : shrink I st.red (I.stab c - I.S c) ns 9 I.avail = la at e hsh
    have hsnd : ((near8.map (shift c)).zip ns).map Prod.snd = ns := List.map_snd_zip (by simp [hlen])
    have hinv : ExtInv I red0 { st with enl := Function.update st.enl c (I.S c) } := by
      refine ⟨h.red, fun c' hu' hx' => ?_, h.entry, h.ext, h.other, h.intr, h.pos⟩
      have hcc : c' ≠ c := fun hcc => hx' (hcc ▸ hx)
      dsimp only
      rw [Function.update_of_ne hcc]
      exact h.done c' hu' hx'
    split_ifs at e with hden
    swap
    · have := Except.ok.inj e; rwa [← this]
    have hl := lend_spec I (I.stab c - I.S c) (denom I la ns) la c ((near8.map (shift c)).zip ns)
      { st with enl := Function.update st.enl c (I.S c) }
    dsimp only at hl
    generalize List.foldl (lendOne I (I.stab c - I.S c) (denom I la ns) la c) { st with enl := Function.update st.enl c (I.S c) }
      ((near8.map (shift c)).zip ns) = r at e hl
    obtain ⟨l1, l2, l3, l4, l5⟩ := hl
    have e' : { r with ext := Function.update r.ext c False } = st' := Except.ok.inj e
    subst e'
    have hdpos : 0 < denom I la ns := by linarith
    have hsum : ((((near8.map (shift c)).zip ns)).map fun q => if la q.2 then (I.stab c - I.S c) * I.S q.2 / denom I la ns else 0).sum = I.stab c - I.S c := by
      have e1 : ((((near8.map (shift c)).zip ns)).map fun q => if la q.2 then (I.stab c - I.S c) * I.S q.2 / denom I la ns else 0) =
          (ns.map fun n => ((I.stab c - I.S c) / denom I la ns) * if la n then I.S n else 0) := by
        generalize denom I la ns = D
        conv_rhs => rw [← hsnd]
        rw [List.map_map]
        refine List.map_congr_left fun q _ => ?_
        simp only [Function.comp]
        split_ifs <;> ring
      rw [e1, List.sum_map_mul_left]
      change (I.stab c - I.S c) / denom I la ns * denom I la ns = _
      field_simp
    rw [hb, List.nil_append] at l2
    have hmem : ∀ c', ∀ x ∈ r.bor c', x ∈ st.bor c' ∨ (c' = c ∧ ∃ q ∈ (near8.map (shift c)).zip ns, la q.2 ∧ x = (q.1, (I.stab c - I.S c) * I.S q.2 / denom I la ns)) := by
      intro c' x hxm
      rw [l2] at hxm
      by_cases hcc : c' = c
      · subst hcc
        rw [Function.update_self, List.mem_map] at hxm
        obtain ⟨q, hq, rfl⟩ := hxm
        rw [List.mem_filter] at hq
        exact .inr ⟨rfl, q, hq.1, of_decide_eq_true hq.2, rfl⟩
      · rw [Function.update_of_ne hcc] at hxm; exact .inl hxm
    have hcell : ∀ q ∈ (near8.map (shift c)).zip ns, cellAt I.nx I.ny q.1 = .ok q.2 := by
      intro q hq
      obtain ⟨d, -, e1, e2⟩ := hpair q hq
      rw [e1]; exact e2
    have hin : ∀ q ∈ (near8.map (shift c)).zip ns, q.2 ∈ ns := by
      intro q hq
      rw [← hsnd]; exact List.mem_map_of_mem hq
    refine ⟨fun m => ?_, fun c' hu' hx' => ?_, fun c' x hxm => ?_, fun c' hx' => ?_, fun c' hu' => ?_, fun m => ?_, fun h3 h4 c' x hxm m hm => ?_⟩
    · dsimp only
      rw [l2, lent_update I st.bor c hc hb, l3 m, h.red m, List.map_map]
      have e1 := sum_filter_ite (fun q : (ℤ × ℤ) × (ℕ × ℕ) => la q.2)
        (fun q => if cellAt I.nx I.ny q.1 = .ok m then (I.stab c - I.S c) * I.S q.2 / denom I la ns else 0) ((near8.map (shift c)).zip ns)
      have e2 : ((near8.map (shift c)).zip ns).map (fun q => if la q.2 then (if cellAt I.nx I.ny q.1 = .ok m then (I.stab c - I.S c) * I.S q.2 / denom I la ns else 0) else 0)
          = ((near8.map (shift c)).zip ns).map (fun q => if la q.2 ∧ q.2 = m then (I.stab c - I.S c) * I.S q.2 / denom I la ns else 0) := by
        refine List.map_congr_left fun q hq => ?_
        rw [hcell q hq]
        by_cases h1 : la q.2 <;> by_cases h2 : q.2 = m <;> simp [h1, h2]
      rw [e2] at e1
      change _ = _ - (_ + (List.map (fun q : (ℤ × ℤ) × (ℕ × ℕ) => if cellAt I.nx I.ny q.1 = .ok m then (I.stab c - I.S c) * I.S q.2 / denom I la ns else 0) _).sum)
      rw [e1]
      ring
    · dsimp only at hx' ⊢
      by_cases hcc : c' = c
      · subst hcc
        rw [l4, l2, Function.update_self, Function.update_self, Function.update_self, hsum, List.map_map]
        refine ⟨by ring, ?_⟩
        have e1 := sum_filter_ite (fun q : (ℤ × ℤ) × (ℕ × ℕ) => la q.2) (fun q => (I.stab c' - I.S c') * I.S q.2 / denom I la ns) ((near8.map (shift c')).zip ns)
        rw [hsum] at e1
        exact e1
      · rw [Function.update_of_ne hcc, l1] at hx'
        rw [l4, l2, Function.update_of_ne hcc, Function.update_of_ne hcc, Function.update_of_ne hcc]
        exact h.done c' hu' hx'
    · rcases hmem c' x hxm with hx0 | ⟨rfl, q, hq, hlq, rfl⟩
      · exact h.entry c' x hx0
      · obtain ⟨d, hd, e1, -⟩ := hpair q hq
        refine ⟨?_, ⟨d, hd, e1⟩, q.2, hcell q hq, hsh.1 _ hlq⟩
        have := hM.avail _ (hsh.1 _ hlq)
        exact div_pos (mul_pos (by linarith) this) hdpos
    · dsimp only at hx' ⊢
      by_cases hcc : c' = c
      · subst hcc; simp at hx'
      · rw [Function.update_of_ne hcc, l1] at hx'
        rw [l2, Function.update_of_ne hcc]
        exact h.ext c' hx'
    · dsimp only
      have hcc : c' ≠ c := fun hcc => hu' (hcc ▸ hu)
      rw [l2, Function.update_of_ne hcc]; exact h.other c' hu'
    · dsimp only
      rw [l5 m, h.intr m]
      constructor
      · rintro (⟨c', x, hx1, hx2⟩ | ⟨q, hq, h1, h2⟩)
        · refine ⟨c', x, ?_, hx2⟩
          have hcc : c' ≠ c := by rintro rfl; rw [hb] at hx1; simp at hx1
          rwa [l2, Function.update_of_ne hcc]
        · refine ⟨c, (q.1, (I.stab c - I.S c) * I.S q.2 / denom I la ns), ?_, ?_⟩
          · rw [l2, Function.update_self, List.mem_map]
            exact ⟨q, List.mem_filter.2 ⟨hq, by simpa using h1⟩, rfl⟩
          · dsimp only; rw [hcell q hq, h2]
      · rintro ⟨c', x, hx1, hx2⟩
        rcases hmem c' x hx1 with hx0 | ⟨rfl, q, hq, hlq, rfl⟩
        · exact .inl ⟨c', x, hx0, hx2⟩
        · dsimp only at hx2
          rw [hcell q hq] at hx2
          exact .inr ⟨q, hq, hlq, Except.ok.inj hx2⟩
    · dsimp only
      have hnd : ns.Nodup := mapM_nodup _ near8 ns (by decide) (fun a ha b hb n => near8_inj I.nx I.ny h3 h4 c a b ha hb n) hns
      have e1 : ((near8.map (shift c)).zip ns).map (fun q => if la q.2 ∧ q.2 = m then (I.stab c - I.S c) * I.S q.2 / denom I la ns else 0)
          = ns.map (fun n => if la n ∧ n = m then (I.stab c - I.S c) * I.S n / denom I la ns else 0) := by
        generalize denom I la ns = D
        conv_rhs => rw [← hsnd]
        rw [List.map_map]; rfl
      rw [l3 m, e1, sum_single m la (fun n => (I.stab c - I.S c) * I.S n / denom I la ns) ns hnd]
      split_ifs with hml
      · exact hsh.2.1 hden m hml.1 hml.2
      · rw [sub_zero]
        rcases hmem c' x hxm with hx0 | ⟨rfl, q, hq, hlq, rfl⟩
        · exact h.pos h3 h4 c' x hx0 m hm
        · dsimp only at hm
          rw [hcell q hq] at hm
          have := Except.ok.inj hm
          subst this
          exact absurd ⟨hin q hq, hlq⟩ hml

/-- **C88.** When the extension succeeds, starting from arbitrary areas that cells can lend: every unstable cell ends with exactly the stable
size and has borrowed exactly what it lacked, in positive pieces, from available neighbours; stable cells borrow nothing; what a cell can
still lend is what it could lend before minus all that was borrowed from it, and it is still positive if something was borrowed; the cells
marked as intruded are the lenders. -/
theorem C88_success_partial (I : ExtIn) (hM : Marked I) (st₀ st : ExtSt) (hext : st₀.ext = I.unst) (hbor : ∀ c, st₀.bor c = [])
    (hintr : ∀ c, ¬ st₀.intr c) (h : extensions I st₀ = .ok st) :
    (∀ c ∈ cells I.nx I.ny, I.unst c → st.enl c = I.stab c ∧ ((st.bor c).map (·.2)).sum = I.stab c - I.S c) ∧
    (∀ c, ¬ I.unst c → st.bor c = []) ∧
    (∀ c, ∀ e ∈ st.bor c, 0 < e.2 ∧ (∃ d ∈ near8, e.1 = shift c d) ∧ ∃ n, cellAt I.nx I.ny e.1 = .ok n ∧ I.avail n) ∧
    (∀ n, st.red n = st₀.red n - lent I st.bor n) ∧
    (∀ n, st.intr n ↔ ∃ c, ∃ e ∈ st.bor c, cellAt I.nx I.ny e.1 = .ok n) ∧
    (3 ≤ I.nx → 3 ≤ I.ny → ∀ n, st.intr n → 0 < st.red n) := by
  have h0 : ExtInv I st₀.red st₀ := by
    refine ⟨fun n => ?_, fun c hu hx => absurd (hext ▸ hu) hx, fun c e he => ?_, fun c hc => ⟨hext ▸ hc, hbor c⟩, fun c _ => hbor c, fun n => ?_, fun _ _ c e he => ?_⟩
    · simp [lent, hbor]
    · rw [hbor] at he; simp at he
    · simp [hbor, hintr]
    · rw [hbor] at he; simp at he
  unfold extensions at h
  cases h1 : oneCell I st₀ with
  | error e => rw [h1] at h; exact absurd h (by simp [bind, Except.bind])
  | ok s1 =>
    rw [h1] at h
    have i1 := oneCell_inv I hM st₀.red st₀ s1 h0 h1
    cases h2 : eightCells I s1 with
    | error e =>
      change Except.bind (eightCells I s1) _ = _ at h
      rw [h2] at h; exact absurd h (by simp [Except.bind])
    | ok s2 =>
      change Except.bind (eightCells I s1) _ = _ at h
      rw [h2] at h
      have i2 : ExtInv I st₀.red s2 := by
        unfold eightCells at h2
        split_ifs at h2 with hx
        · exact foldlM_inv (ExtInv I st₀.red) _ _ _ _ (fun c hc s s' hs he => eightAt_inv I hM st₀.red c hc s s' hs he) i1 h2
        · have := Except.ok.inj h2; rwa [← this]
      change (if ∃ c ∈ cells I.nx I.ny, s2.ext c then _ else _) = _ at h
      split_ifs at h with hx
      have := Except.ok.inj h
      subst this
      refine ⟨fun c hc hu => i2.done c hu fun hxc => hx ⟨c, hc, hxc⟩, i2.other, i2.entry, i2.red, i2.intr, fun h3 h4 n hn => ?_⟩
      obtain ⟨c, e, he, hne⟩ := (i2.intr n).1 hn
      exact i2.pos h3 h4 c e he n hne

/-- **C88, the loop ends.** The number of passes allowed in the model is enough: more passes change nothing. -/
theorem C88_loop_ends (I : ExtIn) (red : ℕ × ℕ → ℝ) (sExt : ℝ) (ns : List (ℕ × ℕ)) (h : ns.length ≤ 8) (la : ℕ × ℕ → Prop) (k : ℕ) :
    shrink I red sExt ns (9 + k) la = shrink I red sExt ns 9 la := by
  refine (shrink_spec I red sExt ns 9 la ?_).2.2 k
  unfold countAvail
  have := List.length_filter_le (fun n => decide (la n)) ns
  omega

/-- **C88, no area is made or lost.** What unstable cells gain is what the cells of the grid lose together. -/
theorem C88_area_conserved (I : ExtIn) (hM : Marked I) (st₀ st : ExtSt) (hext : st₀.ext = I.unst) (hbor : ∀ c, st₀.bor c = [])
    (hintr : ∀ c, ¬ st₀.intr c) (h : extensions I st₀ = .ok st) :
    ∑ c ∈ Finset.range I.nx ×ˢ Finset.range I.ny, (if I.unst c then st.enl c - I.S c else 0) =
      ∑ n ∈ Finset.range I.nx ×ˢ Finset.range I.ny, (st₀.red n - st.red n) := by
  obtain ⟨h1, h2, h3, h4, -, -⟩ := C88_success_partial I hM st₀ st hext hbor hintr h
  have e1 : ∀ n, st₀.red n - st.red n = lent I st.bor n := fun n => by rw [h4]; ring
  rw [Finset.sum_congr rfl fun n _ => e1 n]
  unfold lent
  rw [Finset.sum_comm]
  refine Finset.sum_congr rfl fun c hc => ?_
  have hc' : c ∈ cells I.nx I.ny := mem_cells.2 (by simpa using hc)
  have swap : ∀ l : List ((ℤ × ℤ) × ℝ), (∀ e ∈ l, ∃ n, cellAt I.nx I.ny e.1 = .ok n) →
      ∑ n ∈ Finset.range I.nx ×ˢ Finset.range I.ny, (l.map fun e => if cellAt I.nx I.ny e.1 = .ok n then e.2 else 0).sum = (l.map (·.2)).sum := by
    intro l
    induction l with
    | nil => intro _; simp
    | cons e l ih =>
      intro hl
      obtain ⟨n, hn⟩ := hl e (by simp)
      have hn' := cellAt_ok hn
      simp only [List.map_cons, List.sum_cons]
      rw [Finset.sum_add_distrib, ih fun x hx => hl x (by simp [hx])]
      congr 1
      rw [Finset.sum_eq_single n]
      · rw [if_pos hn]
      · intro m _ hm
        rw [if_neg]
        rw [hn]
        exact fun h => hm (Except.ok.inj h).symm
      · intro hnot
        exact absurd (Finset.mem_product.2 ⟨Finset.mem_range.2 (pyIndex_lt hn'.1), Finset.mem_range.2 (pyIndex_lt hn'.2)⟩) hnot
  rw [swap _ fun e he => (h3 c e he).2.2.imp fun n hn => hn.1]
  by_cases hu : I.unst c
  · rw [if_pos hu, (h1 c hc' hu).1, (h1 c hc' hu).2]
  · rw [if_neg hu, h2 c hu]; rfl

lemma ectIn_marked (lx ly : ℕ → ℕ → ℝ) (dx dy : ℝ) (hx : 0 < dx) (hy : 0 < dy) (hlx : ∀ i j, 0 ≤ lx i j ∧ lx i j ≤ dx)
    (hly : ∀ i j, 0 ≤ ly i j ∧ ly i j ≤ dy) (nx ny : ℕ) : Marked (ectIn lx ly dx dy nx ny) := by
  refine ⟨fun c h => h.1, fun c h => ⟨(C87_marks lx ly (areas lx ly dx dy) dx dy c.1 c.2 ?_).2.1 h, h⟩⟩
  exact (C86_bounds lx ly dx dy hx hy hlx hly c.1 c.2).1

/-- **C88, refuted.** On every grid of the enlarged cell technique: no cell marked as unstable is ever extended, and construction fails if
there is one. -/
theorem C88_ect_refuted (lx ly : ℕ → ℕ → ℝ) (dx dy : ℝ) (hx : 0 < dx) (hy : 0 < dy) (hlx : ∀ i j, 0 ≤ lx i j ∧ lx i j ≤ dx)
    (hly : ∀ i j, 0 ≤ ly i j ∧ ly i j ≤ dy) (nx ny : ℕ) (i j : ℕ) (hi : i < nx) (hj : j < ny)
    (hu : (markCell lx ly (areas lx ly dx dy) dx dy i j).unst) :
    ∃ e, extensions (ectIn lx ly dx dy nx ny) (ectStart (ectIn lx ly dx dy nx ny)) = .error e := by
  rw [C88_constructor_refuted _ (ectIn_marked lx ly dx dy hx hy hlx hly nx ny)]
  by_cases hf : OnFarEdge (ectIn lx ly dx dy nx ny)
  · exact ⟨_, if_pos hf⟩
  · rw [if_neg hf, if_pos ⟨(i, j), mem_cells.2 ⟨hi, hj⟩, hu⟩]
    exact ⟨_, rfl⟩

/-- **C88, refuted.** Even a grid without conductors cannot be built if the area of a cell exceeds two length units squared: IndexError. -/
theorem C88_empty_grid_refuted (dx dy : ℝ) (hx : 0 < dx) (hy : 0 < dy) (hd : 2 < dx * dy) (nx ny : ℕ) (hnx : 0 < nx) (hny : 0 < ny) :
    extensions (ectIn (fun _ _ => dx) (fun _ _ => dy) dx dy nx ny) (ectStart (ectIn (fun _ _ => dx) (fun _ _ => dy) dx dy nx ny)) =
      .error .indexError := by
  rw [C88_constructor_refuted _ (ectIn_marked _ _ dx dy hx hy (fun _ _ => ⟨hx.le, le_rfl⟩) (fun _ _ => ⟨hy.le, le_rfl⟩) nx ny), if_pos]
  refine ⟨(nx - 1, ny - 1), mem_cells.2 ⟨?_, ?_⟩, ?_, .inl ?_⟩
  · show nx - 1 < nx; omega
  · show ny - 1 < ny; omega
  · have hA := (C86_ends (fun _ _ => dx) (fun _ _ => dy) dx dy hx hy (nx - 1) (ny - 1)).1 rfl rfl rfl rfl
    show areas (fun _ _ => dx) (fun _ _ => dy) dx dy (nx - 1) (ny - 1) < if areas (fun _ _ => dx) (fun _ _ => dy) dx dy (nx - 1) (ny - 1) > 0 then _ else _
    rw [hA, if_pos (by norm_num), mul_comm dy dx, max_self, max_self]
    show (1 : ℝ) < 0.5 * (dx * dy)
    linarith
  · show nx - 1 + 1 = nx; omega

/-- A grid of three by three cells whose middle cell lacks 0.2. -/
def demo : ExtIn where
  nx := 3
  ny := 3
  S c := if c = (1, 1) then 0.1 else 1
  stab c := if c = (1, 1) then 0.3 else 0.5
  int _ := True
  unst c := c = (1, 1)
  avail c := c ≠ (1, 1)

/-- The state of the constructor, except that a cell can lend its area. -/
def demoStart : ExtSt := { ectStart demo with red := demo.S }

/-- The state after the extension. -/
def demoEnd : ExtSt where
  red := Function.update demo.S (0, 1) (1 - 0.2)
  enl := Function.update (fun _ => 0) (1, 1) (0.1 + 0.2)
  ext := Function.update demo.unst (1, 1) False
  intr := Function.update (fun _ => False) (0, 1) True
  bor := Function.update (fun _ => []) (1, 1) [((0, 1), 0.2)]

/-- It meets the hypotheses of `C88_constructor_refuted`, `C88_success_partial` and `C88_area_conserved`: with cells that can lend their area
the extension succeeds, as built by the constructor it fails. -/
theorem demo_ok : Marked demo ∧ (∃ st, extensions demo demoStart = .ok st) ∧
    extensions demo (ectStart demo) = .error .runtimeError := by
  have hM : Marked demo := by
    refine ⟨fun c h => ?_, fun c h => ?_⟩
    · simp only [demo] at h ⊢; rw [if_neg h]; norm_num
    · simp only [demo] at h ⊢; rw [if_pos h, if_pos h]; norm_num
  have hcells : cells demo.nx demo.ny = [(0, 0), (0, 1), (0, 2), (1, 0), (1, 1), (1, 2), (2, 0), (2, 1), (2, 2)] := rfl
  refine ⟨hM, ?_, ?_⟩
  · have t1 : tryOne demo (1, 1) demoStart (-1, 0) = .ok demoEnd := by
      have e1 : cellAt demo.nx demo.ny (shift (1, 1) (-1, 0)) = .ok (0, 1) := by decide
      unfold tryOne
      rw [e1]
      have e2 : demo.S (0, 1) = 1 := by
        show (if ((0 : ℕ), (1 : ℕ)) = (1, 1) then (0.1 : ℝ) else 1) = _
        rw [if_neg (by decide)]
      have e3 : demo.stab (1, 1) - demo.S (1, 1) = 0.2 := by
        show (if ((1 : ℕ), (1 : ℕ)) = (1, 1) then (0.3 : ℝ) else 0.5) - (if ((1 : ℕ), (1 : ℕ)) = (1, 1) then (0.1 : ℝ) else 1) = _
        rw [if_pos rfl, if_pos rfl]; norm_num
      have e4 : demo.S (1, 1) = 0.1 := by
        show (if ((1 : ℕ), (1 : ℕ)) = (1, 1) then (0.1 : ℝ) else 1) = _
        rw [if_pos rfl]
      show (if demo.S (0, 1) > demo.stab (1, 1) - demo.S (1, 1) ∧ demo.avail (0, 1) ∧ demo.unst (1, 1) then _ else _) = _
      rw [if_pos ⟨by rw [e2, e3]; norm_num, by show ((0 : ℕ), (1 : ℕ)) ≠ (1, 1); decide, rfl⟩]
      show (if demo.S (0, 1) - (demo.stab (1, 1) - demo.S (1, 1)) * demo.S (0, 1) / demo.S (0, 1) > 0 then _ else _) = _
      rw [if_pos (by rw [e2, e3]; norm_num), e2, e3, e4]
      simp only [mul_one, div_one]
      rfl
    have tn : ∀ (st : ExtSt) (d : ℤ × ℤ) (n : ℕ × ℕ), cellAt demo.nx demo.ny (shift (1, 1) d) = .ok n → ¬ st.ext (1, 1) → tryOne demo (1, 1) st d = .ok st := by
      intro st d n h1 h2
      unfold tryOne
      rw [h1]
      show (if demo.S n > demo.stab (1, 1) - demo.S (1, 1) ∧ demo.avail n ∧ st.ext (1, 1) then _ else _) = _
      rw [if_neg (by tauto)]; rfl
    have hone : ∃ st, oneCell demo demoStart = .ok st ∧ ∀ c, ¬ st.ext c := by
      refine ⟨demoEnd, ?_, ?_⟩
      swap
      · intro c
        by_cases hc : c = (1, 1)
        · subst hc; simp [demoEnd]
        · show ¬ Function.update demo.unst (1, 1) False c
          rw [Function.update_of_ne hc]; exact hc
      have skip : ∀ (c : ℕ × ℕ) (l : List (ℕ × ℕ)) (st : ExtSt), ¬ st.ext c →
          (c :: l).foldlM (fun st c => if st.ext c then near4.foldlM (tryOne demo c) st else return st) st =
            l.foldlM (fun st c => if st.ext c then near4.foldlM (tryOne demo c) st else return st) st := by
        intro c l st h
        rw [List.foldlM_cons, if_neg h]; rfl
      have n0 : ∀ c : ℕ × ℕ, c ≠ (1, 1) → ¬ demoStart.ext c := fun c h => h
      have n1 : ∀ c : ℕ × ℕ, ¬ demoEnd.ext c := by
        intro c
        by_cases hc : c = (1, 1)
        · subst hc; simp [demoEnd]
        · show ¬ Function.update demo.unst (1, 1) False c
          rw [Function.update_of_ne hc]; exact hc
      unfold oneCell
      have hnear : near4.foldlM (tryOne demo (1, 1)) demoStart = .ok demoEnd := by
        rw [near4, List.foldlM_cons, t1]
        change List.foldlM _ _ _ = _
        rw [List.foldlM_cons, tn _ (0, -1) (1, 0) (by decide) (n1 _)]
        change List.foldlM _ _ _ = _
        rw [List.foldlM_cons, tn _ (0, 1) (1, 2) (by decide) (n1 _)]
        change List.foldlM _ _ _ = _
        rw [List.foldlM_cons, tn _ (1, 0) (2, 1) (by decide) (n1 _)]
        rfl
      rw [hcells, skip _ _ _ (n0 _ (by decide)), skip _ _ _ (n0 _ (by decide)), skip _ _ _ (n0 _ (by decide)), skip _ _ _ (n0 _ (by decide)),
        List.foldlM_cons, if_pos (show demoStart.ext (1, 1) from rfl), hnear]
      change List.foldlM _ _ _ = _
      rw [skip _ _ _ (n1 _), skip _ _ _ (n1 _), skip _ _ _ (n1 _), skip _ _ _ (n1 _)]
      rfl
    obtain ⟨st, e, hn⟩ := hone
    refine ⟨st, ?_⟩
    unfold extensions
    rw [e]
    change Except.bind (eightCells demo st) _ = _
    have hno : ¬ ∃ c ∈ cells demo.nx demo.ny, st.ext c := fun ⟨c, _, hc⟩ => hn c hc
    rw [eightCells, if_neg hno]
    show (if ∃ c ∈ cells demo.nx demo.ny, st.ext c then _ else _) = _
    rw [if_neg hno]; rfl
  · rw [C88_constructor_refuted _ hM, if_neg, if_pos]
    · exact ⟨(1, 1), by rw [hcells]; decide, rfl⟩
    · rintro ⟨c, _, hu, hh⟩
      have : c = (1, 1) := hu
      subst this
      have e1 : demo.nx = 3 := rfl
      have e2 : demo.ny = 3 := rfl
      rw [e1, e2] at hh
      dsimp only at hh
      omega

end
end Cond
end Wakis
