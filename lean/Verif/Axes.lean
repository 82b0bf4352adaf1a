import Verif.Speed

/-!
# C119: no axis is special

A closed model with its axes renamed gives the same fields, with the components renamed.
-/

namespace Wakis
namespace Sol
open Sparse Grid
variable {K : Type _} [Field K]
set_option linter.unusedSimpArgs false

/-! ### Renaming axes in general -/

/-- `v'` holds at component `c` of cell `(i, j, k)` of a grid of `n'` cells `τ` times what `v` holds at component `p c` of cell `q i j k` of a grid of `n` cells. -/
def Renamed (n n' : ℕ × ℕ × ℕ) (p : ℕ → ℕ) (q : ℕ → ℕ → ℕ → ℕ × ℕ × ℕ) (τ : K) (v v' : Vec K) : Prop :=
  ∀ c < 3, ∀ i < n'.1, ∀ j < n'.2.1, ∀ k < n'.2.2, v' (pos n'.1 n'.2.1 n'.2.2 c i j k) = τ * v (pos n.1 n.2.1 n.2.2 (p c) (q i j k).1 (q i j k).2.1 (q i j k).2.2)

/-- What a renaming must satisfy: `p` permutes components, `q` cells, and the circulations around faces and dual faces are the same up to the orientation `σ`. -/
structure Renaming (n n' : ℕ × ℕ × ℕ) (p : ℕ → ℕ) (q : ℕ → ℕ → ℕ → ℕ × ℕ × ℕ) (σ : K) : Prop where
  comp : ∀ c < 3, p c < 3
  range : ∀ i j k, (i < n'.1 ∧ j < n'.2.1 ∧ k < n'.2.2) ↔ ((q i j k).1 < n.1 ∧ (q i j k).2.1 < n.2.1 ∧ (q i j k).2.2 < n.2.2)
  sq : σ * σ = 1
  circ : ∀ e e' : ℕ → ℕ → ℕ → ℕ → K, (∀ c < 3, ∀ i j k, e' c i j k = e (p c) (q i j k).1 (q i j k).2.1 (q i j k).2.2) → ∀ c < 3, ∀ i j k,
    circ e' c i j k = σ * circ e (p c) (q i j k).1 (q i j k).2.1 (q i j k).2.2
  cocirc : ∀ e e' : ℕ → ℕ → ℕ → ℕ → K, ∀ i j k, (∀ c < 3, ∀ i' ≤ i, ∀ j' ≤ j, ∀ k' ≤ k, e' c i' j' k' = σ * e (p c) (q i' j' k').1 (q i' j' k').2.1 (q i' j' k').2.2) → ∀ c < 3,
    cocirc e' c i j k = cocirc e (p c) (q i j k).1 (q i j k).2.1 (q i j k).2.2
  ghostE : ∀ c < 3, ∀ i j k, ((c = 0 ∧ i = n'.1 - 1) ∨ (c = 1 ∧ j = n'.2.1 - 1) ∨ (c = 2 ∧ k = n'.2.2 - 1)) ↔
    ((p c = 0 ∧ (q i j k).1 = n.1 - 1) ∨ (p c = 1 ∧ (q i j k).2.1 = n.2.1 - 1) ∨ (p c = 2 ∧ (q i j k).2.2 = n.2.2 - 1))
  ghostH : ∀ c < 3, ∀ i j k, ((c ≠ 0 ∧ i = n'.1 - 1) ∨ (c ≠ 1 ∧ j = n'.2.1 - 1) ∨ (c ≠ 2 ∧ k = n'.2.2 - 1)) ↔
    ((p c ≠ 0 ∧ (q i j k).1 = n.1 - 1) ∨ (p c ≠ 1 ∧ (q i j k).2.1 = n.2.1 - 1) ∨ (p c ≠ 2 ∧ (q i j k).2.2 = n.2.2 - 1))
  wall : ∀ c < 3, ∀ i j k, ((c ≠ 0 ∧ (i = 0 ∨ i = n'.1 - 1)) ∨ (c ≠ 1 ∧ (j = 0 ∨ j = n'.2.1 - 1)) ∨ (c ≠ 2 ∧ (k = 0 ∨ k = n'.2.2 - 1))) ↔
    ((p c ≠ 0 ∧ ((q i j k).1 = 0 ∨ (q i j k).1 = n.1 - 1)) ∨ (p c ≠ 1 ∧ ((q i j k).2.1 = 0 ∨ (q i j k).2.1 = n.2.1 - 1)) ∨ (p c ≠ 2 ∧ ((q i j k).2.2 = 0 ∨ (q i j k).2.2 = n.2.2 - 1)))

/-- The mask of a closed box: 0 on tangential components of the walls. -/
theorem mask_of_wall (g : Geom K) {bc : Faces String} (h : PecLike bc) {c i j k : ℕ} (hc : c < 3) (hi : i < g.Nx) (hj : j < g.Ny) (hk : k < g.Nz) [D : Decidable ((c ≠ 0 ∧ (i = 0 ∨ i = g.Nx - 1)) ∨ (c ≠ 1 ∧ (j = 0 ∨ j = g.Ny - 1)) ∨ (c ≠ 2 ∧ (k = 0 ∨ k = g.Nz - 1)))] :
    colMask g bc (pos g.Nx g.Ny g.Nz c i j k) = if (c ≠ 0 ∧ (i = 0 ∨ i = g.Nx - 1)) ∨ (c ≠ 1 ∧ (j = 0 ∨ j = g.Ny - 1)) ∨ (c ≠ 2 ∧ (k = 0 ∨ k = g.Nz - 1)) then 0 else 1 := by
  split_ifs with w
  · rcases w with ⟨a, b | b⟩ | ⟨a, b | b⟩ | ⟨a, b | b⟩
    · exact mask_closed g h hc hi hj hk (axis := 0) (by decide) (Ne.symm a) .lo b
    · exact mask_closed g h hc hi hj hk (axis := 0) (by decide) (Ne.symm a) .hi b
    · exact mask_closed g h hc hi hj hk (axis := 1) (by decide) (Ne.symm a) .lo b
    · exact mask_closed g h hc hi hj hk (axis := 1) (by decide) (Ne.symm a) .hi b
    · exact mask_closed g h hc hi hj hk (axis := 2) (by decide) (Ne.symm a) .lo b
    · exact mask_closed g h hc hi hj hk (axis := 2) (by decide) (Ne.symm a) .hi b
  · rw [colMask_pos g bc hc hi hj hk]
    rcases maskVal_cases (K := K) g bc (i := i) (j := j) (k := k) hc with h1 | ⟨a, s, ha, hac, hon, _⟩
    · exact h1
    · refine absurd ?_ w
      have : a = 0 ∨ a = 1 ∨ a = 2 := by omega
      rcases this with rfl | rfl | rfl
      · exact .inl ⟨Ne.symm hac, by cases s; exacts [.inl hon, .inr hon]⟩
      · exact .inr (.inl ⟨Ne.symm hac, by cases s; exacts [.inl hon, .inr hon]⟩)
      · exact .inr (.inr ⟨Ne.symm hac, by cases s; exacts [.inl hon, .inr hon]⟩)

/-- A closed box has no periodic and no absorbing face. -/
theorem pecLike_metric (g : Geom K) {bc : Faces String} (h : PecLike bc) : (applyBC g bc (C0 g.Nx g.Ny g.Nz)).tL = g.tL ∧ (applyBC g bc (C0 g.Nx g.Ny g.Nz)).itA = g.itA := by
  have key : ∀ s : String, isPec s = true → isPeriodic s = false ∧ isAbc s = false := by
    intro s hs
    unfold isPec at hs
    unfold isPeriodic isAbc
    simp only [Bool.or_eq_true, decide_eq_true_eq] at hs
    rcases hs with (hs | hs) | hs <;> rw [hs] <;> decide
  have h1 := key bc.xlo (h 0 .lo (by decide))
  have h2 := key bc.ylo (h 1 .lo (by decide))
  have h3 := key bc.zlo (h 2 .lo (by decide))
  have h4 := key bc.xhi (h 0 .hi (by decide))
  have h5 := key bc.yhi (h 1 .hi (by decide))
  have h6 := key bc.zhi (h 2 .hi (by decide))
  refine applyBC_metric g bc _ ?_ ?_
  · rw [h1.1, h2.1, h3.1]; rfl
  · unfold anyFace
    rw [h1.2, h2.2, h3.2, h4.2, h5.2, h6.2]; rfl

/-- The same fields under other names. -/
structure RenamedSt (n n' : ℕ × ℕ × ℕ) (p : ℕ → ℕ) (q : ℕ → ℕ → ℕ → ℕ × ℕ × ℕ) (σ : K) (a b : State K) : Prop where
  E : Renamed n n' p q 1 a.E b.E
  H : Renamed n n' p q σ a.H b.H
  J : Renamed n n' p q 1 a.J b.J
  step0 : b.step0 = a.step0

/-- The data of two solvers that must correspond. -/
structure RenamedData (g g' : Geom K) (p : ℕ → ℕ) (q : ℕ → ℕ → ℕ → ℕ × ℕ × ℕ) (ieps imu sigma ieps' imu' sigma' : Vec K) : Prop where
  L : Renamed (g.Nx, g.Ny, g.Nz) (g'.Nx, g'.Ny, g'.Nz) p q 1 g.L.array g'.L.array
  iA : Renamed (g.Nx, g.Ny, g.Nz) (g'.Nx, g'.Ny, g'.Nz) p q 1 g.iA.array g'.iA.array
  tL : Renamed (g.Nx, g.Ny, g.Nz) (g'.Nx, g'.Ny, g'.Nz) p q 1 g.tL.array g'.tL.array
  itA : Renamed (g.Nx, g.Ny, g.Nz) (g'.Nx, g'.Ny, g'.Nz) p q 1 g.itA.array g'.itA.array
  ieps : Renamed (g.Nx, g.Ny, g.Nz) (g'.Nx, g'.Ny, g'.Nz) p q 1 ieps ieps'
  imu : Renamed (g.Nx, g.Ny, g.Nz) (g'.Nx, g'.Ny, g'.Nz) p q 1 imu imu'
  sigma : Renamed (g.Nx, g.Ny, g.Nz) (g'.Nx, g'.Ny, g'.Nz) p q 1 sigma sigma'

section
variable {g g' : Geom K} {p : ℕ → ℕ} {q : ℕ → ℕ → ℕ → ℕ × ℕ × ℕ} {σ : K} (R : Renaming (g.Nx, g.Ny, g.Nz) (g'.Nx, g'.Ny, g'.Nz) p q σ) {ieps imu sigma ieps' imu' sigma' : Vec K}
  (D : RenamedData g g' p q ieps imu sigma ieps' imu' sigma') {bc bc' : Faces String} (h : PecLike bc) (h' : PecLike bc') (dt : K) {uc uc' : Bool}

include R D h h' in
theorem renamed_H {a b : State K} (hE : Renamed (g.Nx, g.Ny, g.Nz) (g'.Nx, g'.Ny, g'.Nz) p q 1 a.E b.E) (hH : Renamed (g.Nx, g.Ny, g.Nz) (g'.Nx, g'.Ny, g'.Nz) p q σ a.H b.H) :
    Renamed (g.Nx, g.Ny, g.Nz) (g'.Nx, g'.Ny, g'.Nz) p q σ (advance (build g bc ieps imu sigma dt uc) a).H (advance (build g' bc' ieps' imu' sigma' dt uc') b).H := by
  intro c hc i hi j hj k hk
  obtain ⟨r1, r2, r3⟩ := (R.range i j k).1 ⟨hi, hj, hk⟩
  simp only at hi hj hk r1 r2 r3 ⊢
  rw [closed_H g' ieps' imu' sigma' dt uc' h' b hc hi hj hk, closed_H g ieps imu sigma dt uc h a (R.comp c hc) r1 r2 r3, hH c hc i hi j hj k hk, D.iA c hc i hi j hj k hk, D.imu c hc i hi j hj k hk,
    R.circ (view0 g.Nx g.Ny g.Nz fun q => colMask g bc q * (g.L.array q * a.E q)) _ ?_ c hc i j k]
  · simp only
    ring
  · intro c hc i j k
    unfold view0
    simp only [R.range i j k]
    split_ifs with w
    · obtain ⟨hi, hj, hk⟩ := (R.range i j k).2 w
      simp only at hi hj hk w
      rw [D.L c hc i hi j hj k hk, hE c hc i hi j hj k hk, mask_of_wall g' h' hc hi hj hk, mask_of_wall g h (R.comp c hc) w.1 w.2.1 w.2.2]
      simp only [R.wall c hc i j k, one_mul]
    · rfl

include R D h h' in
theorem renamed_advance (huc : (build g' bc' ieps' imu' sigma' dt uc').useConductivity = (build g bc ieps imu sigma dt uc).useConductivity) {a b : State K}
    (hs : RenamedSt (g.Nx, g.Ny, g.Nz) (g'.Nx, g'.Ny, g'.Nz) p q σ a b) :
    RenamedSt (g.Nx, g.Ny, g.Nz) (g'.Nx, g'.Ny, g'.Nz) p q σ (advance (build g bc ieps imu sigma dt uc) a) (advance (build g' bc' ieps' imu' sigma' dt uc') b) := by
  have hH := renamed_H R D h h' dt (uc := uc) (uc' := uc') hs.E hs.H
  have hE : Renamed (g.Nx, g.Ny, g.Nz) (g'.Nx, g'.Ny, g'.Nz) p q 1 (advance (build g bc ieps imu sigma dt uc) a).E (advance (build g' bc' ieps' imu' sigma' dt uc') b).E := by
    intro c hc i hi j hj k hk
    obtain ⟨r1, r2, r3⟩ := (R.range i j k).1 ⟨hi, hj, hk⟩
    simp only at hi hj hk r1 r2 r3 ⊢
    rw [closed_E g' ieps' imu' sigma' dt uc' h' b hc hi hj hk, closed_E g ieps imu sigma dt uc h a (R.comp c hc) r1 r2 r3, hs.E c hc i hi j hj k hk, hs.J c hc i hi j hj k hk, D.ieps c hc i hi j hj k hk,
      (pecLike_metric g h).1, (pecLike_metric g h).2, (pecLike_metric g' h').1, (pecLike_metric g' h').2, D.itA c hc i hi j hj k hk, mask_of_wall g' h' hc hi hj hk, mask_of_wall g h (R.comp c hc) r1 r2 r3,
      R.cocirc (view3 g.Nx g.Ny g.Nz fun q => g.tL.array q * (advance (build g bc ieps imu sigma dt uc) a).H q) _ i j k ?_ c hc]
    · simp only [R.wall c hc i j k, one_mul]
    · intro c hc i' hi' j' hj' k' hk'
      unfold view3
      simp only
      rw [D.tL c hc i' (by simp only; omega) j' (by simp only; omega) k' (by simp only; omega), hH c hc i' (by simp only; omega) j' (by simp only; omega) k' (by simp only; omega)]
      simp only
      ring
  refine ⟨hE, hH, ?_, hs.step0⟩
  intro c hc i hi j hj k hk
  show (if (build g' bc' ieps' imu' sigma' dt uc').useConductivity then fun q => sigma' q * (advance (build g' bc' ieps' imu' sigma' dt uc') b).E q else b.J) _ =
    1 * (if (build g bc ieps imu sigma dt uc).useConductivity then fun q => sigma q * (advance (build g bc ieps imu sigma dt uc) a).E q else a.J) _
  rw [huc]
  split_ifs
  · simp only [hE c hc i hi j hj k hk, D.sigma c hc i hi j hj k hk, one_mul]
  · exact hs.J c hc i hi j hj k hk

include R in
theorem renamed_ghosts {a b : State K} (hs : RenamedSt (g.Nx, g.Ny, g.Nz) (g'.Nx, g'.Ny, g'.Nz) p q σ a b) :
    RenamedSt (g.Nx, g.Ny, g.Nz) (g'.Nx, g'.Ny, g'.Nz) p q σ { setGhostsTo0 (build g bc ieps imu sigma dt uc) a with step0 := false } { setGhostsTo0 (build g' bc' ieps' imu' sigma' dt uc') b with step0 := false } := by
  refine ⟨?_, ?_, hs.J, rfl⟩
  · intro c hc i hi j hj k hk
    obtain ⟨r1, r2, r3⟩ := (R.range i j k).1 ⟨hi, hj, hk⟩
    have e' := ghostE_at3 (f := (⟨g'.Nx, g'.Ny, g'.Nz, b.E⟩ : Fld K)) (c := c) hi hj hk hc
    have e := ghostE_at3 (f := (⟨g.Nx, g.Ny, g.Nz, a.E⟩ : Fld K)) (c := p c) r1 r2 r3 (R.comp c hc)
    refine e'.trans (Eq.trans ?_ (congrArg (fun r => 1 * r) e.symm))
    simp only [R.ghostE c hc i j k]
    split_ifs
    · exact (mul_zero _).symm
    · exact hs.E c hc i hi j hj k hk
  · intro c hc i hi j hj k hk
    obtain ⟨r1, r2, r3⟩ := (R.range i j k).1 ⟨hi, hj, hk⟩
    have e' := ghostH_at3 (f := (⟨g'.Nx, g'.Ny, g'.Nz, b.H⟩ : Fld K)) (c := c) hi hj hk hc
    have e := ghostH_at3 (f := (⟨g.Nx, g.Ny, g.Nz, a.H⟩ : Fld K)) (c := p c) r1 r2 r3 (R.comp c hc)
    refine e'.trans (Eq.trans ?_ (congrArg (fun r => σ * r) e.symm))
    simp only [R.ghostH c hc i j k]
    split_ifs
    · exact (mul_zero _).symm
    · exact hs.H c hc i hi j hj k hk

include R D h h' in
theorem renamed_step (huc : (build g' bc' ieps' imu' sigma' dt uc').useConductivity = (build g bc ieps imu sigma dt uc).useConductivity) {a b : State K}
    (hs : RenamedSt (g.Nx, g.Ny, g.Nz) (g'.Nx, g'.Ny, g'.Nz) p q σ a b) :
    RenamedSt (g.Nx, g.Ny, g.Nz) (g'.Nx, g'.Ny, g'.Nz) p q σ (oneStep (build g bc ieps imu sigma dt uc) a) (oneStep (build g' bc' ieps' imu' sigma' dt uc') b) := by
  unfold oneStep
  rw [hs.step0]
  split_ifs
  · exact renamed_advance R D h h' dt huc (renamed_ghosts R dt hs)
  · exact renamed_advance R D h h' dt huc hs

end

/-! ### The specification -/

/-- `v'` is `v` after the axes have been renamed in turn: the new first axis is the old second one, the new second axis the old third one, the new third axis the old first one. `Nx`, `Ny`, `Nz` count the old axes. -/
def Turned (Nx Ny Nz : ℕ) (v v' : Vec K) : Prop :=
  ∀ i < Nx, ∀ j < Ny, ∀ k < Nz, v' (pos Ny Nz Nx 0 j k i) = v (pos Nx Ny Nz 1 i j k) ∧ v' (pos Ny Nz Nx 1 j k i) = v (pos Nx Ny Nz 2 i j k) ∧ v' (pos Ny Nz Nx 2 j k i) = v (pos Nx Ny Nz 0 i j k)

/-- `v'` is `τ` times `v` after the first two axes have changed places. -/
def Swapped (Nx Ny Nz : ℕ) (τ : K) (v v' : Vec K) : Prop :=
  ∀ i < Nx, ∀ j < Ny, ∀ k < Nz, v' (pos Ny Nx Nz 0 j i k) = τ * v (pos Nx Ny Nz 1 i j k) ∧ v' (pos Ny Nx Nz 1 j i k) = τ * v (pos Nx Ny Nz 0 i j k) ∧ v' (pos Ny Nx Nz 2 j i k) = τ * v (pos Nx Ny Nz 2 i j k)

/-- Fields with the axes renamed in turn. -/
structure TurnedSt (Nx Ny Nz : ℕ) (a b : State K) : Prop where
  E : Turned Nx Ny Nz a.E b.E
  H : Turned Nx Ny Nz a.H b.H
  J : Turned Nx Ny Nz a.J b.J
  step0 : b.step0 = a.step0

/-- Fields with the first two axes exchanged; `H` also changes its sign, because exchanging two axes exchanges right and left. -/
structure SwappedSt (Nx Ny Nz : ℕ) (a b : State K) : Prop where
  E : Swapped Nx Ny Nz 1 a.E b.E
  H : Swapped Nx Ny Nz (-1) a.H b.H
  J : Swapped Nx Ny Nz 1 a.J b.J
  step0 : b.step0 = a.step0

/-- The face names with the axes renamed in turn. -/
def turnFaces (bc : Faces String) : Faces String := ⟨bc.ylo, bc.yhi, bc.zlo, bc.zhi, bc.xlo, bc.xhi⟩

/-- The face names with the first two axes exchanged. -/
def swapFaces (bc : Faces String) : Faces String := ⟨bc.ylo, bc.yhi, bc.xlo, bc.xhi, bc.zlo, bc.zhi⟩

/-! ### Renaming in turn -/

def tp (c : ℕ) : ℕ := if c = 0 then 1 else if c = 1 then 2 else 0
def tq (i j k : ℕ) : ℕ × ℕ × ℕ := (k, i, j)
def sp (c : ℕ) : ℕ := if c = 0 then 1 else if c = 1 then 0 else 2
def sq (i j k : ℕ) : ℕ × ℕ × ℕ := (j, i, k)

theorem three {P : ℕ → Prop} (h0 : P 0) (h1 : P 1) (h2 : P 2) : ∀ c < 3, P c := by
  intro c hc
  have : c = 0 ∨ c = 1 ∨ c = 2 := by omega
  rcases this with rfl | rfl | rfl <;> assumption

theorem turned_iff {Nx Ny Nz : ℕ} {v v' : Vec K} : Turned Nx Ny Nz v v' ↔ Renamed (Nx, Ny, Nz) (Ny, Nz, Nx) tp tq 1 v v' := by
  constructor
  · intro h c hc i hi j hj k hk
    revert c
    exact three ((h k hk i hi j hj).1.trans (one_mul _).symm) ((h k hk i hi j hj).2.1.trans (one_mul _).symm) ((h k hk i hi j hj).2.2.trans (one_mul _).symm)
  · intro h i hi j hj k hk
    exact ⟨(h 0 (by decide) j hj k hk i hi).trans (one_mul _), (h 1 (by decide) j hj k hk i hi).trans (one_mul _), (h 2 (by decide) j hj k hk i hi).trans (one_mul _)⟩

theorem swapped_iff {Nx Ny Nz : ℕ} {τ : K} {v v' : Vec K} : Swapped Nx Ny Nz τ v v' ↔ Renamed (Nx, Ny, Nz) (Ny, Nx, Nz) sp sq τ v v' := by
  constructor
  · intro h c hc i hi j hj k hk
    revert c
    exact three (h j hj i hi k hk).1 (h j hj i hi k hk).2.1 (h j hj i hi k hk).2.2
  · intro h i hi j hj k hk
    exact ⟨h 0 (by decide) j hj i hi k hk, h 1 (by decide) j hj i hi k hk, h 2 (by decide) j hj i hi k hk⟩

theorem turning (Nx Ny Nz : ℕ) : Renaming (K := K) (Nx, Ny, Nz) (Ny, Nz, Nx) tp tq 1 where
  comp := three (by decide) (by decide) (by decide)
  range := by intro i j k; simp only [tq]; tauto
  sq := one_mul 1
  circ := by
    intro e e' h c hc i j k
    revert c
    refine three ?_ ?_ ?_ <;> simp only [circ, tp, tq, h 0 (by decide), h 1 (by decide), h 2 (by decide), if_true, one_ne_zero, if_false, OfNat.ofNat_ne_zero, OfNat.ofNat_ne_one] <;> ring
  cocirc := by
    intro e e' i j k h c hc
    have a := fun c hc => h c hc i le_rfl j le_rfl k le_rfl
    have b := fun c hc => h c hc (i - 1) (Nat.sub_le _ _) j le_rfl k le_rfl
    have d := fun c hc => h c hc i le_rfl (j - 1) (Nat.sub_le _ _) k le_rfl
    have f := fun c hc => h c hc i le_rfl j le_rfl (k - 1) (Nat.sub_le _ _)
    revert c
    refine three ?_ ?_ ?_ <;> simp only [cocirc, if_true, one_ne_zero, if_false, OfNat.ofNat_ne_zero, OfNat.ofNat_ne_one, a 0 (by decide), a 1 (by decide), a 2 (by decide), b 0 (by decide), b 1 (by decide), b 2 (by decide), d 0 (by decide), d 1 (by decide), d 2 (by decide), f 0 (by decide), f 1 (by decide), f 2 (by decide)] <;>
      simp only [tp, tq, if_true, one_ne_zero, if_false, OfNat.ofNat_ne_zero, OfNat.ofNat_ne_one] <;> ring
  ghostE := three (by intro i j k; simp [tp, tq]) (by intro i j k; simp [tp, tq]) (by intro i j k; simp [tp, tq])
  ghostH := three (by intro i j k; simp [tp, tq]; tauto) (by intro i j k; simp [tp, tq]; tauto) (by intro i j k; simp [tp, tq])
  wall := three (by intro i j k; simp [tp, tq]; tauto) (by intro i j k; simp [tp, tq]; tauto) (by intro i j k; simp [tp, tq])

theorem swapping (Nx Ny Nz : ℕ) : Renaming (K := K) (Nx, Ny, Nz) (Ny, Nx, Nz) sp Sol.sq (-1) where
  comp := three (by decide) (by decide) (by decide)
  range := by intro i j k; simp only [Sol.sq]; tauto
  sq := by ring
  circ := by
    intro e e' h c hc i j k
    revert c
    refine three ?_ ?_ ?_ <;> simp only [circ, sp, Sol.sq, h 0 (by decide), h 1 (by decide), h 2 (by decide), if_true, one_ne_zero, if_false, OfNat.ofNat_ne_zero, OfNat.ofNat_ne_one] <;> ring
  cocirc := by
    intro e e' i j k h c hc
    have a := fun c hc => h c hc i le_rfl j le_rfl k le_rfl
    have b := fun c hc => h c hc (i - 1) (Nat.sub_le _ _) j le_rfl k le_rfl
    have d := fun c hc => h c hc i le_rfl (j - 1) (Nat.sub_le _ _) k le_rfl
    have f := fun c hc => h c hc i le_rfl j le_rfl (k - 1) (Nat.sub_le _ _)
    revert c
    refine three ?_ ?_ ?_ <;> simp only [cocirc, if_true, one_ne_zero, if_false, OfNat.ofNat_ne_zero, OfNat.ofNat_ne_one, a 0 (by decide), a 1 (by decide), a 2 (by decide), b 0 (by decide), b 1 (by decide), b 2 (by decide), d 0 (by decide), d 1 (by decide), d 2 (by decide), f 0 (by decide), f 1 (by decide), f 2 (by decide)] <;>
      simp only [sp, Sol.sq, if_true, one_ne_zero, if_false, OfNat.ofNat_ne_zero, OfNat.ofNat_ne_one] <;> ring
  ghostE := three (by intro i j k; simp [sp, Sol.sq]) (by intro i j k; simp [sp, Sol.sq]) (by intro i j k; simp [sp, Sol.sq])
  ghostH := three (by intro i j k; simp [sp, Sol.sq]) (by intro i j k; simp [sp, Sol.sq]) (by intro i j k; simp [sp, Sol.sq]; tauto)
  wall := three (by intro i j k; simp [sp, Sol.sq]) (by intro i j k; simp [sp, Sol.sq]) (by intro i j k; simp [sp, Sol.sq]; tauto)

/-! ### The grid -/

theorem diff_turned (Nx Ny Nz : ℕ) (x y z : ℕ → K) : Turned Nx Ny Nz (diffField Nx Ny Nz x y z).array (diffField Ny Nz Nx y z x).array := by
  intro i hi j hj k hk
  refine ⟨?_, ?_, ?_⟩
  · exact (diffField_at3 y z x (by decide) hj hk hi).trans (diffField_at3 (c := 1) x y z (by decide) hi hj hk).symm
  · exact (diffField_at3 y z x (by decide) hj hk hi).trans (diffField_at3 (c := 2) x y z (by decide) hi hj hk).symm
  · exact (diffField_at3 y z x (by decide) hj hk hi).trans (diffField_at3 (c := 0) x y z (by decide) hi hj hk).symm

theorem diff_swapped (Nx Ny Nz : ℕ) (x y z : ℕ → K) : Swapped Nx Ny Nz 1 (diffField Nx Ny Nz x y z).array (diffField Ny Nx Nz y x z).array := by
  intro i hi j hj k hk
  rw [one_mul, one_mul, one_mul]
  refine ⟨?_, ?_, ?_⟩
  · exact (diffField_at3 y x z (by decide) hj hi hk).trans (diffField_at3 (c := 1) x y z (by decide) hi hj hk).symm
  · exact (diffField_at3 y x z (by decide) hj hi hk).trans (diffField_at3 (c := 0) x y z (by decide) hi hj hk).symm
  · exact (diffField_at3 y x z (by decide) hj hi hk).trans (diffField_at3 (c := 2) x y z (by decide) hi hj hk).symm

variable [DecidableEq K]

theorem iA_cell (Nx Ny Nz : ℕ) (x y z : ℕ → K) {c i j k : ℕ} (hc : c < 3) (hi : i < Nx) (hj : j < Ny) (hk : k < Nz) : (computeGrid Nx Ny Nz x y z).iA.array (pos Nx Ny Nz c i j k) =
    1 / ((diffField Nx Ny Nz x y z).array (pos Nx Ny Nz (others c).1 i j k) * (diffField Nx Ny Nz x y z).array (pos Nx Ny Nz (others c).2 i j k)) :=
  invArea_at3 (diffField Nx Ny Nz x y z) rfl rfl hc hi hj hk

theorem itA_cell (Nx Ny Nz : ℕ) (x y z : ℕ → K) {c i j k : ℕ} (hc : c < 3) (hi : i < Nx) (hj : j < Ny) (hk : k < Nz) : (computeGrid Nx Ny Nz x y z).itA.array (pos Nx Ny Nz c i j k) =
    guardedInv ((diffField Nx Ny Nz (tilde x Nx) (tilde y Ny) (tilde z Nz)).array (pos Nx Ny Nz (others c).1 i j k) * (diffField Nx Ny Nz (tilde x Nx) (tilde y Ny) (tilde z Nz)).array (pos Nx Ny Nz (others c).2 i j k)) :=
  invDualArea_at3 (diffField Nx Ny Nz (tilde x Nx) (tilde y Ny) (tilde z Nz)) rfl rfl hc hi hj hk

theorem grid_turned (Nx Ny Nz : ℕ) (x y z : ℕ → K) : Turned Nx Ny Nz (computeGrid Nx Ny Nz x y z).iA.array (computeGrid Ny Nz Nx y z x).iA.array ∧ Turned Nx Ny Nz (computeGrid Nx Ny Nz x y z).itA.array (computeGrid Ny Nz Nx y z x).itA.array := by
  constructor
  · intro i hi j hj k hk
    obtain ⟨a, b, c⟩ := diff_turned Nx Ny Nz x y z i hi j hj k hk
    simp only [iA_cell Ny Nz Nx y z x (c := 0) (by decide) hj hk hi, iA_cell Ny Nz Nx y z x (c := 1) (by decide) hj hk hi, iA_cell Ny Nz Nx y z x (c := 2) (by decide) hj hk hi,
      iA_cell Nx Ny Nz x y z (c := 0) (by decide) hi hj hk, iA_cell Nx Ny Nz x y z (c := 1) (by decide) hi hj hk, iA_cell Nx Ny Nz x y z (c := 2) (by decide) hi hj hk, others, if_true, one_ne_zero, if_false, OfNat.ofNat_ne_zero, OfNat.ofNat_ne_one, a, b, c]
    refine ⟨?_, ?_, ?_⟩ <;> first | rfl | trivial | rw [mul_comm]
  · intro i hi j hj k hk
    obtain ⟨a, b, c⟩ := diff_turned Nx Ny Nz (tilde x Nx) (tilde y Ny) (tilde z Nz) i hi j hj k hk
    simp only [itA_cell Ny Nz Nx y z x (c := 0) (by decide) hj hk hi, itA_cell Ny Nz Nx y z x (c := 1) (by decide) hj hk hi, itA_cell Ny Nz Nx y z x (c := 2) (by decide) hj hk hi,
      itA_cell Nx Ny Nz x y z (c := 0) (by decide) hi hj hk, itA_cell Nx Ny Nz x y z (c := 1) (by decide) hi hj hk, itA_cell Nx Ny Nz x y z (c := 2) (by decide) hi hj hk, others, if_true, one_ne_zero, if_false, OfNat.ofNat_ne_zero, OfNat.ofNat_ne_one, a, b, c]
    refine ⟨?_, ?_, ?_⟩ <;> first | rfl | trivial | rw [mul_comm]

theorem grid_swapped (Nx Ny Nz : ℕ) (x y z : ℕ → K) : Swapped Nx Ny Nz 1 (computeGrid Nx Ny Nz x y z).iA.array (computeGrid Ny Nx Nz y x z).iA.array ∧ Swapped Nx Ny Nz 1 (computeGrid Nx Ny Nz x y z).itA.array (computeGrid Ny Nx Nz y x z).itA.array := by
  constructor
  · intro i hi j hj k hk
    obtain ⟨a, b, c⟩ := diff_swapped Nx Ny Nz x y z i hi j hj k hk
    simp only [iA_cell Ny Nx Nz y x z (c := 0) (by decide) hj hi hk, iA_cell Ny Nx Nz y x z (c := 1) (by decide) hj hi hk, iA_cell Ny Nx Nz y x z (c := 2) (by decide) hj hi hk,
      iA_cell Nx Ny Nz x y z (c := 0) (by decide) hi hj hk, iA_cell Nx Ny Nz x y z (c := 1) (by decide) hi hj hk, iA_cell Nx Ny Nz x y z (c := 2) (by decide) hi hj hk, others, if_true, one_ne_zero, if_false, OfNat.ofNat_ne_zero, OfNat.ofNat_ne_one, a, b, c, one_mul]
    refine ⟨?_, ?_, ?_⟩ <;> first | rfl | trivial | rw [mul_comm]
  · intro i hi j hj k hk
    obtain ⟨a, b, c⟩ := diff_swapped Nx Ny Nz (tilde x Nx) (tilde y Ny) (tilde z Nz) i hi j hj k hk
    simp only [itA_cell Ny Nx Nz y x z (c := 0) (by decide) hj hi hk, itA_cell Ny Nx Nz y x z (c := 1) (by decide) hj hi hk, itA_cell Ny Nx Nz y x z (c := 2) (by decide) hj hi hk,
      itA_cell Nx Ny Nz x y z (c := 0) (by decide) hi hj hk, itA_cell Nx Ny Nz x y z (c := 1) (by decide) hi hj hk, itA_cell Nx Ny Nz x y z (c := 2) (by decide) hi hj hk, others, if_true, one_ne_zero, if_false, OfNat.ofNat_ne_zero, OfNat.ofNat_ne_one, a, b, c, one_mul]
    refine ⟨?_, ?_, ?_⟩ <;> first | rfl | trivial | rw [mul_comm]

/-! ### C119 -/

theorem turn_pecLike {bc : Faces String} (h : PecLike bc) : PecLike (turnFaces bc) := by
  intro axis s ha
  have : axis = 0 ∨ axis = 1 ∨ axis = 2 := by omega
  rcases this with rfl | rfl | rfl <;> cases s
  exacts [h 1 .lo (by decide), h 1 .hi (by decide), h 2 .lo (by decide), h 2 .hi (by decide), h 0 .lo (by decide), h 0 .hi (by decide)]

theorem swap_pecLike {bc : Faces String} (h : PecLike bc) : PecLike (swapFaces bc) := by
  intro axis s ha
  have : axis = 0 ∨ axis = 1 ∨ axis = 2 := by omega
  rcases this with rfl | rfl | rfl <;> cases s
  exacts [h 1 .lo (by decide), h 1 .hi (by decide), h 0 .lo (by decide), h 0 .hi (by decide), h 2 .lo (by decide), h 2 .hi (by decide)]

theorem turn_any (t : String → Bool) (bc : Faces String) : anyFace t (turnFaces bc) = anyFace t bc := by
  unfold anyFace turnFaces
  cases t bc.xlo <;> cases t bc.ylo <;> cases t bc.zlo <;> cases t bc.xhi <;> cases t bc.yhi <;> cases t bc.zhi <;> rfl

theorem swap_any (t : String → Bool) (bc : Faces String) : anyFace t (swapFaces bc) = anyFace t bc := by
  unfold anyFace swapFaces
  cases t bc.xlo <;> cases t bc.ylo <;> cases t bc.zlo <;> cases t bc.xhi <;> cases t bc.yhi <;> cases t bc.zhi <;> rfl

/-- **C119 (partial).** Rename the axes of a closed model in turn (nodes, materials, face names, starting fields, everything assigned between the steps): after any number of steps the fields are those of the original model with their components and cells renamed. -/
theorem C119_turn_partial (Nx Ny Nz : ℕ) (x y z : ℕ → K) {bc : Faces String} (h : PecLike bc) {ieps imu sigma ieps' imu' sigma' : Vec K} (he : Turned Nx Ny Nz ieps ieps') (hm : Turned Nx Ny Nz imu imu')
    (hs : Turned Nx Ny Nz sigma sigma') (dt : K) (uc : Bool) {N : ℕ} {S D S' D' : ℕ → State K} (r : Runs (build (computeGrid Nx Ny Nz x y z) bc ieps imu sigma dt uc) N S D)
    (r' : Runs (build (computeGrid Ny Nz Nx y z x) (turnFaces bc) ieps' imu' sigma' dt uc) N S' D') (h0 : TurnedSt Nx Ny Nz (S 0) (S' 0)) (hd : ∀ m < N, TurnedSt Nx Ny Nz (S m) (S' m) → TurnedSt Nx Ny Nz (D m) (D' m)) :
    TurnedSt Nx Ny Nz (S N) (S' N) := by
  have huc : (build (computeGrid Ny Nz Nx y z x) (turnFaces bc) ieps' imu' sigma' dt uc).useConductivity = (build (computeGrid Nx Ny Nz x y z) bc ieps imu sigma dt uc).useConductivity := by
    show (anyFace isPml (turnFaces bc) || uc) = (anyFace isPml bc || uc)
    rw [turn_any]
  have data : RenamedData (computeGrid Nx Ny Nz x y z) (computeGrid Ny Nz Nx y z x) tp tq ieps imu sigma ieps' imu' sigma' :=
    ⟨turned_iff.1 (diff_turned Nx Ny Nz x y z), turned_iff.1 (grid_turned Nx Ny Nz x y z).1, turned_iff.1 (diff_turned Nx Ny Nz (tilde x Nx) (tilde y Ny) (tilde z Nz)), turned_iff.1 (grid_turned Nx Ny Nz x y z).2,
      turned_iff.1 he, turned_iff.1 hm, turned_iff.1 hs⟩
  have step : ∀ a b, TurnedSt Nx Ny Nz a b → TurnedSt Nx Ny Nz (oneStep (build (computeGrid Nx Ny Nz x y z) bc ieps imu sigma dt uc) a) (oneStep (build (computeGrid Ny Nz Nx y z x) (turnFaces bc) ieps' imu' sigma' dt uc) b) := by
    intro a b hab
    have := renamed_step (turning Nx Ny Nz) data h (turn_pecLike h) dt huc (a := a) (b := b) ⟨turned_iff.1 hab.E, turned_iff.1 hab.H, turned_iff.1 hab.J, hab.step0⟩
    exact ⟨turned_iff.2 this.E, turned_iff.2 this.H, turned_iff.2 this.J, this.step0⟩
  have main : ∀ m, m ≤ N → TurnedSt Nx Ny Nz (S m) (S' m) := by
    intro m
    induction m with
    | zero => exact fun _ => h0
    | succ m ih =>
      intro hm
      rw [r.step m hm, r'.step m hm]
      exact step _ _ (hd m hm (ih (by omega)))
  exact main N le_rfl

/-- **C119 (partial).** Exchange the first two axes of a closed model: the fields are those of the original model with components and cells exchanged, `H` with the opposite sign. Together with `C119_turn_partial` this covers every order of the axes. -/
theorem C119_swap_partial (Nx Ny Nz : ℕ) (x y z : ℕ → K) {bc : Faces String} (h : PecLike bc) {ieps imu sigma ieps' imu' sigma' : Vec K} (he : Swapped Nx Ny Nz 1 ieps ieps') (hm : Swapped Nx Ny Nz 1 imu imu')
    (hs : Swapped Nx Ny Nz 1 sigma sigma') (dt : K) (uc : Bool) {N : ℕ} {S D S' D' : ℕ → State K} (r : Runs (build (computeGrid Nx Ny Nz x y z) bc ieps imu sigma dt uc) N S D)
    (r' : Runs (build (computeGrid Ny Nx Nz y x z) (swapFaces bc) ieps' imu' sigma' dt uc) N S' D') (h0 : SwappedSt Nx Ny Nz (S 0) (S' 0)) (hd : ∀ m < N, SwappedSt Nx Ny Nz (S m) (S' m) → SwappedSt Nx Ny Nz (D m) (D' m)) :
    SwappedSt Nx Ny Nz (S N) (S' N) := by
  have huc : (build (computeGrid Ny Nx Nz y x z) (swapFaces bc) ieps' imu' sigma' dt uc).useConductivity = (build (computeGrid Nx Ny Nz x y z) bc ieps imu sigma dt uc).useConductivity := by
    show (anyFace isPml (swapFaces bc) || uc) = (anyFace isPml bc || uc)
    rw [swap_any]
  have data : RenamedData (computeGrid Nx Ny Nz x y z) (computeGrid Ny Nx Nz y x z) sp Sol.sq ieps imu sigma ieps' imu' sigma' :=
    ⟨swapped_iff.1 (diff_swapped Nx Ny Nz x y z), swapped_iff.1 (grid_swapped Nx Ny Nz x y z).1, swapped_iff.1 (diff_swapped Nx Ny Nz (tilde x Nx) (tilde y Ny) (tilde z Nz)), swapped_iff.1 (grid_swapped Nx Ny Nz x y z).2,
      swapped_iff.1 he, swapped_iff.1 hm, swapped_iff.1 hs⟩
  have step : ∀ a b, SwappedSt Nx Ny Nz a b → SwappedSt Nx Ny Nz (oneStep (build (computeGrid Nx Ny Nz x y z) bc ieps imu sigma dt uc) a) (oneStep (build (computeGrid Ny Nx Nz y x z) (swapFaces bc) ieps' imu' sigma' dt uc) b) := by
    intro a b hab
    have := renamed_step (swapping Nx Ny Nz) data h (swap_pecLike h) dt huc (a := a) (b := b) ⟨swapped_iff.1 hab.E, swapped_iff.1 hab.H, swapped_iff.1 hab.J, hab.step0⟩
    exact ⟨swapped_iff.2 this.E, swapped_iff.2 this.H, swapped_iff.2 this.J, this.step0⟩
  have main : ∀ m, m ≤ N → SwappedSt Nx Ny Nz (S m) (S' m) := by
    intro m
    induction m with
    | zero => exact fun _ => h0
    | succ m ih =>
      intro hm
      rw [r.step m hm, r'.step m hm]
      exact step _ _ (hd m hm (ih (by omega)))
  exact main N le_rfl

end Sol
end Wakis
