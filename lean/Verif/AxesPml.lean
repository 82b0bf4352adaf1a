import Verif.Axes2
import Verif.Scale4

/-!
# C119 (continued): PML layers

The set-up with PML layers on the faces of one axis does not depend on the names of the axes; with layers on two axes it does, because of two layers that overlap the one filled last wins.
-/

namespace Wakis
namespace Sol
open Sparse Grid

/-- A renaming of cells (`ψ`) and axes (`π`). -/
structure Renames (Nx Ny Nz Nx' Ny' Nz' : ℕ) (ψ : ℕ → ℕ → ℕ → ℕ × ℕ × ℕ) (π : ℕ → ℕ) : Prop where
  range : ∀ i < Nx, ∀ j < Ny, ∀ k < Nz, (ψ i j k).1 < Nx' ∧ (ψ i j k).2.1 < Ny' ∧ (ψ i j k).2.2 < Nz'
  surj : ∀ i' < Nx', ∀ j' < Ny', ∀ k' < Nz', ∃ i < Nx, ∃ j < Ny, ∃ k < Nz, ψ i j k = (i', j', k')
  axis : ∀ a < 3, π a < 3
  coord : ∀ a < 3, ∀ i j k, coord (π a) (ψ i j k).1 (ψ i j k).2.1 (ψ i j k).2.2 = coord a i j k
  size : ∀ a < 3, Sol.coord (π a) Nx' Ny' Nz' = Sol.coord a Nx Ny Nz
  ref : ∀ a < 3, ∀ r, ψ (refCell Nx Ny Nz a r).1 (refCell Nx Ny Nz a r).2.1 (refCell Nx Ny Nz a r).2.2 = refCell Nx' Ny' Nz' (π a) r

theorem renames_turn (Nx Ny Nz : ℕ) : Renames Nx Ny Nz Ny Nz Nx (fun i j k => (j, k, i)) (fun a => if a = 0 then 2 else a - 1) := by
  refine ⟨fun i hi j hj k hk => ⟨hj, hk, hi⟩, fun i' hi' j' hj' k' hk' => ⟨k', hk', i', hi', j', hj', rfl⟩, ?_, ?_, ?_, ?_⟩
  · intro a ha
    rcases (by omega : a = 0 ∨ a = 1 ∨ a = 2) with rfl | rfl | rfl <;> decide
  · intro a ha i j k
    rcases (by omega : a = 0 ∨ a = 1 ∨ a = 2) with rfl | rfl | rfl <;> rfl
  · intro a ha
    rcases (by omega : a = 0 ∨ a = 1 ∨ a = 2) with rfl | rfl | rfl <;> rfl
  · intro a ha r
    rcases (by omega : a = 0 ∨ a = 1 ∨ a = 2) with rfl | rfl | rfl <;> rfl

theorem renames_swap (Nx Ny Nz : ℕ) : Renames Nx Ny Nz Ny Nx Nz (fun i j k => (j, i, k)) (fun a => if a = 0 then 1 else if a = 1 then 0 else a) := by
  refine ⟨fun i hi j hj k hk => ⟨hj, hi, hk⟩, fun i' hi' j' hj' k' hk' => ⟨j', hj', i', hi', k', hk', rfl⟩, ?_, ?_, ?_, ?_⟩
  · intro a ha
    rcases (by omega : a = 0 ∨ a = 1 ∨ a = 2) with rfl | rfl | rfl <;> decide
  · intro a ha i j k
    rcases (by omega : a = 0 ∨ a = 1 ∨ a = 2) with rfl | rfl | rfl <;> rfl
  · intro a ha
    rcases (by omega : a = 0 ∨ a = 1 ∨ a = 2) with rfl | rfl | rfl <;> rfl
  · intro a ha r
    rcases (by omega : a = 0 ∨ a = 1 ∨ a = 2) with rfl | rfl | rfl <;> rfl

/-- The materials of the renamed model are the renamed materials; all components alike. -/
structure RenMats (Nx Ny Nz Nx' Ny' Nz' : ℕ) (ψ : ℕ → ℕ → ℕ → ℕ × ℕ × ℕ) (t t' : Mats ℝ) : Prop where
  s : t.Sized Nx Ny Nz
  s' : t'.Sized Nx' Ny' Nz'
  u : t'.useCond = t.useCond
  e : ∀ a < 3, ∀ a' < 3, ∀ i < Nx, ∀ j < Ny, ∀ k < Nz, t'.ieps.at3 a' (ψ i j k).1 (ψ i j k).2.1 (ψ i j k).2.2 = t.ieps.at3 a i j k
  m : ∀ a < 3, ∀ a' < 3, ∀ i < Nx, ∀ j < Ny, ∀ k < Nz, t'.imu.at3 a' (ψ i j k).1 (ψ i j k).2.1 (ψ i j k).2.2 = t.imu.at3 a i j k
  c : ∀ a < 3, ∀ a' < 3, ∀ i < Nx, ∀ j < Ny, ∀ k < Nz, t'.sigma.at3 a' (ψ i j k).1 (ψ i j k).2.1 (ψ i j k).2.2 = t.sigma.at3 a i j k

section
variable {Nx Ny Nz Nx' Ny' Nz' : ℕ} {ψ : ℕ → ℕ → ℕ → ℕ × ℕ × ℕ} {π : ℕ → ℕ}

theorem depth_ren (R : Renames Nx Ny Nz Nx' Ny' Nz' ψ π) {a : ℕ} (ha : a < 3) (s : Side) (i j k : ℕ) :
    depth Nx' Ny' Nz' (π a) s (ψ i j k).1 (ψ i j k).2.1 (ψ i j k).2.2 = depth Nx Ny Nz a s i j k := by
  cases s with
  | lo => exact R.coord a ha i j k
  | hi =>
    show Sol.coord (π a) Nx' Ny' Nz' - 1 - Sol.coord (π a) _ _ _ = _
    rw [R.size a ha, R.coord a ha]
    rfl

theorem refCell_in {a n : ℕ} (ha : a < 3) (hx : 0 < Nx) (hy : 0 < Ny) (hz : 0 < Nz) {s : Side} (hf : FaceFits Nx Ny Nz n a s) :
    (refCell Nx Ny Nz a (refLayer Nx Ny Nz n a s)).1 < Nx ∧ (refCell Nx Ny Nz a (refLayer Nx Ny Nz n a s)).2.1 < Ny ∧ (refCell Nx Ny Nz a (refLayer Nx Ny Nz n a s)).2.2 < Nz := by
  rcases (by omega : a = 0 ∨ a = 1 ∨ a = 2) with rfl | rfl | rfl <;> cases s <;> simp [refCell, refLayer, FaceFits, coord] at hf ⊢ <;> omega

/-- Filling a face of the renamed model. -/
theorem side_ren (R : Renames Nx Ny Nz Nx' Ny' Nz' ψ π) (hx : 0 < Nx) (hy : 0 < Ny) (hz : 0 < Nz) {t t' u : Mats ℝ} (h : RenMats Nx Ny Nz Nx' Ny' Nz' ψ t t') {a n : ℕ} (ha : a < 3) (s : Side)
    (hu : pmlSide geomspace (5 / 1000) 10 n a s t = .ok u) : ∃ u', pmlSide geomspace (5 / 1000) 10 n (π a) s t' = .ok u' ∧ RenMats Nx Ny Nz Nx' Ny' Nz' ψ u u' := by
  obtain ⟨hx', hy', hz'⟩ := R.range 0 hx 0 hy 0 hz
  have fit := pmlSide_fits _ _ _ s ha hx hy h.s hu
  have fit' : FaceFits Nx' Ny' Nz' n (π a) s := by
    cases s
    · show n + 1 < _; rw [R.size a ha]; exact fit
    · show n < _ ∧ _; rw [R.size a ha]; exact fit
  obtain ⟨u1, e1, F⟩ := pmlSide_ok geomspace (5 / 1000) 10 s ha hx hy hz h.s fit
  rw [hu] at e1
  cases e1
  obtain ⟨u', e', F'⟩ := pmlSide_ok geomspace (5 / 1000) 10 s (R.axis a ha) (by omega) (by omega) (by omega) h.s' fit'
  refine ⟨u', e', F.sized, F'.sized, by rw [F.cond, F'.cond, h.u], ?_, ?_, ?_⟩
  · intro b hb b' hb' i hi j hj k hk
    obtain ⟨r1, r2, r3⟩ := R.range i hi j hj k hk
    by_cases hd : depth Nx Ny Nz a s i j k < n
    · rw [(F.inside b hb i hi j hj k hk hd).1, (F'.inside b' hb' _ r1 _ r2 _ r3 (by rw [depth_ren R ha]; exact hd)).1]
      have hl : refLayer Nx' Ny' Nz' n (π a) s = refLayer Nx Ny Nz n a s := by cases s; rfl; exact congrArg (· - (n + 1)) (R.size a ha)
      obtain ⟨q1, q2, q3⟩ := refCell_in ha hx hy hz fit
      rw [hl, ← R.ref a ha]
      exact h.e b hb b' hb' _ q1 _ q2 _ q3
    · rw [(F.outside b hb i hi j hj k hk hd).1, (F'.outside b' hb' _ r1 _ r2 _ r3 (by rw [depth_ren R ha]; exact hd)).1]
      exact h.e b hb b' hb' i hi j hj k hk
  · rw [F.imu, F'.imu]; exact h.m
  · intro b hb b' hb' i hi j hj k hk
    obtain ⟨r1, r2, r3⟩ := R.range i hi j hj k hk
    by_cases hd : depth Nx Ny Nz a s i j k < n
    · rw [(F.inside b hb i hi j hj k hk hd).2, (F'.inside b' hb' _ r1 _ r2 _ r3 (by rw [depth_ren R ha]; exact hd)).2, depth_ren R ha]
      have hl : refLayer Nx' Ny' Nz' n (π a) s = refLayer Nx Ny Nz n a s := by cases s; rfl; exact congrArg (· - (n + 1)) (R.size a ha)
      obtain ⟨q1, q2, q3⟩ := refCell_in ha hx hy hz fit
      rw [hl, ← R.ref a ha, h.c b hb b' hb' _ q1 _ q2 _ q3]
    · rw [(F.outside b hb i hi j hj k hk hd).2, (F'.outside b' hb' _ r1 _ r2 _ r3 (by rw [depth_ren R ha]; exact hd)).2]
      exact h.c b hb b' hb' i hi j hj k hk

/-- Layers on the faces of axis `a` only. -/
def OneAxis (bc : Faces String) (a : ℕ) : Prop := ∀ b < 3, ∀ s, isPml (faceName bc b s) = true → b = a

theorem fill_oneAxis {bc : Faces String} {a : ℕ} (ha : a < 3) (h : OneAxis bc a) (n : ℕ) (t : Mats ℝ) :
    fillPml geomspace (5 / 1000) 10 n bc t = (if isPml (faceName bc a .lo) then pmlSide geomspace (5 / 1000) 10 n a .lo t else .ok t).bind fun t =>
      if isPml (faceName bc a .hi) then pmlSide geomspace (5 / 1000) 10 n a .hi t else .ok t := by
  have no : ∀ b < 3, ∀ s, b ≠ a → isPml (faceName bc b s) = false := fun b hb s hne => by
    rw [Bool.eq_false_iff]; exact fun e => hne (h b hb s e)
  have two : ∀ (p q : Bool) (f g : Mats ℝ → Py (Mats ℝ)) (t : Mats ℝ), (if p = true then (f t).bind fun t => if q = true then (g t).bind fun t => .ok t else .ok t else if q = true then (g t).bind fun t => .ok t else .ok t) =
      (if p = true then f t else .ok t).bind fun t => if q = true then g t else .ok t := by
    intro p q f g t
    have id : ∀ x : Py (Mats ℝ), x.bind (fun t => Except.ok t) = x := by intro x; cases x <;> rfl
    cases p <;> cases q <;> simp only [id, Bool.false_eq_true, if_false, if_true] <;> rfl
  rw [fillPml_eq]
  rcases (by omega : a = 0 ∨ a = 1 ∨ a = 2) with rfl | rfl | rfl
  · simp only [pmlOrder, fillFaces, bind, no 1 (by decide) .lo (by decide), no 2 (by decide) .lo (by decide), no 1 (by decide) .hi (by decide), no 2 (by decide) .hi (by decide), Bool.false_eq_true, if_false]
    exact two _ _ (fun t => pmlSide geomspace (5 / 1000) 10 n 0 .lo t) (fun t => pmlSide geomspace (5 / 1000) 10 n 0 .hi t) t
  · simp only [pmlOrder, fillFaces, bind, no 0 (by decide) .lo (by decide), no 2 (by decide) .lo (by decide), no 0 (by decide) .hi (by decide), no 2 (by decide) .hi (by decide), Bool.false_eq_true, if_false]
    exact two _ _ (fun t => pmlSide geomspace (5 / 1000) 10 n 1 .lo t) (fun t => pmlSide geomspace (5 / 1000) 10 n 1 .hi t) t
  · simp only [pmlOrder, fillFaces, bind, no 0 (by decide) .lo (by decide), no 1 (by decide) .lo (by decide), no 0 (by decide) .hi (by decide), no 1 (by decide) .hi (by decide), Bool.false_eq_true, if_false]
    exact two _ _ (fun t => pmlSide geomspace (5 / 1000) 10 n 2 .lo t) (fun t => pmlSide geomspace (5 / 1000) 10 n 2 .hi t) t

theorem fill_ren (R : Renames Nx Ny Nz Nx' Ny' Nz' ψ π) (hx : 0 < Nx) (hy : 0 < Ny) (hz : 0 < Nz) {bc bc' : Faces String} {a n : ℕ} (ha : a < 3) (h1 : OneAxis bc a) (h1' : OneAxis bc' (π a))
    (hf : ∀ s, faceName bc' (π a) s = faceName bc a s) {t t' u : Mats ℝ} (h : RenMats Nx Ny Nz Nx' Ny' Nz' ψ t t') (hu : fillPml geomspace (5 / 1000) 10 n bc t = .ok u) :
    ∃ u', fillPml geomspace (5 / 1000) 10 n bc' t' = .ok u' ∧ RenMats Nx Ny Nz Nx' Ny' Nz' ψ u u' := by
  have step : ∀ (s : Side) {t t' u : Mats ℝ}, RenMats Nx Ny Nz Nx' Ny' Nz' ψ t t' → (if isPml (faceName bc a s) then pmlSide geomspace (5 / 1000) 10 n a s t else .ok t) = .ok u →
      ∃ u', (if isPml (faceName bc' (π a) s) then pmlSide geomspace (5 / 1000) 10 n (π a) s t' else .ok t') = .ok u' ∧ RenMats Nx Ny Nz Nx' Ny' Nz' ψ u u' := by
    intro s t t' u h hu
    rw [hf]
    by_cases hp : isPml (faceName bc a s) = true
    · rw [if_pos hp] at hu ⊢
      exact side_ren R hx hy hz h ha s hu
    · rw [if_neg hp] at hu ⊢
      cases hu
      exact ⟨t', rfl, h⟩
  rw [fill_oneAxis ha h1] at hu
  rw [fill_oneAxis (R.axis a ha) h1']
  cases hlo : (if isPml (faceName bc a .lo) then pmlSide geomspace (5 / 1000) 10 n a .lo t else .ok t : Py (Mats ℝ)) with
  | error e => rw [hlo] at hu; cases hu
  | ok v =>
    rw [hlo] at hu
    obtain ⟨v', e1, e2⟩ := step .lo h hlo
    obtain ⟨u', e3, e4⟩ := step .hi e2 hu
    rw [e1]
    exact ⟨u', e3, e4⟩

section setup
variable {c eps0 mu0 cfln : ℝ} {dt : Option ℝ} {nPml : ℕ} {x y z x' y' z' : ℕ → ℝ} {bc bc' : Faces String} {bg : MatSpec ℝ} {mb : Material ℝ} {dict : String → Option (MatSpec ℝ)} {solids : List Solid}

theorem materials_ren (hb : MeansMaterial bg mb) (hk : ∀ s ∈ solids, ∃ spec m, dict s.1 = some spec ∧ MeansMaterial spec m) (R : Renames Nx Ny Nz Nx' Ny' Nz' ψ π) {f : Solid → Solid} (hname : ∀ s, (f s).1 = s.1)
    (hmask : ∀ s i j k, (f s).2 (ψ i j k).1 (ψ i j k).2.1 (ψ i j k).2.2 = s.2 i j k) (use0 : Bool) :
    ∃ t t', materials Nx Ny Nz eps0 mu0 use0 bg dict solids = .ok t ∧ materials Nx' Ny' Nz' eps0 mu0 use0 bg dict (solids.map f) = .ok t' ∧ RenMats Nx Ny Nz Nx' Ny' Nz' ψ t t' := by
  obtain ⟨t1, m1, s1, u1, c1⟩ := materials_ok (Nx := Nx) (Ny := Ny) (Nz := Nz) (eps0 := eps0) (mu0 := mu0) (use0 := use0) hb hk
  have hk' : ∀ s ∈ solids.map f, ∃ spec m, dict s.1 = some spec ∧ MeansMaterial spec m := by
    intro s hs
    obtain ⟨s0, h0, rfl⟩ := List.mem_map.1 hs
    rw [hname]
    exact hk s0 h0
  obtain ⟨t2, m2, s2, u2, c2⟩ := materials_ok (Nx := Nx') (Ny := Ny') (Nz := Nz') (eps0 := eps0) (mu0 := mu0) (use0 := use0) hb hk'
  have cell : ∀ a < 3, ∀ a' < 3, ∀ i < Nx, ∀ j < Ny, ∀ k < Nz, t2.ieps.at3 a' (ψ i j k).1 (ψ i j k).2.1 (ψ i j k).2.2 = t1.ieps.at3 a i j k ∧
        t2.imu.at3 a' (ψ i j k).1 (ψ i j k).2.1 (ψ i j k).2.2 = t1.imu.at3 a i j k ∧ t2.sigma.at3 a' (ψ i j k).1 (ψ i j k).2.1 (ψ i j k).2.2 = t1.sigma.at3 a i j k := by
    intro a ha a' ha' i hi j hj k hk
    obtain ⟨e1, e2, e3⟩ := c1 a ha i hi j hj k hk
    obtain ⟨r1, r2, r3⟩ := R.range i hi j hj k hk
    obtain ⟨f1, f2, f3⟩ := c2 a' ha' _ r1 _ r2 _ r3
    rw [e1, e2, e3, f1, f2, f3, lastHit_map, lastHit_map]
    simp only [hmask, hname]
    exact ⟨find_name hname (fun n => (matOf dict n).eps.over 1 eps0) _ _, find_name hname (fun n => (matOf dict n).mu.over 1 mu0) _ _, find_name hname (fun n => (matOf dict n).sigma.getD 0) _ _⟩
  have hu : t2.useCond = t1.useCond := by
    rw [u1, u2, List.any_map]
    congr 1
    simp only [Function.comp_def, hname]
  exact ⟨t1, t2, m1, m2, s1, s2, hu, fun a ha a' ha' i hi j hj k hk => (cell a ha a' ha' i hi j hj k hk).1, fun a ha a' ha' i hi j hj k hk => (cell a ha a' ha' i hi j hj k hk).2.1,
    fun a ha a' ha' i hi j hj k hk => (cell a ha a' ha' i hi j hj k hk).2.2⟩

theorem at3_pos (F : Fld ℝ) {Nx Ny Nz : ℕ} (h : F.Nx = Nx ∧ F.Ny = Ny ∧ F.Nz = Nz) (a i j k : ℕ) : F.at3 a i j k = F.array (pos Nx Ny Nz a i j k) := by
  obtain ⟨rfl, rfl, rfl⟩ := h
  rfl

theorem chooseDt_ren (R : Renames Nx Ny Nz Nx' Ny' Nz' ψ π) {t t' : Mats ℝ} (h : RenMats Nx Ny Nz Nx' Ny' Nz' ψ t t')
    (hcfl : cflDt c cfln (diffs x' Nx') (diffs y' Ny') (diffs z' Nz') = cflDt c cfln (diffs x Nx) (diffs y Ny) (diffs z Nz)) :
    chooseDt c cfln dt (diffs x' Nx') (diffs y' Ny') (diffs z' Nz') t' = chooseDt c cfln dt (diffs x Nx) (diffs y Ny) (diffs z Nz) t := by
  have N1 : t.ieps.N = Nx * Ny * Nz := by
    obtain ⟨q1, q2, q3⟩ := h.s.e
    show t.ieps.Nx * t.ieps.Ny * t.ieps.Nz = _
    rw [q1, q2, q3]
  have N2 : t'.ieps.N = Nx' * Ny' * Nz' := by
    obtain ⟨q1, q2, q3⟩ := h.s'.e
    show t'.ieps.Nx * t'.ieps.Ny * t'.ieps.Nz = _
    rw [q1, q2, q3]
  have cell : ∀ a < 3, ∀ i < Nx, ∀ j < Ny, ∀ k < Nz, t'.ieps.array (pos Nx' Ny' Nz' a (ψ i j k).1 (ψ i j k).2.1 (ψ i j k).2.2) = t.ieps.array (pos Nx Ny Nz a i j k) ∧
      t'.sigma.array (pos Nx' Ny' Nz' a (ψ i j k).1 (ψ i j k).2.1 (ψ i j k).2.2) = t.sigma.array (pos Nx Ny Nz a i j k) := by
    intro a ha i hi j hj k hk
    rw [← at3_pos _ h.s.e, ← at3_pos _ h.s.s, ← at3_pos _ h.s'.e, ← at3_pos _ h.s'.s]
    exact ⟨h.e a ha a ha i hi j hj k hk, h.c a ha a ha i hi j hj k hk⟩
  have lim : ∀ dt, limitDt t' dt = limitDt t dt := by
    refine limitDt_congr h.u ?_ ?_
    · intro r hr1
      rw [N1] at hr1
      obtain ⟨a, i, j, k, ha, hi, hj, hk, rfl⟩ := pos_surj hr1
      obtain ⟨r1, r2, r3⟩ := R.range i hi j hj k hk
      exact ⟨_, by rw [N2]; exact pos_lt ha r1 r2 r3, (cell a ha i hi j hj k hk).1, (cell a ha i hi j hj k hk).2⟩
    · intro r hr1
      rw [N2] at hr1
      obtain ⟨a, i', j', k', ha, hi', hj', hk', rfl⟩ := pos_surj hr1
      obtain ⟨i, hi, j, hj, k, hk, e⟩ := R.surj i' hi' j' hj' k' hk'
      have := cell a ha i hi j hj k hk
      rw [e] at this
      exact ⟨_, by rw [N1]; exact pos_lt ha hi hj hk, this.1.symm, this.2.symm⟩
  unfold chooseDt
  rw [hcfl]
  simp only [lim]

/-- The set-up of a model with renamed cells, layers on the faces of one axis. -/
theorem setUp_ren (hb : MeansMaterial bg mb) (hk : ∀ s ∈ solids, ∃ spec m, dict s.1 = some spec ∧ MeansMaterial spec m) (R : Renames Nx Ny Nz Nx' Ny' Nz' ψ π) (hx : 0 < Nx) (hy : 0 < Ny) (hz : 0 < Nz) {f : Solid → Solid}
    (hname : ∀ s, (f s).1 = s.1) (hmask : ∀ s i j k, (f s).2 (ψ i j k).1 (ψ i j k).2.1 (ψ i j k).2.2 = s.2 i j k) {a : ℕ} (ha : a < 3) (h1 : OneAxis bc a) (h1' : OneAxis bc' (π a))
    (hf : ∀ s, faceName bc' (π a) s = faceName bc a s) (hany : anyFace isPml bc' = anyFace isPml bc)
    (hcfl : cflDt c cfln (diffs x' Nx') (diffs y' Ny') (diffs z' Nz') = cflDt c cfln (diffs x Nx) (diffs y Ny) (diffs z Nz)) {t : Mats ℝ} {d : ℝ}
    (h : setUp c eps0 mu0 cfln dt nPml Nx Ny Nz x y z bc bg dict solids = .ok (t, d)) :
    ∃ t', setUp c eps0 mu0 cfln dt nPml Nx' Ny' Nz' x' y' z' bc' bg dict (solids.map f) = .ok (t', d) ∧ RenMats Nx Ny Nz Nx' Ny' Nz' ψ t t' := by
  obtain ⟨t0, t0', m1, m2, r0⟩ := materials_ren (eps0 := eps0) (mu0 := mu0) hb hk R hname hmask (anyFace isPml bc)
  unfold setUp at h ⊢
  rw [m1] at h
  rw [hany, m2]
  simp only [bind, Except.bind] at h ⊢
  have hst : ∀ {u}, pmlStage nPml bc t0 = .ok u → ∃ u', pmlStage nPml bc' t0' = .ok u' ∧ RenMats Nx Ny Nz Nx' Ny' Nz' ψ u u' := by
    intro u hu
    unfold pmlStage at hu ⊢
    rw [hany]
    by_cases hp : anyFace isPml bc = true
    · rw [if_pos hp] at hu ⊢
      exact fill_ren R hx hy hz ha h1 h1' hf r0 hu
    · rw [if_neg hp] at hu ⊢
      cases hu
      exact ⟨t0', rfl, r0⟩
  cases hp : pmlStage nPml bc t0 with
  | error e => rw [hp] at h; cases h
  | ok u =>
    rw [hp] at h
    obtain ⟨u', e1, e2⟩ := hst hp
    rw [e1]
    simp only at h ⊢
    rw [chooseDt_ren R e2 hcfl]
    cases hc : chooseDt c cfln dt (diffs x Nx) (diffs y Ny) (diffs z Nz) u with
    | error e => rw [hc] at h; cases h
    | ok d0 =>
      rw [hc] at h
      cases h
      exact ⟨u', rfl, e2⟩

/-- **C119 (set-up with PML on one axis, partial).** With PML layers on one or both faces of one axis (or on none), for every choice of materials and solids: if the set-up of the model succeeds, that of the model with the axes renamed in
turn succeeds with the same time step and the same materials and layers in the renamed cells.  Missing: layers on two axes, `C119_pml_refuted`. -/
theorem C119_pml_turn_partial (hx : 0 < Nx) (hy : 0 < Ny) (hz : 0 < Nz) (hb : MeansMaterial bg mb) (hk : ∀ s ∈ solids, ∃ spec m, dict s.1 = some spec ∧ MeansMaterial spec m) {a : ℕ} (ha : a < 3) (h1 : OneAxis bc a)
    {t : Mats ℝ} {d : ℝ} (h : setUp c eps0 mu0 cfln dt nPml Nx Ny Nz x y z bc bg dict solids = .ok (t, d)) :
    ∃ t', setUp c eps0 mu0 cfln dt nPml Ny Nz Nx y z x (turnFaces bc) bg dict (solids.map turnSolid) = .ok (t', d) ∧ t'.useCond = t.useCond ∧ Turned Nx Ny Nz t.ieps.array t'.ieps.array ∧
      Turned Nx Ny Nz t.imu.array t'.imu.array ∧ Turned Nx Ny Nz t.sigma.array t'.sigma.array := by
  have hface : ∀ b < 3, ∀ s, faceName (turnFaces bc) (if b = 0 then 2 else b - 1) s = faceName bc b s := by
    intro b hb s
    rcases (by omega : b = 0 ∨ b = 1 ∨ b = 2) with rfl | rfl | rfl <;> cases s <;> rfl
  obtain ⟨t', e, r⟩ := setUp_ren (dt := dt) (nPml := nPml) (x' := y) (y' := z) (z' := x) (bc' := turnFaces bc) (f := turnSolid) hb hk (renames_turn Nx Ny Nz) hx hy hz (fun _ => rfl) (fun _ _ _ _ => rfl) ha h1
    (by
      intro b hb s hp
      have : ∃ b0 < 3, (if b0 = 0 then 2 else b0 - 1) = b := by
        rcases (by omega : b = 0 ∨ b = 1 ∨ b = 2) with rfl | rfl | rfl
        exacts [⟨1, by decide, rfl⟩, ⟨2, by decide, rfl⟩, ⟨0, by decide, rfl⟩]
      obtain ⟨b0, hb0, rfl⟩ := this
      rw [hface b0 hb0] at hp
      rw [h1 b0 hb0 s hp])
    (fun s => hface a ha s) (turn_any _ _) (cflDt_turn _ _ _ _ _) h
  refine ⟨t', e, r.u, fun i hi j hj k hk => ?_, fun i hi j hj k hk => ?_, fun i hi j hj k hk => ?_⟩
  · simp only [← at3_pos _ r.s.e, ← at3_pos _ r.s'.e]
    exact ⟨r.e 1 (by decide) 0 (by decide) i hi j hj k hk, r.e 2 (by decide) 1 (by decide) i hi j hj k hk, r.e 0 (by decide) 2 (by decide) i hi j hj k hk⟩
  · simp only [← at3_pos _ r.s.m, ← at3_pos _ r.s'.m]
    exact ⟨r.m 1 (by decide) 0 (by decide) i hi j hj k hk, r.m 2 (by decide) 1 (by decide) i hi j hj k hk, r.m 0 (by decide) 2 (by decide) i hi j hj k hk⟩
  · simp only [← at3_pos _ r.s.s, ← at3_pos _ r.s'.s]
    exact ⟨r.c 1 (by decide) 0 (by decide) i hi j hj k hk, r.c 2 (by decide) 1 (by decide) i hi j hj k hk, r.c 0 (by decide) 2 (by decide) i hi j hj k hk⟩

/-- **C119 (set-up with PML on one axis, partial).** The same for the exchange of the first two axes. -/
theorem C119_pml_swap_partial (hx : 0 < Nx) (hy : 0 < Ny) (hz : 0 < Nz) (hb : MeansMaterial bg mb) (hk : ∀ s ∈ solids, ∃ spec m, dict s.1 = some spec ∧ MeansMaterial spec m) {a : ℕ} (ha : a < 3) (h1 : OneAxis bc a)
    {t : Mats ℝ} {d : ℝ} (h : setUp c eps0 mu0 cfln dt nPml Nx Ny Nz x y z bc bg dict solids = .ok (t, d)) :
    ∃ t', setUp c eps0 mu0 cfln dt nPml Ny Nx Nz y x z (swapFaces bc) bg dict (solids.map swapSolid) = .ok (t', d) ∧ t'.useCond = t.useCond ∧ Swapped Nx Ny Nz 1 t.ieps.array t'.ieps.array ∧
      Swapped Nx Ny Nz 1 t.imu.array t'.imu.array ∧ Swapped Nx Ny Nz 1 t.sigma.array t'.sigma.array := by
  have hface : ∀ b < 3, ∀ s, faceName (swapFaces bc) (if b = 0 then 1 else if b = 1 then 0 else b) s = faceName bc b s := by
    intro b hb s
    rcases (by omega : b = 0 ∨ b = 1 ∨ b = 2) with rfl | rfl | rfl <;> cases s <;> rfl
  obtain ⟨t', e, r⟩ := setUp_ren (dt := dt) (nPml := nPml) (x' := y) (y' := x) (z' := z) (bc' := swapFaces bc) (f := swapSolid) hb hk (renames_swap Nx Ny Nz) hx hy hz (fun _ => rfl) (fun _ _ _ _ => rfl) ha h1
    (by
      intro b hb s hp
      have : ∃ b0 < 3, (if b0 = 0 then 1 else if b0 = 1 then 0 else b0) = b := by
        rcases (by omega : b = 0 ∨ b = 1 ∨ b = 2) with rfl | rfl | rfl
        exacts [⟨1, by decide, rfl⟩, ⟨0, by decide, rfl⟩, ⟨2, by decide, rfl⟩]
      obtain ⟨b0, hb0, rfl⟩ := this
      rw [hface b0 hb0] at hp
      rw [h1 b0 hb0 s hp])
    (fun s => hface a ha s) (swap_any _ _) (cflDt_swap _ _ _ _ _) h
  refine ⟨t', e, r.u, fun i hi j hj k hk => ?_, fun i hi j hj k hk => ?_, fun i hi j hj k hk => ?_⟩ <;> simp only [one_mul]
  · simp only [← at3_pos _ r.s.e, ← at3_pos _ r.s'.e]
    exact ⟨r.e 1 (by decide) 0 (by decide) i hi j hj k hk, r.e 0 (by decide) 1 (by decide) i hi j hj k hk, r.e 2 (by decide) 2 (by decide) i hi j hj k hk⟩
  · simp only [← at3_pos _ r.s.m, ← at3_pos _ r.s'.m]
    exact ⟨r.m 1 (by decide) 0 (by decide) i hi j hj k hk, r.m 0 (by decide) 1 (by decide) i hi j hj k hk, r.m 2 (by decide) 2 (by decide) i hi j hj k hk⟩
  · simp only [← at3_pos _ r.s.s, ← at3_pos _ r.s'.s]
    exact ⟨r.c 1 (by decide) 0 (by decide) i hi j hj k hk, r.c 0 (by decide) 1 (by decide) i hi j hj k hk, r.c 2 (by decide) 2 (by decide) i hi j hj k hk⟩

/-- **C119 (whole model, partial).** From the user's input to the fields: closed faces (PEC or PML, the layers on one axis), any solids and materials.  If the model can be set up, so can the model with its axes renamed in turn; it has
the same time step, and from renamed starting fields both have, after any number of steps, the same fields with components and cells renamed. -/
theorem C119_model_turn_partial (hx : 0 < Nx) (hy : 0 < Ny) (hz : 0 < Nz) (hb : MeansMaterial bg mb) (hk : ∀ s ∈ solids, ∃ spec m, dict s.1 = some spec ∧ MeansMaterial spec m) (hpec : PecLike bc) {a : ℕ} (ha : a < 3)
    (h1 : OneAxis bc a) {t : Mats ℝ} {d : ℝ} (h : setUp c eps0 mu0 cfln dt nPml Nx Ny Nz x y z bc bg dict solids = .ok (t, d)) :
    ∃ t', setUp c eps0 mu0 cfln dt nPml Ny Nz Nx y z x (turnFaces bc) bg dict (solids.map turnSolid) = .ok (t', d) ∧ ∀ (N : ℕ) (S S' : State ℝ), TurnedSt Nx Ny Nz S S' →
      TurnedSt Nx Ny Nz ((oneStep (build (computeGrid Nx Ny Nz x y z) bc t.ieps.array t.imu.array t.sigma.array d t.useCond))^[N] S)
        ((oneStep (build (computeGrid Ny Nz Nx y z x) (turnFaces bc) t'.ieps.array t'.imu.array t'.sigma.array d t'.useCond))^[N] S') := by
  obtain ⟨t', e, hu, h1, h2, h3⟩ := C119_pml_turn_partial hx hy hz hb hk ha h1 h
  refine ⟨t', e, fun N S S' hS => ?_⟩
  rw [hu]
  exact C119_turn_free_partial Nx Ny Nz x y z hpec h1 h2 h3 d _ N hS

/-- **C119 (whole model, partial).** The same for the exchange of the first two axes: the magnetic field changes its sign. -/
theorem C119_model_swap_partial (hx : 0 < Nx) (hy : 0 < Ny) (hz : 0 < Nz) (hb : MeansMaterial bg mb) (hk : ∀ s ∈ solids, ∃ spec m, dict s.1 = some spec ∧ MeansMaterial spec m) (hpec : PecLike bc) {a : ℕ} (ha : a < 3)
    (h1 : OneAxis bc a) {t : Mats ℝ} {d : ℝ} (h : setUp c eps0 mu0 cfln dt nPml Nx Ny Nz x y z bc bg dict solids = .ok (t, d)) :
    ∃ t', setUp c eps0 mu0 cfln dt nPml Ny Nx Nz y x z (swapFaces bc) bg dict (solids.map swapSolid) = .ok (t', d) ∧ ∀ (N : ℕ) (S S' : State ℝ), SwappedSt Nx Ny Nz S S' →
      SwappedSt Nx Ny Nz ((oneStep (build (computeGrid Nx Ny Nz x y z) bc t.ieps.array t.imu.array t.sigma.array d t.useCond))^[N] S)
        ((oneStep (build (computeGrid Ny Nx Nz y x z) (swapFaces bc) t'.ieps.array t'.imu.array t'.sigma.array d t'.useCond))^[N] S') := by
  obtain ⟨t', e, hu, h1, h2, h3⟩ := C119_pml_swap_partial hx hy hz hb hk ha h1 h
  refine ⟨t', e, fun N S S' hS => ?_⟩
  rw [hu]
  exact C119_swap_partial Nx Ny Nz x y z hpec h1 h2 h3 d _ (N := N) (S := fun n => (oneStep (build (computeGrid Nx Ny Nz x y z) bc t.ieps.array t.imu.array t.sigma.array d t.useCond))^[n] S)
    (D := fun n => (oneStep (build (computeGrid Nx Ny Nz x y z) bc t.ieps.array t.imu.array t.sigma.array d t.useCond))^[n] S)
    (S' := fun n => (oneStep (build (computeGrid Ny Nx Nz y x z) (swapFaces bc) t'.ieps.array t'.imu.array t'.sigma.array d t.useCond))^[n] S')
    (D' := fun n => (oneStep (build (computeGrid Ny Nx Nz y x z) (swapFaces bc) t'.ieps.array t'.imu.array t'.sigma.array d t.useCond))^[n] S')
    ⟨fun m _ => Function.iterate_succ_apply' _ _ _, fun _ _ => rfl⟩ ⟨fun m _ => Function.iterate_succ_apply' _ _ _, fun _ _ => rfl⟩ hS (fun _ _ h => h)

/-- Layers at the low faces in x and y. -/
def bcXY : Faces String := ⟨"pml", "pec", "pml", "pec", "pec", "pec"⟩

/-- Layers at the low face in x. -/
def bcX : Faces String := ⟨"pml", "pec", "pec", "pec", "pec", "pec"⟩

/-- Empty space with layers, at the low face in x at least, can be set up when the layers can be filled. -/
theorem case_of {bc : Faces String} (h0 : isPml bc.xlo = true) {Nx Ny : ℕ} (hx : 3 < Nx) (hy : 3 < Ny) (hf : ∀ t0 : Mats ℝ, t0.Sized Nx Ny 4 → ∃ t2, fillPml geomspace (5 / 1000) 10 2 bc t0 = .ok t2) :
    ∃ t d, setUp 1 1 1 (1 / 2) (some 1) 2 Nx Ny 4 (fun i => (i : ℝ) ^ 2) (fun i => (i : ℝ) ^ 2) (fun i => (i : ℝ) ^ 2) bc (.vals ⟨.fin 1, .fin 1, none⟩) (fun _ => none) [] = .ok (t, d) ∧ t.sigma.array 0 ≠ 0 := by
  have hmean : MeansMaterial (.vals (⟨.fin 1, .fin 1, none⟩ : Material ℝ)) ⟨.fin 1, .fin 1, none⟩ := rfl
  obtain ⟨t0, ht0, hs0, hu0, hc0⟩ := materials_ok (Nx := Nx) (Ny := Ny) (Nz := 4) (eps0 := (1 : ℝ)) (mu0 := 1) (use0 := true) (bg := .vals ⟨.fin 1, .fin 1, none⟩) (dict := fun _ => none) (solids := []) hmean (by simp)
  obtain ⟨t2, hfill⟩ := hf t0 hs0
  have hfill' := hfill
  rw [fillPml_eq] at hfill'
  obtain ⟨g1, g2, g3, g4, g5, g6⟩ := fillFaces_ok geomspace (5 / 1000) 10 bc (fun s d _ => geom_pos s d) (by omega) (by omega) (by decide) pmlOrder t0 t2 order_lt hs0 hfill'
  have hu1 : t2.useCond = true := by rw [g3, hu0]; rfl
  have he1 : ∀ c < 3, ∀ i < Nx, ∀ j < Ny, ∀ k < 4, t2.ieps.at3 c i j k = 1 :=
    g6 (fun a => a = 1) (fun c hc i hi j hj k hk => by rw [(hc0 c hc i hi j hj k hk).1]; simp [lastHit, RelC.over])
  have hs1 := g5 (fun c hc i hi j hj k hk => by rw [(hc0 c hc i hi j hj k hk).2.2]; simp [lastHit])
  have hNe : t2.ieps.N = Nx * Ny * 4 := by obtain ⟨e1, e2, e3⟩ := g1.e; simp [Fld.N, e1, e2, e3]
  have hpos : 0 < Nx * Ny := Nat.mul_pos (by omega) (by omega)
  have he : t2.ieps.array 0 = 1 := by
    have := he1 0 (by decide) 0 (by omega) 0 (by omega) 0 (by decide)
    simpa [Fld.at3] using this
  have hs00 : t2.sigma.array 0 ≠ 0 := by
    have h := (hs1 0 (by decide) 0 (by omega) 0 (by omega) 0 (by decide)).2 ⟨(0, .lo), by decide, h0, by simp [depth, coord]⟩
    have e : t2.sigma.at3 0 0 0 0 = t2.sigma.array 0 := by simp [Fld.at3]
    rw [e] at h; exact h.ne'
  have hmem : 1 / t2.ieps.array 0 / t2.sigma.array 0 ∈ taus t2 := by
    unfold taus
    refine List.mem_map.2 ⟨0, List.mem_filter.2 ⟨List.mem_range.2 (by rw [hNe]; omega), ?_⟩, rfl⟩
    simp [hs00, he]
  obtain ⟨dt, hdt⟩ : ∃ dt, chooseDt 1 (1 / 2) (some 1) (diffs (fun i => (i : ℝ) ^ 2) Nx) (diffs (fun i => (i : ℝ) ^ 2) Ny) (diffs (fun i => (i : ℝ) ^ 2) 4) t2 = .ok dt := by
    cases hl : taus t2 with
    | nil => rw [hl] at hmem; simp at hmem
    | cons a l => simp [chooseDt, limitDt, hu1, hl, pyMin, bind, Except.bind, pure, Except.pure]
  have hpml : anyFace isPml bc = true := by simp [anyFace, h0]
  exact ⟨t2, dt, by simp only [setUp, hpml, ht0, bind, Except.bind, pmlStage, if_true, hfill, hdt, pure, Except.pure], hs00⟩

theorem fill_put {bc : Faces String} {n : ℕ} {f : ℕ × Side} (hf : isPml (faceName bc f.1 f.2) = true) {t t' : Mats ℝ} (h : pmlSide geomspace (5 / 1000) 10 n f.1 f.2 t = .ok t') (l : List (ℕ × Side)) :
    fillFaces geomspace (5 / 1000) 10 n bc (f :: l) t = fillFaces geomspace (5 / 1000) 10 n bc l t' := by
  simp only [fillFaces, bind, hf, if_true, h, Except.bind]

theorem fill_skip {bc : Faces String} {n : ℕ} {f : ℕ × Side} (hf : isPml (faceName bc f.1 f.2) = false) (t : Mats ℝ) (l : List (ℕ × Side)) :
    fillFaces geomspace (5 / 1000) 10 n bc (f :: l) t = fillFaces geomspace (5 / 1000) 10 n bc l t := by
  simp only [fillFaces, bind, hf, Bool.false_eq_true, if_false, Except.bind]

theorem fillX {Nx Ny : ℕ} (hx : 3 < Nx) (hy : 3 < Ny) (t0 : Mats ℝ) (hs0 : t0.Sized Nx Ny 4) : ∃ t2, fillPml geomspace (5 / 1000) 10 2 bcX t0 = .ok t2 := by
  obtain ⟨t1, e1, F1⟩ := pmlSide_ok geomspace (5 / 1000) 10 (n := 2) (axis := 0) .lo (by decide) (by omega) (by omega) (by decide) hs0 (show 2 + 1 < Nx by omega)
  refine ⟨t1, ?_⟩
  rw [fillPml_eq, pmlOrder, fill_put (by decide) e1, fill_skip (by decide), fill_skip (by decide), fill_skip (by decide), fill_skip (by decide), fill_skip (by decide)]
  rw [fillFaces]

theorem fillXY {Nx Ny : ℕ} (hx : 3 < Nx) (hy : 3 < Ny) (t0 : Mats ℝ) (hs0 : t0.Sized Nx Ny 4) : ∃ t2, fillPml geomspace (5 / 1000) 10 2 bcXY t0 = .ok t2 := by
  obtain ⟨t1, e1, F1⟩ := pmlSide_ok geomspace (5 / 1000) 10 (n := 2) (axis := 0) .lo (by decide) (by omega) (by omega) (by decide) hs0 (show 2 + 1 < Nx by omega)
  obtain ⟨t2, e2, F2⟩ := pmlSide_ok geomspace (5 / 1000) 10 (n := 2) (axis := 1) .lo (by decide) (by omega) (by omega) (by decide) F1.sized (show 2 + 1 < Ny by omega)
  refine ⟨t2, ?_⟩
  rw [fillPml_eq, pmlOrder, fill_put (by decide) e1, fill_put (by decide) e2, fill_skip (by decide), fill_skip (by decide), fill_skip (by decide), fill_skip (by decide)]
  rw [fillFaces]

theorem pmlX_case (Nx Ny : ℕ) (hx : 3 < Nx) (hy : 3 < Ny) : ∃ t d, setUp 1 1 1 (1 / 2) (some 1) 2 Nx Ny 4 (fun i => (i : ℝ) ^ 2) (fun i => (i : ℝ) ^ 2) (fun i => (i : ℝ) ^ 2) bcX (.vals ⟨.fin 1, .fin 1, none⟩) (fun _ => none) [] = .ok (t, d) ∧
    t.sigma.array 0 ≠ 0 := case_of (bc := bcX) (by decide) hx hy (fillX hx hy)

theorem pmlXY_case (Nx Ny : ℕ) (hx : 3 < Nx) (hy : 3 < Ny) : ∃ t d, setUp 1 1 1 (1 / 2) (some 1) 2 Nx Ny 4 (fun i => (i : ℝ) ^ 2) (fun i => (i : ℝ) ^ 2) (fun i => (i : ℝ) ^ 2) bcXY (.vals ⟨.fin 1, .fin 1, none⟩) (fun _ => none) [] = .ok (t, d) :=
  (case_of (bc := bcXY) (by decide) hx hy (fillXY hx hy)).imp fun _ => .imp fun _ => And.left

example : PecLike bcX ∧ OneAxis bcX 0 ∧ ∃ t d, setUp 1 1 1 (1 / 2) (some 1) 2 5 4 4 (fun i => (i : ℝ) ^ 2) (fun i => (i : ℝ) ^ 2) (fun i => (i : ℝ) ^ 2) bcX (.vals ⟨.fin 1, .fin 1, none⟩) (fun _ => none) [] = .ok (t, d) ∧ t.sigma.array 0 ≠ 0 := by
  refine ⟨?_, ?_, pmlX_case 5 4 (by decide) (by decide)⟩
  · intro b s hb
    rcases (by omega : b = 0 ∨ b = 1 ∨ b = 2) with rfl | rfl | rfl <;> cases s <;> decide
  · intro b hb s h
    rcases (by omega : b = 0 ∨ b = 1 ∨ b = 2) with rfl | rfl | rfl
    · rfl
    · cases s <;> exact absurd h (by decide)
    · cases s <;> exact absurd h (by decide)

/-! ### Layers on two axes -/

theorem setUp_fill (hbg : ∀ m, MeansMaterial bg m → m.Passive) (hsol : ∀ s ∈ solids, ∀ spec m, dict s.1 = some spec → MeansMaterial spec m → m.Passive) (hp : anyFace isPml bc = true) {t : Mats ℝ} {d : ℝ}
    (h : setUp c eps0 mu0 cfln dt nPml Nx Ny Nz x y z bc bg dict solids = .ok (t, d)) : ∃ t0 : Mats ℝ, t0.Sized Nx Ny Nz ∧ CondNonneg Nx Ny Nz t0 ∧ fillPml geomspace (5 / 1000) 10 nPml bc t0 = .ok t := by
  unfold setUp at h
  cases h1 : materials Nx Ny Nz eps0 mu0 (anyFace isPml bc) bg dict solids with
  | error e => rw [h1] at h; cases h
  | ok t0 =>
    rw [h1] at h
    obtain ⟨⟨mb, hb⟩, hkn⟩ := materials_known h1
    obtain ⟨t0', h1', hs0, -, hc0⟩ := materials_ok (Nx := Nx) (Ny := Ny) (Nz := Nz) (eps0 := eps0) (mu0 := mu0) (use0 := anyFace isPml bc) hb hkn
    rw [h1] at h1'
    obtain rfl : t0 = t0' := by simpa using h1'
    refine ⟨t0, hs0, ?_, ?_⟩
    · intro key cc hkey i hi j hj k hk v hv
      have hcc : cc < 3 := Fld.compOf_lt (Fld.names_iff.1 hkey)
      obtain ⟨s1, s2, s3⟩ := hs0.s
      rw [Fld.get_at3 key hkey (by omega) (by omega) (by omega)] at hv
      obtain rfl : t0.sigma.at3 cc i j k = v := by simpa using hv
      rw [(hc0 cc hcc i hi j hj k hk).2.2]
      cases hl : lastHit (fun s => s.2 i j k && ((matOf dict s.1).sigma.isSome || decide (0 < mb.sigma.getD 0))) solids with
      | none => exact sigma_nonneg (hbg mb hb).nonneg
      | some s =>
        obtain ⟨spec, q1, q2⟩ := matOf_spec (hkn s (lastHit_some hl).1)
        exact sigma_nonneg (hsol s (lastHit_some hl).1 spec _ q1 q2).nonneg
    · simp only [bind, Except.bind, pmlStage, hp, if_true] at h
      cases h2 : fillPml geomspace (5 / 1000) 10 nPml bc t0 with
      | error e => rw [h2] at h; cases h
      | ok t1 =>
        rw [h2] at h
        simp only at h
        cases hc : chooseDt c cfln dt (diffs x Nx) (diffs y Ny) (diffs z Nz) t1 with
        | error e => rw [hc] at h; cases h
        | ok d0 => rw [hc] at h; cases h; rfl

/-- In the corner of two low layers, the layer of the second axis wins. -/
theorem corner (hx : 2 ≤ Nx) (hy : 2 ≤ Ny) (hz : 0 < Nz) (hbg : ∀ m, MeansMaterial bg m → m.Passive) (hsol : ∀ s ∈ solids, ∀ spec m, dict s.1 = some spec → MeansMaterial spec m → m.Passive)
    (hy0 : isPml bc.ylo = true) (hz0 : isPml bc.zlo = false) (hx1 : isPml bc.xhi = false) (hy1 : isPml bc.yhi = false) (hz1 : isPml bc.zhi = false) (hn : 2 ≤ nPml) {t : Mats ℝ} {d : ℝ}
    (h : setUp c eps0 mu0 cfln dt nPml Nx Ny Nz x y z bc bg dict solids = .ok (t, d)) : t.sigma.array (pos Nx Ny Nz 2 0 1 0) < t.sigma.array (pos Nx Ny Nz 2 1 0 0) := by
  have hp : anyFace isPml bc = true := by simp [anyFace, hy0]
  obtain ⟨t0, hs, hnn, hf⟩ := setUp_fill hbg hsol hp h
  obtain ⟨hs', -⟩ := fillFaces_ok geomspace (5 / 1000) 10 bc (fun s d _ => geom_pos s d) (by omega) (by omega) hz pmlOrder t0 t order_lt hs (by rw [← fillPml_eq]; exact hf)
  have hkey : Fld.Names (.num 2) 2 := by simp [Fld.Names]
  obtain ⟨r0, s0, mult, -, -, hprof, -⟩ := C31_profile_partial (by omega) (by omega) hz hs hnn hf (axis := 1) (side := .lo) (earlier := [(0, .lo)]) (later := [(2, .lo), (0, .hi), (1, .hi), (2, .hi)]) rfl hy0 hkey
  have hl : ∀ i j, ∀ f ∈ [((2 : ℕ), Side.lo), (0, .hi), (1, .hi), (2, .hi)], isPml (faceName bc f.1 f.2) = true → nPml ≤ depth Nx Ny Nz f.1 f.2 i j 0 := by
    intro i j f hf' hpf
    exfalso
    simp only [List.mem_cons, List.not_mem_nil, or_false] at hf'
    rcases hf' with rfl | rfl | rfl | rfl
    · rw [show faceName bc 2 .lo = bc.zlo from rfl, hz0] at hpf; cases hpf
    · rw [show faceName bc 0 .hi = bc.xhi from rfl, hx1] at hpf; cases hpf
    · rw [show faceName bc 1 .hi = bc.yhi from rfl, hy1] at hpf; cases hpf
    · rw [show faceName bc 2 .hi = bc.zhi from rfl, hz1] at hpf; cases hpf
  obtain ⟨-, v, hv, -, -, hgrow⟩ := hprof 1 (by omega) 0 (by omega) 0 hz (show 0 < nPml by omega) (hl 1 0)
  obtain ⟨v', hv', hlt⟩ := hgrow 0 (by omega) 1 (by omega) 0 hz (show 0 < 1 by omega) (show 1 < nPml by omega) (hl 0 1)
  obtain ⟨s1, s2, s3⟩ := hs'.s
  rw [Fld.get_at3 _ hkey (by omega) (by omega) (by omega)] at hv hv'
  rw [at3_pos _ hs'.s] at hv hv'
  cases hv
  cases hv'
  exact hlt

/-- **C119 refuted for PML on two axes.** With PML at the low faces in x and y only, at least two layers, any passive materials and solids: whenever both set-ups succeed, the conductivity of the model with x and y exchanged is not the
conductivity with x and y exchanged. -/
theorem C119_pml_refuted (hx : 2 ≤ Nx) (hy : 2 ≤ Ny) (hz : 0 < Nz) (hbg : ∀ m, MeansMaterial bg m → m.Passive) (hsol : ∀ s ∈ solids, ∀ spec m, dict s.1 = some spec → MeansMaterial spec m → m.Passive)
    (hx0 : isPml bc.xlo = true) (hy0 : isPml bc.ylo = true) (hz0 : isPml bc.zlo = false) (hx1 : isPml bc.xhi = false) (hy1 : isPml bc.yhi = false) (hz1 : isPml bc.zhi = false) (hn : 2 ≤ nPml) {t t' : Mats ℝ} {d d' : ℝ}
    (h : setUp c eps0 mu0 cfln dt nPml Nx Ny Nz x y z bc bg dict solids = .ok (t, d)) (h' : setUp c eps0 mu0 cfln dt nPml Ny Nx Nz y x z (swapFaces bc) bg dict (solids.map swapSolid) = .ok (t', d')) :
    ¬ Swapped Nx Ny Nz 1 t.sigma.array t'.sigma.array := by
  intro hs
  have hsol' : ∀ s ∈ solids.map swapSolid, ∀ spec m, dict s.1 = some spec → MeansMaterial spec m → m.Passive := by
    intro s hs
    obtain ⟨s0, h0, rfl⟩ := List.mem_map.1 hs
    exact hsol s0 h0
  have a := corner hx hy hz hbg hsol hy0 hz0 hx1 hy1 hz1 hn h
  have b := corner hy hx hz hbg hsol' (bc := swapFaces bc) hx0 hz0 hy1 hx1 hz1 hn h'
  have e1 := (hs 0 (by omega) 1 (by omega) 0 hz).2.2
  have e2 := (hs 1 (by omega) 0 (by omega) 0 hz).2.2
  rw [one_mul] at e1 e2
  rw [e1, e2] at b
  exact absurd a (not_lt.2 b.le)

example : ∃ t t' d d', setUp 1 1 1 (1 / 2) (some 1) 2 5 4 4 (fun i => (i : ℝ) ^ 2) (fun i => (i : ℝ) ^ 2) (fun i => (i : ℝ) ^ 2) bcXY (.vals ⟨.fin 1, .fin 1, none⟩) (fun _ => none) [] = .ok (t, d) ∧
    setUp 1 1 1 (1 / 2) (some 1) 2 4 5 4 (fun i => (i : ℝ) ^ 2) (fun i => (i : ℝ) ^ 2) (fun i => (i : ℝ) ^ 2) (swapFaces bcXY) (.vals ⟨.fin 1, .fin 1, none⟩) (fun _ => none) ([].map swapSolid) = .ok (t', d') ∧
    ¬ Swapped 5 4 4 1 t.sigma.array t'.sigma.array := by
  have hpas : ∀ m : Material ℝ, MeansMaterial (.vals ⟨.fin 1, .fin 1, none⟩) m → m.Passive := by
    intro m hm
    obtain rfl : (⟨.fin 1, .fin 1, none⟩ : Material ℝ) = m := hm
    refine ⟨le_rfl, le_rfl, ?_⟩
    rintro s h
    cases h
  obtain ⟨t, d, h⟩ := pmlXY_case 5 4 (by decide) (by decide)
  obtain ⟨t', d', h'⟩ := pmlXY_case 4 5 (by decide) (by decide)
  exact ⟨t, t', d, d', h, h', C119_pml_refuted (by decide) (by decide) (by decide) hpas (by simp) (by decide) (by decide) (by decide) (by decide) (by decide) (by decide) le_rfl h h'⟩

end setup
end
end Sol
end Wakis
