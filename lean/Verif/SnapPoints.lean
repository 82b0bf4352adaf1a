import Verif.Refine

/-!
# C136: snap points of the mesh refinement, and their picture

`_compute_snap_points` and `plot_snap_points` of `wakis/gridFIT3D.py`.  Reading the STL files, their union and `extract_feature_edges` are a parameter: the feature points of a choice of
solids.
-/

namespace Wakis
namespace Grid
namespace SnapPts

variable {K : Type} [Field K] [LinearOrder K]

/-- What is read of the grid: the names of the solids (`none` for `stl_solids=None`) and the feature points of the union of some of them. -/
structure Shapes (K : Type) where
  names : Option (List String)
  points : List String → List (K × K × K)

/-- gridFIT3D.py:541-553, 586-598: the feature points of the chosen solids (default all).  No solids: `None.extract_feature_edges` and `None.keys` are `AttributeError`s; a name that is not a
solid is a `KeyError`, a choice without any dictionary a `TypeError`. -/
def edgesOf (S : Shapes K) (sel : Option (List String)) : Py (List (K × K × K)) :=
  match S.names with
  | none =>
    match sel with
    | none => .error .attributeError
    | some [] => .error .attributeError
    | some _ => .error .typeError
  | some all =>
    let l := sel.getD all
    if l = [] then .error .attributeError
    else if ∃ k ∈ l, k ∉ all then .error .keyError
    else .ok (S.points l)

/-- gridFIT3D.py:527-572 `_compute_snap_points`: the snap points of the three axes. -/
def computeSnaps (S : Shapes K) (rnd : K → K) (sel : Option (List String)) (tol : K) (lo hi : K × K × K) : Py (List K × List K × List K) := do
  let p ← edgesOf S sel
  return (snapsOf rnd tol p (fun q => q.1) lo.1 hi.1, snapsOf rnd tol p (fun q => q.2.1) lo.2.1 hi.2.1, snapsOf rnd tol p (fun q => q.2.2) lo.2.2 hi.2.2)

/-- The three clouds of a picture: points in the planes y = 0, x = 0 and z = 0. -/
structure Clouds (K : Type) where
  xz : List (K × K × K)
  yz : List (K × K × K)
  xy : List (K × K × K)

/-- gridFIT3D.py:574-642 `plot_snap_points`: what is shown besides the surfaces. -/
def plotSnaps (S : Shapes K) (sel : Option (List String)) (tol : K) : Py (Clouds K) := do
  let p ← edgesOf S sel
  return ⟨p.filter fun q => decide (|q.2.1| < tol), p.filter fun q => decide (|q.1| < tol), p.filter fun q => decide (|q.2.2| < tol)⟩

/-! ### Specification -/

/-- The point lies in a coordinate plane, within the tolerance. -/
def OnPlane (tol : K) (q : K × K × K) : Prop := |q.1| < tol ∨ |q.2.1| < tol ∨ |q.2.2| < tol

/-- Point of a picture. -/
def Clouds.Shows (c : Clouds K) (q : K × K × K) : Prop := q ∈ c.xz ∨ q ∈ c.yz ∨ q ∈ c.xy

/-- All shapes moved by `d`. -/
def Shapes.moved (S : Shapes K) (d : K × K × K) : Shapes K := ⟨S.names, fun l => (S.points l).map fun q => (q.1 + d.1, q.2.1 + d.2.1, q.2.2 + d.2.2)⟩

/-! ### C136 -/

theorem mem_snapsOf (rnd : K → K) (tol : K) (points : List (K × K × K)) (coord : K × K × K → K) (lo hi v : K) :
    v ∈ snapsOf rnd tol points coord lo hi ↔ v = lo ∨ v = hi ∨ ∃ q ∈ points, OnPlane tol q ∧ v = rnd (coord q) := by
  unfold snapsOf OnPlane
  simp only [mem_npUnique, List.mem_append, List.mem_cons, List.not_mem_nil, or_false, List.mem_map, List.mem_filter, decide_eq_true_eq]
  constructor
  · rintro ((h | ⟨q, ((⟨h1, h2⟩ | ⟨h1, h2⟩) | ⟨h1, h2⟩), rfl⟩) | h)
    · exact .inl h
    · exact .inr (.inr ⟨q, h1, .inr (.inl h2), rfl⟩)
    · exact .inr (.inr ⟨q, h1, .inl h2, rfl⟩)
    · exact .inr (.inr ⟨q, h1, .inr (.inr h2), rfl⟩)
    · exact .inr (.inl h)
  · rintro (h | h | ⟨q, h1, (h2 | h2 | h2), rfl⟩)
    · exact .inl (.inl h)
    · exact .inr h
    · exact .inl (.inr ⟨q, .inl (.inr ⟨h1, h2⟩), rfl⟩)
    · exact .inl (.inr ⟨q, .inl (.inl ⟨h1, h2⟩), rfl⟩)
    · exact .inl (.inr ⟨q, .inr ⟨h1, h2⟩, rfl⟩)

/-- **C136 (what the snap points are).** The snap points of each axis are the two bounds of the domain and the rounded coordinates of those feature points that lie in one of the three
coordinate planes, for every geometry, choice of solids and tolerance; they are in strictly increasing order. -/
theorem C136_actual {S : Shapes K} {rnd : K → K} {sel : Option (List String)} {tol : K} {lo hi : K × K × K} {x y z : List K} (h : computeSnaps S rnd sel tol lo hi = .ok (x, y, z)) :
    ∃ p, edgesOf S sel = .ok p ∧ (∀ v, v ∈ x ↔ v = lo.1 ∨ v = hi.1 ∨ ∃ q ∈ p, OnPlane tol q ∧ v = rnd q.1) ∧
      (∀ v, v ∈ y ↔ v = lo.2.1 ∨ v = hi.2.1 ∨ ∃ q ∈ p, OnPlane tol q ∧ v = rnd q.2.1) ∧ (∀ v, v ∈ z ↔ v = lo.2.2 ∨ v = hi.2.2 ∨ ∃ q ∈ p, OnPlane tol q ∧ v = rnd q.2.2) ∧
      x.Pairwise (· < ·) ∧ y.Pairwise (· < ·) ∧ z.Pairwise (· < ·) := by
  unfold computeSnaps at h
  cases hp : edgesOf S sel with
  | error e => rw [hp] at h; simp [bind, Except.bind] at h
  | ok p =>
    rw [hp] at h
    simp only [bind, Except.bind, pure, Except.pure, Except.ok.injEq, Prod.mk.injEq] at h
    obtain ⟨rfl, rfl, rfl⟩ := h
    exact ⟨p, rfl, mem_snapsOf rnd tol p _ _ _, mem_snapsOf rnd tol p _ _ _, mem_snapsOf rnd tol p _ _ _, npUnique_sorted _, npUnique_sorted _, npUnique_sorted _⟩

/-- **C136 (picture).** With the same solids and tolerance, the picture can be drawn exactly if the snap points can be computed, and it shows exactly the points they come from: a value is a
snap point of an axis exactly if it is a bound or the rounded coordinate of a point shown. -/
theorem C136_picture (S : Shapes K) (rnd : K → K) (sel : Option (List String)) (tol : K) (lo hi : K × K × K) :
    ((∃ c, plotSnaps S sel tol = .ok c) ↔ ∃ r, computeSnaps S rnd sel tol lo hi = .ok r) ∧
    ∀ c x y z, plotSnaps S sel tol = .ok c → computeSnaps S rnd sel tol lo hi = .ok (x, y, z) →
      (∀ v, v ∈ x ↔ v = lo.1 ∨ v = hi.1 ∨ ∃ q, c.Shows q ∧ v = rnd q.1) ∧ (∀ v, v ∈ y ↔ v = lo.2.1 ∨ v = hi.2.1 ∨ ∃ q, c.Shows q ∧ v = rnd q.2.1) ∧
      (∀ v, v ∈ z ↔ v = lo.2.2 ∨ v = hi.2.2 ∨ ∃ q, c.Shows q ∧ v = rnd q.2.2) := by
  refine ⟨?_, ?_⟩
  · unfold plotSnaps computeSnaps
    cases edgesOf S sel with
    | error e => simp [bind, Except.bind]
    | ok p => simp [bind, Except.bind, pure, Except.pure]
  · intro c x y z hc hx
    obtain ⟨p, hp, h1, h2, h3, -⟩ := C136_actual hx
    unfold plotSnaps at hc
    rw [hp] at hc
    obtain rfl := Except.ok.inj hc
    have key : ∀ q, Clouds.Shows ⟨p.filter fun q => decide (|q.2.1| < tol), p.filter fun q => decide (|q.1| < tol), p.filter fun q => decide (|q.2.2| < tol)⟩ q ↔ q ∈ p ∧ OnPlane tol q := by
      intro q
      unfold Clouds.Shows OnPlane
      simp only [List.mem_filter, decide_eq_true_eq]
      tauto
    simp only [key, and_assoc]
    exact ⟨h1, h2, h3⟩

/-- **C136 (partial).** A feature point in a coordinate plane has each of its coordinates, rounded, among the snap points.  Missing: points elsewhere (`C136_moved_refuted`). -/
theorem C136_partial {S : Shapes K} {rnd : K → K} {sel : Option (List String)} {tol : K} {lo hi : K × K × K} {x y z : List K} (h : computeSnaps S rnd sel tol lo hi = .ok (x, y, z))
    {p : List (K × K × K)} (hp : edgesOf S sel = .ok p) {q : K × K × K} (hq : q ∈ p) (ho : OnPlane tol q) : rnd q.1 ∈ x ∧ rnd q.2.1 ∈ y ∧ rnd q.2.2 ∈ z := by
  obtain ⟨p', hp', h1, h2, h3, -⟩ := C136_actual h
  obtain rfl := Except.ok.inj (hp.symm.trans hp')
  exact ⟨(h1 _).2 (.inr (.inr ⟨q, hq, ho, rfl⟩)), (h2 _).2 (.inr (.inr ⟨q, hq, ho, rfl⟩)), (h3 _).2 (.inr (.inr ⟨q, hq, ho, rfl⟩))⟩

variable [IsStrictOrderedRing K]

/-- **C136 (refuted: moved geometries).** Every geometry can be moved so that none of its points is a snap point: the refinement then knows the bounds of the domain only.  (The points used
lie in planes through the origin, wherever the geometry is.) -/
theorem C136_moved_refuted (S : Shapes K) (rnd : K → K) (sel : Option (List String)) (tol : K) {p : List (K × K × K)} (hp : edgesOf S sel = .ok p) :
    ∃ d : K × K × K, ∀ lo hi : K × K × K, ∃ x y z, computeSnaps (S.moved d) rnd sel tol lo hi = .ok (x, y, z) ∧
      (∀ v, v ∈ x ↔ v = lo.1 ∨ v = hi.1) ∧ (∀ v, v ∈ y ↔ v = lo.2.1 ∨ v = hi.2.1) ∧ ∀ v, v ∈ z ↔ v = lo.2.2 ∨ v = hi.2.2 := by
  -- a number beyond all coordinates
  have hB : ∀ l : List K, ∃ B, ∀ v ∈ l, -v ≤ B := by
    intro l
    induction l with
    | nil => exact ⟨0, by simp⟩
    | cons a l ih =>
      obtain ⟨B, hB⟩ := ih
      refine ⟨max (-a) B, fun v hv => ?_⟩
      rcases List.mem_cons.1 hv with rfl | hv
      · exact le_max_left _ _
      · exact (hB v hv).trans (le_max_right _ _)
  obtain ⟨B1, h1⟩ := hB (p.map fun q => q.1)
  obtain ⟨B2, h2⟩ := hB (p.map fun q => q.2.1)
  obtain ⟨B3, h3⟩ := hB (p.map fun q => q.2.2)
  refine ⟨(B1 + |tol|, B2 + |tol|, B3 + |tol|), fun lo hi => ?_⟩
  have hm : edgesOf (S.moved (B1 + |tol|, B2 + |tol|, B3 + |tol|)) sel = .ok (p.map fun q => (q.1 + (B1 + |tol|), q.2.1 + (B2 + |tol|), q.2.2 + (B3 + |tol|))) := by
    unfold edgesOf at hp ⊢
    cases hn : S.names with
    | none => rw [hn] at hp; cases sel with
      | none => simp at hp
      | some l => cases l <;> simp at hp
    | some all =>
      rw [hn] at hp
      simp only [Shapes.moved, hn] at hp ⊢
      by_cases hl : sel.getD all = []
      · rw [if_pos hl] at hp; simp at hp
      · rw [if_neg hl] at hp ⊢
        by_cases hk : ∃ k ∈ sel.getD all, k ∉ all
        · rw [if_pos hk] at hp; simp at hp
        · rw [if_neg hk] at hp ⊢
          rw [Except.ok.inj hp]
  have far : ∀ (a B : K), -a ≤ B → ¬ |a + (B + |tol|)| < tol := by
    intro a B h
    have h0 : |tol| ≤ a + (B + |tol|) := by linarith
    have h4 := abs_nonneg tol
    rw [abs_of_nonneg (h4.trans h0)]
    exact not_lt.2 ((le_abs_self tol).trans h0)
  have off : ∀ q ∈ p.map fun q => (q.1 + (B1 + |tol|), q.2.1 + (B2 + |tol|), q.2.2 + (B3 + |tol|)), ¬ OnPlane tol q := by
    intro q hq
    obtain ⟨r, hr, rfl⟩ := List.mem_map.1 hq
    rintro (h | h | h)
    · exact far r.1 B1 (h1 _ (List.mem_map.2 ⟨r, hr, rfl⟩)) h
    · exact far r.2.1 B2 (h2 _ (List.mem_map.2 ⟨r, hr, rfl⟩)) h
    · exact far r.2.2 B3 (h3 _ (List.mem_map.2 ⟨r, hr, rfl⟩)) h
  have none_ : ∀ (coord : K × K × K → K) (a b v : K), v ∈ snapsOf rnd tol (p.map fun q => (q.1 + (B1 + |tol|), q.2.1 + (B2 + |tol|), q.2.2 + (B3 + |tol|))) coord a b ↔ v = a ∨ v = b := by
    intro coord a b v
    rw [mem_snapsOf]
    constructor
    · rintro (h | h | ⟨q, hq, ho, -⟩)
      · exact .inl h
      · exact .inr h
      · exact absurd ho (off q hq)
    · rintro (h | h)
      · exact .inl h
      · exact .inr (.inl h)
  refine ⟨_, _, _, by unfold computeSnaps; rw [hm]; rfl, none_ _ _ _, none_ _ _ _, none_ _ _ _⟩

/-- **C136 (refuted: small structures).** `np.round(·, 5)` keeps multiples of 10 µm: of a geometry within 5 µm of the origin, all snap points are 0 or a bound, however many features it has. -/
theorem C136_small_refuted {S : Shapes K} {rnd : K → K} (hr : ∀ v, |v| < 1 / 200000 → rnd v = 0) {sel : Option (List String)} {tol : K} {lo hi : K × K × K} {x y z : List K}
    (h : computeSnaps S rnd sel tol lo hi = .ok (x, y, z)) {p : List (K × K × K)} (hp : edgesOf S sel = .ok p)
    (hs : ∀ q ∈ p, |q.1| < 1 / 200000 ∧ |q.2.1| < 1 / 200000 ∧ |q.2.2| < 1 / 200000) :
    (∀ v ∈ x, v = lo.1 ∨ v = hi.1 ∨ v = 0) ∧ (∀ v ∈ y, v = lo.2.1 ∨ v = hi.2.1 ∨ v = 0) ∧ ∀ v ∈ z, v = lo.2.2 ∨ v = hi.2.2 ∨ v = 0 := by
  obtain ⟨p', hp', h1, h2, h3, -⟩ := C136_actual h
  obtain rfl := Except.ok.inj (hp.symm.trans hp')
  refine ⟨fun v hv => ?_, fun v hv => ?_, fun v hv => ?_⟩
  · rcases (h1 v).1 hv with h | h | ⟨q, hq, -, rfl⟩
    · exact .inl h
    · exact .inr (.inl h)
    · exact .inr (.inr (hr _ (hs q hq).1))
  · rcases (h2 v).1 hv with h | h | ⟨q, hq, -, rfl⟩
    · exact .inl h
    · exact .inr (.inl h)
    · exact .inr (.inr (hr _ (hs q hq).2.1))
  · rcases (h3 v).1 hv with h | h | ⟨q, hq, -, rfl⟩
    · exact .inl h
    · exact .inr (.inl h)
    · exact .inr (.inr (hr _ (hs q hq).2.2))

/-! ### Cases -/

/-- Two bars along x in the plane z = 0, "a" from 0 to 1 at y = 1 and "b" from 2 to 3 at y = 2: their ends. -/
def twoBars : Shapes ℚ := ⟨some ["a", "b"], fun l => (if "a" ∈ l then [(0, 1, 0), (1, 1, 0)] else []) ++ if "b" ∈ l then [(2, 2, 0), (3, 2, 0)] else []⟩

/-- The hypotheses of `C136_partial`, `C136_moved_refuted`: a geometry with four snap points besides the bounds. -/
example : edgesOf twoBars none = .ok [(0, 1, 0), (1, 1, 0), (2, 2, 0), (3, 2, 0)] ∧ OnPlane (1 / 100 : ℚ) (3, 2, 0) := by
  refine ⟨rfl, .inr (.inr ?_)⟩
  norm_num

/-- **C136 (picture, refuted for defaults).** `plot_snap_points()` without arguments shows the points of all solids with its own tolerance, not those the grid was refined with: here the grid
uses the points of "a" alone, and the picture shows an end of "b" that is no snap point. -/
theorem C136_default_refuted : ∃ c x y z, plotSnaps twoBars none (1 / 10 ^ 8) = .ok c ∧ computeSnaps twoBars id (some ["a"]) (1 / 10 ^ 8) (-1, -1, -1) (5, 5, 5) = .ok (x, y, z) ∧
    c.Shows (3, 2, 0) ∧ (3 : ℚ) ∉ x ∧ (2 : ℚ) ∉ y := by
  refine ⟨_, _, _, _, rfl, rfl, .inr (.inr ?_), ?_, ?_⟩
  · refine List.mem_filter.2 ⟨?_, by norm_num⟩
    show ((3, 2, 0) : ℚ × ℚ × ℚ) ∈ [(0, 1, 0), (1, 1, 0), (2, 2, 0), (3, 2, 0)]
    simp
  · rw [mem_snapsOf]
    show ¬ ((3 : ℚ) = -1 ∨ (3 : ℚ) = 5 ∨ ∃ q ∈ ([(0, 1, 0), (1, 1, 0)] : List (ℚ × ℚ × ℚ)), OnPlane (1 / 10 ^ 8) q ∧ 3 = id q.1)
    norm_num
  · rw [mem_snapsOf]
    show ¬ ((2 : ℚ) = -1 ∨ (2 : ℚ) = 5 ∨ ∃ q ∈ ([(0, 1, 0), (1, 1, 0)] : List (ℚ × ℚ × ℚ)), OnPlane (1 / 10 ^ 8) q ∧ 2 = id q.2.1)
    norm_num

end SnapPts
end Grid
end Wakis
