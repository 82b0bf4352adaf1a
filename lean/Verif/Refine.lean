import Verif.GridProps
import Mathlib.Data.Finset.Sort
import Mathlib.Data.List.Sort
import Mathlib.Algebra.Order.AbsoluteValue.Basic

/-!
# C76: mesh refinement (`refine_axis`, `_compute_snap_points`, `_refine_xyz_axis` of `wakis/gridFIT3D.py`)

`scipy.optimize.least_squares` is a parameter of the model: a function from the starting nodes and the marks of the snap points to the returned nodes.  What a theorem needs of it is
a hypothesis of that theorem.
-/

namespace Wakis
namespace Grid
variable {K : Type _} [Field K] [LinearOrder K]

/-- `np.unique(l)`: the distinct values in increasing order. -/
def npUnique (l : List K) : List K := l.dedup.insertionSort (· ≤ ·)

/-- `np.linspace(0, 1, n)`, a list of `n` points. -/
def unitPoints (n : ℕ) : List K := (List.range n).map (linspace 0 1 (n - 1))

/-- gridFIT3D.py:686-687, method `"insert"`; `Nx` is the number of nodes asked for.  `np.linspace` raises `ValueError` for a negative number of points. -/
def insertStart (snaps : List K) (Nx : ℕ) : Py (List K) :=
  if Nx < snaps.length then .error .valueError
  else .ok (npUnique (snaps ++ unitPoints (Nx - snaps.length)))

/-- gridFIT3D.py:693-695: the first node within `dx/2` of the snap point is moved onto it. -/
def neighborStep (dx : K) (x : List K) (s : K) : List K :=
  match x.findIdx? fun v => decide (|v - s| ≤ dx / 2) with
  | some i => x.set i s
  | none => x

/-- gridFIT3D.py:689-696, method `"neighbor"`.  `np.diff(x)[0]` needs two nodes. -/
def neighborStart (snaps : List K) (Nx : ℕ) : Py (List K) :=
  if Nx < 2 then .error .indexError
  else
    let x := unitPoints Nx
    .ok (snaps.foldl (neighborStep (x.getD 1 0 - x.getD 0 0)) x)

/-- gridFIT3D.py:684-717: the starting nodes.  `"subdivision"` uses the local variable `x` before it has a value (the assignment is commented out, line 699). -/
def startNodes (method : String) (snaps : List K) (Nx : ℕ) : Py (List K) :=
  if method = "insert" then insertStart snaps Nx
  else if method = "neighbor" then neighborStart snaps Nx
  else if method = "subdivision" then .error .unboundLocalError
  else .error .valueError

/-- gridFIT3D.py:644-732 `refine_axis`.  `lsq` is `least_squares` with the loss of lines 668-679 and bounds `(0, 1)`; it refuses starting values outside the bounds. -/
def refineAxis (lsq : List K → List Bool → List K) (xmin xmax : K) (Nx : ℕ) (snaps : List K) (method : String) : Py (List K) := do
  let snaps := snaps.map fun s => (s - xmin) / (xmax - xmin)
  let x0 ← startNodes method snaps Nx
  if x0.all fun v => decide (0 ≤ v ∧ v ≤ 1) then
    return (lsq x0 (x0.map fun v => decide (v ∈ snaps))).map fun v => v * (xmax - xmin) + xmin
  else .error .valueError

/-- gridFIT3D.py:553-571: coordinate `c` of the feature points that lie in one of the three coordinate planes, rounded (`rnd` is `np.round(·, 5)`), with the bounds of the domain. -/
def snapsOf (rnd : K → K) (tol : K) (points : List (K × K × K)) (coord : K × K × K → K) (lo hi : K) : List K :=
  let xz := points.filter fun p => decide (|p.2.1| < tol)
  let yz := points.filter fun p => decide (|p.1| < tol)
  let xy := points.filter fun p => decide (|p.2.2| < tol)
  npUnique ([lo] ++ npUnique ((xz ++ yz ++ xy).map fun p => rnd (coord p)) ++ [hi])

/-! ### Specification -/

/-- What scipy guarantees: as many values as it was given, inside the bounds `(0, 1)`. -/
def Bounded (lsq : List K → List Bool → List K) : Prop := ∀ x0 m, (lsq x0 m).length = x0.length ∧ ∀ v ∈ lsq x0 m, 0 ≤ v ∧ v ≤ 1

/-- The optimiser leaves the marked nodes where they are. -/
def KeepsMarked (lsq : List K → List Bool → List K) : Prop := ∀ (x0 : List K) (m : List Bool) (i : ℕ), m[i]? = some true → (lsq x0 m)[i]? = x0[i]?

/-- The optimiser does not reorder or merge nodes. -/
def KeepsOrder (lsq : List K → List Bool → List K) : Prop := ∀ (x0 : List K) (m : List Bool), x0.Pairwise (· < ·) → (lsq x0 m).Pairwise (· < ·)

/-! ### Lemmas -/

theorem mem_npUnique {l : List K} {v : K} : v ∈ npUnique l ↔ v ∈ l := by
  rw [npUnique, (List.perm_insertionSort _ _).mem_iff, List.mem_dedup]

theorem npUnique_sorted (l : List K) : (npUnique l).Pairwise (· < ·) := by
  have h1 : (npUnique l).Pairwise (· ≤ ·) := List.pairwise_insertionSort _ _
  have h2 : (npUnique l).Nodup := (List.perm_insertionSort (· ≤ ·) l.dedup).nodup_iff.2 (List.nodup_dedup l)
  exact (h1.and h2).imp fun ⟨a, b⟩ => lt_of_le_of_ne a b

theorem length_npUnique (l : List K) : (npUnique l).length = l.toFinset.card := by
  rw [npUnique, (List.perm_insertionSort _ _).length_eq, List.card_toFinset]

variable [IsStrictOrderedRing K]

theorem unitPoints_length (n : ℕ) : (unitPoints n : List K).length = n := by simp [unitPoints]

theorem linspace_unit {n i : ℕ} (h : i ≤ n) : linspace (0 : K) 1 n i = i * (1 / n) := by
  unfold linspace
  split_ifs with hh
  · rw [hh.1, mul_one_div, div_self]; exact_mod_cast hh.2.ne'
  · rw [zero_add, sub_zero]

theorem unitPoints_mem {n : ℕ} {v : K} (h : v ∈ (unitPoints n : List K)) : 0 ≤ v ∧ v ≤ 1 := by
  simp only [unitPoints, List.mem_map, List.mem_range] at h
  obtain ⟨i, hi, rfl⟩ := h
  rw [linspace_unit (by omega)]
  rcases Nat.eq_zero_or_pos (n - 1) with h0 | h0
  · simp [h0]
  · have h1 : (0 : K) < (n - 1 : ℕ) := by exact_mod_cast h0
    refine ⟨by positivity, ?_⟩
    rw [mul_one_div, div_le_one h1]
    exact_mod_cast (by omega : i ≤ n - 1)

/-- The returned axis, from the starting nodes. -/
theorem refineAxis_ok {lsq : List K → List Bool → List K} {xmin xmax : K} {Nx : ℕ} {snaps : List K} {method : String} {x : List K}
    (h : refineAxis lsq xmin xmax Nx snaps method = .ok x) :
    ∃ x0, startNodes method (snaps.map fun s => (s - xmin) / (xmax - xmin)) Nx = .ok x0 ∧ (∀ v ∈ x0, 0 ≤ v ∧ v ≤ 1) ∧
      x = (lsq x0 (x0.map fun v => decide (v ∈ snaps.map fun s => (s - xmin) / (xmax - xmin)))).map fun v => v * (xmax - xmin) + xmin := by
  unfold refineAxis at h
  dsimp only at h
  cases hs : startNodes method (snaps.map fun s => (s - xmin) / (xmax - xmin)) Nx with
  | error e => rw [hs] at h; cases h
  | ok x0 =>
    rw [hs] at h
    simp only [bind, Except.bind] at h
    split_ifs at h with hb
    refine ⟨x0, rfl, ?_, ?_⟩
    · intro v hv
      simpa using List.all_eq_true.1 hb v hv
    · simp only [pure, Except.pure, Except.ok.injEq] at h
      exact h.symm

/-! ### Theorems -/

/-- **C76 (inside the domain).** Every node of a refined axis lies in the domain, for every method, every list of snap points and every number of nodes. -/
theorem C76_bounds {lsq : List K → List Bool → List K} (hl : Bounded lsq) {xmin xmax : K} (hx : xmin < xmax) {Nx : ℕ} {snaps : List K} {method : String} {x : List K}
    (h : refineAxis lsq xmin xmax Nx snaps method = .ok x) : ∀ v ∈ x, xmin ≤ v ∧ v ≤ xmax := by
  obtain ⟨x0, _, _, rfl⟩ := refineAxis_ok h
  intro v hv
  obtain ⟨w, hw, rfl⟩ := List.mem_map.1 hv
  obtain ⟨h0, h1⟩ := (hl _ _).2 w hw
  have hd : 0 < xmax - xmin := sub_pos.2 hx
  constructor <;> nlinarith

/-- **C76 (refuted: `subdivision`).** The documented method `"subdivision"` always raises. -/
theorem C76_subdivision_refuted (lsq : List K → List Bool → List K) (xmin xmax : K) (Nx : ℕ) (snaps : List K) :
    refineAxis lsq xmin xmax Nx snaps "subdivision" = .error .unboundLocalError := by
  have h1 : ("subdivision" : String) ≠ "insert" := by decide
  have h2 : ("subdivision" : String) ≠ "neighbor" := by decide
  simp only [refineAxis, startNodes, if_neg h1, if_neg h2, if_true]; rfl

/-- **C76 (unknown methods).** Any other name is refused. -/
theorem C76_unknown (lsq : List K → List Bool → List K) (xmin xmax : K) (Nx : ℕ) (snaps : List K) {method : String}
    (h : method ∉ ["insert", "neighbor", "subdivision"]) : refineAxis lsq xmin xmax Nx snaps method = .error .valueError := by
  simp only [List.mem_cons, List.not_mem_nil, or_false, not_or] at h
  simp only [refineAxis, startNodes, if_neg h.1, if_neg h.2.1, if_neg h.2.2]; rfl

theorem normalise_inj {xmin xmax : K} (hx : xmin < xmax) : Function.Injective fun s : K => (s - xmin) / (xmax - xmin) := by
  intro a b h
  have hd : xmax - xmin ≠ 0 := (sub_pos.2 hx).ne'
  simp only at h
  rw [div_left_inj' hd] at h
  linarith

theorem normalise_back {xmin xmax : K} (hx : xmin < xmax) (s : K) : (s - xmin) / (xmax - xmin) * (xmax - xmin) + xmin = s := by
  rw [div_mul_cancel₀ _ (sub_pos.2 hx).ne']; ring

/-- **C76 (`insert`: when it works).** With snap points inside the domain, `"insert"` returns an axis exactly when at least as many nodes are asked for as there are snap points. -/
theorem C76_insert_accepts (lsq : List K → List Bool → List K) {xmin xmax : K} (hx : xmin < xmax) (Nx : ℕ) {snaps : List K}
    (hin : ∀ s ∈ snaps, xmin ≤ s ∧ s ≤ xmax) : (∃ x, refineAxis lsq xmin xmax Nx snaps "insert" = .ok x) ↔ snaps.length ≤ Nx := by
  have hd : 0 < xmax - xmin := sub_pos.2 hx
  constructor
  · rintro ⟨x, h⟩
    obtain ⟨x0, h0, _⟩ := refineAxis_ok h
    simp only [startNodes, if_true, insertStart, List.length_map] at h0
    by_contra hn
    rw [if_pos (by omega)] at h0
    cases h0
  · intro hn
    · unfold refineAxis
      simp only [startNodes, if_true, insertStart, List.length_map, if_neg (not_lt.2 hn), bind, Except.bind]
      rw [if_pos]
      · exact ⟨_, rfl⟩
      · rw [List.all_eq_true]
        intro v hv
        rw [mem_npUnique, List.mem_append] at hv
        rcases hv with hv | hv
        · obtain ⟨s, hs, rfl⟩ := List.mem_map.1 hv
          obtain ⟨h0, h1⟩ := hin s hs
          simp only [decide_eq_true_eq]
          exact ⟨div_nonneg (by linarith) hd.le, (div_le_one hd).2 (by linarith)⟩
        · simpa using unitPoints_mem hv

/-- **C76 (refuted: solids that reach outside).** One snap point outside the domain, and `"insert"` raises. -/
theorem C76_outside_refuted (lsq : List K → List Bool → List K) {xmin xmax : K} (hx : xmin < xmax) (Nx : ℕ) {snaps : List K} {s : K} (hs : s ∈ snaps) (hout : s < xmin ∨ xmax < s) :
    refineAxis lsq xmin xmax Nx snaps "insert" = .error .valueError := by
  have hd : 0 < xmax - xmin := sub_pos.2 hx
  unfold refineAxis
  simp only [startNodes, if_true, insertStart, List.length_map]
  split_ifs with h1
  · rfl
  · simp only [bind, Except.bind]
    rw [if_neg]
    intro hb
    have := List.all_eq_true.1 hb ((s - xmin) / (xmax - xmin)) (mem_npUnique.2 (List.mem_append_left _ (List.mem_map.2 ⟨s, hs, rfl⟩)))
    simp only [decide_eq_true_eq] at this
    rcases hout with h | h
    · exact absurd this.1 (not_le.2 (div_neg_of_neg_of_pos (by linarith) hd))
    · exact absurd this.2 (not_le.2 ((one_lt_div hd).2 (by linarith)))

/-- **C76 (`insert`, partial: the optimiser must leave snap points where they are).** Every snap point, the bounds included, is a node of the refined axis. -/
theorem C76_snaps_partial {lsq : List K → List Bool → List K} (hk : KeepsMarked lsq) {xmin xmax : K} (hx : xmin < xmax) {Nx : ℕ} {snaps x : List K}
    (h : refineAxis lsq xmin xmax Nx snaps "insert" = .ok x) : ∀ s ∈ snaps, s ∈ x := by
  obtain ⟨x0, h0, _, rfl⟩ := refineAxis_ok h
  simp only [startNodes, if_true, insertStart, List.length_map] at h0
  split_ifs at h0 with hn
  simp only [Except.ok.injEq] at h0
  intro s hs
  have hm : (s - xmin) / (xmax - xmin) ∈ x0 := by
    rw [← h0, mem_npUnique]
    exact List.mem_append_left _ (List.mem_map.2 ⟨s, hs, rfl⟩)
  obtain ⟨i, hi⟩ := List.mem_iff_getElem?.1 hm
  refine List.mem_map.2 ⟨(s - xmin) / (xmax - xmin), ?_, normalise_back hx s⟩
  refine List.mem_iff_getElem?.2 ⟨i, ?_⟩
  rw [hk _ _ i, hi]
  rw [List.getElem?_map, hi]
  simp only [Option.map_some, Option.some.injEq, decide_eq_true_eq]
  exact List.mem_map.2 ⟨s, hs, rfl⟩

/-- **C76 (`insert`, order; partial: the optimiser must keep the order).** The refined axis is strictly increasing. -/
theorem C76_sorted_partial {lsq : List K → List Bool → List K} (ho : KeepsOrder lsq) {xmin xmax : K} (hx : xmin < xmax) {Nx : ℕ} {snaps x : List K}
    (h : refineAxis lsq xmin xmax Nx snaps "insert" = .ok x) : x.Pairwise (· < ·) := by
  obtain ⟨x0, h0, _, rfl⟩ := refineAxis_ok h
  simp only [startNodes, if_true, insertStart, List.length_map] at h0
  split_ifs at h0 with hn
  simp only [Except.ok.injEq] at h0
  have hs := ho x0 (x0.map fun v => decide (v ∈ snaps.map fun s => (s - xmin) / (xmax - xmin))) (h0 ▸ npUnique_sorted _)
  rw [List.pairwise_map]
  refine hs.imp fun hab => ?_
  have hd : 0 < xmax - xmin := sub_pos.2 hx
  nlinarith

/-- **C76 (`insert`: number of cells).** With distinct snap points that include both bounds, the axis has at most two nodes fewer than asked for when two or more nodes are left over, at
most one fewer when one is left over, and exactly the snap points when none is. -/
theorem C76_insert_count {lsq : List K → List Bool → List K} (hl : Bounded lsq) {xmin xmax : K} (hx : xmin < xmax) {Nx : ℕ} {snaps x : List K} (hn : snaps.Nodup)
    (hlo : xmin ∈ snaps) (hhi : xmax ∈ snaps) (h : refineAxis lsq xmin xmax Nx snaps "insert" = .ok x) :
    snaps.length ≤ x.length ∧ x.length + min 2 (Nx - snaps.length) ≤ Nx := by
  obtain ⟨x0, h0, _, rfl⟩ := refineAxis_ok h
  simp only [startNodes, if_true, insertStart, List.length_map] at h0
  split_ifs at h0 with hN
  simp only [Except.ok.injEq] at h0
  rw [List.length_map, (hl _ _).1, ← h0, length_npUnique]
  set S := snaps.map fun s => (s - xmin) / (xmax - xmin) with hS
  have hSn : S.Nodup := hn.map (normalise_inj hx)
  have hSl : S.length = snaps.length := List.length_map _
  have hd : xmax - xmin ≠ 0 := (sub_pos.2 hx).ne'
  have h0S : (0 : K) ∈ S := List.mem_map.2 ⟨xmin, hlo, by simp⟩
  have h1S : (1 : K) ∈ S := List.mem_map.2 ⟨xmax, hhi, by simp [div_self hd]⟩
  have hcard : S.toFinset.card = snaps.length := by rw [List.toFinset_card_of_nodup hSn, hSl]
  constructor
  · rw [← hcard]
    exact Finset.card_le_card (by intro v hv; simp only [List.mem_toFinset, List.mem_append] at hv ⊢; exact .inl hv)
  · set n := Nx - snaps.length with hn'
    have hsplit : (S ++ unitPoints n).toFinset = S.toFinset ∪ ((unitPoints n).toFinset \ S.toFinset) := by
      rw [List.toFinset_append, Finset.union_sdiff_self_eq_union]
    rw [hsplit]
    have hle := Finset.card_union_le S.toFinset ((unitPoints n).toFinset \ S.toFinset)
    rw [hcard] at hle
    suffices hrest : ((unitPoints n).toFinset \ S.toFinset : Finset K).card + min 2 n ≤ n by omega
    have hsub : (min 2 n) ≤ ((unitPoints n).toFinset ∩ S.toFinset : Finset K).card ∨ n = 0 := by
      rcases Nat.eq_zero_or_pos n with hz | hz
      · right; exact hz
      left
      have h0U : (0 : K) ∈ (unitPoints n : List K) := by
        refine List.mem_map.2 ⟨0, List.mem_range.2 hz, ?_⟩
        rw [linspace_unit (Nat.zero_le _)]; simp
      rcases Nat.lt_or_ge n 2 with h2 | h2
      · have : n = 1 := by omega
        rw [this]
        have : (0 : K) ∈ ((unitPoints n).toFinset ∩ S.toFinset : Finset K) := by simp [h0U, h0S]
        rw [‹n = 1›] at this
        exact Finset.card_pos.2 ⟨_, this⟩
      · have h1U : (1 : K) ∈ (unitPoints n : List K) := by
          refine List.mem_map.2 ⟨n - 1, List.mem_range.2 (by omega), ?_⟩
          unfold linspace
          rw [if_pos ⟨rfl, by omega⟩]
        have : ({0, 1} : Finset K) ⊆ (unitPoints n).toFinset ∩ S.toFinset := by
          intro v hv
          simp only [Finset.mem_insert, Finset.mem_singleton] at hv
          rcases hv with rfl | rfl <;> simp [h0U, h0S, h1U, h1S]
        have hc := Finset.card_le_card this
        rw [Finset.card_pair zero_ne_one] at hc
        omega
    have htot : ((unitPoints n).toFinset : Finset K).card ≤ n := (List.toFinset_card_le _).trans (unitPoints_length n).le
    have := Finset.card_sdiff_add_card_inter (unitPoints n : List K).toFinset S.toFinset
    omega

/-- **C76 (refuted: number of cells).** With `"insert"`, snap points that include both bounds and room for more nodes, the refined axis has fewer cells than asked for. -/
theorem C76_cells_refuted {lsq : List K → List Bool → List K} (hl : Bounded lsq) {xmin xmax : K} (hx : xmin < xmax) {cells : ℕ} {snaps x : List K} (hn : snaps.Nodup)
    (hlo : xmin ∈ snaps) (hhi : xmax ∈ snaps) (hroom : snaps.length < cells + 1) (h : refineAxis lsq xmin xmax (cells + 1) snaps "insert" = .ok x) : x.length - 1 < cells := by
  have := C76_insert_count hl hx hn hlo hhi h
  have h2 : 1 ≤ snaps.length := List.length_pos_of_mem hlo
  omega

/-! #### Method `neighbor` -/

theorem neighborStep_length (dx : K) (x : List K) (s : K) : (neighborStep dx x s).length = x.length := by
  unfold neighborStep; split <;> simp

theorem neighbor_length (dx : K) (snaps x : List K) : (snaps.foldl (neighborStep dx) x).length = x.length := by
  induction snaps generalizing x with
  | nil => rfl
  | cons s rest ih => rw [List.foldl_cons, ih, neighborStep_length]

/-- **C76 (`neighbor`: number of cells).** `"neighbor"` returns exactly the number of nodes asked for. -/
theorem C76_neighbor_count {lsq : List K → List Bool → List K} (hl : Bounded lsq) {xmin xmax : K} {Nx : ℕ} {snaps x : List K}
    (h : refineAxis lsq xmin xmax Nx snaps "neighbor" = .ok x) : x.length = Nx := by
  obtain ⟨x0, h0, _, rfl⟩ := refineAxis_ok h
  have hne : ("neighbor" : String) ≠ "insert" := by decide
  simp only [startNodes, if_neg hne, if_true, neighborStart] at h0
  split_ifs at h0 with hN
  simp only [Except.ok.injEq] at h0
  rw [List.length_map, (hl _ _).1, ← h0, neighbor_length, unitPoints_length]

/-- The state of the loop over the snap points of `"neighbor"`: `n+1` nodes; each node is where it started or on a snap point already handled and within half a cell of its start;
handled snap points are nodes; no two nodes coincide. -/
structure NbInv (n : ℕ) (dx : K) (done : List K) (x : List K) : Prop where
  len : x.length = n + 1
  val : ∀ (i : ℕ) (v : K), x[i]? = some v → v = i * dx ∨ (v ∈ done ∧ |v - i * dx| ≤ dx / 2)
  has : ∀ s ∈ done, s ∈ x
  nodup : x.Nodup

theorem nearest_node {n : ℕ} (hn : 0 < n) {dx s : K} (hdx : dx = 1 / n) (h0 : 0 ≤ s) (h1 : s ≤ 1) : ∃ j ≤ n, |(j : K) * dx - s| ≤ dx / 2 := by
  have hn' : (0 : K) < n := by exact_mod_cast hn
  have hdp : 0 < dx := by rw [hdx]; positivity
  have hndx : (n : K) * dx = 1 := by rw [hdx, mul_one_div, div_self hn'.ne']
  have key : ∀ m : ℕ, s ≤ m * dx → ∃ j ≤ m, |(j : K) * dx - s| ≤ dx / 2 := by
    intro m
    induction m with
    | zero =>
      intro hm
      refine ⟨0, le_rfl, ?_⟩
      have : s = 0 := le_antisymm (by simpa using hm) h0
      rw [this]; simp; positivity
    | succ m ih =>
      intro hm
      by_cases hle : s ≤ m * dx
      · obtain ⟨j, hj, hh⟩ := ih hle
        exact ⟨j, by omega, hh⟩
      · push Not at hle
        push_cast at hm
        by_cases hmid : s ≤ m * dx + dx / 2
        · refine ⟨m, by omega, ?_⟩
          rw [abs_le]; constructor <;> linarith
        · push Not at hmid
          refine ⟨m + 1, le_rfl, ?_⟩
          push_cast
          rw [abs_le]; constructor <;> nlinarith
  exact key n (by rw [hndx]; exact h1)

theorem nb_step {n : ℕ} (hn : 0 < n) {dx : K} (hdx : dx = 1 / n) {done x : List K} {s : K} (h0 : 0 ≤ s) (h1 : s ≤ 1) (hsep : ∀ t ∈ done, dx < |t - s|)
    (I : NbInv n dx done x) : NbInv n dx (done ++ [s]) (neighborStep dx x s) := by
  have hn' : (0 : K) < n := by exact_mod_cast hn
  have hdp : 0 < dx := by rw [hdx]; positivity
  obtain ⟨j, hj, hjs⟩ := nearest_node hn hdx h0 h1
  have hjx : x[j]? = some ((j : K) * dx) := by
    have hlt : j < x.length := by rw [I.len]; omega
    obtain hv := I.val j x[j] (List.getElem?_eq_getElem hlt)
    rcases hv with hv | ⟨hv, hd⟩
    · rw [List.getElem?_eq_getElem hlt, hv]
    · exfalso
      have := hsep _ hv
      have h2 : |x[j] - s| ≤ |x[j] - j * dx| + |(j : K) * dx - s| := abs_sub_le _ _ _
      linarith
  have hsome : ∃ i, x.findIdx? (fun v => decide (|v - s| ≤ dx / 2)) = some i := by
    rcases hf : x.findIdx? (fun v => decide (|v - s| ≤ dx / 2)) with _ | i
    · rw [List.findIdx?_eq_none_iff] at hf
      have := hf _ (List.mem_of_getElem? hjx)
      simp only [decide_eq_false_iff_not] at this
      exact absurd hjs this
    · exact ⟨i, rfl⟩
  obtain ⟨i, hi⟩ := hsome
  obtain ⟨hlt, hpi, hfirst⟩ := List.findIdx?_eq_some_iff_getElem.1 hi
  simp only [decide_eq_true_eq] at hpi
  have hxi : x[i] = (i : K) * dx := by
    rcases I.val i x[i] (List.getElem?_eq_getElem hlt) with hv | ⟨hv, _⟩
    · exact hv
    · have := hsep _ hv; linarith
  have hstep : neighborStep dx x s = x.set i s := by unfold neighborStep; rw [hi]
  have hother : ∀ (k : ℕ) (v : K), x[k]? = some v → k ≠ i → v ≠ s := by
    rintro k v hk hne rfl
    rcases I.val k v hk with hv | ⟨hv, _⟩
    · rw [hxi, hv, ← sub_mul, abs_mul, abs_of_pos hdp] at hpi
      have hint : (1 : K) ≤ |(i : K) - k| := by
        rcases lt_or_gt_of_ne hne with hlt' | hlt'
        · have : (k : K) + 1 ≤ i := by exact_mod_cast hlt'
          rw [le_abs]; left; linarith
        · have : (i : K) + 1 ≤ k := by exact_mod_cast hlt'
          rw [le_abs]; right; linarith
      nlinarith
    · have := hsep _ hv
      rw [sub_self, abs_zero] at this
      linarith
  rw [hstep]
  refine ⟨by rw [List.length_set, I.len], ?_, ?_, ?_⟩
  · intro k v hk
    by_cases hki : k = i
    · subst hki
      rw [List.getElem?_set_self (by omega)] at hk
      cases hk
      right
      refine ⟨by simp, ?_⟩
      rw [← hxi, abs_sub_comm]; exact hpi
    · rw [List.getElem?_set_ne (by omega)] at hk
      rcases I.val k v hk with hv | ⟨hv, hd⟩
      · exact .inl hv
      · exact .inr ⟨by simp [hv], hd⟩
  · intro t ht
    rw [List.mem_append, List.mem_singleton] at ht
    rcases ht with ht | rfl
    · obtain ⟨k, hk⟩ := List.mem_iff_getElem?.1 (I.has t ht)
      have hki : k ≠ i := by
        rintro rfl
        rw [List.getElem?_eq_getElem hlt, Option.some.injEq] at hk
        have := hsep t ht
        rw [hk] at hpi
        linarith
      exact List.mem_iff_getElem?.2 ⟨k, by rw [List.getElem?_set_ne (by omega), hk]⟩
    · exact List.mem_iff_getElem?.2 ⟨i, List.getElem?_set_self hlt⟩
  · rw [List.nodup_iff_getElem?_ne_getElem?]
    intro a b hab hb
    rw [List.length_set] at hb
    have hnd := List.nodup_iff_getElem?_ne_getElem?.1 I.nodup a b hab hb
    by_cases ha : a = i
    · subst ha
      rw [List.getElem?_set_self (by omega), List.getElem?_set_ne (by omega), List.getElem?_eq_getElem hb]
      intro hh
      exact hother b _ (List.getElem?_eq_getElem hb) (by omega) (Option.some.inj hh).symm
    · by_cases hb' : b = i
      · subst hb'
        rw [List.getElem?_set_self (by omega), List.getElem?_set_ne (by omega), List.getElem?_eq_getElem (by omega : a < x.length)]
        intro hh
        exact hother a _ (List.getElem?_eq_getElem (by omega)) (by omega) (Option.some.inj hh)
      · rw [List.getElem?_set_ne (by omega), List.getElem?_set_ne (by omega)]
        exact hnd

theorem nb_fold {n : ℕ} (hn : 0 < n) {dx : K} (hdx : dx = 1 / n) (todo : List K) : ∀ (done x : List K), (∀ s ∈ todo, 0 ≤ s ∧ s ≤ 1) →
    (∀ s ∈ todo, ∀ t ∈ done, dx < |t - s|) → todo.Pairwise (fun s t => dx < |s - t|) → NbInv n dx done x → NbInv n dx (done ++ todo) (todo.foldl (neighborStep dx) x) := by
  induction todo with
  | nil => intro done x _ _ _ I; simpa using I
  | cons s rest ih =>
    intro done x hin hsep hp I
    rw [List.foldl_cons, show done ++ s :: rest = (done ++ [s]) ++ rest by simp]
    obtain ⟨h0, h1⟩ := hin s (by simp)
    refine ih _ _ (fun t ht => hin t (by simp [ht])) ?_ (List.pairwise_cons.1 hp).2 (nb_step hn hdx h0 h1 (hsep s (by simp)) I)
    intro t ht u hu
    rw [List.mem_append, List.mem_singleton] at hu
    rcases hu with hu | rfl
    · exact hsep t (by simp [ht]) u hu
    · exact (List.pairwise_cons.1 hp).1 t ht

theorem nb_init (n : ℕ) (hn : 0 < n) : NbInv n (1 / n : K) [] (unitPoints (n + 1)) := by
  have hn' : (0 : K) < n := by exact_mod_cast hn
  refine ⟨unitPoints_length _, ?_, by simp, ?_⟩
  · intro i v hv
    left
    simp only [unitPoints, List.getElem?_map, Option.map_eq_some_iff] at hv
    obtain ⟨k, hk, rfl⟩ := hv
    obtain ⟨hlt, rfl⟩ := List.getElem?_eq_some_iff.1 hk
    simp only [List.length_range] at hlt
    simp only [List.getElem_range, Nat.add_sub_cancel]
    exact linspace_unit (by omega)
  · rw [unitPoints, List.nodup_map_iff_inj_on List.nodup_range]
    intro a ha b hb hab
    rw [List.mem_range] at ha hb
    simp only [Nat.add_sub_cancel] at hab
    rw [linspace_unit (by omega), linspace_unit (by omega)] at hab
    have := mul_right_cancel₀ (one_div_pos.2 hn').ne' hab
    exact_mod_cast this

/-- The starting nodes of `"neighbor"` for snap points in `[0, 1]` that are more than a cell apart. -/
theorem neighbor_start {n : ℕ} (hn : 0 < n) {snaps : List K} (hin : ∀ s ∈ snaps, 0 ≤ s ∧ s ≤ 1) (hsep : snaps.Pairwise fun s t => 1 / (n : K) < |s - t|) :
    ∃ x0, neighborStart snaps (n + 1) = .ok x0 ∧ NbInv n (1 / n : K) snaps x0 := by
  have hdx : (unitPoints (n + 1) : List K).getD 1 0 - (unitPoints (n + 1) : List K).getD 0 0 = 1 / n := by
    have e0 : (unitPoints (n + 1) : List K).getD 0 0 = 0 := by
      rw [List.getD_eq_getElem?_getD, unitPoints, List.getElem?_map, List.getElem?_range (by omega)]
      simp only [Option.map_some, Option.getD_some, Nat.add_sub_cancel]
      rw [linspace_unit (by omega)]; simp
    have e1 : (unitPoints (n + 1) : List K).getD 1 0 = 1 / n := by
      rw [List.getD_eq_getElem?_getD, unitPoints, List.getElem?_map, List.getElem?_range (by omega)]
      simp only [Option.map_some, Option.getD_some, Nat.add_sub_cancel]
      rw [linspace_unit (by omega)]; simp
    rw [e0, e1, sub_zero]
  refine ⟨_, by unfold neighborStart; rw [if_neg (by omega)], ?_⟩
  rw [hdx]
  simpa using nb_fold hn rfl snaps [] _ hin (by simp) hsep (nb_init n hn)

/-- Strictly increasing nodes from the loop state. -/
theorem NbInv.sorted {n : ℕ} (hn : 0 < n) {done x : List K} (I : NbInv n (1 / n : K) done x) : x.Pairwise (· < ·) := by
  have hn' : (0 : K) < n := by exact_mod_cast hn
  have hdp : (0 : K) < 1 / n := by positivity
  have hd : ∀ i (hi : i < x.length), |x[i] - i * (1 / n)| ≤ (1 / n : K) / 2 := by
    intro i hi
    rcases I.val i x[i] (List.getElem?_eq_getElem hi) with h | h
    · rw [h, sub_self, abs_zero]; positivity
    · exact h.2
  rw [List.pairwise_iff_getElem]
  intro i j hi hj hij
  have h1 := abs_le.1 (hd i hi)
  have h2 := abs_le.1 (hd j hj)
  have h3 : (i : K) + 1 ≤ j := by exact_mod_cast hij
  have h4 : ((i : K) + 1) * (1 / n) ≤ j * (1 / n) := mul_le_mul_of_nonneg_right h3 hdp.le
  refine lt_of_le_of_ne (by nlinarith [h1.2, h2.1]) fun he => ?_
  exact absurd (I.nodup.getElem_inj_iff.1 he) (by omega)

/-- **C76 (`neighbor`, partial: snap points more than one uniform cell apart).** If the snap points lie in the domain, any two of them more than one cell of the uniform axis apart, and
the optimiser leaves snap points in place and keeps the order, then the axis has exactly the requested number of cells, is strictly increasing and contains every snap point. -/
theorem C76_neighbor_partial {lsq : List K → List Bool → List K} (hl : Bounded lsq) (hk : KeepsMarked lsq) (ho : KeepsOrder lsq) {xmin xmax : K} (hx : xmin < xmax) {cells : ℕ}
    (hc : 0 < cells) {snaps : List K} (hin : ∀ s ∈ snaps, xmin ≤ s ∧ s ≤ xmax) (hsep : snaps.Pairwise fun s t => (xmax - xmin) / cells < |s - t|) :
    ∃ x, refineAxis lsq xmin xmax (cells + 1) snaps "neighbor" = .ok x ∧ x.length = cells + 1 ∧ x.Pairwise (· < ·) ∧ ∀ s ∈ snaps, s ∈ x := by
  have hd : 0 < xmax - xmin := sub_pos.2 hx
  have hne : ("neighbor" : String) ≠ "insert" := by decide
  have hin' : ∀ s ∈ snaps.map fun s => (s - xmin) / (xmax - xmin), 0 ≤ s ∧ s ≤ 1 := by
    intro s hs
    obtain ⟨t, ht, rfl⟩ := List.mem_map.1 hs
    obtain ⟨h0, h1⟩ := hin t ht
    exact ⟨div_nonneg (by linarith) hd.le, (div_le_one hd).2 (by linarith)⟩
  have hsep' : (snaps.map fun s => (s - xmin) / (xmax - xmin)).Pairwise fun s t => 1 / (cells : K) < |s - t| := by
    rw [List.pairwise_map]
    refine hsep.imp fun {a b} hab => ?_
    rw [← sub_div, show a - xmin - (b - xmin) = a - b by ring, abs_div, abs_of_pos hd, lt_div_iff₀ hd]
    calc 1 / (cells : K) * (xmax - xmin) = (xmax - xmin) / cells := by ring
      _ < _ := hab
  obtain ⟨x0, h0, I⟩ := neighbor_start hc hin' hsep'
  have hall : (x0.all fun v => decide (0 ≤ v ∧ v ≤ 1)) = true := by
    rw [List.all_eq_true]
    intro v hv
    simp only [decide_eq_true_eq]
    obtain ⟨i, hi⟩ := List.mem_iff_getElem?.1 hv
    have hlt : i < cells + 1 := by rw [← I.len]; exact (List.getElem?_eq_some_iff.1 hi).1
    rcases I.val i v hi with rfl | ⟨hm, _⟩
    · have hc' : (0 : K) < cells := by exact_mod_cast hc
      refine ⟨by positivity, ?_⟩
      rw [mul_one_div, div_le_one hc']
      exact_mod_cast (by omega : i ≤ cells)
    · exact hin' v hm
  refine ⟨(lsq x0 (x0.map fun v => decide (v ∈ snaps.map fun s => (s - xmin) / (xmax - xmin)))).map fun v => v * (xmax - xmin) + xmin, ?_, ?_, ?_, ?_⟩
  · unfold refineAxis
    simp only [startNodes, if_neg hne, if_true, h0, bind, Except.bind]
    rw [if_pos hall]
    rfl
  · rw [List.length_map, (hl _ _).1, I.len]
  · rw [List.pairwise_map]
    exact (ho _ _ (I.sorted hc)).imp fun hab => by nlinarith
  · intro s hs
    obtain ⟨i, hi⟩ := List.mem_iff_getElem?.1 (I.has _ (List.mem_map.2 ⟨s, hs, rfl⟩))
    refine List.mem_map.2 ⟨(s - xmin) / (xmax - xmin), ?_, normalise_back hx s⟩
    refine List.mem_iff_getElem?.2 ⟨i, ?_⟩
    rw [hk _ _ i, hi]
    rw [List.getElem?_map, hi]
    simp only [Option.map_some, Option.some.injEq, decide_eq_true_eq]
    exact List.mem_map.2 ⟨s, hs, rfl⟩

/-- **C76 (snap points).** The snap points handed to the refinement are the bounds of the domain and the rounded coordinates of the feature points in a coordinate plane, in
increasing order without repetition. -/
theorem C76_snaps (rnd : K → K) (tol : K) (points : List (K × K × K)) (coord : K × K × K → K) (lo hi : K) :
    (snapsOf rnd tol points coord lo hi).Pairwise (· < ·) ∧ ∀ v, v ∈ snapsOf rnd tol points coord lo hi ↔
      v = lo ∨ v = hi ∨ ∃ p ∈ points, (|p.1| < tol ∨ |p.2.1| < tol ∨ |p.2.2| < tol) ∧ v = rnd (coord p) := by
  refine ⟨npUnique_sorted _, fun v => ?_⟩
  simp only [snapsOf, mem_npUnique, List.mem_append, List.mem_singleton, List.mem_map, List.mem_filter, decide_eq_true_eq]
  constructor
  · rintro ((h | ⟨p, (⟨hp, h⟩ | ⟨hp, h⟩) | ⟨hp, h⟩, rfl⟩) | h)
    · exact .inl h
    · exact .inr (.inr ⟨p, hp, .inr (.inl h), rfl⟩)
    · exact .inr (.inr ⟨p, hp, .inl h, rfl⟩)
    · exact .inr (.inr ⟨p, hp, .inr (.inr h), rfl⟩)
    · exact .inr (.inl h)
  · rintro (h | h | ⟨p, hp, h | h | h, rfl⟩)
    · exact .inl (.inl h)
    · exact .inr h
    · exact .inl (.inr ⟨p, .inl (.inr ⟨hp, h⟩), rfl⟩)
    · exact .inl (.inr ⟨p, .inl (.inl ⟨hp, h⟩), rfl⟩)
    · exact .inl (.inr ⟨p, .inr ⟨hp, h⟩, rfl⟩)

/-! #### Concrete cases -/

/-- An optimiser that returns its starting values. -/
def still : List ℚ → List Bool → List ℚ := fun x0 _ => x0

theorem still_keeps : KeepsMarked still ∧ KeepsOrder still := ⟨fun _ _ _ _ => rfl, fun _ _ h => h⟩

/-- An optimiser that clips its starting values to the bounds. -/
def clipped : List ℚ → List Bool → List ℚ := fun x0 _ => x0.map fun v => max 0 (min 1 v)

theorem clipped_bounded : Bounded clipped := by
  intro x0 m
  refine ⟨by simp [clipped], fun v hv => ?_⟩
  obtain ⟨w, _, rfl⟩ := List.mem_map.1 hv
  exact ⟨le_max_left _ _, max_le zero_le_one (min_le_left _ _)⟩

/-- **C76 (refuted: `neighbor` loses snap points).** Two snap points near the same node: the later one replaces the earlier one, even if the optimiser changes nothing. -/
theorem C76_neighbor_refuted : refineAxis still 0 1 3 [0, 3/10, 4/10, 1] "neighbor" = .ok [0, 4/10, 1] := by decide +kernel

/-- **C76 (refuted: `neighbor` loses the domain).** A snap point within half a cell of the boundary moves the boundary node: the refined axis no longer starts at the lower bound of
the domain. -/
theorem C76_domain_refuted : refineAxis still 0 1 3 [0, 2/10, 1] "neighbor" = .ok [2/10, 1/2, 1] := by decide +kernel

/-- Six cells asked for, snap points at the bounds and at 1/3: four cells. -/
example : refineAxis still 0 1 7 [0, 1/3, 1] "insert" = .ok [0, 1/3, 2/3, 1] := by decide +kernel
example : ([0, 1/3, 1] : List ℚ).Nodup ∧ (0 : ℚ) ∈ ([0, 1/3, 1] : List ℚ) ∧ (1 : ℚ) ∈ ([0, 1/3, 1] : List ℚ) := by decide +kernel
example : refineAxis clipped 2 4 7 [2, 5/2, 4] "insert" = .ok [2, 5/2, 8/3, 10/3, 4] := by decide +kernel
example : refineAxis clipped 2 4 7 [2, 5/2, 6] "insert" = .error .valueError := by decide +kernel
/-- Snap points more than a cell apart: all kept, five nodes. -/
example : refineAxis still 0 8 5 [0, 3, 8] "neighbor" = .ok [0, 3, 4, 6, 8] := by decide +kernel
example : ([0, 3, 8] : List ℚ).Pairwise fun s t => (8 - 0 : ℚ) / ((4 : ℕ) : ℚ) < |s - t| := by decide +kernel

end Grid
end Wakis
