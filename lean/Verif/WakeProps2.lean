import Verif.WakeModel2
import Verif.WakeProps
import Mathlib.Algebra.BigOperators.Field
import Mathlib.Algebra.BigOperators.Intervals
import Mathlib.Data.Complex.Basic
import Mathlib.Tactic.Positivity
import Mathlib.Tactic.IntervalCases

/-!
# C50 (transverse wake), C51 and C52 (impedance), C54 (deposition), C55 (field monitor)
-/

namespace Wakis
namespace Wake

/-! ### C50 -/

section
variable {K : Type} [Field K]

theorem mapCell_ok {n0 : ℕ} {W : ℕ → ℕ → ℕ → K} {a b : ℕ} (ha : a < 2 * n0 + 1) (hb : b < 2 * n0 + 1) {i j : ℤ} (hi : i = a) (hj : j = b) : mapCell n0 W i j = .ok (W a b) := by
  unfold mapCell
  subst hi hj
  rw [pyIndex_natCast ha, pyIndex_natCast hb]
  rfl

theorem sizeAt_ok {n : ℕ} {d : ℕ → K} {a : ℕ} (ha : a < n) {i : ℤ} (hi : i = a) : sizeAt n d i = .ok (d a) := by
  unfold sizeAt
  subst hi
  rw [pyIndex_natCast ha]
  rfl

/-- An s axis with constant step. -/
def axis (s0 ds : K) (ns : ℕ) : List K := (List.range ns).map fun n : ℕ => s0 + (n : K) * ds

/-- **C50 (Panofsky-Wenzel).** The transverse wake at point `n` of the s axis is minus the sum, over the points before it, of `ds` times the difference of the longitudinal
wake between the cells right and left of the centre, divided by the sum of two cell sizes. -/
theorem C50_panofsky {n0 : ℕ} (hn : 0 < n0) {s0 ds : K} {ns : ℕ} (hs : 3 ≤ ns) (W : ℕ → ℕ → ℕ → K) {nx ny : ℕ} (dx dy : ℕ → K) (hx : n0 < nx) (hy : n0 < ny) :
    calcTransWP n0 (axis s0 ds ns) W nx dx ny dy = .ok
      ((List.range ns).map fun n => -(∑ m ∈ Finset.range n, ds * (W (n0 + 1) n0 m - W (n0 - 1) n0 m)) / (dx (n0 - 1) + dx n0),
        (List.range ns).map fun n => -(∑ m ∈ Finset.range n, ds * (W n0 (n0 + 1) m - W n0 (n0 - 1) m)) / (dy (n0 - 1) + dy n0)) := by
  obtain ⟨t, rfl⟩ : ∃ t, ns = t + 3 := ⟨ns - 3, by omega⟩
  have e : axis s0 ds (t + 3) = (s0 + ((0 : ℕ) : K) * ds) :: (s0 + ((1 : ℕ) : K) * ds) :: (s0 + ((2 : ℕ) : K) * ds) :: ((List.range t).map fun n : ℕ => s0 + ((n + 3 : ℕ) : K) * ds) := by
    unfold axis
    rw [List.range_succ_eq_map, List.range_succ_eq_map, List.range_succ_eq_map]
    simp only [List.map_cons, List.map_map]
    rfl
  have hd : (s0 + ((2 : ℕ) : K) * ds) - (s0 + ((1 : ℕ) : K) * ds) = ds := by push_cast; ring
  have hi : ∀ (A B : ℕ → K) (n : ℕ), runInt A ds n - runInt B ds n = ∑ m ∈ Finset.range n, ds * (A m - B m) := by
    intro A B n
    unfold runInt
    rw [← sub_mul, ← Finset.sum_sub_distrib, Finset.sum_mul]
    exact Finset.sum_congr rfl fun m _ => mul_comm _ _
  have hl : ((s0 + ((0 : ℕ) : K) * ds) :: (s0 + ((1 : ℕ) : K) * ds) :: (s0 + ((2 : ℕ) : K) * ds) :: ((List.range t).map fun n : ℕ => s0 + ((n + 3 : ℕ) : K) * ds)).length = t + 3 := by
    simp
  rw [e]
  unfold calcTransWP
  rw [hl]
  simp only
  rw [mapCell_ok (a := n0 + 1) (b := n0) (by omega) (by omega) (by push_cast; ring) rfl, mapCell_ok (a := n0 - 1) (b := n0) (by omega) (by omega) (by omega) rfl,
    sizeAt_ok (a := n0 - 1) (by omega) (by omega), sizeAt_ok hx rfl, mapCell_ok (a := n0) (b := n0 + 1) (by omega) (by omega) rfl (by push_cast; ring),
    mapCell_ok (a := n0) (b := n0 - 1) (by omega) (by omega) rfl (by omega), sizeAt_ok (a := n0 - 1) (by omega) (by omega), sizeAt_ok hy rfl, hd]
  simp only [bind, Except.bind, hi]
  rfl

/-- Non-vacuity: a map that grows along x on a grid of unit cells has the horizontal wake `0, -1, -2` and no vertical one. -/
example : calcTransWP 1 (axis (0 : ℚ) 1 3) (fun i _ _ => (i : ℚ)) 5 (fun _ => 1) 5 (fun _ => 1) = .ok ([0, -1, -2], [0, 0, 0]) := by
  rw [C50_panofsky one_pos (le_refl 3) _ _ _ (by norm_num) (by norm_num)]
  rw [show List.range 3 = [0, 1, 2] from rfl]
  norm_num [Finset.sum_range_succ]

/-- **C50 (no transverse dependence).** A wake map that is the same in all cells gives zero transverse wakes. -/
theorem C50_uniform {n0 : ℕ} (hn : 0 < n0) {s0 ds : K} {ns : ℕ} (hs : 3 ≤ ns) (W : ℕ → K) {nx ny : ℕ} (dx dy : ℕ → K) (hx : n0 < nx) (hy : n0 < ny) :
    calcTransWP n0 (axis s0 ds ns) (fun _ _ => W) nx dx ny dy = .ok ((List.range ns).map fun _ => 0, (List.range ns).map fun _ => 0) := by
  rw [C50_panofsky hn hs _ dx dy hx hy]
  simp

/-- **C50 (mirror).** Mirroring the map in x reverses the horizontal wake and keeps the vertical one. -/
theorem C50_mirror {n0 : ℕ} (hn : 0 < n0) {s0 ds : K} {ns : ℕ} (hs : 3 ≤ ns) (W : ℕ → ℕ → ℕ → K) {nx ny : ℕ} (dx dy : ℕ → K) (hx : n0 < nx) (hy : n0 < ny) :
    ∃ X Y : ℕ → K, calcTransWP n0 (axis s0 ds ns) W nx dx ny dy = .ok ((List.range ns).map X, (List.range ns).map Y) ∧
      calcTransWP n0 (axis s0 ds ns) (fun i j => W (2 * n0 - i) j) nx dx ny dy = .ok ((List.range ns).map fun n => -X n, (List.range ns).map Y) := by
  refine ⟨_, _, C50_panofsky hn hs W dx dy hx hy, ?_⟩
  rw [C50_panofsky hn hs _ dx dy hx hy, show 2 * n0 - (n0 + 1) = n0 - 1 by omega, show 2 * n0 - (n0 - 1) = n0 + 1 by omega, show 2 * n0 - n0 = n0 by omega]
  refine congrArg Except.ok (congrArg (fun x => Prod.mk x _) (List.map_congr_left fun n _ => ?_))
  rw [← neg_div, neg_neg, ← Finset.sum_neg_distrib]
  simp only [← mul_neg, neg_sub]

/-- **C50 (linear).** -/
theorem C50_linear {n0 : ℕ} (hn : 0 < n0) {s0 ds : K} {ns : ℕ} (hs : 3 ≤ ns) (W V : ℕ → ℕ → ℕ → K) (a b : K) {nx ny : ℕ} (dx dy : ℕ → K) (hx : n0 < nx) (hy : n0 < ny) :
    ∃ X Y X' Y' : ℕ → K, calcTransWP n0 (axis s0 ds ns) W nx dx ny dy = .ok ((List.range ns).map X, (List.range ns).map Y) ∧
      calcTransWP n0 (axis s0 ds ns) V nx dx ny dy = .ok ((List.range ns).map X', (List.range ns).map Y') ∧
      calcTransWP n0 (axis s0 ds ns) (fun i j m => a * W i j m + b * V i j m) nx dx ny dy =
        .ok ((List.range ns).map fun n => a * X n + b * X' n, (List.range ns).map fun n => a * Y n + b * Y' n) := by
  refine ⟨_, _, _, _, C50_panofsky hn hs W dx dy hx hy, C50_panofsky hn hs V dx dy hx hy, ?_⟩
  rw [C50_panofsky hn hs _ dx dy hx hy]
  have key : ∀ (A B A' B' : ℕ → K) (D : K) (n : ℕ), -(∑ m ∈ Finset.range n, ds * ((a * A m + b * A' m) - (a * B m + b * B' m))) / D =
      a * (-(∑ m ∈ Finset.range n, ds * (A m - B m)) / D) + b * (-(∑ m ∈ Finset.range n, ds * (A' m - B' m)) / D) := by
    intro A B A' B' D n
    rw [← mul_div_assoc, ← mul_div_assoc, ← add_div, mul_neg, mul_neg, ← neg_add, Finset.mul_sum, Finset.mul_sum, ← Finset.sum_add_distrib]
    congr 2
    exact Finset.sum_congr rfl fun m _ => by ring
  simp only [key]

/-- The distance between the centres of the cells left and right of cell `i`. -/
def centreDistance (dx : ℕ → K) (i : ℕ) : K := dx (i - 1) / 2 + dx i + dx (i + 1) / 2

/-- **C50 (step, partial).** On a uniform transverse grid the sum of cell sizes used is the distance between the centres of the two cells compared, for every test cell. -/
theorem C50_step_partial [CharZero K] {dx : ℕ → K} {h : K} (hu : ∀ i, dx i = h) (n0 ixt : ℕ) : dx (n0 - 1) + dx n0 = centreDistance dx ixt := by
  unfold centreDistance
  rw [hu, hu, hu, hu, hu]
  ring

end

/-- **C50 (step, refuted).** On a non-uniform grid it is not: the sizes are those of the first two cells of the whole grid, wherever the test particle is. -/
theorem C50_step_refuted : ∃ (dx : ℕ → ℚ) (ixt : ℕ), (∀ i, 0 < dx i) ∧ dx (1 - 1) + dx 1 ≠ centreDistance dx ixt := by
  refine ⟨fun i => i + 1, 5, fun i => by positivity, ?_⟩
  norm_num [centreDistance]

/-! ### C54 -/

section
variable {K : Type} [Field K] [LinearOrder K] [FloorRing K]

/-- **C54 (inside).** A deposition changes at most entries of the s axis. -/
theorem C54_inside {ns : ℕ} (hns : 0 < ns) (dz : K) (WP : ℕ → K) (x e : K) {m : ℕ} (hm : ns ≤ m) : deposit ns dz WP x e m = WP m := by
  unfold deposit
  split_ifs with h1 h2
  · show (if m = ns - 1 then _ else _) = _
    rw [if_neg (by omega)]
  · have : 0 ≤ ⌊x⌋ := Int.floor_nonneg.2 h1.1
    simp only
    rw [if_neg (by omega), if_neg (by omega), add_zero, add_zero]
  · rfl

variable [IsStrictOrderedRing K]

/-- **C54 (conservation).** A cell inside the s range adds exactly its field times its length to the sum of the wake; a cell outside adds nothing. -/
theorem C54_conserves {ns : ℕ} (hns : 0 < ns) (dz : K) (WP : ℕ → K) (x e : K) :
    ∑ m ∈ Finset.range ns, deposit ns dz WP x e m = ∑ m ∈ Finset.range ns, WP m + if 0 ≤ x ∧ x ≤ (ns : K) - 1 then e * dz else 0 := by
  unfold deposit
  split_ifs with h1 h2
  · rw [show (fun m => if m = ns - 1 then WP m + e * dz else WP m) = fun m => WP m + if m = ns - 1 then e * dz else 0 by
      funext m; split_ifs <;> simp]
    rw [Finset.sum_add_distrib, Finset.sum_ite_eq', if_pos (Finset.mem_range.2 (by omega))]
  · have : 0 ≤ ⌊x⌋ := Int.floor_nonneg.2 h1.1
    rw [Finset.sum_add_distrib, Finset.sum_add_distrib, Finset.sum_ite_eq', Finset.sum_ite_eq', if_pos (Finset.mem_range.2 (by omega)), if_pos (Finset.mem_range.2 (by omega))]
    ring
  · rw [add_zero]

/-- **C54 (two neighbouring bins).** A cell inside the s range is split between two neighbouring bins `a` and `a + 1`, both on the axis unless the whole goes to `a`, with
non-negative weights `1 - w` and `w` that place it at its own position `a + w = x`. -/
theorem C54_split {ns : ℕ} (hns : 0 < ns) (dz : K) (WP : ℕ → K) {x : K} (e : K) (hx : 0 ≤ x ∧ x ≤ (ns : K) - 1) :
    ∃ (a : ℕ) (w : K), a < ns ∧ 0 ≤ w ∧ w ≤ 1 ∧ (a + 1 < ns ∨ w = 0) ∧ (a : K) + w = x ∧
      ∀ m, deposit ns dz WP x e m = WP m + (if m = a then (1 - w) * (e * dz) else 0) + (if m = a + 1 then w * (e * dz) else 0) := by
  have h1 := Int.floor_le x
  have h2 := Int.lt_floor_add_one x
  have h0 : 0 ≤ ⌊x⌋ := Int.floor_nonneg.2 hx.1
  obtain ⟨a, ha⟩ := Int.eq_ofNat_of_zero_le h0
  have hc : ((⌊x⌋ : ℤ) : K) = (a : K) := by rw [ha]; simp
  rw [hc] at h1 h2
  by_cases h : (ns : ℤ) - 1 ≤ ⌊x⌋
  · have hge : ns ≤ a + 1 := by omega
    have hge' : (ns : K) ≤ a + 1 := by exact_mod_cast hge
    have hxa : x = a := le_antisymm (by linarith [hx.2]) h1
    have : a = ns - 1 := by
      have h3 : (a : K) ≤ ((ns - 1 : ℕ) : K) := by
        rw [Nat.cast_sub hns, Nat.cast_one]; linarith [hx.2]
      have := Nat.cast_le.1 h3
      omega
    refine ⟨a, 0, by omega, le_refl _, zero_le_one, Or.inr rfl, by rw [hxa, add_zero], fun m => ?_⟩
    unfold deposit
    rw [if_pos hx, if_pos h, ← this]
    split_ifs <;> ring
  · refine ⟨a, x - a, by omega, by linarith, by linarith, Or.inl (by omega), by ring, fun m => ?_⟩
    unfold deposit
    rw [if_pos hx, if_neg h]
    rw [hc, ha, Int.toNat_natCast]
    split_ifs <;> ring

/-- **C54 (a whole step).** After depositing any list of cells the sum has grown by the fields of the cells inside the s range, each times the cell length, and nothing outside
the s axis has changed. -/
theorem C54_step {ns : ℕ} (hns : 0 < ns) (dz : K) (cells : List (K × K)) (WP : ℕ → K) :
    (∑ m ∈ Finset.range ns, depositStep ns dz cells WP m = ∑ m ∈ Finset.range ns, WP m + (cells.map fun c => if 0 ≤ c.1 ∧ c.1 ≤ (ns : K) - 1 then c.2 * dz else 0).sum) ∧
      ∀ m, ns ≤ m → depositStep ns dz cells WP m = WP m := by
  induction cells generalizing WP with
  | nil => exact ⟨by simp [depositStep], fun _ _ => rfl⟩
  | cons c l ih =>
    obtain ⟨h1, h2⟩ := ih (deposit ns dz WP c.1 c.2)
    refine ⟨?_, fun m hm => ?_⟩
    · show ∑ m ∈ Finset.range ns, depositStep ns dz l (deposit ns dz WP c.1 c.2) m = _
      rw [h1, C54_conserves hns, List.map_cons, List.sum_cons]
      ring
    · exact (h2 m hm).trans (C54_inside hns dz WP c.1 c.2 hm)

/-- **C54 (position).** The fractional index of a cell at time `t` is its distance behind the bunch: the bin at that index has `s = v*(t - ti) - (z - zmin)`. -/
theorem C54_position {v dt : K} (hv : v ≠ 0) (hdt : dt ≠ 0) (ti zmin z t : K) : -ti * v + fracIndex v ti dt zmin z t * (v * dt) = v * (t - ti) - (z - zmin) := by
  unfold fracIndex
  field_simp
  ring

example : deposit 4 (2 : ℚ) (fun _ => 0) (3 / 2) 1 1 = 1 ∧ deposit 4 (2 : ℚ) (fun _ => 0) (3 / 2) 1 2 = 1 := by
  norm_num [deposit]

end

/-! ### C55 -/

/-- **C55.** After any sequence of updates the accumulated value at each component, frequency and cell is the sum over the updates of the field times
exp(-2πi f n dt), with `dt` the one of the first update. -/
theorem C55_fourier_sum (freqs : List ℝ) (dt : ℝ) (us : List ((ℕ → ℕ → ℕ → ℕ → ℝ) × ℝ)) (hfirst : ∀ u, us.head? = some u → u.2 = dt) :
    let m := us.foldl (fun m u => m.update u.1 u.2) (Monitor.new freqs)
    m.time_index = us.length ∧ ∀ c f i j k, m.acc c f i j k =
      ∑ n ∈ Finset.range us.length, ((us.getD n (fun _ _ _ _ => 0, 0)).1 c i j k : ℂ) * Complex.exp (-2 * Complex.I * Real.pi * (freqs.getD f 0) * ((n : ℝ) * dt : ℝ)) := by
  have key : ∀ (us : List ((ℕ → ℕ → ℕ → ℕ → ℝ) × ℝ)) (m : Monitor), (∀ u, us.head? = some u → m.dt.getD u.2 = dt) →
      let m' := us.foldl (fun m u => m.update u.1 u.2) m
      m'.time_index = m.time_index + us.length ∧ m'.freqs = m.freqs ∧ ∀ c f i j k, m'.acc c f i j k = m.acc c f i j k +
        ∑ n ∈ Finset.range us.length, ((us.getD n (fun _ _ _ _ => 0, 0)).1 c i j k : ℂ) *
          Complex.exp (-2 * Complex.I * Real.pi * (m.freqs.getD f 0) * (((m.time_index + n : ℕ) : ℝ) * dt : ℝ)) := by
    intro us
    induction us with
    | nil => intro m _; exact ⟨rfl, rfl, fun c f i j k => by simp⟩
    | cons u l ih =>
      intro m hm
      have hd : m.dt.getD u.2 = dt := hm u rfl
      obtain ⟨h1, h2, h3⟩ := ih (m.update u.1 u.2) (fun u' _ => by show (some (m.dt.getD u.2)).getD u'.2 = dt; exact hd)
      refine ⟨?_, h2, fun c f i j k => ?_⟩
      · show (l.foldl (fun m u => m.update u.1 u.2) (m.update u.1 u.2)).time_index = _
        rw [h1]
        show m.time_index + 1 + l.length = _
        rw [List.length_cons]; omega
      · show (l.foldl (fun m u => m.update u.1 u.2) (m.update u.1 u.2)).acc c f i j k = _
        rw [h3, List.length_cons, Finset.sum_range_succ']
        have e0 : (m.update u.1 u.2).acc c f i j k = m.acc c f i j k + (u.1 c i j k : ℂ) * Complex.exp (-2 * Complex.I * Real.pi * (m.freqs.getD f 0) * (((m.time_index + 0 : ℕ) : ℝ) * dt : ℝ)) := by
          rw [← hd]
          show _ + _ * Complex.exp _ = _
          simp
        rw [e0]
        have e1 : (m.update u.1 u.2).freqs = m.freqs := rfl
        have e2 : (m.update u.1 u.2).time_index = m.time_index + 1 := rfl
        rw [e1, e2, add_assoc, add_comm (_ * _)]
        congr 1
        congr 1
        refine Finset.sum_congr rfl fun n _ => ?_
        rw [show m.time_index + 1 + n = m.time_index + (n + 1) by omega]
        rfl
  obtain ⟨h1, -, h3⟩ := key us (Monitor.new freqs) (fun u hu => hfirst u hu)
  refine ⟨by rw [h1]; show 0 + us.length = _; omega, fun c f i j k => ?_⟩
  rw [h3]
  show (0 : ℂ) + _ = _
  rw [zero_add]
  refine Finset.sum_congr rfl fun n _ => ?_
  rw [show (Monitor.new freqs).time_index + n = n by show 0 + n = n; omega]
  rfl

/-- **C55 (frequencies are independent).** The accumulator of a frequency does not depend on the other monitored frequencies. -/
theorem C55_independent (freqs freqs' : List ℝ) (dt : ℝ) (us : List ((ℕ → ℕ → ℕ → ℕ → ℝ) × ℝ)) (hfirst : ∀ u, us.head? = some u → u.2 = dt) {f f' : ℕ} (h : freqs.getD f 0 = freqs'.getD f' 0)
    (c i j k : ℕ) : (us.foldl (fun m u => m.update u.1 u.2) (Monitor.new freqs)).acc c f i j k = (us.foldl (fun m u => m.update u.1 u.2) (Monitor.new freqs')).acc c f' i j k := by
  rw [(C55_fourier_sum freqs dt us hfirst).2, (C55_fourier_sum freqs' dt us hfirst).2, h]

/-- **C55 (linear).** Monitoring a combination of two field histories gives the combination of the two monitors. -/
theorem C55_linear (freqs : List ℝ) (dt : ℝ) (F G : ℕ → ℕ → ℕ → ℕ → ℕ → ℝ) (a b : ℝ) (N c f i j k : ℕ) :
    let run := fun F : ℕ → ℕ → ℕ → ℕ → ℕ → ℝ => ((List.range N).map fun n => (F n, dt)).foldl (fun m u => m.update u.1 u.2) (Monitor.new freqs)
    (run fun n c i j k => a * F n c i j k + b * G n c i j k).acc c f i j k = a * (run F).acc c f i j k + b * (run G).acc c f i j k := by
  have hd : ∀ F : ℕ → ℕ → ℕ → ℕ → ℕ → ℝ, ∀ u, ((List.range N).map fun n => (F n, dt)).head? = some u → u.2 = dt := by
    intro F u hu
    obtain ⟨n, -, rfl⟩ := List.mem_map.1 (List.mem_of_mem_head? hu)
    rfl
  intro run
  have key : ∀ F : ℕ → ℕ → ℕ → ℕ → ℕ → ℝ, (run F).acc c f i j k = ∑ n ∈ Finset.range N, (F n c i j k : ℂ) * Complex.exp (-2 * Complex.I * Real.pi * (freqs.getD f 0) * ((n : ℝ) * dt : ℝ)) := by
    intro F
    rw [(C55_fourier_sum freqs dt _ (hd F)).2, List.length_map, List.length_range]
    refine Finset.sum_congr rfl fun n hn => ?_
    rw [List.getD_eq_getElem?_getD, List.getElem?_map, List.getElem?_range (Finset.mem_range.1 hn)]
    rfl
  rw [key, key, key, Finset.mul_sum, Finset.mul_sum, ← Finset.sum_add_distrib]
  refine Finset.sum_congr rfl fun n _ => ?_
  push_cast
  ring

example : ((Monitor.new [1, 2]).update (fun _ _ _ _ => 1) 3).time_index = 1 := rfl

end Wake
end Wakis
