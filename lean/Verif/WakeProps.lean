import Verif.WakeNames
import Mathlib.Tactic.NormNum
import Mathlib.Tactic.Positivity

/-!
# C46, C47, C48: the longitudinal wake potential
-/

namespace Wakis
namespace Wake

variable {K : Type} [Field K] [LinearOrder K] [IsStrictOrderedRing K] [FloorRing K]

/-! ### helpers -/

theorem foldl_min_spec (x : ℕ → K) (n : ℕ) :
    (∃ i ≤ n, (List.range n).foldl (fun m i => min m (x (i + 1))) (x 0) = x i) ∧ ∀ i ≤ n, (List.range n).foldl (fun m i => min m (x (i + 1))) (x 0) ≤ x i := by
  induction n with
  | zero => exact ⟨⟨0, le_refl _, rfl⟩, fun i hi => by rw [Nat.le_zero.1 hi]; exact le_refl _⟩
  | succ n ih =>
    rw [List.range_succ, List.foldl_append, List.foldl_cons, List.foldl_nil]
    obtain ⟨⟨i, hi, e⟩, hle⟩ := ih
    refine ⟨?_, fun j hj => ?_⟩
    · rcases min_choice ((List.range n).foldl (fun m i => min m (x (i + 1))) (x 0)) (x (n + 1)) with h | h
      · exact ⟨i, by omega, by rw [h, e]⟩
      · exact ⟨n + 1, le_refl _, h⟩
    · rcases Nat.lt_or_ge n j with h | h
      · obtain rfl : j = n + 1 := by omega
        exact min_le_right _ _
      · exact (min_le_left _ _).trans (hle j h)

theorem foldl_max_spec (x : ℕ → K) (n : ℕ) :
    (∃ i ≤ n, (List.range n).foldl (fun m i => max m (x (i + 1))) (x 0) = x i) ∧ ∀ i ≤ n, x i ≤ (List.range n).foldl (fun m i => max m (x (i + 1))) (x 0) := by
  induction n with
  | zero => exact ⟨⟨0, le_refl _, rfl⟩, fun i hi => by rw [Nat.le_zero.1 hi]; exact le_refl _⟩
  | succ n ih =>
    rw [List.range_succ, List.foldl_append, List.foldl_cons, List.foldl_nil]
    obtain ⟨⟨i, hi, e⟩, hle⟩ := ih
    refine ⟨?_, fun j hj => ?_⟩
    · rcases max_choice ((List.range n).foldl (fun m i => max m (x (i + 1))) (x 0)) (x (n + 1)) with h | h
      · exact ⟨i, by omega, by rw [h, e]⟩
      · exact ⟨n + 1, le_refl _, h⟩
    · rcases Nat.lt_or_ge n j with h | h
      · obtain rfl : j = n + 1 := by omega
        exact le_max_right _ _
      · exact (hle j h).trans (le_max_left _ _)

/-- `m` is the smallest, `M` the largest of the first `n` values. -/
def Smallest (n : ℕ) (x : ℕ → K) (m : K) : Prop := (∃ i < n, m = x i) ∧ ∀ i < n, m ≤ x i
def Largest (n : ℕ) (x : ℕ → K) (M : K) : Prop := (∃ i < n, M = x i) ∧ ∀ i < n, x i ≤ M

theorem minOf_iff {n : ℕ} {x : ℕ → K} {m : K} : minOf n x = .ok m ↔ Smallest n x m := by
  unfold minOf Smallest
  split_ifs with h0
  · subst h0; simp
  · obtain ⟨⟨i, hi, e⟩, hle⟩ := foldl_min_spec x (n - 1)
    constructor
    · intro h; cases h
      exact ⟨⟨i, by omega, e⟩, fun j hj => hle j (by omega)⟩
    · rintro ⟨⟨j, hj, rfl⟩, h⟩
      exact congrArg Except.ok (le_antisymm (hle j (by omega)) (e ▸ h i (by omega)))

theorem maxOf_iff {n : ℕ} {x : ℕ → K} {m : K} : maxOf n x = .ok m ↔ Largest n x m := by
  unfold maxOf Largest
  split_ifs with h0
  · subst h0; simp
  · obtain ⟨⟨i, hi, e⟩, hle⟩ := foldl_max_spec x (n - 1)
    constructor
    · intro h; cases h
      exact ⟨⟨i, by omega, e⟩, fun j hj => hle j (by omega)⟩
    · rintro ⟨⟨j, hj, rfl⟩, h⟩
      exact congrArg Except.ok (le_antisymm (e ▸ h i (by omega)) (hle j (by omega)))

theorem mapM_ok {α β : Type} (f : α → Py β) (g : α → β) (l : List α) (h : ∀ a ∈ l, f a = .ok (g a)) : l.mapM f = .ok (l.map g) := by
  induction l with
  | nil => rfl
  | cons a l ih =>
    rw [List.mapM_cons, h a (List.mem_cons_self), ih fun b hb => h b (List.mem_cons_of_mem _ hb)]
    rfl

theorem foldlM_add {f : K → ℕ → Py K} {g : ℕ → K} (n : ℕ) (acc : K) (h : ∀ a, ∀ k < n, f a k = .ok (a + g k)) :
    (List.range n).foldlM f acc = .ok (acc + ∑ k ∈ Finset.range n, g k) := by
  induction n with
  | zero => simp; rfl
  | succ n ih =>
    rw [List.range_succ, List.foldlM_append, ih fun a k hk => h a k (by omega)]
    show (List.foldlM f (acc + ∑ k ∈ Finset.range n, g k) [n]) = _
    rw [List.foldlM_cons, h _ n (by omega), Finset.sum_range_succ, ← add_assoc]
    rfl

/-! ### C46: the time index -/

/-- On the s axis the index is the number of the s sample plus the number of whole steps the bunch needs from the first cell to `z`. -/
theorem timeIndex_eq (w : Par K) (su : Setup K) (hv : 0 < w.v) (hdt : 0 < su.dt) {z : K} (hz : su.zmin ≤ z) (n : ℕ) :
    timeIndex w su 0 z (sAxis w su n) = n + ⌊(z - su.zmin) / (w.v * su.dt)⌋ := by
  have e : ((z + sAxis w su n) / w.v - su.zmin / w.v - 0 + w.ti) / su.dt = (n : K) + (z - su.zmin) / (w.v * su.dt) := by
    unfold sAxis
    field_simp
    ring
  have hp : 0 ≤ (z - su.zmin) / (w.v * su.dt) := div_nonneg (sub_nonneg.2 hz) (mul_pos hv hdt).le
  unfold timeIndex pyInt
  rw [e, if_pos (add_nonneg (Nat.cast_nonneg n) hp), Int.floor_natCast_add]

/-- **C46 (never negative).** -/
theorem C46_nonneg (w : Par K) (su : Setup K) (hv : 0 < w.v) (hdt : 0 < su.dt) {z : K} (hz : su.zmin ≤ z) (n : ℕ) :
    0 ≤ timeIndex w su 0 z (sAxis w su n) := by
  rw [timeIndex_eq w su hv hdt hz]
  have : 0 ≤ ⌊(z - su.zmin) / (w.v * su.dt)⌋ := Int.floor_nonneg.2 (div_nonneg (sub_nonneg.2 hz) (mul_pos hv hdt).le)
  omega

/-- routines.py:350-352: the number of steps `wakesolve` runs for a wake length. -/
def stepsFor (wakelength ti v zmin zmax dt : K) : ℤ := pyInt ((wakelength + ti * v + (zmax - zmin)) / v / dt)

/-- **C46 (recorded).** For every s at least one `v*dt` below the wake length and every z, the sample was recorded. -/
theorem C46_recorded (w : Par K) (su : Setup K) (hv : 0 < w.v) (hdt : 0 < su.dt) {z : K} (hz : su.zmin ≤ z) (hz' : z ≤ su.zmax) (n : ℕ)
    (hs : sAxis w su n + w.v * su.dt ≤ su.wakelength) :
    timeIndex w su 0 z (sAxis w su n) < stepsFor su.wakelength w.ti w.v su.zmin su.zmax su.dt := by
  rw [timeIndex_eq w su hv hdt hz]
  have hvd := mul_pos hv hdt
  have e : (su.wakelength + w.ti * w.v + (su.zmax - su.zmin)) / w.v / su.dt = (su.wakelength + w.ti * w.v) / (w.v * su.dt) + (su.zmax - su.zmin) / (w.v * su.dt) := by
    field_simp
  have h1 : (n : K) + 1 ≤ (su.wakelength + w.ti * w.v) / (w.v * su.dt) := by
    rw [le_div_iff₀ hvd]
    unfold sAxis at hs
    nlinarith
  have h2 : (z - su.zmin) / (w.v * su.dt) ≤ (su.zmax - su.zmin) / (w.v * su.dt) := by
    apply div_le_div_of_nonneg_right _ hvd.le
    linarith
  have h3 : 0 ≤ (z - su.zmin) / (w.v * su.dt) := div_nonneg (sub_nonneg.2 hz) hvd.le
  have hf := Int.floor_le ((z - su.zmin) / (w.v * su.dt))
  have hn : (0 : K) ≤ (n : K) := Nat.cast_nonneg n
  unfold stepsFor pyInt
  rw [e, if_pos (by linarith), ← Int.add_one_le_iff, Int.le_floor]
  push_cast
  linarith

/-- **C46 (beyond).** No sample needs more than one step beyond the record. -/
theorem C46_at_most (w : Par K) (su : Setup K) (hv : 0 < w.v) (hdt : 0 < su.dt) {z : K} (hz : su.zmin ≤ z) (hz' : z ≤ su.zmax) (n : ℕ)
    (hs : sAxis w su n < su.wakelength) :
    timeIndex w su 0 z (sAxis w su n) ≤ stepsFor su.wakelength w.ti w.v su.zmin su.zmax su.dt := by
  rw [timeIndex_eq w su hv hdt hz]
  have hvd := mul_pos hv hdt
  have e : (su.wakelength + w.ti * w.v + (su.zmax - su.zmin)) / w.v / su.dt = (su.wakelength + w.ti * w.v) / (w.v * su.dt) + (su.zmax - su.zmin) / (w.v * su.dt) := by
    field_simp
  have h1 : (n : K) ≤ (su.wakelength + w.ti * w.v) / (w.v * su.dt) := by
    rw [le_div_iff₀ hvd]
    unfold sAxis at hs
    nlinarith
  have h2 : (z - su.zmin) / (w.v * su.dt) ≤ (su.zmax - su.zmin) / (w.v * su.dt) := by
    apply div_le_div_of_nonneg_right _ hvd.le
    linarith
  have h3 : 0 ≤ (z - su.zmin) / (w.v * su.dt) := div_nonneg (sub_nonneg.2 hz) hvd.le
  have hf := Int.floor_le ((z - su.zmin) / (w.v * su.dt))
  have hn : (0 : K) ≤ (n : K) := Nat.cast_nonneg n
  unfold stepsFor pyInt
  rw [e, if_pos (by linarith), Int.le_floor]
  push_cast
  linarith

/-- Elements of the s axis are below the wake length. -/
theorem sAxis_lt (w : Par K) (su : Setup K) (hv : 0 < w.v) (hdt : 0 < su.dt) {n : ℕ} (hn : n < arangeLen (-w.ti * w.v) su.wakelength (su.dt * w.v)) :
    sAxis w su n < su.wakelength := by
  unfold arangeLen at hn
  have : (n : ℤ) < ⌈(su.wakelength - -w.ti * w.v) / (su.dt * w.v)⌉ := by omega
  rw [Int.lt_ceil, lt_div_iff₀ (mul_pos hdt hv)] at this
  unfold sAxis
  push_cast at this
  linarith

/-- The last s sample can lie beyond the record: why `C46_recorded` stops one `v*dt` below the wake length. -/
theorem C46_last_sample : ∃ (w : Par ℚ) (su : Setup ℚ) (n : ℕ) (z : ℚ), 0 < w.v ∧ 0 < su.dt ∧ su.zmin ≤ z ∧ z ≤ su.zmax ∧ sAxis w su n < su.wakelength ∧
    ¬ timeIndex w su 0 z (sAxis w su n) < stepsFor su.wakelength w.ti w.v su.zmin su.zmax su.dt := by
  refine ⟨⟨1, 1, 0, none, 0, false, 1⟩, ⟨1, 0, 1, [], 1/2, 1, 1⟩, 0, 1, by norm_num, by norm_num, by norm_num, by norm_num, by norm_num [sAxis], ?_⟩
  norm_num [sAxis, timeIndex, stepsFor, pyInt]

example : ∃ (w : Par ℚ) (su : Setup ℚ), 0 < w.v ∧ 0 < su.dt ∧ sAxis w su 3 + w.v * su.dt ≤ su.wakelength ∧ su.zmin < su.zmax :=
  ⟨⟨1, 1, 2, none, 0, false, 1⟩, ⟨1, 0, 1, [], 5, 1, 1⟩, by norm_num [sAxis]⟩

/-! ### C47: the integral -/

theorem addSample_ok {nt ndz : ℕ} {Ezt : List (ℕ → K)} {row k : ℕ} {it : ℤ} {dz : ℕ → K} {sign acc : K} (h0 : 0 ≤ it) (hk : k < ndz) :
    addSample nt Ezt row it ndz dz k sign acc = .ok (acc + if it < nt then (Ezt.getD it.toNat fun _ => 0) row * (sign * dz k) else 0) := by
  unfold addSample
  split_ifs with h
  · have : pyIndex nt it = .ok it.toNat := pyIndex_ok_iff.2 ⟨by omega, .inl (by omega)⟩
    rw [this]
    simp only [bind, Except.bind, hk, if_true]
    rfl
  · rw [add_zero]; rfl

/-- The sample of the field that a test particle `n` steps of s behind sees at distance `d` from the first cell: the recorded value, or zero after the end of the record. -/
def seen (Nt : ℕ) (Ez : ℕ → ℕ → K) (vdt : K) (n k : ℕ) (d : K) : K :=
  if (n : ℤ) + ⌊d / vdt⌋ < Nt then Ez (n + ⌊d / vdt⌋).toNat k else 0

theorem integrate_ok (w : Par K) (su : Setup K) (r : Rec K) (Ezt : List (ℕ → K)) (hv : 0 < w.v) (hdt : 0 < su.dt) (ht : r.t 0 = 0)
    (hz : ∀ k < su.zz.length, su.zmin ≤ r.zf (su.zz.getD k 0)) (hd : su.zz.length ≤ r.ndz) (n : ℕ) (acc : K) :
    integrate w su r Ezt n acc = .ok (acc + ∑ k ∈ Finset.range su.zz.length,
      seen su.nt (fun m => Ezt.getD m fun _ => 0) (w.v * su.dt) n k (r.zf (su.zz.getD k 0) - su.zmin) * r.dz k) := by
  unfold integrate
  rw [foldlM_add su.zz.length acc (g := fun k => seen su.nt (fun m => Ezt.getD m fun _ => 0) (w.v * su.dt) n k (r.zf (su.zz.getD k 0) - su.zmin) * r.dz k)]
  intro a k hk
  rw [ht, addSample_ok (C46_nonneg w su hv hdt (hz k hk) n) (by omega), timeIndex_eq w su hv hdt (hz k hk)]
  unfold seen
  split_ifs
  · rw [one_mul]
  · rw [zero_mul]

theorem zzPos_zero (n : ℕ) : zzPos 0 n = List.range n := by
  unfold zzPos zzSel
  rw [if_neg (by simp), Sel.resolve_all]
  rfl

theorem zzPos_skip {skip n : ℕ} (h : skip ≠ 0) : zzPos skip n = (List.range (n - skip - min skip n)).map (· + min skip n) := by
  unfold zzPos zzSel
  rw [if_pos h]
  have h1 : clipBound n (-(skip : ℤ)) = n - skip := by unfold clipBound; split_ifs <;> omega
  have h2 : clipBound n (skip : ℤ) = min skip n := by unfold clipBound; split_ifs <;> omega
  simp only [Sel.resolve, sliceLo, sliceHi, h1, h2]
  rfl

theorem setup_ok (w : Par K) (r : Rec K) (hnt : 3 ≤ r.nt) {zmin zmax : K} (h1 : Smallest r.nzf r.zf zmin) (h2 : Largest r.nzf r.zf zmax) :
    setup w r = .ok ⟨r.t 2 - r.t 1, zmin, zmax, zzPos w.skip r.nzf, w.wakelength.getD ((r.nt : K) * (r.t 2 - r.t 1) * w.v - (zmax - zmin) - w.ti * w.v),
      arangeLen (-w.ti * w.v) (w.wakelength.getD ((r.nt : K) * (r.t 2 - r.t 1) * w.v - (zmax - zmin) - w.ti * w.v)) ((r.t 2 - r.t 1) * w.v), guardNt r.nt r.file.length⟩ := by
  unfold setup
  rw [if_neg (by omega), maxOf_iff.2 h2, minOf_iff.2 h1]
  rfl

/-- A recording as `wakesolve` leaves it: `Nt` frames at times `0, dt, 2*dt, …` on `Nz` cells. -/
structure Recorded (r : Rec K) (Nt Nz : ℕ) (dt zmin zmax : K) (md frame : ℕ → Dset K) : Prop where
  nt : r.nt = Nt
  t : ∀ i, r.t i = i * dt
  nzf : r.nzf = Nz
  least : Smallest Nz r.zf zmin
  greatest : Largest Nz r.zf zmax
  file : r.file = H5.ofWrites (wakeWrites md Nt frame)

/-- The wake length in use. -/
def lengthOf (w : Par K) (Nt : ℕ) (dt zmin zmax : K) : K := w.wakelength.getD ((Nt : K) * dt * w.v - (zmax - zmin) - w.ti * w.v)

theorem Recorded.setup_eq {r : Rec K} {Nt Nz : ℕ} {dt zmin zmax : K} {md frame : ℕ → Dset K} (h : Recorded r Nt Nz dt zmin zmax md frame) (w : Par K) (hNt : 3 ≤ Nt) :
    setup w r = .ok ⟨dt, zmin, zmax, zzPos w.skip Nz, lengthOf w Nt dt zmin zmax, arangeLen (-w.ti * w.v) (lengthOf w Nt dt zmin zmax) (dt * w.v), Nt⟩ := by
  have e : r.t 2 - r.t 1 = dt := by rw [h.t, h.t]; push_cast; ring
  rw [setup_ok w r (by rw [h.nt]; exact hNt) (zmin := zmin) (zmax := zmax) (by rw [h.nzf]; exact h.least) (by rw [h.nzf]; exact h.greatest), e, h.nt, h.nzf, h.file, wakeFile_length,
    C49_metadata_partial (le_refl Nt)]
  rfl

theorem assemble_ok {file : H5 K} {nt : ℕ} {col : Dset K → Py (ℕ → K)} {name : ℕ → Name} {frame : ℕ → Dset K} {c : ℕ → ℕ → K}
    (hf : ∀ n < nt, file[n]? = some (name n, frame n)) (hc : ∀ n < nt, col (frame n) = .ok (c n)) :
    assemble file nt col = .ok ((List.range nt).map c) := by
  unfold assemble
  refine mapM_ok _ _ _ fun n hn => ?_
  rw [List.mem_range] at hn
  rw [hf n hn]
  exact hc n hn

theorem getD_map_range {nt : ℕ} {c : ℕ → ℕ → K} {m : ℕ} (h : m < nt) : ((List.range nt).map c).getD m (fun _ => 0) = c m := by
  rw [List.getD_eq_getElem?_getD, List.getElem?_map, List.getElem?_range h]
  rfl

theorem seen_congr {Nt : ℕ} {a b : ℕ → ℕ → K} (h : ∀ m < Nt, ∀ k, a m k = b m k) (vdt : K) (hv : 0 < vdt) (n k : ℕ) {d : K} (hd : 0 ≤ d) :
    seen Nt a vdt n k d = seen Nt b vdt n k d := by
  unfold seen
  have : 0 ≤ ⌊d / vdt⌋ := Int.floor_nonneg.2 (div_nonneg hd hv.le)
  split_ifs with h'
  · exact h _ (by omega) _
  · rfl

/-- **C47.** For a longitudinal recording of at most 100000 steps and no skipped cells, the wake potential at `s = n*v*dt - ti*v` is the sum over all cells of the
recorded Ez that the test particle sees there — the frame number is `n` plus the whole number of steps the bunch needs to get to the cell, zero after the end of the
record — times the cell length, divided by the charge in pC. -/
theorem C47_line_integral {r : Rec K} {Nt Nz : ℕ} {dt zmin zmax : K} {md : ℕ → Dset K} {Ez : ℕ → ℕ → K}
    (h : Recorded r Nt Nz dt zmin zmax md (fun n => .d1 Nz (Ez n))) (w : Par K) (hv : 0 < w.v) (hdt : 0 < dt) (hN : 3 ≤ Nt) (hN' : Nt ≤ 100000) (hdz : Nz ≤ r.ndz) (hskip : w.skip = 0) :
    calcLongWP w r =
      let ns := arangeLen (-w.ti * w.v) (lengthOf w Nt dt zmin zmax) (dt * w.v)
      .ok ((List.range ns).map fun n : ℕ => -w.ti * w.v + (n : K) * (dt * w.v),
        (List.range ns).map fun n : ℕ => (∑ k ∈ Finset.range Nz, seen Nt Ez (w.v * dt) n k (r.zf k - zmin) * r.dz k) / (w.q * 10 ^ 12)) := by
  unfold calcLongWP
  rw [h.setup_eq w hN, hskip, zzPos_zero]
  simp only [bind, Except.bind]
  have hfile : ∀ n < Nt, r.file[n]? = some (frameName n, Dset.d1 Nz (Ez n)) := fun n hn => by
    rw [h.file]; exact C49_frames_partial md hN' (fun n => .d1 Nz (Ez n)) hn
  have h0 := hfile 0 (by omega)
  cases hf : r.file with
  | nil => rw [hf] at h0; cases h0
  | cons first rest =>
    rw [hf] at h0
    obtain rfl : first = (frameName 0, Dset.d1 Nz (Ez 0)) := by simpa using h0
    simp only
    rw [← hf, assemble_ok (c := Ez) hfile]
    swap
    · intro n _
      simp [column1d]
    simp only
    rw [mapM_ok _ (fun n => ∑ k ∈ Finset.range Nz, seen Nt Ez (w.v * dt) n k (r.zf k - zmin) * r.dz k)]
    · simp only [List.map_map]
      rfl
    · intro n _
      rw [integrate_ok w _ r _ hv hdt (by rw [h.t]; simp) (fun k hk => ?_) (by simpa using hdz), zero_add]
      · simp only [List.length_range]
        refine congrArg Except.ok (Finset.sum_congr rfl fun k hk => ?_)
        have hk' : (List.range Nz).getD k 0 = k := by
          rw [List.getD_eq_getElem?_getD, List.getElem?_range (Finset.mem_range.1 hk)]; rfl
        rw [hk', seen_congr (b := Ez) (fun m hm k => by rw [getD_map_range hm]) _ (mul_pos hv hdt) n k (sub_nonneg.2 (h.least.2 k (Finset.mem_range.1 hk)))]
      · simp only [List.length_range] at hk
        have hk' : (List.range Nz).getD k 0 = k := by
          rw [List.getD_eq_getElem?_getD, List.getElem?_range hk]; rfl
        rw [hk']
        exact h.least.2 k hk

theorem seen_linear {Nt : ℕ} {E1 E2 : ℕ → ℕ → K} (a b : K) (vdt : K) (n k : ℕ) (d : K) :
    seen Nt (fun m k => a * E1 m k + b * E2 m k) vdt n k d = a * seen Nt E1 vdt n k d + b * seen Nt E2 vdt n k d := by
  unfold seen
  split_ifs <;> ring

/-- **C47 (linear).** The wake of a linear combination of recorded fields is the linear combination of the wakes. -/
theorem C47_linear {r r1 r2 : Rec K} {Nt Nz : ℕ} {dt zmin zmax : K} {md md1 md2 : ℕ → Dset K} {E1 E2 : ℕ → ℕ → K} (a b : K)
    (h : Recorded r Nt Nz dt zmin zmax md (fun n => .d1 Nz fun k => a * E1 n k + b * E2 n k))
    (h1 : Recorded r1 Nt Nz dt zmin zmax md1 (fun n => .d1 Nz (E1 n))) (h2 : Recorded r2 Nt Nz dt zmin zmax md2 (fun n => .d1 Nz (E2 n)))
    (hz : r1.zf = r.zf ∧ r2.zf = r.zf) (hd : r1.dz = r.dz ∧ r2.dz = r.dz)
    (w : Par K) (hv : 0 < w.v) (hdt : 0 < dt) (hN : 3 ≤ Nt) (hN' : Nt ≤ 100000) (hdz : Nz ≤ r.ndz ∧ Nz ≤ r1.ndz ∧ Nz ≤ r2.ndz) (hskip : w.skip = 0) :
    ∃ (s : List K) (WP1 WP2 : ℕ → K), calcLongWP w r1 = .ok (s, (List.range s.length).map WP1) ∧ calcLongWP w r2 = .ok (s, (List.range s.length).map WP2) ∧
      calcLongWP w r = .ok (s, (List.range s.length).map fun n => a * WP1 n + b * WP2 n) := by
  refine ⟨(List.range (arangeLen (-w.ti * w.v) (lengthOf w Nt dt zmin zmax) (dt * w.v))).map fun n : ℕ => -w.ti * w.v + (n : K) * (dt * w.v),
    fun n => (∑ k ∈ Finset.range Nz, seen Nt E1 (w.v * dt) n k (r1.zf k - zmin) * r1.dz k) / (w.q * 10 ^ 12),
    fun n => (∑ k ∈ Finset.range Nz, seen Nt E2 (w.v * dt) n k (r2.zf k - zmin) * r2.dz k) / (w.q * 10 ^ 12), ?_, ?_, ?_⟩
  · rw [C47_line_integral h1 w hv hdt hN hN' hdz.2.1 hskip, List.length_map, List.length_range]
  · rw [C47_line_integral h2 w hv hdt hN hN' hdz.2.2 hskip, List.length_map, List.length_range]
  · rw [C47_line_integral h w hv hdt hN hN' hdz.1 hskip, List.length_map, List.length_range]
    refine congrArg Except.ok (congrArg (Prod.mk _) (List.map_congr_left fun n _ => ?_))
    rw [hz.1, hz.2, hd.1, hd.2, ← mul_div_assoc, ← mul_div_assoc, ← add_div, Finset.mul_sum, Finset.mul_sum, ← Finset.sum_add_distrib]
    refine congrArg (· / _) (Finset.sum_congr rfl fun k _ => ?_)
    rw [seen_linear]
    ring

/-- Non-vacuity of `Recorded` and of the other hypotheses of `C47_line_integral`: four frames on two cells. -/
example : ∃ (r : Rec ℚ) (w : Par ℚ), Recorded r 4 2 1 0 1 (fun _ => .d1 0 0) (fun n => .d1 2 fun k => (n : ℚ) + 10 * k) ∧ 0 < w.v ∧ w.skip = 0 ∧ 2 ≤ r.ndz :=
  ⟨⟨4, fun i => i, 2, fun k => k, 2, fun _ => 1, H5.ofWrites (wakeWrites (fun _ => .d1 0 0) 4 fun n => .d1 2 fun k => (n : ℚ) + 10 * k)⟩, ⟨1, 1, 0, some 1, 0, false, 1⟩,
    ⟨rfl, fun i => (mul_one _).symm, rfl, ⟨⟨0, by norm_num, by norm_num⟩, fun i _ => Nat.cast_nonneg i⟩,
      ⟨⟨1, by norm_num, by norm_num⟩, fun i hi => by show (i : ℚ) ≤ 1; exact_mod_cast (by omega : i ≤ 1)⟩, rfl⟩, by norm_num, rfl, le_refl 2⟩

/-- **C47 (refuted with skipped cells).** With a longitudinal recording, every non-zero `skip_cells` makes the calculation fail. -/
theorem C47_skip_refuted {r : Rec K} {Nt Nz : ℕ} {dt zmin zmax : K} {md : ℕ → Dset K} {Ez : ℕ → ℕ → K}
    (h : Recorded r Nt Nz dt zmin zmax md (fun n => .d1 Nz (Ez n))) (w : Par K) (hN : 3 ≤ Nt) (hN' : Nt ≤ 100000) (hNz : 0 < Nz) (hskip : w.skip ≠ 0) :
    calcLongWP w r = .error .valueError := by
  unfold calcLongWP
  rw [h.setup_eq w hN, zzPos_skip hskip]
  simp only [bind, Except.bind]
  have hfile : ∀ n < Nt, r.file[n]? = some (frameName n, Dset.d1 Nz (Ez n)) := fun n hn => by
    rw [h.file]; exact C49_frames_partial md hN' (fun n => .d1 Nz (Ez n)) hn
  have h0 := hfile 0 (by omega)
  cases hf : r.file with
  | nil => rw [hf] at h0; cases h0
  | cons first rest =>
    rw [hf] at h0
    obtain rfl : first = (frameName 0, Dset.d1 Nz (Ez 0)) := by simpa using h0
    simp only [List.length_map, List.length_range]
    obtain ⟨m, rfl⟩ : ∃ m, Nt = m + 1 := ⟨Nt - 1, by omega⟩
    have : assemble ((frameName 0, Dset.d1 Nz (Ez 0)) :: rest) (m + 1) (fun d => column1d (Dset.d1 Nz (Ez 0)) d w.skip (Nz - w.skip - min w.skip Nz)) = .error .valueError := by
      unfold assemble
      rw [List.range_succ_eq_map, List.mapM_cons]
      simp only [List.getElem?_cons_zero, column1d]
      rw [if_neg (by omega)]
      rfl
    rw [this]

/-- **C47 (refuted under MPI).** Under MPI `wakesolve` stores one cell length less than there are cells; without skipped cells the calculation then fails, as soon as the
wake of the last cell is needed at all. -/
theorem C47_mpi_refuted {r : Rec K} {Nt Nz : ℕ} {dt zmin zmax : K} {md : ℕ → Dset K} {Ez : ℕ → ℕ → K}
    (h : Recorded r Nt Nz dt zmin zmax md (fun n => .d1 Nz (Ez n))) (w : Par K) (hv : 0 < w.v) (hdt : 0 < dt) (hN : 3 ≤ Nt) (hN' : Nt ≤ 100000) (hNz : 0 < Nz)
    (hdz : r.ndz = Nz - 1) (hskip : w.skip = 0) (hns : 0 < arangeLen (-w.ti * w.v) (lengthOf w Nt dt zmin zmax) (dt * w.v))
    (hlast : ⌊(r.zf (Nz - 1) - zmin) / (w.v * dt)⌋ < Nt) :
    calcLongWP w r = .error .indexError := by
  unfold calcLongWP
  rw [h.setup_eq w hN, hskip, zzPos_zero]
  simp only [bind, Except.bind]
  have hfile : ∀ n < Nt, r.file[n]? = some (frameName n, Dset.d1 Nz (Ez n)) := fun n hn => by
    rw [h.file]; exact C49_frames_partial md hN' (fun n => .d1 Nz (Ez n)) hn
  have h0 := hfile 0 (by omega)
  cases hf : r.file with
  | nil => rw [hf] at h0; cases h0
  | cons first rest =>
    rw [hf] at h0
    obtain rfl : first = (frameName 0, Dset.d1 Nz (Ez 0)) := by simpa using h0
    simp only
    rw [← hf, assemble_ok (c := Ez) hfile]
    swap
    · intro n _
      simp [column1d]
    simp only
    have hint : ∀ su : Setup K, su.dt = dt → su.zmin = zmin → su.zz = List.range Nz → su.nt = Nt →
        integrate w su r ((List.range Nt).map Ez) 0 0 = .error .indexError := by
      intro su e1 e2 e3 e4
      unfold integrate
      rw [e3, List.length_range]
      obtain ⟨m, rfl⟩ : ∃ m, Nz = m + 1 := ⟨Nz - 1, by omega⟩
      have hg : ∀ k < m + 1, (List.range (m + 1)).getD k 0 = k := fun k hk => by
        rw [List.getD_eq_getElem?_getD, List.getElem?_range hk]; rfl
      rw [List.range_succ, List.foldlM_append, foldlM_add m 0 (g := fun k => if timeIndex w su (r.t 0) (r.zf k) (sAxis w su 0) < su.nt then
          (((List.range Nt).map Ez).getD (timeIndex w su (r.t 0) (r.zf k) (sAxis w su 0)).toNat fun _ => 0) k * (1 * r.dz k) else 0)]
      · simp only [bind, Except.bind, List.foldlM_cons]
        rw [← List.range_succ, hg m (by omega), h.t, Nat.cast_zero, zero_mul, timeIndex_eq w su hv (by rw [e1]; exact hdt) (by rw [e2]; exact h.least.2 m (by omega))]
        unfold addSample
        rw [e1, e2, e4]
        have hp : 0 ≤ ⌊(r.zf m - zmin) / (w.v * dt)⌋ := Int.floor_nonneg.2 (div_nonneg (sub_nonneg.2 (h.least.2 m (by omega))) (mul_pos hv hdt).le)
        rw [if_pos (by simpa using hlast)]
        have : pyIndex Nt (((0 : ℕ) : ℤ) + ⌊(r.zf m - zmin) / (w.v * dt)⌋) = .ok (⌊(r.zf m - zmin) / (w.v * dt)⌋).toNat :=
          pyIndex_ok_iff.2 ⟨by simp at hlast; omega, .inl (by omega)⟩
        rw [this]
        simp only [bind, Except.bind]
        rw [if_neg (by omega)]
        rfl
      · intro a k hk
        rw [← List.range_succ, hg k (by omega)]
        refine addSample_ok ?_ (by omega)
        rw [h.t, Nat.cast_zero, zero_mul]
        exact C46_nonneg w su hv (by rw [e1]; exact hdt) (by rw [e2]; exact h.least.2 k (by omega)) 0
    obtain ⟨m, hm⟩ : ∃ m, arangeLen (-w.ti * w.v) (lengthOf w Nt dt zmin zmax) (dt * w.v) = m + 1 := ⟨_, (Nat.succ_pred_eq_of_pos hns).symm⟩
    rw [hm, List.range_succ_eq_map, List.mapM_cons, hint _ rfl rfl rfl rfl]
    rfl

end Wake
end Wakis
