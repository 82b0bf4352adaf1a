import Verif.WakeProps3d

/-!
# C47: the longitudinal wake from a recording of several columns

`calc_long_WP` also accepts the recordings of a transverse run, blocks of `2 n + 1` by `2 n + 1` columns around the test position.
-/

namespace Wakis
namespace Wake

variable {K : Type} [Field K] [LinearOrder K] [IsStrictOrderedRing K] [FloorRing K]
variable {r : Rec K} {Nt Nz m : ℕ} {dt zmin zmax : K} {md : ℕ → Dset K} {E : ℕ → ℕ → ℕ → ℕ → K}

/-- **C47 (blocks of columns, what the code computes).** From a recording of `2 m + 1` by `2 m + 1` columns around the test position, `m ≥ 1`, `calc_long_WP` computes the line integral of the column one cell further in x and in y, over the
cells that are not skipped. -/
theorem C47_block_actual (h : Recorded r Nt Nz dt zmin zmax md (fun n => .d3 (2 * m + 1) (2 * m + 1) Nz (E n))) (w : Par K) (hm : 0 < m) (hv : 0 < w.v) (hdt : 0 < dt) (hN : 3 ≤ Nt) (hN' : Nt ≤ 100000)
    (hdz : (zzPos w.skip Nz).length ≤ r.ndz) :
    calcLongWP w r =
      let ns := arangeLen (-w.ti * w.v) (lengthOf w Nt dt zmin zmax) (dt * w.v)
      .ok ((List.range ns).map fun n : ℕ => -w.ti * w.v + (n : K) * (dt * w.v),
        (List.range ns).map fun n : ℕ => cellSum Nt (zzPos w.skip Nz) E (w.v * dt) (fun k => r.zf k - zmin) r.dz (m + 1) (m + 1) n / (w.q * 10 ^ 12)) := by
  unfold calcLongWP
  rw [h.setup_eq w hN]
  simp only [bind, Except.bind]
  have hfile : ∀ n < Nt, r.file[n]? = some (frameName n, Dset.d3 (2 * m + 1) (2 * m + 1) Nz (E n)) := fun n hn => by
    rw [h.file]; exact C49_frames_partial md hN' (fun n => .d3 (2 * m + 1) (2 * m + 1) Nz (E n)) hn
  have h0 := hfile 0 (by omega)
  have hi : pyIndex (2 * m + 1) (((2 * m + 1) / 2 : ℕ) + 1) = .ok (m + 1) := pyIndex_ok_iff.2 ⟨by omega, .inl (by omega)⟩
  cases hf : r.file with
  | nil => rw [hf] at h0; cases h0
  | cons first rest =>
    rw [hf] at h0
    obtain rfl : first = (frameName 0, Dset.d3 (2 * m + 1) (2 * m + 1) Nz (E 0)) := by simpa using h0
    simp only
    rw [← hf, assemble_ok (c := fun n k => E n (m + 1) (m + 1) ((zzPos w.skip Nz).getD k 0)) hfile]
    swap
    · intro n _
      exact rowAt_ok (fi := fun nx => (nx / 2 : ℕ) + 1) (fj := fun ny => (ny / 2 : ℕ) + 1) hi hi
    simp only
    rw [mapM_ok _ (fun n => cellSum Nt (zzPos w.skip Nz) E (w.v * dt) (fun k => r.zf k - zmin) r.dz (m + 1) (m + 1) n)]
    · simp only [List.map_map]
      rfl
    · intro n _
      rw [integrate_ok w _ r _ hv hdt (by rw [h.t]; simp) (fun k hk => h.least.2 _ (zzPos_lt hk)) hdz, zero_add]
      refine congrArg Except.ok (Finset.sum_congr rfl fun k hk => ?_)
      rw [seen_congr (b := fun n k => E n (m + 1) (m + 1) ((zzPos w.skip Nz).getD k 0)) (fun m hm k => by rw [getD_map_range hm]) _ (mul_pos hv hdt) n k
        (sub_nonneg.2 (h.least.2 _ (zzPos_lt (Finset.mem_range.1 hk))))]

/-- **C47 (refuted for blocks of columns).** Whatever the field in the column of the test position: if the other columns recorded are free of field, the wake potential is zero. -/
theorem C47_block_refuted (h : Recorded r Nt Nz dt zmin zmax md (fun n => .d3 (2 * m + 1) (2 * m + 1) Nz (E n))) (w : Par K) (hm : 0 < m) (hv : 0 < w.v) (hdt : 0 < dt) (hN : 3 ≤ Nt) (hN' : Nt ≤ 100000)
    (hdz : (zzPos w.skip Nz).length ≤ r.ndz) (h0 : ∀ n i j k, ¬ (i = m ∧ j = m) → E n i j k = 0) : ∃ s WP, calcLongWP w r = .ok (s, WP) ∧ ∀ v ∈ WP, v = 0 := by
  refine ⟨_, _, C47_block_actual h w hm hv hdt hN hN' hdz, ?_⟩
  intro v hv
  obtain ⟨n, -, rfl⟩ := List.mem_map.1 hv
  have : cellSum Nt (zzPos w.skip Nz) E (w.v * dt) (fun k => r.zf k - zmin) r.dz (m + 1) (m + 1) n = 0 := by
    refine Finset.sum_eq_zero fun k _ => ?_
    unfold seen
    simp only [h0 _ (m + 1) (m + 1) _ (by omega)]
    split_ifs <;> simp
  rw [this, zero_div]

/-- **C47 (a single column as a block).** If the block is the test column only, the calculation fails: `IndexError`. -/
theorem C47_single_refuted (h : Recorded r Nt Nz dt zmin zmax md (fun n => .d3 1 1 Nz (E n))) (w : Par K) (hN : 3 ≤ Nt) (hN' : Nt ≤ 100000) : calcLongWP w r = .error .indexError := by
  unfold calcLongWP
  rw [h.setup_eq w hN]
  simp only [bind, Except.bind]
  have hfile : ∀ n < Nt, r.file[n]? = some (frameName n, Dset.d3 1 1 Nz (E n)) := fun n hn => by
    rw [h.file]; exact C49_frames_partial md hN' (fun n => .d3 1 1 Nz (E n)) hn
  have h0 := hfile 0 (by omega)
  cases hf : r.file with
  | nil => rw [hf] at h0; cases h0
  | cons first rest =>
    rw [hf] at h0
    obtain rfl : first = (frameName 0, Dset.d3 1 1 Nz (E 0)) := by simpa using h0
    simp only
    have : assemble ((frameName 0, Dset.d3 1 1 Nz (E 0)) :: rest) Nt (fun d => column1d (Dset.d3 1 1 Nz (E 0)) d w.skip (zzPos w.skip Nz).length) = .error .indexError := by
      obtain ⟨q, rfl⟩ : ∃ q, Nt = q + 1 := ⟨Nt - 1, by omega⟩
      unfold assemble
      rw [List.range_succ_eq_map, List.mapM_cons]
      rfl
    rw [this]

example : Recorded (⟨3, fun i => i * 1, 1, fun _ => 0, 1, fun _ => 1, H5.ofWrites (wakeWrites (fun _ => .d1 0 0) 3 fun _ => .d3 3 3 1 fun i j _ => if i = 1 ∧ j = 1 then 7 else 0)⟩ : Rec ℚ) 3 1 1 0 0 (fun _ => .d1 0 0)
    (fun _ => .d3 (2 * 1 + 1) (2 * 1 + 1) 1 fun i j _ => if i = 1 ∧ j = 1 then 7 else 0) ∧ (zzPos cornerPar.skip 1).length ≤ 1 ∧ 0 < cornerPar.v ∧
    0 < arangeLen (-cornerPar.ti * cornerPar.v) (lengthOf cornerPar 3 1 0 0) (1 * cornerPar.v) :=
  ⟨⟨rfl, fun _ => rfl, rfl, ⟨⟨0, by norm_num, rfl⟩, fun _ _ => le_refl _⟩, ⟨⟨0, by norm_num, rfl⟩, fun _ _ => le_refl _⟩, rfl⟩, by decide, by decide, by norm_num [cornerPar, arangeLen, lengthOf]⟩

end Wake
end Wakis
