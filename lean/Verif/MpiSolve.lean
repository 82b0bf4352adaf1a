import Verif.MpiIndex
import Verif.WakeBlock

/-!
# C146: the wake that rank 0 computes from the recording of several ranks

At the end of a wake run on several ranks rank 0 calls `wake.solve` on the file it wrote (routines.py:440-447).  That file differs from the one of a run on one process in the cell positions, which are
computed from the global extent, and in the cell lengths: `np.diff` of the positions, one entry less than there are cells (routines.py:343-347).
-/

namespace Wakis
namespace Wake

open Src Sol Sparse Fld Mpi

section
variable {K : Type} [Field K] [LinearOrder K] [IsStrictOrderedRing K] [FloorRing K]

/-- Two recordings with the same frames and cell positions, and the same lengths of all cells but perhaps the last. -/
structure SameWake (r r' : Rec K) : Prop where
  nt : r'.nt = r.nt
  t : ∀ i, r'.t i = r.t i
  nzf : r'.nzf = r.nzf
  zf : ∀ k < r.nzf, r'.zf k = r.zf k
  dz : ∀ k < r.nzf - 1, r'.dz k = r.dz k
  ndz : r.nzf - 1 ≤ r.ndz
  ndz' : r.nzf - 1 ≤ r'.ndz
  keys : r'.file.length = r.file.length
  frames : ∀ n < r.nt, r'.file[n]? = r.file[n]?

theorem foldlM_same {α β : Type} {f f' : β → α → Py β} : ∀ (l : List α) (a : β), (∀ k ∈ l, ∀ a, f' a k = f a k) → l.foldlM f' a = l.foldlM f a
  | [], _, _ => rfl
  | k :: l, a, h => by
    rw [List.foldlM_cons, List.foldlM_cons, h k (by simp)]
    exact congrArg _ (funext fun b => foldlM_same l b fun k' hk' => h k' (by simp [hk']))

theorem mapM_same {α β : Type} {f f' : α → Py β} : ∀ (l : List α), (∀ k ∈ l, f' k = f k) → l.mapM f' = l.mapM f
  | [], _ => rfl
  | k :: l, h => by
    rw [List.mapM_cons, List.mapM_cons, h k (by simp), mapM_same l fun k' hk' => h k' (by simp [hk'])]

theorem minOf_same {n : ℕ} {x y : ℕ → K} (h : ∀ k < n, x k = y k) : minOf n x = minOf n y := by
  unfold minOf
  split_ifs with h0
  · rfl
  · rw [h 0 (by omega)]
    refine congrArg Except.ok (List.foldl_ext _ _ _ fun a k hk => ?_)
    rw [h (k + 1) (by have := List.mem_range.1 hk; omega)]

theorem maxOf_same {n : ℕ} {x y : ℕ → K} (h : ∀ k < n, x k = y k) : maxOf n x = maxOf n y := by
  unfold maxOf
  split_ifs with h0
  · rfl
  · rw [h 0 (by omega)]
    refine congrArg Except.ok (List.foldl_ext _ _ _ fun a k hk => ?_)
    rw [h (k + 1) (by have := List.mem_range.1 hk; omega)]

theorem setup_same {r r' : Rec K} (h : SameWake r r') (w : Par K) : setup w r' = setup w r := by
  unfold setup
  simp only [h.nt, h.t, h.nzf, maxOf_same h.zf, minOf_same h.zf, h.keys]

theorem setup_inv {w : Par K} {r : Rec K} {su : Setup K} (h : setup w r = .ok su) : 3 ≤ r.nt ∧ su.zz = zzPos w.skip r.nzf ∧ su.nt ≤ r.nt := by
  unfold setup at h
  split_ifs at h with h3
  cases h1 : maxOf r.nzf r.zf with
  | error e => rw [h1] at h; cases h
  | ok zmax =>
    cases h2 : minOf r.nzf r.zf with
    | error e => rw [h1, h2] at h; cases h
    | ok zmin =>
      rw [h1, h2] at h
      cases h
      refine ⟨by omega, rfl, ?_⟩
      show guardNt _ _ ≤ _
      unfold guardNt
      split_ifs <;> omega

theorem zz_short {skip n : ℕ} (h : skip ≠ 0) : (zzPos skip n).length ≤ n - 1 := by
  rw [zzPos_skip h, List.length_map, List.length_range]
  omega

theorem addSample_same {nt ndz ndz' row k : ℕ} {Ezt : List (ℕ → K)} {it : ℤ} {dz dz' : ℕ → K} {sign acc : K} (h1 : k < ndz) (h2 : k < ndz') (h3 : dz' k = dz k) :
    addSample nt Ezt row it ndz' dz' k sign acc = addSample nt Ezt row it ndz dz k sign acc := by
  unfold addSample
  simp only [h1, h2, h3, if_true]

theorem integrate_same {r r' : Rec K} (h : SameWake r r') {w : Par K} (hs : w.skip ≠ 0) {su : Setup K} (hz : su.zz = zzPos w.skip r.nzf) (Ezt : List (ℕ → K)) (n : ℕ) (acc : K) :
    integrate w su r' Ezt n acc = integrate w su r Ezt n acc ∧ integrateBack w su r' Ezt n acc = integrateBack w su r Ezt n acc := by
  have hl := zz_short (n := r.nzf) hs
  rw [← hz] at hl
  have h1 := h.ndz
  have h2 := h.ndz'
  have hlt : ∀ k < su.zz.length, su.zz.getD k 0 < r.nzf := by rw [hz]; exact fun k hk => zzPos_lt hk
  constructor
  · unfold integrate
    refine foldlM_same _ _ fun k hk a => ?_
    have hk := List.mem_range.1 hk
    rw [h.t, h.zf _ (hlt k hk)]
    exact addSample_same (by omega) (by omega) (h.dz k (by omega))
  · unfold integrateBack
    refine foldlM_same _ _ fun k hk a => ?_
    have hk := List.mem_range.1 hk
    simp only
    rw [h.t, h.zf _ (hlt _ (by omega))]
    exact addSample_same (by omega) (by omega) (h.dz k (by omega))

theorem assemble_same {r r' : Rec K} (h : SameWake r r') {nt : ℕ} (hn : nt ≤ r.nt) (col : Dset K → Py (ℕ → K)) : assemble r'.file nt col = assemble r.file nt col := by
  unfold assemble
  refine mapM_same _ fun n hn' => ?_
  rw [h.frames n (by have := List.mem_range.1 hn'; omega)]

theorem cells_same {r r' : Rec K} (h : SameWake r r') {w : Par K} (hs : w.skip ≠ 0) {su : Setup K} (hz : su.zz = zzPos w.skip r.nzf) (hn : su.nt ≤ r.nt) :
    ∀ (l : List (ℤ × ℤ)) (WP : List K), cells3d w su r' WP l = cells3d w su r WP l
  | [], _ => rfl
  | ij :: l, WP => by
    have e : cell3d w su r' WP ij = cell3d w su r WP ij := by
      unfold cell3d
      rw [assemble_same h hn]
      refine congrArg _ (funext fun Ezt => ?_)
      refine congrArg (fun m => m >>= _) (mapM_same _ fun n _ => ?_)
      rw [(integrate_same h hs hz _ _ _).1, (integrate_same h hs hz _ _ _).2]
    unfold cells3d
    rw [e]
    refine congrArg _ (funext fun WP' => ?_)
    rw [cells_same h hs hz hn l WP']

/-- With skipped cells the length of the last cell is not used: alike recordings have the same wake. -/
theorem wake_same {r r' : Rec K} (h : SameWake r r') {w : Par K} (hs : w.skip ≠ 0) : calcLongWP w r' = calcLongWP w r ∧ calcLongWP3d w r' = calcLongWP3d w r := by
  unfold calcLongWP calcLongWP3d
  rw [setup_same h w]
  cases hsu : setup w r with
  | error e => exact ⟨rfl, rfl⟩
  | ok su =>
    obtain ⟨h3, hz, hn⟩ := setup_inv hsu
    simp only [bind, Except.bind]
    constructor
    · have h0 := h.frames 0 (by omega)
      cases hf : r.file with
      | nil =>
        have : r'.file = [] := List.length_eq_zero_iff.1 (by rw [h.keys, hf]; rfl)
        rw [this]
      | cons first rest =>
        cases hf' : r'.file with
        | nil => rw [hf, hf'] at h0; cases h0
        | cons first' rest' =>
          rw [hf, hf'] at h0
          obtain rfl : first' = first := by simpa using h0
          simp only
          rw [← hf, ← hf', assemble_same h hn]
          cases assemble r.file su.nt _ with
          | error e => rfl
          | ok Ezt =>
            simp only
            rw [mapM_same _ fun n _ => (integrate_same h hs hz Ezt n 0).1]
    · rw [cells_same h hs hz hn]

/-- A recording with a cell length too few: without skipped cells the integration fails if the sample of the last cell is within the recording. -/
theorem integrate_fails {w : Par K} {su : Setup K} {r : Rec K} {m : ℕ} (hv : 0 < w.v) (hdt : 0 < su.dt) (ht : r.t 0 = 0) (hzz : su.zz = List.range (m + 1)) (hd : r.ndz = m)
    (hz : ∀ k < m + 1, su.zmin ≤ r.zf k) (hlast : ⌊(r.zf m - su.zmin) / (w.v * su.dt)⌋ < su.nt) (Ezt : List (ℕ → K)) (acc : K) : integrate w su r Ezt 0 acc = .error .indexError := by
  unfold integrate
  rw [hzz, List.length_range]
  have hg : ∀ k < m + 1, (List.range (m + 1)).getD k 0 = k := fun k hk => by
    rw [List.getD_eq_getElem?_getD, List.getElem?_range hk]; rfl
  rw [List.range_succ, List.foldlM_append, foldlM_add m acc (g := fun k => if timeIndex w su (r.t 0) (r.zf k) (sAxis w su 0) < su.nt then
      (Ezt.getD (timeIndex w su (r.t 0) (r.zf k) (sAxis w su 0)).toNat fun _ => 0) k * (1 * r.dz k) else 0)]
  · simp only [bind, Except.bind, List.foldlM_cons]
    rw [← List.range_succ, hg m (by omega), ht, timeIndex_eq w su hv hdt (hz m (by omega))]
    unfold addSample
    have hp : 0 ≤ ⌊(r.zf m - su.zmin) / (w.v * su.dt)⌋ := Int.floor_nonneg.2 (div_nonneg (sub_nonneg.2 (hz m (by omega))) (mul_pos hv hdt).le)
    rw [if_pos (by simpa using hlast)]
    have : pyIndex su.nt (((0 : ℕ) : ℤ) + ⌊(r.zf m - su.zmin) / (w.v * su.dt)⌋) = .ok (⌊(r.zf m - su.zmin) / (w.v * su.dt)⌋).toNat :=
      pyIndex_ok_iff.2 ⟨by omega, .inl (by omega)⟩
    rw [this]
    simp only [bind, Except.bind]
    rw [if_neg (by omega)]
    rfl
  · intro a k hk
    rw [← List.range_succ, hg k (by omega)]
    refine addSample_ok ?_ (by omega)
    rw [ht]
    exact C46_nonneg w su hv hdt (hz k (by omega)) 0

/-- **C47 (refuted under MPI, both planes).** From a recording of several columns with one cell length less than there are cells, as `wakesolve` leaves it under MPI, the wake of a forward test particle cannot be computed without skipped
cells: `calc_long_WP_3d` fails with an `IndexError`, as soon as the wake of the last cell is needed at all. -/
theorem C47_mpi_block_refuted {r : Rec K} {Nt Nz nx ny : ℕ} {dt zmin zmax : K} {md : ℕ → Dset K} {E : ℕ → ℕ → ℕ → ℕ → K} (h : Recorded r Nt Nz dt zmin zmax md (fun n => .d3 nx ny Nz (E n))) (w : Par K)
    (hv : 0 < w.v) (hdt : 0 < dt) (hN : 3 ≤ Nt) (hN' : Nt ≤ 100000) (hNz : 0 < Nz) (hcm : w.counterMoving = false) (hx : w.nTrans ≤ nx / 2) (hy : w.nTrans ≤ ny / 2) (hnx : 0 < nx) (hny : 0 < ny)
    (hdz : r.ndz = Nz - 1) (hskip : w.skip = 0) (hns : 0 < arangeLen (-w.ti * w.v) (lengthOf w Nt dt zmin zmax) (dt * w.v))
    (hlast : ⌊(r.zf (Nz - 1) - zmin) / (w.v * dt)⌋ < Nt) : calcLongWP3d w r = .error .indexError := by
  unfold calcLongWP3d
  rw [h.setup_eq w hN]
  simp only [bind, Except.bind]
  have hfile : ∀ n < Nt, r.file[n]? = some (frameName n, Dset.d3 nx ny Nz (E n)) := fun n hn => by
    rw [h.file]; exact C49_frames_partial md hN' (fun n => .d3 nx ny Nz (E n)) hn
  obtain ⟨l, hl⟩ : ∃ l, transPairs w.nTrans = (-(w.nTrans : ℤ), -(w.nTrans : ℤ)) :: l := by
    unfold transPairs offsets
    rw [List.range_succ_eq_map]
    simp only [List.map_cons, List.flatMap_cons, List.cons_append]
    exact ⟨_, List.cons_eq_cons.2 ⟨by simp, rfl⟩⟩
  rw [hl]
  unfold cells3d cell3d
  simp only [bind, Except.bind, hcm]
  rw [assemble_ok (c := fun n k => E n (nx / 2 - w.nTrans) (ny / 2 - w.nTrans) ((zzPos w.skip Nz).getD k 0)) hfile]
  swap
  · intro n _
    refine rowAt_ok (fi := fun nx => (nx / 2 : ℕ) + -(w.nTrans : ℤ)) (fj := fun ny => (ny / 2 : ℕ) + -(w.nTrans : ℤ)) ?_ ?_
    · exact pyIndex_ok_iff.2 ⟨by omega, .inl (by omega)⟩
    · exact pyIndex_ok_iff.2 ⟨by omega, .inl (by omega)⟩
  simp only
  obtain ⟨m, hm⟩ : ∃ m, arangeLen (-w.ti * w.v) (lengthOf w Nt dt zmin zmax) (dt * w.v) = m + 1 := ⟨_, (Nat.succ_pred_eq_of_pos hns).symm⟩
  rw [hm, List.range_succ_eq_map, List.mapM_cons]
  obtain ⟨k, rfl⟩ : ∃ k, Nz = k + 1 := ⟨Nz - 1, by omega⟩
  simp only [Bool.false_eq_true, if_false]
  rw [integrate_fails (m := k) hv hdt (by rw [h.t]; simp) (by rw [hskip, zzPos_zero]) (by omega) h.least.2 (by simpa using hlast)]
  rfl

end

noncomputable section

/-- routines.py:343-347, 369-373, 396-400: the file rank 0 leaves, with the frames `F`. -/
def mpiRec (J : Mpi.Job ℝ) (dt : ℝ) (Nt : ℕ) (md : ℕ → Dset ℝ) (F : ℕ → ℕ → ℕ → ℕ → ℝ) : Rec ℝ :=
  ⟨arangeLen 0 (Nt * dt) dt, fun i : ℕ => 0 + (i : ℝ) * dt, J.NZ, globalZ J, J.NZ - 1, fun k => globalZ J (k + 1) - globalZ J k, H5.ofWrites (wakeWrites md Nt fun n => .d3 3 3 J.NZ (F n))⟩

theorem serial_dz {J : Mpi.Job ℝ} {k : ℕ} (hk : k + 1 < J.NZ) : globalZ J (k + 1) - globalZ J k = ((boxOf J).serial J.size).dz k := by
  show _ = Grid.linspace J.zmin J.zmax J.NZ (k + 1) - Grid.linspace J.zmin J.zmax J.NZ k
  unfold globalZ
  ring

/-- `F` are the frames of the file of rank 0: whatever the schedule and the buffering, the ranks come to the gather of every frame, and the block of columns gathered there is that of `F`. -/
def RootFrames (J : Mpi.Job ℝ) (s : ℕ → Solver ℝ) (g : ℕ → Grd) (b : Beam) (ixt iyt Nt : ℕ) (F : ℕ → ℕ → ℕ → ℕ → ℝ) : Prop :=
  ∀ (eager : ℕ → ℕ → Bool), ∀ n < Nt, Ends eager (gatherPoint s g b J.size n) fun mem =>
    ∃ A, typedFrame J s mem (recorded false ixt iyt) = .ok A ∧ (A.n0, A.n1, A.n2) = (3, 3, J.NZ) ∧ ∀ a : ℕ, a < 3 → ∀ c : ℕ, c < 3 → ∀ k < J.NZ, F n a c k = A.val a c k

/-- The file of rank 0, compared with the recording of the run on one process. -/
theorem mpi_file {J : Mpi.Job ℝ} {s : ℕ → Solver ℝ} {S : Solver ℝ} {g : ℕ → Grd} {w : WakeArgs} {b : Beam} (h : Setting J s S g w b) {wakelength : ℝ} {mon : Option Monitor} {md : ℕ → Dset ℝ}
    {ixt iyt : ℕ} (hx : ∀ r < J.size, nearest (g r).Nx (g r).x w.xtest = .ok ixt) (hy : ∀ r < J.size, nearest (g r).Ny (g r).y w.ytest = .ok iyt)
    (h1 : 0 < ixt) (h2 : ixt + 1 < J.Nx) (h3 : 0 < iyt) (h4 : iyt + 1 < J.Ny)
    {o : WakeOut} (ho : wakesolve S ((boxOf J).serial J.size) w wakelength false none mon md initState = .ok o) (hN : o.Nt ≤ 100000) :
    ∃ (F : ℕ → ℕ → ℕ → ℕ → ℝ) (zmin zmax : ℝ), 0 < S.dt ∧ o.Nt = (stepsFor wakelength w.injection w.v zmin zmax S.dt).toNat ∧ RootFrames J s g b ixt iyt o.Nt F ∧
      ∀ md' : ℕ → Dset ℝ, SameWake o.recording (mpiRec J S.dt o.Nt md' F) ∧ Recorded (mpiRec J S.dt o.Nt md' F) o.Nt J.NZ S.dt zmin zmax md' fun n => .d3 3 3 J.NZ (F n) := by
  obtain ⟨D, hD, e0, -, e1, -⟩ := h.same
  have hf := hD.fitting
  rw [e0] at hf
  have hdt : 0 < S.dt := by rw [e1]; exact h.step
  have h0 : 0 < J.size := by have := h.ranks; omega
  obtain ⟨r1, r2, -, r4, r5, r6, r7, -⟩ := hD.rank h0
  have px : IsNearest J.Nx ((boxOf J).serial J.size).x w.xtest ixt := by
    obtain ⟨i, hi, hi'⟩ := C44_nearest r6 (g 0).x w.xtest
    obtain rfl := Except.ok.inj (hi.symm.trans (hx 0 h0))
    rw [r1, r4, hD.hx] at hi'
    exact hi'
  have py : IsNearest J.Ny ((boxOf J).serial J.size).y w.ytest iyt := by
    obtain ⟨i, hi, hi'⟩ := C44_nearest r7 (g 0).y w.ytest
    obtain rfl := Except.ok.inj (hi.symm.trans (hy 0 h0))
    rw [r2, r5, hD.hy] at hi'
    exact hi'
  obtain ⟨o', -, -, zmin, zmax, Ez, p1, pN, -, -, -, pR, pd, pz, pdz, -⟩ :=
    C65_both_partial S ((boxOf J).serial J.size) w hf hdt wakelength none mon md initState (ixt := ixt) (iyt := iyt) px py h1 h2 h3 h4
  obtain rfl := Except.ok.inj (p1.symm.trans ho)
  refine ⟨Ez, zmin, zmax, hdt, pN, fun eager n hn => (C146_both_typed_partial h hx hy h1 h2 h3 h4 ho hN eager n hn).mono fun mem => ?_, fun md' => ?_⟩
  · rintro ⟨A, name, v, hA, hl, hfile, hv⟩
    refine ⟨A, hA, hl, fun a ha c hc k hk => ?_⟩
    rw [← hv a ha c hc k hk]
    rw [pR.file, C49_frames_partial md hN _ hn] at hfile
    injection hfile with e
    injection e with _ e
    injection e with _ _ _ e
    rw [e]
  · have hnt : arangeLen 0 (o'.Nt * S.dt) S.dt = o'.Nt := by
      unfold arangeLen
      rw [sub_zero, mul_div_assoc, div_self hdt.ne', mul_one]
      simp
    have hal : SameWake o'.recording (mpiRec J S.dt o'.Nt md' Ez) := by
      have hnz : o'.recording.nzf = J.NZ := pR.nzf
      refine ⟨?_, fun i => ?_, hnz.symm, fun k hk => ?_, fun k hk => ?_, ?_, ?_, ?_, fun n hn => ?_⟩
      · rw [pR.nt]; exact hnt
      · rw [pR.t]; exact zero_add _
      · rw [hnz] at hk; rw [pz]; exact globalZ_eq h hk
      · rw [hnz] at hk; rw [pdz]; exact serial_dz (by omega)
      · rw [hnz, pd]; exact Nat.sub_le _ _
      · rw [hnz]; exact le_rfl
      · rw [pR.file, wakeFile_length]; exact wakeFile_length _ _ _
      · rw [pR.nt] at hn
        rw [pR.file, C49_frames_partial md hN _ hn]
        exact C49_frames_partial md' hN _ hn
    refine ⟨hal, ⟨hnt, fun i => zero_add _, rfl, ?_, ?_, rfl⟩⟩
    · have a := pR.least
      rw [pz] at a
      obtain ⟨⟨i, hi, e⟩, hle⟩ := a
      exact ⟨⟨i, hi, by rw [e]; exact (globalZ_eq h hi).symm⟩, fun k hk => by rw [show (mpiRec J S.dt o'.Nt md' Ez).zf k = globalZ J k from rfl, globalZ_eq h hk]; exact hle k hk⟩
    · have a := pR.greatest
      rw [pz] at a
      obtain ⟨⟨i, hi, e⟩, hle⟩ := a
      exact ⟨⟨i, hi, by rw [e]; exact (globalZ_eq h hi).symm⟩, fun k hk => by rw [show (mpiRec J S.dt o'.Nt md' Ez).zf k = globalZ J k from rfl, globalZ_eq h hk]; exact hle k hk⟩

/-- **C146 (the wake; partial).** A wake run of both planes on several ranks: with at least one skipped cell, the wake potentials that rank 0 computes from its file are those of the run on one process, whatever the schedule, the buffering and the
transverse metadata.  Missing: no skipped cells (`C146_wake_refuted`), longitudinal runs (`C146_longitudinal_refuted`) and callbacks. -/
theorem C146_wake_partial {J : Mpi.Job ℝ} {s : ℕ → Solver ℝ} {S : Solver ℝ} {g : ℕ → Grd} {w : WakeArgs} {b : Beam} (h : Setting J s S g w b) {wakelength : ℝ} {mon : Option Monitor} {md : ℕ → Dset ℝ}
    {ixt iyt : ℕ} (hx : ∀ r < J.size, nearest (g r).Nx (g r).x w.xtest = .ok ixt) (hy : ∀ r < J.size, nearest (g r).Ny (g r).y w.ytest = .ok iyt)
    (h1 : 0 < ixt) (h2 : ixt + 1 < J.Nx) (h3 : 0 < iyt) (h4 : iyt + 1 < J.Ny)
    {o : WakeOut} (ho : wakesolve S ((boxOf J).serial J.size) w wakelength false none mon md initState = .ok o) (hN : o.Nt ≤ 100000) (hs : w.skip ≠ 0) :
    ∃ F, RootFrames J s g b ixt iyt o.Nt F ∧ ∀ md' : ℕ → Dset ℝ,
      calcLongWP (w.par wakelength) (mpiRec J S.dt o.Nt md' F) = calcLongWP (w.par wakelength) o.recording ∧
      calcLongWP3d (w.par wakelength) (mpiRec J S.dt o.Nt md' F) = calcLongWP3d (w.par wakelength) o.recording := by
  obtain ⟨F, _, _, -, -, hF, hR⟩ := mpi_file h hx hy h1 h2 h3 h4 ho hN
  exact ⟨F, hF, fun md' => wake_same (hR md').1 hs⟩

/-- **C146 (the wake; refuted).** Without skipped cells, the default, `wake.solve` on rank 0 fails with an `IndexError` at the end of every run of both planes whose wake length is that of a time step or more. -/
theorem C146_wake_refuted {J : Mpi.Job ℝ} {s : ℕ → Solver ℝ} {S : Solver ℝ} {g : ℕ → Grd} {w : WakeArgs} {b : Beam} (h : Setting J s S g w b) {wakelength : ℝ} {mon : Option Monitor} {md : ℕ → Dset ℝ}
    {ixt iyt : ℕ} (hx : ∀ r < J.size, nearest (g r).Nx (g r).x w.xtest = .ok ixt) (hy : ∀ r < J.size, nearest (g r).Ny (g r).y w.ytest = .ok iyt)
    (h1 : 0 < ixt) (h2 : ixt + 1 < J.Nx) (h3 : 0 < iyt) (h4 : iyt + 1 < J.Ny)
    {o : WakeOut} (ho : wakesolve S ((boxOf J).serial J.size) w wakelength false none mon md initState = .ok o) (hN : o.Nt ≤ 100000) (hs : w.skip = 0) (hv : 0 < w.v)
    (h3' : 3 ≤ o.Nt) (hl : w.v * S.dt ≤ wakelength + w.injection * w.v) :
    ∃ F, RootFrames J s g b ixt iyt o.Nt F ∧ ∀ md' : ℕ → Dset ℝ, calcLongWP3d (w.par wakelength) (mpiRec J S.dt o.Nt md' F) = .error .indexError := by
  obtain ⟨F, zmin, zmax, hdt, hNt, hF, hR⟩ := mpi_file h hx hy h1 h2 h3 h4 ho hN
  refine ⟨F, hF, fun md' => ?_⟩
  have r := (hR md').2
  have hNZ : 0 < J.NZ := by obtain ⟨⟨i, hi, -⟩, -⟩ := r.least; omega
  have hvd : 0 < w.v * S.dt := mul_pos hv hdt
  refine C47_mpi_block_refuted r (w.par wakelength) hv hdt h3' hN hNZ rfl (by show 1 ≤ 3 / 2; norm_num) (by show 1 ≤ 3 / 2; norm_num) (by norm_num) (by norm_num) rfl hs ?_ ?_
  · unfold arangeLen lengthOf
    show 0 < ⌈(wakelength - -w.injection * w.v) / (S.dt * w.v)⌉.toNat
    have : 0 < (wakelength - -w.injection * w.v) / (S.dt * w.v) := div_pos (by linarith) (by linarith)
    have := Int.ceil_pos.2 this
    omega
  · show ⌊((mpiRec J S.dt o.Nt md' F).zf (J.NZ - 1) - zmin) / (w.v * S.dt)⌋ < (o.Nt : ℤ)
    have hle : (mpiRec J S.dt o.Nt md' F).zf (J.NZ - 1) ≤ zmax := r.greatest.2 _ (by omega)
    have hge : zmin ≤ (mpiRec J S.dt o.Nt md' F).zf (J.NZ - 1) := r.least.2 _ (by omega)
    generalize (mpiRec J S.dt o.Nt md' F).zf (J.NZ - 1) = z at hle hge
    have hst : stepsFor wakelength w.injection w.v zmin zmax S.dt = o.Nt := by omega
    rw [← hst]
    have hX : (z - zmin) / (w.v * S.dt) + 1 ≤ (wakelength + w.injection * w.v + (zmax - zmin)) / w.v / S.dt := by
      rw [div_div, ← div_self hvd.ne', ← add_div]
      exact div_le_div_of_nonneg_right (by linarith) hvd.le
    unfold stepsFor pyInt
    split_ifs with h0
    · have := Int.floor_le_floor hX
      rw [Int.floor_add_one] at this
      omega
    · exact absurd (le_trans (add_nonneg (div_nonneg (sub_nonneg.2 hge) hvd.le) zero_le_one) hX) h0

/-! ### The hypotheses are met -/

/-- The setting of two ranks, with any number of skipped cells: a run of both planes of sixteen frames. -/
theorem pair_both (skip : ℕ) : ∃ s S g b o, Setting pairJob s S g { pairBeam with skip := skip } b ∧ (∀ r < pairJob.size, nearest (g r).Nx (g r).x pairBeam.xtest = .ok 1) ∧
    (∀ r < pairJob.size, nearest (g r).Ny (g r).y pairBeam.ytest = .ok 1) ∧
    wakesolve S ((boxOf pairJob).serial pairJob.size) { pairBeam with skip := skip } 1 false none none (fun _ => .d1 0 0) initState = .ok o ∧ o.Nt = 16 ∧ S.dt = 1 / (4 * cLight) := by
  obtain ⟨s, S, g, b, o, h, p1, hN⟩ := pair_run
  have h' : Setting pairJob s S g { pairBeam with skip := skip } b := ⟨h.ranks, h.posx, h.posy, h.ext, h.bc, h.built, h.serial, h.agree, h.step, h.grids, h.beam, h.inner⟩
  obtain ⟨D, hD, e0, -, e1, -⟩ := h'.same
  have hf := hD.fitting
  rw [e0] at hf
  have hx : ∀ i : ℕ, ((boxOf pairJob).serial 2).x i = i + 1 / 2 := fun i => by
    show (i : ℝ) + (((i + 1 : ℕ) : ℝ) - i) / 2 = _
    push_cast; ring
  have near : ∀ r < pairJob.size, nearest (g r).Nx (g r).x pairBeam.xtest = .ok 1 ∧ nearest (g r).Ny (g r).y pairBeam.ytest = .ok 1 := by
    intro r hr
    obtain ⟨r1, r2, -, r4, r5, r6, r7, -⟩ := hD.rank hr
    obtain ⟨i, hi, hi'⟩ := C44_nearest r6 (g r).x pairBeam.xtest
    obtain ⟨l, hl, hl'⟩ := C44_nearest r7 (g r).y pairBeam.ytest
    rw [hi, hl]
    rw [r1, r4, hD.hx] at hi'
    rw [r2, r5, hD.hy] at hl'
    rw [pair_near hx hi', pair_near hx hl']
    exact ⟨rfl, rfl⟩
  have px : IsNearest 3 ((boxOf pairJob).serial 2).x (3 / 2) 1 := by
    obtain ⟨i, -, hi⟩ := C44_nearest (show 0 < 3 by decide) ((boxOf pairJob).serial 2).x (3 / 2)
    rw [pair_near hx hi] at hi
    exact hi
  obtain ⟨o', -, -, -, -, -, q1, -⟩ := C65_both_partial S ((boxOf pairJob).serial pairJob.size) { pairBeam with skip := skip } hf (by rw [e1]; exact h.step) 1 none none (fun _ => .d1 0 0) initState
    (ixt := 1) (iyt := 1) px px (by decide) (by show 2 < 3; decide) (by decide) (by show 2 < 3; decide)
  refine ⟨s, S, g, b, o', h', fun r hr => (near r hr).1, fun r hr => (near r hr).2, q1, ?_, e1⟩
  have a := C146_steps h p1 (r := 0) (by decide)
  have c := C146_steps h' q1 (r := 0) (by decide)
  rw [← hN]
  exact Except.ok.inj (c.symm.trans a)

/-- With a skipped cell the wakes are those of the run on one process. -/
example : ∃ s S g b o, Setting pairJob s S g { pairBeam with skip := 1 } b ∧
    wakesolve S ((boxOf pairJob).serial pairJob.size) { pairBeam with skip := 1 } 1 false none none (fun _ => .d1 0 0) initState = .ok o ∧ o.Nt = 16 ∧ ∃ F, RootFrames pairJob s g b 1 1 16 F ∧
      ∀ md', calcLongWP3d ({ pairBeam with skip := 1 }.par 1) (mpiRec pairJob S.dt 16 md' F) = calcLongWP3d ({ pairBeam with skip := 1 }.par 1) o.recording := by
  obtain ⟨s, S, g, b, o, h, hx, hy, ho, hN, -⟩ := pair_both 1
  obtain ⟨F, hF, hW⟩ := C146_wake_partial h hx hy (by decide) (by decide) (by decide) (by decide) ho (by omega) (by decide)
  rw [hN] at hF hW
  exact ⟨s, S, g, b, o, h, ho, hN, F, hF, fun md' => (hW md').2⟩

/-- Without skipped cells it fails. -/
example : ∃ s S g b o, Setting pairJob s S g { pairBeam with skip := 0 } b ∧
    wakesolve S ((boxOf pairJob).serial pairJob.size) { pairBeam with skip := 0 } 1 false none none (fun _ => .d1 0 0) initState = .ok o ∧ o.Nt = 16 ∧ ∃ F, RootFrames pairJob s g b 1 1 16 F ∧
      ∀ md', calcLongWP3d ({ pairBeam with skip := 0 }.par 1) (mpiRec pairJob S.dt 16 md' F) = .error .indexError := by
  have hc : (0 : ℝ) < cLight := by unfold cLight; norm_num
  obtain ⟨s, S, g, b, o, h, hx, hy, ho, hN, hd⟩ := pair_both 0
  obtain ⟨F, hF, hW⟩ := C146_wake_refuted h hx hy (by decide) (by decide) (by decide) (by decide) ho (by omega) rfl (by show 0 < 1 * cLight; linarith) (by omega) (by
    rw [hd]
    show 1 * cLight * (1 / (4 * cLight)) ≤ 1 + 0 * (1 * cLight)
    field_simp
    norm_num)
  rw [hN] at hF hW
  exact ⟨s, S, g, b, o, h, ho, hN, F, hF, hW⟩

end

end Wake
end Wakis
