import Verif.BeamLoss
import Verif.Planes

/-!
# C143 and C144 for runs of both planes

The charge the fields carry and the energy the bunch loses, in runs with `compute_plane = "both"` (and `"transverse"`): they record three by three columns, but leave the fields of a longitudinal run (`C145_undisturbed`).
-/

namespace Wakis
namespace Wake
open Src Sol Sparse Fld
noncomputable section

/-! ### Specification -/

/-- `Ez n k` is what a run of both planes recorded of the z field in cell `k` of the middle column at step `n`; after the last step it is the z field of the final fields in column `(i,j)`. -/
def RecordsBoth (s : Solver ℝ) (o : WakeOut) (Nz i j : ℕ) (Ez : ℕ → ℕ → ℝ) : Prop :=
  (o.Nt ≤ 100000 → ∀ n < o.Nt, ∃ name block, o.recording.file[n]? = some (name, .d3 3 3 Nz block) ∧ ∀ k < Nz, block 1 1 k = Ez n k) ∧
    ∀ k < Nz, (s.fld o.st.E).get (i : ℤ) (j : ℤ) (k : ℤ) (.str "z") = .ok (Ez o.Nt k)

/-! ### Theorems -/

theorem SameBeam.refl (w : WakeArgs) : SameBeam w w := ⟨rfl, rfl, rfl, rfl, rfl, rfl⟩

/-- Every completed run has a longitudinal companion with the same fields. -/
theorem companion {s : Solver ℝ} {g : Grd} (hf : Fitting s g) (hdt : 0 < s.dt) {w : WakeArgs} {wakelength : ℝ} {long : Bool} {mon : Option Monitor} {md : ℕ → Dset ℝ} {st : State ℝ} {o : WakeOut}
    (ho : wakesolve s g w wakelength long none mon md st = .ok o) : ∃ o', wakesolve s g w wakelength true none mon md st = .ok o' ∧ o.Nt = o'.Nt ∧ o.st = o'.st := by
  obtain ⟨o', S, D, zmin, zmax, ixt, iyt, Ez, ho', -⟩ := C65_records s g w hf hdt wakelength none mon md st
  obtain ⟨h1, h2, -⟩ := C145_undisturbed (SameBeam.refl w) ho ho'
  exact ⟨o', ho', h1, h2⟩

/-- **C143 (every plane: off the beam).** Whatever planes a wake run records, the charge at every insulating inner node off the way of the beam is exactly zero at its end. -/
theorem C143_planes_off {Nx Ny Nz : ℕ} {x y z : ℕ → ℝ} (hx : Grid.Increasing x Nx) (hy : Grid.Increasing y Ny) (hz : Grid.Increasing z Nz) {bc : Faces String} (hbc : PlainFaces bc) {ieps imu sigma : Vec ℝ}
    {dt : ℝ} (hdt : 0 < dt) {uc : Bool} {w : WakeArgs} {wakelength : ℝ} {long : Bool} {mon : Option Monitor} {md : ℕ → Dset ℝ} {o : WakeOut}
    (ho : wakesolve (build (Grid.computeGrid Nx Ny Nz x y z) bc ieps imu sigma dt uc) (grdOf Nx Ny Nz x y z dt none) w wakelength long none mon md initState = .ok o)
    {i j k : ℕ} (hi : 0 < i ∧ i + 1 < Nx) (hj : 0 < j ∧ j + 1 < Ny) (hk : 0 < k ∧ k + 1 < Nz)
    (hfree : Insulating (Grid.computeGrid Nx Ny Nz x y z) ieps sigma (build (Grid.computeGrid Nx Ny Nz x y z) bc ieps imu sigma dt uc).useConductivity i j k)
    (hoff : ¬ (IsNearest Nx (cellCentre x) w.xsource i ∧ IsNearest Ny (cellCentre y) w.ysource j)) :
    nodeCharge (Grid.computeGrid Nx Ny Nz x y z) bc ieps o.st i j k = 0 := by
  have hf : Fitting (build (Grid.computeGrid Nx Ny Nz x y z) bc ieps imu sigma dt uc) (grdOf Nx Ny Nz x y z dt none) := ⟨rfl, rfl, rfl, show 0 < Nx by omega, show 0 < Ny by omega, show 0 < Nz by omega, rfl⟩
  obtain ⟨o', ho', -, e⟩ := companion hf hdt ho
  obtain ⟨b, hb⟩ : ∃ b, w.beam = .ok b := ⟨_, rfl⟩
  rw [e]
  exact (C143_actual hx hy hz hbc hdt hb ho' hi hj hk hfree).1 hoff

section
variable {Nx Ny Nz : ℕ} {x y z : ℕ → ℝ} {bc : Faces String} {ieps imu sigma : Vec ℝ} {uc : Bool} {w : WakeArgs} {i j k : ℕ}

/-- **C143 (every plane: graded meshes).** As `C143_graded`, for runs that record any planes. -/
theorem C143_planes_graded (h : OnBeam Nx Ny Nz x y z bc ieps imu sigma uc w i j k) {dt : ℝ} (hdt : 0 < dt) {b : Beam} (hb : w.beam = .ok b) {wakelength : ℝ} {long : Bool} {mon : Option Monitor} {md : ℕ → Dset ℝ}
    {o : WakeOut} (ho : wakesolve (build (Grid.computeGrid Nx Ny Nz x y z) bc ieps imu sigma dt uc) (grdOf Nx Ny Nz x y z dt none) w wakelength long none mon md initState = .ok o) :
    CarriesBunch (areaRatio x y i j) (areaRatio x y i j * chargeError b w.sigmaz dt) Nx Ny Nz x y z bc ieps b w.sigmaz dt o i j k := by
  have hi := h.hi
  have hj := h.hj
  have hk := h.hk
  have hf : Fitting (build (Grid.computeGrid Nx Ny Nz x y z) bc ieps imu sigma dt uc) (grdOf Nx Ny Nz x y z dt none) := ⟨rfl, rfl, rfl, show 0 < Nx by omega, show 0 < Ny by omega, show 0 < Nz by omega, rfl⟩
  obtain ⟨o', ho', e1, e2⟩ := companion hf hdt ho
  have := C143_graded h hdt hb ho'
  unfold CarriesBunch at this ⊢
  rw [e1, e2]
  exact this

/-- **C143 (every plane, partial).** As `C143_charge_partial`, for runs that record any planes. Missing: graded meshes (`C143_graded_refuted`). -/
theorem C143_planes_charge_partial (h : OnBeam Nx Ny Nz x y z bc ieps imu sigma uc w i j k) (hx : x (i + 2) - x (i + 1) = x (i + 1) - x i) (hy : y (j + 2) - y (j + 1) = y (j + 1) - y j)
    {dt : ℝ} (hdt : 0 < dt) {b : Beam} (hb : w.beam = .ok b) {wakelength : ℝ} {long : Bool} {mon : Option Monitor} {md : ℕ → Dset ℝ} {o : WakeOut}
    (ho : wakesolve (build (Grid.computeGrid Nx Ny Nz x y z) bc ieps imu sigma dt uc) (grdOf Nx Ny Nz x y z dt none) w wakelength long none mon md initState = .ok o) :
    CarriesBunch 1 (chargeError b w.sigmaz dt) Nx Ny Nz x y z bc ieps b w.sigmaz dt o i j k := by
  have hi := h.hi
  have hj := h.hj
  have hk := h.hk
  have hf : Fitting (build (Grid.computeGrid Nx Ny Nz x y z) bc ieps imu sigma dt uc) (grdOf Nx Ny Nz x y z dt none) := ⟨rfl, rfl, rfl, show 0 < Nx by omega, show 0 < Ny by omega, show 0 < Nz by omega, rfl⟩
  obtain ⟨o', ho', e1, e2⟩ := companion hf hdt ho
  have := C143_charge_partial h hx hy hdt hb ho'
  unfold CarriesBunch at this ⊢
  rw [e1, e2]
  exact this

end

/-- **C144 (both planes).** As `C144_loss`, for a run that records the block of three by three columns around the bunch (which must lie inside the grid): the loss is computed from the middle column of the block. -/
theorem C144_both_planes {c eps0 mu0 cfln : ℝ} {nPml Nx Ny Nz : ℕ} {x y z : ℕ → ℝ}
    (hx : Grid.Increasing x Nx) (hy : Grid.Increasing y Ny) (hz : Grid.Increasing z Nz) {bc : Faces String} (hbc : Walls bc)
    {bg : MatSpec ℝ} {dict : String → Option (MatSpec ℝ)} {solids : List Solid} {t : Mats ℝ} {dt : ℝ}
    (he : 0 < eps0) (hu : 0 < mu0) (hc : 0 < c) (hcc : c ^ 2 * (eps0 * mu0) = 1) (h0 : 0 < cfln)
    (hbg : ∀ m, MeansMaterial bg m → m.Passive)
    (hsol : ∀ s ∈ solids, ∀ spec m, dict s.1 = some spec → MeansMaterial spec m → m.Passive)
    (h : setUp c eps0 mu0 cfln none nPml Nx Ny Nz x y z bc bg dict solids = .ok (t, dt))
    (hq : cfln ^ 2 + (if t.useCond then 1 / 2 else 0) < 1)
    {w : WakeArgs} {b : Beam} (hb : w.beam = .ok b) {i j : ℕ} (hi0 : 0 < i) (hi : i + 1 < Nx) (hj0 : 0 < j) (hj : j + 1 < Ny)
    (hsx : IsNearest Nx (cellCentre x) w.xsource i) (hsy : IsNearest Ny (cellCentre y) w.ysource j)
    (htx : IsNearest Nx (cellCentre x) w.xtest i) (hty : IsNearest Ny (cellCentre y) w.ytest j)
    {wakelength : ℝ} {mon : Option Monitor} {md : ℕ → Dset ℝ} :
    ∃ o, wakesolve (build (Grid.computeGrid Nx Ny Nz x y z) bc t.ieps.array t.imu.array t.sigma.array dt t.useCond) (grdOf Nx Ny Nz x y z dt none) w wakelength false none mon md initState = .ok o ∧
    ∃ Ez, RecordsBoth (build (Grid.computeGrid Nx Ny Nz x y z) bc t.ieps.array t.imu.array t.sigma.array dt t.useCond) o Nz i j Ez ∧
      (∀ n ≤ o.Nt, 0 ≤ bunchLoss b w.sigmaz dt Nz z Ez n) ∧
      fieldEnergy (Grid.computeGrid Nx Ny Nz x y z) bc t.ieps.array t.imu.array o.st ≤
        6 / (1 - (cfln ^ 2 + if t.useCond then 1 / 2 else 0)) * (areaRatio x y i j * bunchLoss b w.sigmaz dt Nz z Ez o.Nt) := by
  have ne : 0 < Nx ∧ 0 < Ny ∧ 0 < Nz := setUp_nonempty h
  have hdt : 0 < dt := setUp_dt_pos hx hy hz he hu hc h0 hbg hsol h
  have hf : Fitting (build (Grid.computeGrid Nx Ny Nz x y z) bc t.ieps.array t.imu.array t.sigma.array dt t.useCond) (grdOf Nx Ny Nz x y z dt none) := ⟨rfl, rfl, rfl, ne.1, ne.2.1, ne.2.2, rfl⟩
  obtain ⟨o, o', ho, ho', eN, hrec⟩ := C145_samples_partial hf hdt wakelength mon mon md md initState htx hty hi0 hi hj0 hj
  obtain ⟨-, eS, -⟩ := C145_undisturbed (SameBeam.refl w) ho ho'
  obtain ⟨Ez, ⟨r1, r2⟩, hl, hE⟩ := C144_loss hx hy hz hbc he hu hc hcc h0 hbg hsol h hq hb hi hj hsx hsy htx hty ho'
  refine ⟨o, ho, Ez, ⟨fun hN n hn => ?_, fun k hk => ?_⟩, fun n hn => hl n (by omega), ?_⟩
  · obtain ⟨name, name', v, v', f1, f2, f3⟩ := hrec hN n hn
    refine ⟨name, v, f1, fun k hk => ?_⟩
    have e := r1 n (by omega) k hk (by omega)
    unfold sample at e
    rw [f2] at e
    simp only [show k < (grdOf Nx Ny Nz x y z dt none).Nz from hk, if_true, Option.some.injEq] at e
    rw [← e]
    exact (f3 k hk).symm
  · rw [eS, ← eN]
    exact r2 k hk
  · rw [eS, ← eN]
    exact hE

/-- A box of 4 x 4 x 5 unit cells: a run of both planes of every length exists; its fields carry the charge of the bunch on its way and none beside it. -/
example (wakelength : ℝ) (md : ℕ → Dset ℝ) : ∃ o, wakesolve (build (Grid.computeGrid 4 4 5 (fun n => (n : ℝ)) (fun n => (n : ℝ)) (fun n => (n : ℝ))) ⟨"pec", "pec", "pec", "pec", "pec", "pec"⟩ (fun _ => 1) (fun _ => 1) (fun _ => 0) 1 false)
      (grdOf 4 4 5 (fun n => (n : ℝ)) (fun n => (n : ℝ)) (fun n => (n : ℝ)) 1 none) (aimed (fun n => (n : ℝ)) (fun n => (n : ℝ)) 1 2) wakelength false none none md initState = .ok o ∧
    (∃ b, CarriesBunch 1 (chargeError b 1 1) 4 4 5 (fun n => (n : ℝ)) (fun n => (n : ℝ)) (fun n => (n : ℝ)) ⟨"pec", "pec", "pec", "pec", "pec", "pec"⟩ (fun _ => 1) b 1 1 o 1 2 3) ∧
    nodeCharge (Grid.computeGrid 4 4 5 (fun n => (n : ℝ)) (fun n => (n : ℝ)) (fun n => (n : ℝ))) ⟨"pec", "pec", "pec", "pec", "pec", "pec"⟩ (fun _ => 1) o.st 2 2 3 = 0 := by
  have hI : ∀ n, Grid.Increasing (fun n : ℕ => (n : ℝ)) n := fun n i _ => by push_cast; linarith
  obtain ⟨o, -, -, -, -, -, ho, -⟩ := C65_both_partial (build (Grid.computeGrid 4 4 5 (fun n => (n : ℝ)) (fun n => (n : ℝ)) (fun n => (n : ℝ))) ⟨"pec", "pec", "pec", "pec", "pec", "pec"⟩ (fun _ => 1) (fun _ => 1)
      (fun _ => 0) 1 false) (grdOf 4 4 5 (fun n => (n : ℝ)) (fun n => (n : ℝ)) (fun n => (n : ℝ)) 1 none) (aimed (fun n => (n : ℝ)) (fun n => (n : ℝ)) 1 2)
      ⟨rfl, rfl, rfl, show 0 < 4 by omega, show 0 < 4 by omega, show 0 < 5 by omega, rfl⟩ one_pos wakelength none none md initState (ixt := 1) (iyt := 2) (centre_nearest (hI 4) (by omega))
      (centre_nearest (hI 4) (by omega)) (by omega) (show 1 + 1 < 4 by omega) (by omega) (show 2 + 1 < 4 by omega)
  have box := empty_box (hI 4) (hI 4) (hI 5) (i := 1) (j := 2) (k := 3) ⟨by omega, by omega⟩ ⟨by omega, by omega⟩ ⟨by omega, by omega⟩
  refine ⟨o, ho, ⟨_, C143_planes_charge_partial box (by norm_num) (by norm_num) one_pos rfl ho⟩, ?_⟩
  refine C143_planes_off (hI 4) (hI 4) (hI 5) box.faces one_pos ho ⟨by omega, by omega⟩ ⟨by omega, by omega⟩ ⟨by omega, by omega⟩ (fun _ _ => ⟨one_ne_zero, fun _ => rfl⟩) fun h => ?_
  have := C44_unique h.1 (centre_nearest (hI 4) (show 1 < 4 by omega))
  omega

/-- A 4 x 4 x 5 box with graded cells, PML faces and a conducting background: the bunch loses energy in runs of both planes of every length. -/
example (wakelength : ℝ) (md : ℕ → Dset ℝ) : ∃ t dt o, setUp 1 1 1 (1 / 2) none 2 4 4 5 (fun i => (i : ℝ) ^ 2) (fun i => (i : ℝ) ^ 2) (fun i => (i : ℝ) ^ 2) wBc
      (.vals ⟨.fin 2, .fin 1, some 3⟩) (fun _ => none) [] = .ok (t, dt) ∧
    wakesolve (build (Grid.computeGrid 4 4 5 (fun i => (i : ℝ) ^ 2) (fun i => (i : ℝ) ^ 2) (fun i => (i : ℝ) ^ 2)) wBc t.ieps.array t.imu.array t.sigma.array dt t.useCond)
      (grdOf 4 4 5 (fun i => (i : ℝ) ^ 2) (fun i => (i : ℝ) ^ 2) (fun i => (i : ℝ) ^ 2) dt none) (aimed (fun i => (i : ℝ) ^ 2) (fun i => (i : ℝ) ^ 2) 1 2) wakelength false none none md initState = .ok o ∧
    ∃ b Ez, RecordsBoth (build (Grid.computeGrid 4 4 5 (fun i => (i : ℝ) ^ 2) (fun i => (i : ℝ) ^ 2) (fun i => (i : ℝ) ^ 2)) wBc t.ieps.array t.imu.array t.sigma.array dt t.useCond) o 5 1 2 Ez ∧
      ∀ n ≤ o.Nt, 0 ≤ bunchLoss b 1 dt 5 (fun i => (i : ℝ) ^ 2) Ez n := by
  obtain ⟨t, dt, h, hpas, _⟩ := setUp_case
  have inc : ∀ n, Grid.Increasing (fun i => (i : ℝ) ^ 2) n := by
    intro n i _
    have : (0 : ℝ) ≤ i := Nat.cast_nonneg i
    show (i : ℝ) ^ 2 < ((i + 1 : ℕ) : ℝ) ^ 2
    push_cast
    nlinarith
  obtain ⟨o, ho, Ez, h1, h2, -⟩ := C144_both_planes (w := aimed (fun i => (i : ℝ) ^ 2) (fun i => (i : ℝ) ^ 2) 1 2) (wakelength := wakelength) (mon := none) (md := md) (inc 4) (inc 4) (inc 5) wBc_walls one_pos one_pos
    one_pos (by norm_num) (by norm_num) hpas (by simp) h (by split_ifs <;> norm_num) rfl (show 0 < 1 by omega)
    (show 1 + 1 < 4 by omega) (show 0 < 2 by omega) (show 2 + 1 < 4 by omega) (centre_nearest (inc 4) (by omega)) (centre_nearest (inc 4) (by omega)) (centre_nearest (inc 4) (by omega)) (centre_nearest (inc 4) (by omega))
  exact ⟨t, dt, o, h, ho, _, Ez, h1, h2⟩

end
end Wake
end Wakis
