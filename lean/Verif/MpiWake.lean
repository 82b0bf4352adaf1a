import Verif.MpiGather
import Verif.MpiAccept
import Verif.Planes

/-!
# C146: a wake run on several processes records what a run on one process does

`wakis/routines.py:325-437` with `use_mpi`: every rank moves its own copy of the beam over its slab, the ranks gather Ez along the path of the test particle on the root, which writes the frame,
then they make a step together (`_mpi_one_step`).
-/

namespace Wakis
namespace Wake
open Src Sol Sparse Fld Mpi
noncomputable section

/-! ### Model -/

/-- What the sources see of the grid of a distributed run. -/
def boxOf (J : Mpi.Job ℝ) : Box := ⟨J.Nx, J.Ny, J.Nz, J.x, J.y, J.zmin, J.zmax, J.dt⟩

/-- gridFIT3D.py:323-324 `self.Z`: the global layer centres that every rank keeps. -/
def globalZ (J : Mpi.Job ℝ) (k : ℕ) : ℝ := Grid.linspace J.zmin J.zmax J.NZ k + (J.zmax - J.zmin) / (2 * J.NZ)

/-- routines.py:344-354: number of steps as a rank with time step `dt` computes it from the global coordinates. -/
def mpiSteps (J : Mpi.Job ℝ) (w : WakeArgs) (wakelength dt : ℝ) : Py ℕ := do
  let zmax ← Wake.maxOf J.NZ (globalZ J)
  let zmin ← Wake.minOf J.NZ (globalZ J)
  let tmax := (wakelength + w.injection * w.v + (zmax - zmin)) / w.v
  return (pyInt (tmax / dt)).toNat

/-- The beam object of a rank after `n` updates (sources.py:80-96 keeps cell numbers and zmin at the first one). -/
def beamAt (g : Grd) (b : Beam) : ℕ → Beam
  | 0 => b
  | n + 1 => match (beamAt g b n).locate g with
    | .ok c => { beamAt g b n with cache := some c }
    | .error _ => beamAt g b n

/-- routines.py:415 `beam.update(self, n * self.dt)` on a rank, as a change of the rank's memory.  That the update raises nothing is part of `C146_frames_partial`. -/
def beamComp (s : Solver ℝ) (g : Grd) (b : Beam) (t : ℝ) (st : State ℝ) : State ℝ :=
  match b.update g ⟨s.fld st.E, s.fld st.H, s.fld st.J⟩ t with
  | .ok p => { st with E := p.2.E.array, H := p.2.H.array, J := p.2.J.array }
  | .error _ => st

/-- What rank `r` executes in line 415 of pass `n`. -/
def beamProg (s : ℕ → Solver ℝ) (g : ℕ → Grd) (b : Beam) (size n r : ℕ) : List (Instr (State ℝ) (ℕ → ℕ → ℝ)) :=
  local1 size (fun r => beamComp (s r) (g r) (beamAt (g r) b n) (n * (s r).dt)) r

/-- routines.py:413-423: the program of rank `r` for `n` passes of the loop; the gathers in between only read the fields, see `gatherPoint`. -/
def loopProg (s : ℕ → Solver ℝ) (g : ℕ → Grd) (b : Beam) (size : ℕ) : ℕ → ℕ → List (Instr (State ℝ) (ℕ → ℕ → ℝ))
  | 0, _ => []
  | n + 1, r => loopProg s g b size n r ++ (beamProg s g b size n r ++ stepProg s size r)

/-- The program of rank `r` up to the gather of pass `n` (line 418). -/
def gatherPoint (s : ℕ → Solver ℝ) (g : ℕ → Grd) (b : Beam) (size n r : ℕ) : List (Instr (State ℝ) (ℕ → ℕ → ℝ)) :=
  loopProg s g b size n r ++ beamProg s g b size n r

/-- routines.py:398-402, 418: the frame the root writes, gathered from the fields of the ranks at cells `xx`, `yy` (`solverFIT3D.py:520-659`). -/
def mpiFrame (J : Mpi.Job ℝ) (s : ℕ → Solver ℝ) (mem : ℕ → State ℝ) (xx yy : Sel) : Py (Arr3 ℝ) :=
  mpiGather (fun a b c => Real.sqrt (a ^ 2 + b ^ 2 + c ^ 2)) J.size J.NZ (fun r => (s r).fld (mem r).E) (some xx) (some yy) (some (.slice (some 0) (some J.NZ))) (.str "z")

/-! ### Specification -/

/-- A wake run to be made on `J.size` ranks and on one process, as in C34: both built from the same input, transverse faces PEC, no periodic pair and no PMC along z; the beam is not in an outermost
cell (where E and J are held at zero). -/
structure Setting (J : Mpi.Job ℝ) (s : ℕ → Solver ℝ) (S : Solver ℝ) (g : ℕ → Grd) (w : WakeArgs) (b : Beam) : Prop where
  ranks : 2 ≤ J.size
  posx : 0 < J.Nx
  posy : 0 < J.Ny
  ext : J.zmin < J.zmax
  bc : PlainBC J.bc
  /-- the solvers of the ranks -/
  built : ∀ r < J.size, J.rank r = .ok (s r)
  /-- the solver of the run on one process -/
  serial : J.serial = .ok S
  agree : Agrees J s S
  step : 0 < J.dt
  /-- the grids the ranks' sources see -/
  grids : ∀ r < J.size, (boxOf J).rank J.size r = .ok (g r)
  beam : w.beam = .ok b
  inner : ∀ i j, IsNearest J.Nx ((boxOf J).serial J.size).x w.xsource i → IsNearest J.Ny ((boxOf J).serial J.size).y w.ysource j → 0 < i ∧ i + 1 < J.Nx ∧ 0 < j ∧ j + 1 < J.Ny

/-- Started from zero fields the ranks always come to an end of `prog`, whatever the schedule of the messages, and then `P` holds of their memories. -/
def Ends (eager : ℕ → ℕ → Bool) (prog : ℕ → List (Instr (State ℝ) (ℕ → ℕ → ℝ))) (P : (ℕ → State ℝ) → Prop) : Prop :=
  ∃ total : ℕ, ∀ (l : List Act) (net : Net (State ℝ) (ℕ → ℕ → ℝ)), run eager (start prog fun _ => initState) l = some net →
    l.length ≤ total ∧ (∃ l' z, run eager net l' = some z ∧ z.Done) ∧ (net.Done → P fun r => (net.proc r).loc)

/-! ### The beam on a rank -/

theorem beamAt_inv {g : Grd} {b : Beam} (hb : b.cache = none) {sg : ℝ} (hsg : b.sigmaz = some sg) (hN : 0 < g.Nx ∧ 0 < g.Ny ∧ 0 < g.Nz) (n : ℕ) :
    (beamAt g b n).Fits g ∧ (beamAt g b n).xsource = b.xsource ∧ (beamAt g b n).ysource = b.ysource ∧ (beamAt g b n).beta = b.beta ∧ (beamAt g b n).q = b.q ∧
      (beamAt g b n).sigmaz = b.sigmaz ∧ (beamAt g b n).ti = b.ti := by
  induction n with
  | zero => exact ⟨.inl hb, rfl, rfl, rfl, rfl, rfl, rfl⟩
  | succ n ih =>
    obtain ⟨i0, i1, i2, i3, i4, i5, i6⟩ := ih
    let f : Fld ℝ := ⟨g.Nx, g.Ny, g.Nz, fun _ => 0⟩
    obtain ⟨b', F', hu⟩ := C42_updates (beamAt g b n) (F := ⟨f, f, f⟩) 0 (i5.trans hsg) hN i0 rfl rfl rfl
    obtain ⟨-, -, hF, -⟩ := C41_beam i0 rfl rfl hu
    obtain ⟨c, _, _, hl, -, hb', -, -⟩ := Beam.update_inv hu
    have e : beamAt g b (n + 1) = b' := by rw [hb', beamAt, hl]
    rw [e]
    refine ⟨hF, ?_⟩
    rw [hb']
    exact ⟨i1, i2, i3, i4, i5, i6⟩

theorem beamAt_update {g : Grd} {b : Beam} {n : ℕ} {F : Flds} {t : ℝ} {b' : Beam} {F' : Flds} (h : (beamAt g b n).update g F t = .ok (b', F')) : b' = beamAt g b (n + 1) := by
  obtain ⟨c, _, _, hl, -, hb', -, -⟩ := Beam.update_inv h
  rw [hb', beamAt, hl]

theorem update_driven {s : Solver ℝ} {g : Grd} {w : WakeArgs} (hf : Fitting s g) {zmin : ℝ} (hz : Smallest g.Nz g.z zmin) {b b' : Beam} (hb : w.beam = .ok b) {t : ℝ} {st : State ℝ} {F' : Flds}
    (hu : b.update g ⟨s.fld st.E, s.fld st.H, s.fld st.J⟩ t = .ok (b', F')) : Driven s g w zmin t st { st with E := F'.E.array, H := F'.H.array, J := F'.J.array } := by
  have hb0 := hb
  unfold WakeArgs.beam Beam.init at hb0
  have hc : b.cache = none := by cases hb0; rfl
  have hsig : b.sigmaz = some w.sigmaz := by cases hb0; rfl
  have hq : b.q = w.q := by cases hb0; rfl
  have hbeta : b.beta = w.beta := by cases hb0; rfl
  have hxs : b.xsource = w.xsource := by cases hb0; rfl
  have hys : b.ysource = w.ysource := by cases hb0; rfl
  have hv : b.v = w.v := by unfold Beam.v WakeArgs.v; rw [hbeta, mul_comm]
  obtain ⟨uE, uH, -, uJ⟩ := C41_beam (.inl hc) hf.Nx.symm hf.Ny.symm hu
  obtain ⟨sg, zm, i, l, hsg, ⟨m, hm, hzm⟩, hzmin, hi, hl, hJ⟩ := C42_current (.inl hc) hf.Nx.symm hf.Ny.symm hf.Nz.symm hf.serial hu
  obtain rfl : sg = w.sigmaz := by rw [hsig] at hsg; exact (Option.some.inj hsg).symm
  obtain rfl : zm = zmin := smallest_unique ⟨⟨m, hm, hzm⟩, hzmin⟩ hz
  rw [hxs] at hi uJ
  rw [hys] at hl uJ
  have hFJ : F'.J = s.fld F'.J.array := by
    obtain ⟨d1, d2, d3, -⟩ := uJ
    show F'.J = ⟨s.Nx, s.Ny, s.Nz, F'.J.array⟩
    rw [show s.Nx = F'.J.Nx from d1.symm, show s.Ny = F'.J.Ny from d2.symm, show s.Nz = F'.J.Nz from d3.symm]
  refine ⟨by show F'.E.array = st.E; rw [uE]; rfl, by show F'.H.array = st.H; rw [uH]; rfl, rfl, b, hb, i, l, hi, hl, ?_, fun k hk => ?_⟩
  · show SameBut _ _ (s.fld F'.J.array)
    rw [← hFJ]; exact uJ
  · show (s.fld F'.J.array).get _ _ _ _ = _
    rw [← hFJ, hJ k hk, hv, hq]

/-! ### All ranks together -/

/-- All ranks move the beam. -/
def syncBeam (s : ℕ → Solver ℝ) (g : ℕ → Grd) (b : Beam) (size n : ℕ) (locs : ℕ → State ℝ) : ℕ → State ℝ :=
  syncLocal size (fun r => beamComp (s r) (g r) (beamAt (g r) b n) (n * (s r).dt)) locs

/-- The passes of the loop in lock step. -/
def syncLoop (s : ℕ → Solver ℝ) (g : ℕ → Grd) (b : Beam) (size m : ℕ) (locs : ℕ → State ℝ) : ℕ → ℕ → State ℝ
  | 0 => locs
  | n + 1 => syncEv s size m (syncBeam s g b size n (syncLoop s g b size m locs n)) .step

theorem loop_reach {eager : ℕ → ℕ → Bool} {s : ℕ → Solver ℝ} (g : ℕ → Grd) (b : Beam) {size : ℕ} (h : Slabs s size) (hs : 0 < size) (m : ℕ) (locs : ℕ → State ℝ) (n : ℕ) :
    ∀ rest, Reach eager (start (fun r => loopProg s g b size n r ++ rest r) locs) (start rest (syncLoop s g b size m locs n)) := by
  induction n with
  | zero => intro rest; exact Reach.refl _
  | succ n ih =>
    intro rest
    have e : (fun r => loopProg s g b size (n + 1) r ++ rest r) =
        fun r => loopProg s g b size n r ++ (beamProg s g b size n r ++ (evProg s size m r .step ++ rest r)) := by
      funext r
      simp only [loopProg, evProg, List.append_assoc]
    rw [e]
    exact (ih _).trans ((local_reach size _ _ _).trans (event_reach h hs m .step _ rest))

theorem loopProg_ok {s : ℕ → Solver ℝ} (g : ℕ → Grd) (b : Beam) {size : ℕ} (h : Slabs s size) (n r : ℕ) : ∀ i ∈ loopProg s g b size n r, i.Ok := by
  induction n with
  | zero => intro i hi; simp [loopProg] at hi
  | succ n ih =>
    intro i hi
    simp only [loopProg, List.mem_append] at hi
    rcases hi with hi | hi | hi
    · exact ih i hi
    · exact local1_ok _ _ _ i hi
    · exact evProg_ok h 0 r .step i hi

theorem gather_reach {eager : ℕ → ℕ → Bool} {s : ℕ → Solver ℝ} (g : ℕ → Grd) (b : Beam) {size : ℕ} (h : Slabs s size) (hs : 0 < size) (m : ℕ) (locs : ℕ → State ℝ) (n : ℕ) :
    Reach eager (start (gatherPoint s g b size n) locs) (start (fun _ => []) (syncBeam s g b size n (syncLoop s g b size m locs n))) := by
  have e : gatherPoint s g b size n = fun r => loopProg s g b size n r ++ (beamProg s g b size n r ++ []) := by
    funext r
    simp only [gatherPoint, List.append_nil]
  rw [e]
  exact (loop_reach g b h hs m locs n _).trans (local_reach size _ _ _)

/-! ### The ranks hold the fields of the run on one process -/

theorem offset_eq {n r k : ℕ} (hn : 0 < n) : globalLayer n r k = off n r + k := by
  unfold globalLayer off Grid.ghostLo
  rcases Nat.eq_zero_or_pos r with h | h
  · simp [h]
  · have : 0 < r * n := Nat.mul_pos h hn
    rw [if_neg (by omega), if_pos h]
    omega

/-- Data of the comparison. -/
structure Same (J : Mpi.Job ℝ) (D : Mpi.Dist ℝ) (g : ℕ → Grd) (w : WakeArgs) (b : Beam) : Prop where
  ok : D.Ok
  hsize : D.size = J.size
  hn : D.n = J.NZ / J.size
  hx : D.Nx = J.Nx
  hy : D.Ny = J.Ny
  hz : D.NZ = J.NZ
  hbc : D.bc = J.bc
  ext : J.zmin < J.zmax
  posx : 0 < J.Nx
  posy : 0 < J.Ny
  grd : ∀ r < J.size, (boxOf J).rank J.size r = .ok (g r)
  beam : w.beam = .ok b
  inner : ∀ i j, IsNearest J.Nx ((boxOf J).serial J.size).x w.xsource i → IsNearest J.Ny ((boxOf J).serial J.size).y w.ysource j → 0 < i ∧ i + 1 < J.Nx ∧ 0 < j ∧ j + 1 < J.Ny

theorem Same.fitting {J : Mpi.Job ℝ} {D : Mpi.Dist ℝ} {g : ℕ → Grd} {w : WakeArgs} {b : Beam} (h : Same J D g w b) : Fitting D.serial ((boxOf J).serial J.size) where
  Nx := h.hx.symm
  Ny := h.hy.symm
  Nz := h.hz.symm
  posx := by show 0 < D.Nx; rw [h.hx]; exact h.posx
  posy := by show 0 < D.Ny; rw [h.hy]; exact h.posy
  posz := by
    show 0 < D.NZ
    have := (h.ok.fit (r := 0) (by have := h.ok.ranks; omega)).2.2.2.2
    omega
  serial := rfl

theorem Same.rank {J : Mpi.Job ℝ} {D : Mpi.Dist ℝ} {g : ℕ → Grd} {w : WakeArgs} {b : Beam} (h : Same J D g w b) {r : ℕ} (hr : r < J.size) :
    (g r).Nx = D.Nx ∧ (g r).Ny = D.Ny ∧ (g r).Nz = D.m r ∧ (g r).x = ((boxOf J).serial J.size).x ∧ (g r).y = ((boxOf J).serial J.size).y ∧ (0 < (g r).Nx ∧ 0 < (g r).Ny ∧ 0 < (g r).Nz) := by
  have hs : 2 ≤ J.size := h.hsize ▸ h.ok.ranks
  obtain ⟨hn, -, gx, gy, gz, -, -, ex, ey, -⟩ := rank_grid hs hr (h.grd r hr)
  have e1 : (g r).Nx = D.Nx := gx.trans h.hx.symm
  have e2 : (g r).Ny = D.Ny := gy.trans h.hy.symm
  have e3 : (g r).Nz = D.m r := by
    rw [gz]; unfold Mpi.Dist.m; rw [h.hn, h.hsize]; rfl
  refine ⟨e1, e2, e3, ex, ey, by rw [gx]; exact h.posx, by rw [gy]; exact h.posy, by rw [gz]; omega⟩

theorem beamComp_ok {J : Mpi.Job ℝ} {D : Mpi.Dist ℝ} {g : ℕ → Grd} {w : WakeArgs} {b : Beam} (h : Same J D g w b) {r : ℕ} (hr : r < J.size) (n : ℕ) (t : ℝ) (st : State ℝ) :
    ∃ F', (beamAt (g r) b n).update (g r) ⟨(D.rank r).fld st.E, (D.rank r).fld st.H, (D.rank r).fld st.J⟩ t = .ok (beamAt (g r) b (n + 1), F') ∧
      beamComp (D.rank r) (g r) (beamAt (g r) b n) t st = { st with E := F'.E.array, H := F'.H.array, J := F'.J.array } := by
  obtain ⟨e1, e2, e3, -, -, hN⟩ := h.rank hr
  have hb0 := h.beam
  unfold WakeArgs.beam Beam.init at hb0
  have hc : b.cache = none := by cases hb0; rfl
  have hsig : b.sigmaz = some w.sigmaz := by cases hb0; rfl
  obtain ⟨i0, -, -, -, -, i5, -⟩ := beamAt_inv hc hsig hN n
  obtain ⟨b', F', hu⟩ := C42_updates (beamAt (g r) b n) (F := ⟨(D.rank r).fld st.E, (D.rank r).fld st.H, (D.rank r).fld st.J⟩) t (i5.trans hsig) hN i0 e1.symm e2.symm e3.symm
  obtain rfl := beamAt_update hu
  exact ⟨F', hu, by unfold beamComp; rw [hu]⟩

theorem drive_rel {J : Mpi.Job ℝ} {D : Mpi.Dist ℝ} {g : ℕ → Grd} {w : WakeArgs} {b : Beam} (h : Same J D g w b) {zmin : ℝ} (hz : Smallest J.NZ ((boxOf J).serial J.size).z zmin) (n : ℕ)
    {locs : ℕ → State ℝ} {sg sg' : State ℝ} (hR : D.Rel locs sg) (hd : Driven D.serial ((boxOf J).serial J.size) w zmin (n * D.dt) sg sg') :
    D.Rel (syncBeam D.rank g b D.size n locs) sg' := by
  have hf := h.fitting
  have hs : 2 ≤ J.size := h.hsize ▸ h.ok.ranks
  have hb0 := h.beam
  unfold WakeArgs.beam Beam.init at hb0
  have hc : b.cache = none := by cases hb0; rfl
  have hsig : b.sigmaz = some w.sigmaz := by cases hb0; rfl
  obtain ⟨b₂, F₂, u₂⟩ := C42_updates b (g := (boxOf J).serial J.size) (F := ⟨D.serial.fld sg.E, D.serial.fld sg.H, D.serial.fld sg.J⟩) (n * D.dt) hsig
    ⟨h.posx, h.posy, by rw [hf.Nz]; exact hf.posz⟩ (.inl hc) hf.Nx.symm hf.Ny.symm hf.Nz.symm
  have hd' := update_driven hf hz h.beam u₂
  have f2 : F₂.J = D.serial.fld F₂.J.array := by
    obtain ⟨-, -, -, d1, d2, d3, -⟩ := C41_beam (.inl hc) hf.Nx.symm hf.Ny.symm u₂
    show F₂.J = ⟨D.serial.Nx, D.serial.Ny, D.serial.Nz, F₂.J.array⟩
    rw [show D.serial.Nx = F₂.J.Nx from d1.symm, show D.serial.Ny = F₂.J.Ny from d2.symm, show D.serial.Nz = F₂.J.Nz from d3.symm]
  have hrank : ∀ r < D.size, ∃ F', syncBeam D.rank g b D.size n locs r = { locs r with E := (locs r).E, H := (locs r).H, J := F' } ∧
      ∀ c i j k, c < 3 → i < D.Nx → j < D.Ny → k < D.m r → F' (pos D.Nx D.Ny (D.m r) c i j k) = sg'.J (pos D.Nx D.Ny D.NZ c i j (D.o r + k)) := by
    intro r hr
    have hr' : r < J.size := h.hsize ▸ hr
    obtain ⟨e1, e2, e3, -, -, hN⟩ := h.rank hr'
    obtain ⟨i0, i1, i2, i3, i4, i5, i6⟩ := beamAt_inv hc hsig hN n
    obtain ⟨F₁, u₁, hcomp⟩ := beamComp_ok h hr' n (n * D.dt) (locs r)
    obtain ⟨hJ, hE, hH, -, -, -, -⟩ := C82_beam hs hr' h.ext (h.grd r hr') ⟨i1, i2, i3, i4, i5, i6⟩ i0 (.inl hc)
      (by intro f hf'; simp only [List.mem_cons, List.not_mem_nil, or_false] at hf'; rcases hf' with rfl | rfl | rfl <;> exact ⟨e1.symm, e2.symm, e3.symm⟩)
      (by intro f hf'; simp only [List.mem_cons, List.not_mem_nil, or_false] at hf'; rcases hf' with rfl | rfl | rfl <;> exact ⟨hf.Nx.symm, hf.Ny.symm, hf.Nz.symm⟩)
      (t := n * D.dt) (by
        intro key c i j k hk hi hj hkz
        obtain ⟨f1, -⟩ := h.ok.fit hr
        have hkz : k < D.m r := hkz
        have hg : globalLayer ((boxOf J).NZ J.size / J.size) r k = D.o r + k := by
          rw [show (boxOf J).NZ J.size / J.size = D.n from h.hn.symm]; exact offset_eq h.ok.layers
        rw [hg, get_at3 (f := (D.rank r).fld (locs r).J) _ hk hi hj hkz, get_at3 (f := D.serial.fld sg.J) _ hk hi hj (show D.o r + k < D.NZ by omega)]
        exact congrArg Except.ok (hR.J r hr c i j k (compOf_lt (names_iff.1 hk)) hi hj hkz)) u₁ u₂
    refine ⟨F₁.J.array, ?_, ?_⟩
    · unfold syncBeam syncLocal
      rw [if_pos hr]
      show beamComp (D.rank r) (g r) (beamAt (g r) b n) (n * D.dt) (locs r) = _
      rw [hcomp, hE, hH]
      rfl
    · intro c i j k hc3 hi hj hk
      obtain ⟨f1, -⟩ := h.ok.fit hr
      have hkey : Names (.num c) c := ⟨rfl, hc3⟩
      have hg : globalLayer ((boxOf J).NZ J.size / J.size) r k = D.o r + k := by
        rw [show (boxOf J).NZ J.size / J.size = D.n from h.hn.symm]; exact offset_eq h.ok.layers
      have hfr : F₁.J = (D.rank r).fld F₁.J.array := by
        obtain ⟨-, -, -, d1, d2, d3, -⟩ := C41_beam i0 e1.symm e2.symm u₁
        show F₁.J = ⟨(D.rank r).Nx, (D.rank r).Ny, (D.rank r).Nz, F₁.J.array⟩
        rw [show (D.rank r).Nx = F₁.J.Nx from d1.symm, show (D.rank r).Ny = F₁.J.Ny from d2.symm, show (D.rank r).Nz = F₁.J.Nz from d3.symm]
      have e := hJ (.num c) c i j k hkey (by rw [f2]; exact hi) (by rw [f2]; exact hj) (by rw [hfr]; exact hk)
      rw [hg, hfr, f2, get_at3 (f := (D.rank r).fld F₁.J.array) _ hkey hi hj hk, get_at3 (f := D.serial.fld F₂.J.array) _ hkey hi hj (show D.o r + k < D.NZ by omega)] at e
      have e' := driven_J hf hd hd' (c := c) (i := i) (j := j) (k := D.o r + k) hc3 hi hj (show D.o r + k < D.NZ by omega) fun _ => rfl
      exact (Except.ok.inj e).trans e'.symm
  refine ⟨?_, ?_, ?_, ?_, ?_⟩
  · intro r hr c i j k hc3 hi hj hk
    obtain ⟨F', e, -⟩ := hrank r hr
    have := hR.E r hr c i j k hc3 hi hj hk
    unfold Mpi.Dist.Agree cell getW at this ⊢
    rw [e]
    show (locs r).E _ = sg'.E _
    rw [hd.E]; exact this
  · intro r hr c i j k hc3 hi hj hk
    obtain ⟨F', e, -⟩ := hrank r hr
    have := hR.H r hr c i j k hc3 hi hj hk
    unfold Mpi.Dist.Agree cell getW at this ⊢
    rw [e]
    show (locs r).H _ = sg'.H _
    rw [hd.H]; exact this
  · intro r hr c i j k hc3 hi hj hk
    obtain ⟨F', e, hv⟩ := hrank r hr
    unfold Mpi.Dist.Agree cell getW
    rw [e]; exact hv c i j k hc3 hi hj hk
  · intro r hr
    obtain ⟨F', e, -⟩ := hrank r hr
    rw [e, hd.step0]; exact hR.step0 r hr
  · intro c i j k hc3 hi hj hk hm
    obtain ⟨k1, k2⟩ := hR.clean c i j k hc3 hi hj hk hm
    refine ⟨by rw [hd.E]; exact k1, ?_⟩
    have hn : ¬ (c = 2 ∧ IsNearest ((boxOf J).serial J.size).Nx ((boxOf J).serial J.size).x w.xsource i ∧ IsNearest ((boxOf J).serial J.size).Ny ((boxOf J).serial J.size).y w.ysource j) := by
      rintro ⟨rfl, hi', hj'⟩
      obtain ⟨p1, p2, p3, p4⟩ := h.inner i j hi' hj'
      rw [← h.hx] at p2
      rw [← h.hy] at p4
      rcases maskVal_cases (K := ℝ) D.grid D.bc (i := i) (j := j) (k := k) hc3 with hv | ⟨a, sd, b1, b2, b3, b4⟩
      · have : D.maskg 2 i j k = 1 := hv
        rw [this] at hm; exact one_ne_zero hm
      · have ha : a = 0 ∨ a = 1 := by omega
        have b3' : OnFace D.Nx D.Ny D.NZ a sd i j k := b3
        unfold OnFace at b3'
        rcases ha with rfl | rfl <;> cases sd <;> simp [coord] at b3' <;> omega
    exact (driven_entry hd hc3 hi hj hk hn).trans k2

/-! ### From the solvers to the comparison -/

theorem Setting.same {J : Mpi.Job ℝ} {s : ℕ → Solver ℝ} {S : Solver ℝ} {g : ℕ → Grd} {w : WakeArgs} {b : Beam} (h : Setting J s S g w b) :
    ∃ D : Mpi.Dist ℝ, Same J D g w b ∧ D.serial = S ∧ (∀ r < J.size, D.rank r = s r) ∧ S.dt = J.dt ∧ ∀ r < J.size, (s r).dt = J.dt := by
  obtain ⟨D, hD, d1, d2, d3, d4, d5, d6, d7, hrk⟩ := J.dist h.ranks h.posx h.posy h.bc h.built h.serial h.agree
  refine ⟨D, ⟨hD, d1, d2, d3, d4, d5, d6, h.ext, h.posx, h.posy, h.grids, h.beam, h.inner⟩, d7, hrk, h.agree.step, fun r hr => ?_⟩
  rw [← hrk r hr, ← h.agree.step, ← d7]
  rfl

theorem loopProg_congr {s s' : ℕ → Solver ℝ} (g : ℕ → Grd) (b : Beam) {size : ℕ} (h : ∀ r < size, s r = s' r) (n : ℕ) :
    loopProg s g b size n = loopProg s' g b size n ∧ beamProg s g b size n = beamProg s' g b size n := by
  have hb : ∀ n, beamProg s g b size n = beamProg s' g b size n := by
    intro n
    funext r
    unfold beamProg local1
    by_cases hr : r < size
    · simp only [h r hr]
    · rw [if_neg hr, if_neg hr]
  refine ⟨?_, hb n⟩
  induction n with
  | zero => rfl
  | succ n ih =>
    funext r
    have e : stepProg s size r = stepProg s' size r := by
      have := congrFun (runProg_congr (s := s) (s' := s') h 0 [.step]) r
      simpa [runProg, evProg] using this
    simp only [loopProg, ih, hb, e]

theorem Same.loop {J : Mpi.Job ℝ} {D : Mpi.Dist ℝ} {g : ℕ → Grd} {w : WakeArgs} {b : Beam} (h : Same J D g w b) {zmin : ℝ} (hz : Smallest J.NZ ((boxOf J).serial J.size).z zmin)
    {S E : ℕ → State ℝ} {N : ℕ} (h0 : S 0 = initState) (hS : ∀ n < N, Driven D.serial ((boxOf J).serial J.size) w zmin (n * D.dt) (S n) (E n) ∧ S (n + 1) = oneStep D.serial (E n)) (n : ℕ) (hn : n ≤ N) :
    D.Rel (syncLoop D.rank g b D.size D.n (fun _ => initState) n) (S n) := by
  induction n with
  | zero => rw [h0]; exact initState_rel D
  | succ n ih =>
    rw [(hS n (by omega)).2]
    exact h.ok.step (drive_rel h hz n (ih (by omega)) (hS n (by omega)).1)

theorem Same.holds {J : Mpi.Job ℝ} {D : Mpi.Dist ℝ} {g : ℕ → Grd} {w : WakeArgs} {b : Beam} (h : Same J D g w b) {s : ℕ → Solver ℝ} (hrk : ∀ r < J.size, D.rank r = s r) {locs : ℕ → State ℝ}
    {sg : State ℝ} (hR : D.Rel locs sg) : Holds J.size (D.serial.fld sg.E) (fun r => (s r).fld (locs r).E) := by
  have hNZ : D.NZ / J.size = D.n := by rw [h.hz, h.hn]
  have hs := h.ok.ranks
  refine ⟨by rw [← h.hsize]; omega, ?_, fun r hr => ?_, fun r hr key c hkey i j k hi hj hk => ?_⟩
  · show J.size ∣ D.NZ
    rw [← h.hsize]; exact Dvd.intro _ rfl
  · rw [← hrk r hr]
    refine ⟨rfl, rfl, ?_⟩
    show D.m r = D.NZ / J.size + _ + _
    rw [hNZ]; unfold Mpi.Dist.m; rw [h.hsize]
  · have hr' : r < D.size := h.hsize ▸ hr
    obtain ⟨f1, -⟩ := h.ok.fit hr'
    change k < D.NZ / J.size at hk
    rw [← hrk r hr]
    show _ = (D.serial.fld sg.E).get i j (r * (D.NZ / J.size) + k : ℕ) key
    rw [hNZ] at hk ⊢
    have hm : k + Grid.ghostLo r < D.m r := by unfold Mpi.Dist.m; omega
    have hge : Grid.ghostLo r ≤ r * D.n := by
      unfold Grid.ghostLo
      split_ifs with h0
      · exact Nat.mul_pos h0 h.ok.layers
      · omega
    have ho : D.o r + (k + Grid.ghostLo r) = r * D.n + k := by unfold Mpi.Dist.o off; omega
    rw [get_at3 (f := (D.rank r).fld (locs r).E) _ hkey hi hj hm, get_at3 (f := D.serial.fld sg.E) _ hkey hi hj (show r * D.n + k < D.NZ by omega), ← ho]
    exact congrArg Except.ok (hR.E r hr' c i j (k + Grid.ghostLo r) (compOf_lt (names_iff.1 hkey)) hi hj hm)

theorem ends_of_reach {eager : ℕ → ℕ → Bool} {prog : ℕ → List (Instr (State ℝ) (ℕ → ℕ → ℝ))} {fin : ℕ → State ℝ} {P : (ℕ → State ℝ) → Prop} (hok : ∀ r, ∀ i ∈ prog r, i.Ok)
    (h : Reach eager (start prog fun _ => initState) (start (fun _ => []) fin)) (hP : P fin) : Ends eager prog P := by
  obtain ⟨total, ht⟩ := every_schedule hok h
  refine ⟨total, fun l net hl => ?_⟩
  obtain ⟨h1, ⟨l', h2, _⟩, h3⟩ := ht l net hl
  refine ⟨h1, ⟨l', _, h2, start_done _⟩, fun hd => ?_⟩
  rw [h3 hd]
  exact hP

/-- Reading one column. -/
theorem column_block {G : Fld ℝ} (norm : ℝ → ℝ → ℝ → ℝ) {i l : ℕ} (hi : i < G.Nx) (hl : l < G.Ny) :
    ∃ B, G.getitem norm (.int i) (.int l) (.slice (some 0) (some G.Nz)) (.str "z") = .ok B ∧ (B.xs.length, B.ys.length, B.zs.length) = (1, 1, G.Nz) ∧
      ∀ k < G.Nz, G.get (i : ℤ) (l : ℤ) (k : ℤ) (.str "z") = .ok (B.val 0 0 k) := by
  have e : G.toMatrix (.str "z") = some (Fld.reshapeF G.Nx G.Ny (G.part 2)) := rfl
  have hi' : (Sel.int (i : ℤ)).resolve G.Nx = .ok [i] := by simp [Sel.resolve, pyIndex_natCast hi, Except.map]
  have hl' : (Sel.int (l : ℤ)).resolve G.Ny = .ok [l] := by simp [Sel.resolve, pyIndex_natCast hl, Except.map]
  refine ⟨⟨[i], [l], List.range G.Nz, fun a b k => Fld.reshapeF G.Nx G.Ny (G.part 2) ([i].getD a 0) ([l].getD b 0) ((List.range G.Nz).getD k 0)⟩, ?_, by simp, fun k hk => ?_⟩
  · unfold Fld.getitem
    simp only [e, Fld.index3, Fld.resolve3, hi', hl', resolve_full, bind, Except.bind, pure, Except.pure]
  · rw [get_at3 _ (names_iff.2 (by decide : compOf (.str "z") = some 2)) hi hl hk]
    have : (List.range G.Nz).getD k 0 = k := by simp [hk]
    simp only [this]
    rfl

/-- Reading the three by three columns around an inner cell. -/
theorem columns_block {G : Fld ℝ} (norm : ℝ → ℝ → ℝ → ℝ) {i l : ℕ} (hi : 0 < i) (hi' : i + 1 < G.Nx) (hl : 0 < l) (hl' : l + 1 < G.Ny) :
    ∃ B, G.getitem norm (.slice (some ((i : ℤ) - 1)) (some (i + 2))) (.slice (some ((l : ℤ) - 1)) (some (l + 2))) (.slice (some 0) (some G.Nz)) (.str "z") = .ok B ∧
      (B.xs.length, B.ys.length, B.zs.length) = (3, 3, G.Nz) ∧
      ∀ a < 3, ∀ b < 3, ∀ k < G.Nz, G.get ((i - 1 + a : ℕ) : ℤ) ((l - 1 + b : ℕ) : ℤ) (k : ℤ) (.str "z") = .ok (B.val a b k) := by
  have e : G.toMatrix (.str "z") = some (Fld.reshapeF G.Nx G.Ny (G.part 2)) := rfl
  have hx := resolve_around hi hi'
  have hy := resolve_around hl hl'
  refine ⟨⟨[i - 1, i, i + 1], [l - 1, l, l + 1], List.range G.Nz,
    fun a b k => Fld.reshapeF G.Nx G.Ny (G.part 2) ([i - 1, i, i + 1].getD a 0) ([l - 1, l, l + 1].getD b 0) ((List.range G.Nz).getD k 0)⟩, ?_, by simp, fun a ha b hb k hk => ?_⟩
  · unfold Fld.getitem
    simp only [e, Fld.index3, Fld.resolve3, hx, hy, resolve_full, bind, Except.bind, pure, Except.pure]
  · have ga : [i - 1, i, i + 1].getD a 0 = i - 1 + a := by interval_cases a <;> simp <;> omega
    have gb : [l - 1, l, l + 1].getD b 0 = l - 1 + b := by interval_cases b <;> simp <;> omega
    rw [get_at3 _ (names_iff.2 (by decide : compOf (.str "z") = some 2)) (show i - 1 + a < G.Nx by omega) (show l - 1 + b < G.Ny by omega) hk]
    have : (List.range G.Nz).getD k 0 = k := by simp [hk]
    simp only [this, ga, gb]
    rfl

/-! ### C146 -/

/-- **C146 (no exception).** On every rank and in every pass, whatever the fields, the update of the beam succeeds, and it leaves the beam object as the next pass finds it. -/
theorem C146_updates {J : Mpi.Job ℝ} {s : ℕ → Solver ℝ} {S : Solver ℝ} {g : ℕ → Grd} {w : WakeArgs} {b : Beam} (h : Setting J s S g w b) {r : ℕ} (hr : r < J.size) (n : ℕ) (t : ℝ) (st : State ℝ) :
    ∃ F', (beamAt (g r) b n).update (g r) ⟨(s r).fld st.E, (s r).fld st.H, (s r).fld st.J⟩ t = .ok (beamAt (g r) b (n + 1), F') := by
  obtain ⟨D, hD, -, hrk, -, -⟩ := h.same
  obtain ⟨F', hF, -⟩ := beamComp_ok hD hr n t st
  rw [hrk r hr] at hF
  exact ⟨F', hF⟩

theorem globalZ_eq {J : Mpi.Job ℝ} {s : ℕ → Solver ℝ} {S : Solver ℝ} {g : ℕ → Grd} {w : WakeArgs} {b : Beam} (h : Setting J s S g w b) {k : ℕ} (hk : k < J.NZ) :
    globalZ J k = ((boxOf J).serial J.size).z k := by
  obtain ⟨-, -, -, -, -, -, -, -, -, -, -, -, -, -, hser⟩ := rank_grid h.ranks (show 0 < J.size by have := h.ranks; omega) (h.grids 0 (by have := h.ranks; omega))
  rw [hser k hk]
  have hN : (J.NZ : ℝ) ≠ 0 := by exact_mod_cast (by omega : J.NZ ≠ 0)
  unfold globalZ Grid.linspace
  rw [if_neg (by omega)]
  show _ = J.zmin + ((k : ℝ) + 1 / 2) * ((J.zmax - J.zmin) / J.NZ)
  field_simp
  ring

/-- **C146 (number of steps).** Every rank makes the number of steps of the run on one process. -/
theorem C146_steps {J : Mpi.Job ℝ} {s : ℕ → Solver ℝ} {S : Solver ℝ} {g : ℕ → Grd} {w : WakeArgs} {b : Beam} (h : Setting J s S g w b) {wakelength : ℝ} {long : Bool} {cb : Option (ℝ → State ℝ → State ℝ)}
    {mon : Option Monitor} {md : ℕ → Dset ℝ} {st : State ℝ} {o : WakeOut} (ho : wakesolve S ((boxOf J).serial J.size) w wakelength long cb mon md st = .ok o) {r : ℕ} (hr : r < J.size) :
    mpiSteps J w wakelength (s r).dt = .ok o.Nt := by
  obtain ⟨D, hD, -, -, e1, e2⟩ := h.same
  have hpos : 0 < J.NZ := by rw [← hD.hz]; exact hD.fitting.posz
  obtain ⟨zmax, m1, m1'⟩ := maxOf_exists hpos (globalZ J)
  obtain ⟨zmin, m2, m2'⟩ := minOf_exists hpos (globalZ J)
  obtain ⟨zmax', n1, n1'⟩ := maxOf_exists (show 0 < ((boxOf J).serial J.size).Nz from hpos) ((boxOf J).serial J.size).z
  obtain ⟨zmin', n2, n2'⟩ := minOf_exists (show 0 < ((boxOf J).serial J.size).Nz from hpos) ((boxOf J).serial J.size).z
  have q1 : zmax = zmax' := by
    obtain ⟨⟨i, hi, rfl⟩, hle⟩ := n1'
    obtain ⟨⟨l, hl, rfl⟩, hle'⟩ := m1'
    refine le_antisymm ?_ ?_
    · rw [globalZ_eq h hl]; exact hle l hl
    · rw [← globalZ_eq h hi]; exact hle' i hi
  have q2 : zmin = zmin' := by
    refine smallest_unique (n := J.NZ) (x := globalZ J) m2' ?_
    obtain ⟨⟨i, hi, e⟩, hle⟩ := n2'
    exact ⟨⟨i, hi, by rw [e, globalZ_eq h hi]⟩, fun k hk => by rw [globalZ_eq h hk]; exact hle k hk⟩
  have hN : o.Nt = (pyInt ((wakelength + w.injection * w.v + (zmax' - zmin')) / w.v / S.dt)).toNat := by
    obtain ⟨-, -, zn, zx, -, r, k1, k2, -, -, rfl⟩ := wakesolve_inv ho
    rw [← Except.ok.inj (n1.symm.trans k1), ← Except.ok.inj (n2.symm.trans k2)]
    rfl
  unfold mpiSteps
  rw [m1, m2]
  simp only [bind, Except.bind, pure, Except.pure]
  rw [hN, e1, e2 r hr, q1, q2]

/-- **C146 (the recording; partial).** A longitudinal wake run on several ranks: for every frame, every buffering and every schedule of the messages the ranks come to the gather of that frame, and the column
the root gathers and writes there is the one that the run on one process records.  All ranks take the column from the same cells.
This is for cell numbers that are Python integers.  Missing: those of the code are numpy integers, with which the gather fails (`C146_longitudinal_refuted` in MpiIndex); the wake computed from the recording, which fails
(`C47_mpi_refuted`), and callbacks. -/
theorem C146_frames_partial {J : Mpi.Job ℝ} {s : ℕ → Solver ℝ} {S : Solver ℝ} {g : ℕ → Grd} {w : WakeArgs} {b : Beam} (h : Setting J s S g w b) {wakelength : ℝ} {mon : Option Monitor} {md : ℕ → Dset ℝ}
    {o : WakeOut} (ho : wakesolve S ((boxOf J).serial J.size) w wakelength true none mon md initState = .ok o) (hN : o.Nt ≤ 100000) (eager : ℕ → ℕ → Bool) :
    ∃ ixt iyt : ℕ, (∀ r < J.size, nearest (g r).Nx (g r).x w.xtest = .ok ixt ∧ nearest (g r).Ny (g r).y w.ytest = .ok iyt) ∧
      ∀ n < o.Nt, Ends eager (gatherPoint s g b J.size n) fun mem =>
        ∃ A, mpiFrame J s mem (.int ixt) (.int iyt) = .ok A ∧ (A.n0, A.n1, A.n2) = (1, 1, J.NZ) ∧ ∀ k < J.NZ, sample o.recording n k = some (A.val 0 0 k) := by
  obtain ⟨D, hD, rfl, hrk, e1, e2⟩ := h.same
  have hf := hD.fitting
  have hdt : 0 < D.serial.dt := by rw [e1]; exact h.step
  obtain ⟨o', St, Dr, zmin, zmax, ixt, iyt, Ez, p1, px, py, pN, p0, pS, pD, pR, -, pz, -, pE, -⟩ := C65_records D.serial ((boxOf J).serial J.size) w hf hdt wakelength none mon md initState
  obtain rfl := Except.ok.inj (p1.symm.trans ho)
  have hz : Smallest J.NZ ((boxOf J).serial J.size).z zmin := by have a := pR.least; rw [pz] at a; exact a
  refine ⟨ixt, iyt, fun r hr => ?_, fun n hn => ?_⟩
  · obtain ⟨r1, r2, -, r4, r5, r6, r7, -⟩ := hD.rank hr
    obtain ⟨i, hi, hi'⟩ := C44_nearest r6 (g r).x w.xtest
    obtain ⟨l, hl, hl'⟩ := C44_nearest r7 (g r).y w.ytest
    rw [hi, hl]
    rw [r1, r4, hD.hx] at hi'
    rw [r2, r5, hD.hy] at hl'
    rw [C44_unique hi' px, C44_unique hl' py]
    exact ⟨rfl, rfl⟩
  · obtain ⟨dr, -⟩ := pD n hn
    have hrel := drive_rel hD hz n (hD.loop hz p0 pD n hn.le) dr
    have hprog : gatherPoint s g b J.size n = gatherPoint D.rank g b D.size n := by
      funext r
      obtain ⟨c1, c2⟩ := loopProg_congr g b (fun r hr => (hrk r hr).symm) n
      unfold gatherPoint
      rw [c1, c2, hD.hsize]
    rw [hprog]
    have hsl := hD.ok.slabs
    refine ends_of_reach (fun r i hi => ?_) (gather_reach g b hsl (by have := hD.ok.ranks; omega) D.n _ n) ?_
    · rcases List.mem_append.1 hi with hi | hi
      · exact loopProg_ok g b hsl n r i hi
      · exact local1_ok _ _ _ i hi
    · have hx' : ixt < D.serial.Nx := by have := px.1; rwa [hf.Nx] at this
      have hy' : iyt < D.serial.Ny := by have := py.1; rwa [hf.Ny] at this
      obtain ⟨B, hB, lB, vB⟩ := column_block (G := D.serial.fld (Dr n).E) (fun a b c => Real.sqrt (a ^ 2 + b ^ 2 + c ^ 2)) hx' hy'
      obtain ⟨A, hA, lA, vA⟩ := C13_gather (fun a b c => Real.sqrt (a ^ 2 + b ^ 2 + c ^ 2)) (hD.holds hrk hrel) (x := some (.int ixt)) (y := some (.int iyt))
        (z := some (.slice (some 0) (some (D.serial.fld (Dr n).E).Nz))) (key := .str "z")
        (fun t ht => by cases ht; exact ⟨by omega, by exact_mod_cast hx'⟩) (fun t ht => by cases ht; exact ⟨by omega, by exact_mod_cast hy'⟩) hB
      have hNZ : (D.serial.fld (Dr n).E).Nz = J.NZ := hD.hz
      rw [lB] at lA
      rw [hNZ] at hA lA vB
      refine ⟨A, ?_, lA, fun k hk => ?_⟩
      · rw [← hA]; rfl
      · simp only [Prod.mk.injEq] at lA
        rw [vA 0 0 k (by omega) (by omega) (by omega)]
        have f1 := pE n hn k hk
        rw [← dr.E, vB k hk] at f1
        unfold sample
        rw [pR.file, C49_frames_partial md hN _ hn]
        simp only [show k < ((boxOf J).serial J.size).Nz from hk, if_true]
        rw [Except.ok.inj f1]

/-- **C146 (both planes; partial).** The same for a run that records the three by three columns around the path of the test particle, if that is not in an outermost cell: every frame of the file of the run on one
process is the block that the root gathers and writes in that pass. -/
theorem C146_both_partial {J : Mpi.Job ℝ} {s : ℕ → Solver ℝ} {S : Solver ℝ} {g : ℕ → Grd} {w : WakeArgs} {b : Beam} (h : Setting J s S g w b) {wakelength : ℝ} {mon : Option Monitor} {md : ℕ → Dset ℝ}
    {ixt iyt : ℕ} (hx : ∀ r < J.size, nearest (g r).Nx (g r).x w.xtest = .ok ixt) (hy : ∀ r < J.size, nearest (g r).Ny (g r).y w.ytest = .ok iyt)
    (h1 : 0 < ixt) (h2 : ixt + 1 < J.Nx) (h3 : 0 < iyt) (h4 : iyt + 1 < J.Ny)
    {o : WakeOut} (ho : wakesolve S ((boxOf J).serial J.size) w wakelength false none mon md initState = .ok o) (hN : o.Nt ≤ 100000) (eager : ℕ → ℕ → Bool) :
    ∀ n < o.Nt, Ends eager (gatherPoint s g b J.size n) fun mem =>
      ∃ A name v, mpiFrame J s mem (.slice (some ((ixt : ℤ) - 1)) (some (ixt + 2))) (.slice (some ((iyt : ℤ) - 1)) (some (iyt + 2))) = .ok A ∧ (A.n0, A.n1, A.n2) = (3, 3, J.NZ) ∧
        o.recording.file[n]? = some (name, .d3 3 3 J.NZ v) ∧ ∀ a : ℕ, a < 3 → ∀ c : ℕ, c < 3 → ∀ k < J.NZ, v a c k = A.val a c k := by
  obtain ⟨D, hD, rfl, hrk, e1, e2⟩ := h.same
  have hf := hD.fitting
  have hdt : 0 < D.serial.dt := by rw [e1]; exact h.step
  have h0 : 0 < J.size := by have := h.ranks; omega
  obtain ⟨r1, r2, -, r4, r5, r6, r7, -⟩ := hD.rank h0
  have px : IsNearest J.Nx ((boxOf J).serial J.size).x w.xtest ixt := by
    obtain ⟨i, hi, hi'⟩ := C44_nearest r6 (g 0).x w.xtest
    obtain rfl := Except.ok.inj (hi.symm.trans (hx 0 h0))
    rw [r1, r4, hD.hx] at hi'
    exact hi'
  have py : IsNearest J.Ny ((boxOf J).serial J.size).y w.ytest iyt := by
    obtain ⟨i, hi, hi'⟩ := C44_nearest r7 (g 0).y w.ytest
    obtain rfl := Except.ok.inj (hi.symm.trans (hy 0 h0))
    rw [r2, r5, hD.hy] at hi'
    exact hi'
  obtain ⟨o', St, Dr, zmin, zmax, Ez, p1, pN, p0, pS, pD, pR, -, pz, -, pE, -⟩ :=
    C65_both_partial D.serial ((boxOf J).serial J.size) w hf hdt wakelength none mon md initState (ixt := ixt) (iyt := iyt) px py h1 h2 h3 h4
  obtain rfl := Except.ok.inj (p1.symm.trans ho)
  have hz : Smallest J.NZ ((boxOf J).serial J.size).z zmin := by have a := pR.least; rw [pz] at a; exact a
  intro n hn
  obtain ⟨dr, -⟩ := pD n hn
  have hrel := drive_rel hD hz n (hD.loop hz p0 pD n hn.le) dr
  have hprog : gatherPoint s g b J.size n = gatherPoint D.rank g b D.size n := by
    funext r
    obtain ⟨c1, c2⟩ := loopProg_congr g b (fun r hr => (hrk r hr).symm) n
    unfold gatherPoint
    rw [c1, c2, hD.hsize]
  rw [hprog]
  have hsl := hD.ok.slabs
  refine ends_of_reach (fun r i hi => ?_) (gather_reach g b hsl (by have := hD.ok.ranks; omega) D.n _ n) ?_
  · rcases List.mem_append.1 hi with hi | hi
    · exact loopProg_ok g b hsl n r i hi
    · exact local1_ok _ _ _ i hi
  · have h2' : ixt + 1 < D.serial.Nx := by show _ < D.Nx; rw [hD.hx]; exact h2
    have h4' : iyt + 1 < D.serial.Ny := by show _ < D.Ny; rw [hD.hy]; exact h4
    obtain ⟨B, hB, lB, vB⟩ := columns_block (G := D.serial.fld (Dr n).E) (fun a b c => Real.sqrt (a ^ 2 + b ^ 2 + c ^ 2)) h1 h2' h3 h4'
    obtain ⟨A, hA, lA, vA⟩ := C13_gather (fun a b c => Real.sqrt (a ^ 2 + b ^ 2 + c ^ 2)) (hD.holds hrk hrel) (x := some (.slice (some ((ixt : ℤ) - 1)) (some (ixt + 2))))
      (y := some (.slice (some ((iyt : ℤ) - 1)) (some (iyt + 2)))) (z := some (.slice (some 0) (some (D.serial.fld (Dr n).E).Nz))) (key := .str "z")
      (fun t ht => by cases ht; exact ⟨by omega, by omega, by show (ixt : ℤ) + 2 ≤ (D.serial.Nx : ℕ); omega⟩)
      (fun t ht => by cases ht; exact ⟨by omega, by omega, by show (iyt : ℤ) + 2 ≤ (D.serial.Ny : ℕ); omega⟩) hB
    have hNZ : (D.serial.fld (Dr n).E).Nz = J.NZ := hD.hz
    rw [lB] at lA
    rw [hNZ] at hA lA vB
    obtain ⟨nm, hfile⟩ : ∃ nm, o'.recording.file[n]? = some (nm, .d3 3 3 J.NZ (Ez n)) :=
      ⟨_, (congrArg (fun f => f[n]?) pR.file).trans (C49_frames_partial md hN _ hn)⟩
    refine ⟨A, nm, Ez n, ?_, lA, hfile, fun a ha c hc k hk => ?_⟩
    · rw [← hA]; rfl
    · simp only [Prod.mk.injEq] at lA
      rw [vA a c k (by omega) (by omega) (by omega)]
      have f1 := pE n hn a ha c hc k hk
      rw [← dr.E, vB a ha c hc k hk] at f1
      exact (Except.ok.inj f1).symm

/-- **C146 (the fields at the end; partial).** When all ranks have made their steps, every rank holds in all its layers, ghost layers included, the fields with which the run on one process ends. -/
theorem C146_final_partial {J : Mpi.Job ℝ} {s : ℕ → Solver ℝ} {S : Solver ℝ} {g : ℕ → Grd} {w : WakeArgs} {b : Beam} (h : Setting J s S g w b) {wakelength : ℝ} {mon : Option Monitor} {md : ℕ → Dset ℝ}
    {o : WakeOut} (ho : wakesolve S ((boxOf J).serial J.size) w wakelength true none mon md initState = .ok o) (eager : ℕ → ℕ → Bool) :
    Ends eager (loopProg s g b J.size o.Nt) fun mem => ∀ r < J.size, ∀ f c i j k, c < 3 → i < J.Nx → j < J.Ny → k < (s r).Nz →
      cell (s r) f (mem r) c i j k = cell S f o.st c i j (r * (J.NZ / J.size) - Grid.ghostLo r + k) := by
  obtain ⟨D, hD, rfl, hrk, e1, e2⟩ := h.same
  have hf := hD.fitting
  have hdt : 0 < D.serial.dt := by rw [e1]; exact h.step
  obtain ⟨o', St, Dr, zmin, zmax, ixt, iyt, Ez, p1, px, py, pN, p0, pS, pD, pR, -, pz, -, pE, -⟩ := C65_records D.serial ((boxOf J).serial J.size) w hf hdt wakelength none mon md initState
  obtain rfl := Except.ok.inj (p1.symm.trans ho)
  have hz : Smallest J.NZ ((boxOf J).serial J.size).z zmin := by have a := pR.least; rw [pz] at a; exact a
  have hrel := hD.loop hz p0 pD o'.Nt le_rfl
  rw [← pS] at hrel
  rw [(loopProg_congr g b (fun r hr => (hrk r hr).symm) o'.Nt).1, ← hD.hsize]
  have hsl := hD.ok.slabs
  have e : loopProg D.rank g b D.size o'.Nt = fun r => loopProg D.rank g b D.size o'.Nt r ++ [] := by funext r; simp
  refine ends_of_reach (fun r i hi => loopProg_ok g b hsl _ r i hi) (by rw [e]; exact loop_reach g b hsl (by have := hD.ok.ranks; omega) D.n _ _ _) ?_
  intro r hr f c i j k hc hi hj hk
  rw [hD.hsize] at hr
  rw [← hrk r hr] at hk ⊢
  rw [← hD.hsize] at hr
  rw [← hD.hx] at hi
  rw [← hD.hy] at hj
  have ho : r * (J.NZ / D.size) - Grid.ghostLo r = D.o r := by rw [hD.hsize, ← hD.hn]; rfl
  rw [ho]
  cases f with
  | E => exact hrel.E r hr c i j k hc hi hj hk
  | H => exact hrel.H r hr c i j k hc hi hj hk
  | J => exact hrel.J r hr c i j k hc hi hj hk

/-! ### The hypotheses are met -/

/-- Two ranks, a closed box of three by three by four cells of unit size, the beam and the test particle in the middle, four steps per cell. -/
def pairJob : Mpi.Job ℝ :=
  { size := 2, Nx := 3, Ny := 3, Nz := 4, x := fun n => n, y := fun n => n, zmin := 0, zmax := 4, bc := ⟨"pec", "pec", "pec", "pec", "pec", "pec"⟩, eps0 := 1, mu0 := 1,
    bg := .vals ⟨.fin 1, .fin 1, none⟩, dict := fun _ => none, solids := [], dt := 1 / (4 * cLight), nPml := 0, geom := fun a _ _ _ => a, pmlLo := 1, pmlHi := 1 }
def pairBeam : WakeArgs := ⟨1, 1, 1, 3 / 2, 3 / 2, 3 / 2, 3 / 2, some 0, 0⟩

theorem pair_near {t : ℕ → ℝ} (ht : ∀ i, t i = i + 1 / 2) {i : ℕ} (h : IsNearest 3 t (3 / 2) i) : i = 1 := by
  have h1 := h.2.1 1 (by decide)
  rw [ht, ht] at h1
  norm_num at h1
  have h2 : (i : ℝ) + 1 / 2 - 3 / 2 = 0 := by
    have : (1 : ℝ) + 1 / 2 - 3 / 2 = 0 := by norm_num
    have h3 : (i : ℝ) + 1 / 2 = 3 / 2 := by linarith
    linarith
  have : (i : ℝ) = 1 := by linarith
  exact_mod_cast this

theorem pair_setting : ∃ s S g b, Setting pairJob s S g pairBeam b := by
  have hc : (0 : ℝ) < cLight := by unfold cLight; norm_num
  have hrank : ∀ r, ∃ v, r < 2 → pairJob.rank r = .ok v := by
    intro r
    by_cases hr : r < 2
    · obtain ⟨m, hm, -⟩ := Grid.C12_local_grid (rank := r) (size := 2) (Nz := 4) (0 : ℝ) 4 (by decide) hr (by decide)
      have hp : anyFace isPml (mpiBC r 2 pairJob.bc) = false := mpiBC_noPml (by decide) r 2
      have : ∃ v, pairJob.rank r = .ok v := by
        rw [Mpi.Job.rank, show Grid.mpiInitialize r pairJob.size pairJob.Nz pairJob.zmin pairJob.zmax = .ok m from hm]
        simp only [bind, Except.bind, show pairJob.size = 2 from rfl, Mpi.Job.stage, hp, Bool.false_eq_true, if_false]
        exact ⟨_, rfl⟩
      exact this.imp fun _ h _ => h
    · obtain ⟨v, -⟩ : ∃ v, pairJob.serial = .ok v := ⟨_, rfl⟩
      exact ⟨v, fun h => absurd h hr⟩
  have hgrid : ∀ r, ∃ v, r < 2 → (boxOf pairJob).rank 2 r = .ok v := by
    intro r
    by_cases hr : r < 2
    · obtain ⟨m, hm, -⟩ := Grid.C12_local_grid (rank := r) (size := 2) (Nz := 4) (0 : ℝ) 4 (by decide) hr (by decide)
      have : ∃ v, (boxOf pairJob).rank 2 r = .ok v := by
        rw [Box.rank, show Grid.mpiInitialize r 2 (boxOf pairJob).Nz (boxOf pairJob).zmin (boxOf pairJob).zmax = .ok m from hm]
        exact ⟨_, rfl⟩
      exact this.imp fun _ h _ => h
    · exact ⟨(boxOf pairJob).serial 2, fun h => absurd h hr⟩
  choose s hs using hrank
  choose g hg using hgrid
  obtain ⟨S, hS, hdt⟩ : ∃ S, pairJob.serial = .ok S ∧ S.dt = pairJob.dt := ⟨_, rfl, rfl⟩
  have hbc : PlainBC pairJob.bc := plain_of _ (by decide) (by decide) (by decide) (by decide)
  refine ⟨s, S, g, _, by decide, by decide, by decide, ?_, hbc, hs, hS, Agrees.of_noPml _ hs hS hbc (by decide) (by decide) hdt, ?_, hg, rfl, ?_⟩
  · show (0 : ℝ) < 4; norm_num
  · show 0 < 1 / (4 * cLight); positivity
  · intro i j hi hj
    have hx : ∀ i : ℕ, ((boxOf pairJob).serial 2).x i = i + 1 / 2 := fun i => by
      show (i : ℝ) + (((i + 1 : ℕ) : ℝ) - i) / 2 = _
      push_cast; ring
    obtain rfl := pair_near hx hi
    obtain rfl := pair_near hx hj
    decide

/-- Non-vacuity of the theorems of C146: in this setting the run on one process records sixteen frames. -/
theorem pair_run : ∃ s S g b o, Setting pairJob s S g pairBeam b ∧ wakesolve S ((boxOf pairJob).serial pairJob.size) pairBeam 1 true none none (fun _ => .d1 0 0) initState = .ok o ∧ o.Nt = 16 := by
  have hc : (0 : ℝ) < cLight := by unfold cLight; norm_num
  obtain ⟨s, S, g, b, h⟩ := pair_setting
  obtain ⟨D, hD, rfl, hrk, e1, e2⟩ := h.same
  obtain ⟨o, St, Dr, zmin, zmax, ixt, iyt, Ez, p1, -, -, pN, -, -, -, pR, -, pz, -⟩ :=
    C65_records D.serial ((boxOf pairJob).serial pairJob.size) pairBeam hD.fitting (by rw [e1]; exact h.step) 1 none none (fun _ => .d1 0 0) initState
  refine ⟨s, _, g, b, o, h, p1, ?_⟩
  have hz : ∀ k < 4, ((boxOf pairJob).serial pairJob.size).z k = k + 1 / 2 := by
    intro k hk
    rw [← globalZ_eq h (show k < pairJob.NZ from hk)]
    unfold globalZ Grid.linspace
    rw [if_neg (by have : pairJob.NZ = 4 := rfl; omega)]
    have : pairJob.NZ = 4 := rfl
    rw [this]
    show (0 : ℝ) + k * ((4 - 0) / ((4 : ℕ) : ℝ)) + (4 - 0) / (2 * ((4 : ℕ) : ℝ)) = _
    push_cast; ring
  have hmin : zmin = 1 / 2 := by
    have a := pR.least; rw [pz] at a
    refine smallest_unique (n := 4) a ⟨⟨0, by decide, ?_⟩, fun k hk => ?_⟩
    · rw [hz 0 (by decide)]; norm_num
    · rw [hz k hk]; have : (0 : ℝ) ≤ k := Nat.cast_nonneg k; linarith
  have hmax : zmax = 7 / 2 := by
    have a := pR.greatest; rw [pz] at a
    obtain ⟨⟨i, hi, rfl⟩, hle⟩ := a
    have hi4 : i < 4 := hi
    have h3 := hle 3 (show 3 < 4 by decide)
    rw [hz 3 (by decide), hz i hi4] at h3
    rw [hz i hi4]
    have : (i : ℝ) ≤ 3 := by exact_mod_cast (by omega : i ≤ 3)
    push_cast at h3
    linarith
  rw [pN, e1, hmin, hmax]
  unfold stepsFor
  have e : ((1 : ℝ) + pairBeam.injection * pairBeam.v + (7 / 2 - 1 / 2)) / pairBeam.v / pairJob.dt = 16 := by
    show ((1 : ℝ) + 0 * (1 * cLight) + (7 / 2 - 1 / 2)) / (1 * cLight) / (1 / (4 * cLight)) = 16
    field_simp
    norm_num
  rw [e]
  have : pyInt (16 : ℝ) = 16 := by
    unfold pyInt
    rw [if_pos (by norm_num)]
    exact Int.floor_ofNat 16
  rw [this]
  rfl

end
end Wake
end Wakis
