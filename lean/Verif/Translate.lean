import Verif.Scale5
import Verif.MpiSources
import Verif.ResultFiles

/-!
# C116: where the model stands does not matter

Moving the grid, the solids, the beam and the test position by one vector changes no field and no wake.
-/

namespace Wakis

/-! ### The mesh and the solver -/

namespace Sol
open Grid Sparse

/-- A coordinate axis moved by `d`. -/
def move {K : Type} [Add K] (d : K) (x : ℕ → K) : ℕ → K := fun i => x i + d

section
variable {K : Type} [Field K] [CharZero K]

omit [CharZero K] in
theorem linspace_move (a b d : K) (n : ℕ) : linspace (a + d) (b + d) n = move d (linspace a b n) := by
  funext i
  unfold linspace move
  simp only
  split
  · rfl
  · rw [add_sub_add_right_eq_sub]; ring

theorem tilde_move (d : K) (x : ℕ → K) (n : ℕ) : tilde (move d x) n = move d (tilde x n) := by
  funext i
  unfold tilde move
  simp only
  split <;> ring

omit [CharZero K] in
theorem diffField_move (X Y Z : K) (Nx Ny Nz : ℕ) (x y z : ℕ → K) : diffField Nx Ny Nz (move X x) (move Y y) (move Z z) = diffField Nx Ny Nz x y z := by
  unfold diffField move
  simp only [add_sub_add_right_eq_sub]

variable [DecidableEq K]

/-- **C116 (mesh).** A grid whose nodes are all moved by a vector has the same edge lengths, areas and dual lengths and areas. -/
theorem C116_mesh (X Y Z : K) (Nx Ny Nz : ℕ) (x y z : ℕ → K) :
    let g := computeGrid Nx Ny Nz x y z
    computeGrid Nx Ny Nz (fun i => x i + X) (fun i => y i + Y) (fun i => z i + Z) = ⟨Nx, Ny, Nz, fun i => x i + X, fun i => y i + Y, fun i => z i + Z, g.L, g.iA, g.tL, g.itA⟩ := by
  show computeGrid Nx Ny Nz (move X x) (move Y y) (move Z z) = _
  unfold computeGrid
  simp only [tilde_move, diffField_move]
  rfl

omit [CharZero K] in
theorem build_congr {g g' : Geom K} (h1 : g'.Nx = g.Nx) (h2 : g'.Ny = g.Ny) (h3 : g'.Nz = g.Nz) (h4 : g'.L = g.L) (h5 : g'.iA = g.iA) (h6 : g'.tL = g.tL) (h7 : g'.itA = g.itA) (bc : Faces String)
    (ieps imu sigma : Vec K) (dt : K) (cond : Bool) : build g' bc ieps imu sigma dt cond = build g bc ieps imu sigma dt cond := by
  obtain ⟨Nx, Ny, Nz, x, y, z, L, iA, tL, itA⟩ := g
  obtain ⟨Nx', Ny', Nz', x', y', z', L', iA', tL', itA'⟩ := g'
  simp only at h1 h2 h3 h4 h5 h6 h7
  subst h1 h2 h3 h4 h5 h6 h7
  rfl

/-- **C116 (solver).** The moved grid with the same materials and boundary conditions gives the very same solver. -/
theorem C116_solver (X Y Z : K) (Nx Ny Nz : ℕ) (x y z : ℕ → K) (bc : Faces String) (ieps imu sigma : Vec K) (dt : K) (cond : Bool) :
    build (computeGrid Nx Ny Nz (fun i => x i + X) (fun i => y i + Y) (fun i => z i + Z)) bc ieps imu sigma dt cond = build (computeGrid Nx Ny Nz x y z) bc ieps imu sigma dt cond := by
  rw [C116_mesh]
  exact build_congr rfl rfl rfl rfl rfl rfl rfl _ _ _ _ _ _

end

/-- **C116 (set-up).** Time step, materials and PML layers do not depend on where the grid is: the set-up of the moved grid gives the same result, or fails with the same error. -/
theorem C116_setup (X Y Z : ℝ) (c eps0 mu0 cfln : ℝ) (dt : Option ℝ) (nPml Nx Ny Nz : ℕ) (x y z : ℕ → ℝ) (bc : Faces String) (bg : MatSpec ℝ) (dict : String → Option (MatSpec ℝ)) (solids : List Solid) :
    setUp c eps0 mu0 cfln dt nPml Nx Ny Nz (fun i => x i + X) (fun i => y i + Y) (fun i => z i + Z) bc bg dict solids = setUp c eps0 mu0 cfln dt nPml Nx Ny Nz x y z bc bg dict solids := by
  unfold setUp diffs
  simp only [add_sub_add_right_eq_sub]

end Sol

/-! ### Sources -/

namespace Src
open Fld
noncomputable section

/-- The grid moved by a vector. -/
def Grd.move (X Y Z : ℝ) (g : Grd) : Grd :=
  { g with x := fun i => g.x i + X, y := fun i => g.y i + Y, z := fun i => g.z i + Z, ZMIN := g.ZMIN.map fun z => z + Z }

theorem grdOf_move (X Y Z : ℝ) (Nx Ny Nz : ℕ) (x y z : ℕ → ℝ) (dt : ℝ) (ZMIN : Option ℝ) :
    grdOf Nx Ny Nz (fun i => x i + X) (fun i => y i + Y) (fun i => z i + Z) dt (ZMIN.map fun z => z + Z) = (grdOf Nx Ny Nz x y z dt ZMIN).move X Y Z := by
  unfold grdOf Grd.move
  simp only [add_sub_add_right_eq_sub, Grd.mk.injEq, true_and, and_true]
  exact ⟨funext fun i => by ring, funext fun i => by ring, funext fun i => by ring⟩

/-- The beam at a source position moved by a vector (including what it remembers from its first update). -/
def Beam.move (X Y Z : ℝ) (b : Beam) : Beam :=
  { b with xsource := b.xsource + X, ysource := b.ysource + Y, cache := b.cache.map fun c => (c.1, c.2.1, c.2.2 + Z) }

theorem nearest_move (n : ℕ) (x : ℕ → ℝ) (a X : ℝ) : nearest n (fun i => x i + X) (a + X) = nearest n x a := by
  unfold nearest
  simp only [add_sub_add_right_eq_sub]

theorem argmin_move (x : ℕ → ℝ) (X : ℝ) (n : ℕ) : argminUpTo (fun i => x i + X) n = argminUpTo x n := by
  induction n with
  | zero => rfl
  | succ n ih => unfold argminUpTo; rw [ih]; simp only [add_lt_add_iff_right]

theorem minOf_move (n : ℕ) (x : ℕ → ℝ) (X : ℝ) : minOf n (fun i => x i + X) = (minOf n x).map fun m => m + X := by
  unfold minOf
  rw [argmin_move]
  split <;> rfl

theorem locate_move (X Y Z : ℝ) (b : Beam) (g : Grd) : (b.move X Y Z).locate (g.move X Y Z) = (b.locate g).map fun c => (c.1, c.2.1, c.2.2 + Z) := by
  unfold Beam.locate
  cases hc : b.cache with
  | some c => simp only [Beam.move, hc, Option.map_some]; rfl
  | none =>
    simp only [Beam.move, hc, Option.map_none, Grd.move, nearest_move]
    cases nearest g.Nx g.x b.xsource with
    | error e => rfl
    | ok i =>
      cases nearest g.Ny g.y b.ysource with
      | error e => rfl
      | ok j =>
        cases g.ZMIN with
        | none =>
          simp only [Option.map_none, minOf_move]
          cases minOf g.Nz g.z <;> rfl
        | some z0 =>
          simp only [Option.map_some, nearest_move]
          cases nearest g.Nz g.z z0 with
          | error e => rfl
          | ok m =>
            show Except.ok (i, j, z0 + Z + g.dz m / 2) = Except.ok (i, j, z0 + g.dz m / 2 + Z)
            rw [add_right_comm]

/-- **C116 (beam).** An update of the moved beam on the moved grid, at any time, makes the same change to the fields (or fails with the same error), in serial and on an MPI rank. -/
theorem C116_beam (X Y Z : ℝ) (b : Beam) (g : Grd) (F : Flds) (t : ℝ) : (b.move X Y Z).update (g.move X Y Z) F t = (b.update g F t).map fun r => (r.1.move X Y Z, r.2) := by
  unfold Beam.update
  rw [locate_move]
  cases b.locate g with
  | error e => rfl
  | ok c =>
    show (match b.sigmaz with | none => _ | some sg => _) = _
    cases hs : b.sigmaz with
    | none => rfl
    | some sg =>
      have hp : ∀ k, (b.move X Y Z).profile (c.2.2 + Z) sg ((g.move X Y Z).z k) t = b.profile c.2.2 sg (g.z k) t := fun k => by
        unfold Beam.profile Beam.move Grd.move
        simp only
        rw [show Beam.v ⟨b.xsource + X, b.ysource + Y, b.beta, b.q, b.sigmaz, b.ti, b.cache.map fun c => (c.1, c.2.1, c.2.2 + Z)⟩ = b.v from rfl]
        congr 4
        ring
      show (do let J ← F.J.setitem _ (.arr (1, 1, g.Nz) fun _ _ k => b.q * b.v * (b.move X Y Z).profile (c.2.2 + Z) sg ((g.move X Y Z).z k) t / g.dx c.1 / g.dy c.2.1); _) = _
      simp only [hp]
      show (Except.bind (F.J.setitem (.tup (.int c.1) (.int c.2.1) .all (.str "z")) (.arr (1, 1, g.Nz) fun _ _ k => b.q * b.v * b.profile c.2.2 sg (g.z k) t / g.dx c.1 / g.dy c.2.1)) _) =
        Except.map _ (Except.bind (F.J.setitem (.tup (.int c.1) (.int c.2.1) .all (.str "z")) (.arr (1, 1, g.Nz) fun _ _ k => b.q * b.v * b.profile c.2.2 sg (g.z k) t / g.dx c.1 / g.dy c.2.1)) _)
      cases F.J.setitem (.tup (.int c.1) (.int c.2.1) .all (.str "z")) (.arr (1, 1, g.Nz) fun _ _ k => b.q * b.v * b.profile c.2.2 sg (g.z k) t / g.dx c.1 / g.dy c.2.1) with
      | error e => rfl
      | ok J => simp only [Except.bind, Except.map, Beam.move, hs, pure, Except.pure, Option.map_some]

/-- **C116 (plane wave).** -/
theorem C116_plane_wave (X Y Z : ℝ) (p : PlaneWave) (g : Grd) (F : Flds) (t : ℝ) : p.update (g.move X Y Z) F t = p.update g F t := rfl

/-- **C116 (pulse).** -/
theorem C116_pulse (X Y Z : ℝ) (p : Pulse) (g : Grd) (F : Flds) (t : ℝ) : p.update (g.move X Y Z) F t = p.update g F t := rfl

/-- **C116 (dipole).** Also when its frequency is derived from the length of the domain. -/
theorem C116_dipole (X Y Z : ℝ) (p : Dipole) (g : Grd) (F : Flds) (t : ℝ) : p.update (g.move X Y Z) F t = p.update g F t := by
  have hf : p.freq (g.move X Y Z) = p.freq g := by
    unfold Dipole.freq
    cases p.f with
    | some f => rfl
    | none =>
      have e : maxOf g.Nz (fun i => g.z i + Z) = (maxOf g.Nz g.z).map fun m => m + Z := by
        unfold maxOf
        have : (fun i => -(g.z i + Z)) = fun i => -g.z i + -Z := funext fun i => by ring
        rw [this, minOf_move]
        cases minOf g.Nz fun i => -g.z i with
        | error e => rfl
        | ok m => show Except.ok (-(m + -Z)) = Except.ok (-m + Z); congr 1; ring
      show (do let hi ← maxOf g.Nz (fun i => g.z i + Z); let lo ← minOf g.Nz (fun i => g.z i + Z); return p.nodes / ((hi - lo) / cLight)) = _
      rw [e, minOf_move]
      cases maxOf g.Nz g.z with
      | error e => rfl
      | ok hi =>
        cases minOf g.Nz g.z with
        | error e => rfl
        | ok lo =>
          show Except.ok (p.nodes / ((hi + Z - (lo + Z)) / cLight)) = Except.ok (p.nodes / ((hi - lo) / cLight))
          rw [add_sub_add_right_eq_sub]
  unfold Dipole.update
  rw [hf]
  rfl

/-- **C116 (wave packet, along z).** A move along z changes nothing: its pulse is timed from the start of the grid. -/
theorem C116_wave_packet_partial (Z : ℝ) (p : WavePacket) (g : Grd) (F : Flds) (t : ℝ) : p.update (g.move 0 0 Z) F t = p.update g F t := by
  unfold WavePacket.update
  show (do let zm ← minOf g.Nz (fun i => g.z i + Z); _) = _
  rw [minOf_move]
  cases minOf g.Nz g.z with
  | error e => rfl
  | ok zm =>
    simp only [Grd.move, add_zero]
    have e : ∀ s : ℝ, zm + Z - s - (zm + Z - p.tinj) = zm - s - (zm - p.tinj) := fun s => by ring
    simp only [Except.map, bind, Except.bind, e]

/-- **C116 (refuted for wave packets, across).** The packet is centred at x = y = 0 wherever the grid is: moving the grid along x changes what it writes in every cell of a column whose distance from
x = 0 changes. -/
theorem C116_wave_packet_refuted {X : ℝ} {p p1 p2 : WavePacket} {g : Grd} {F F1 F2 : Flds} {t : ℝ} (hxs : p.xs = none) (hys : p.ys = none) (hN : g.Nx = g.Ny)
    (hE : F.E.Nx = g.Nx ∧ F.E.Ny = g.Ny) (hH : F.H.Nx = g.Nx ∧ F.H.Ny = g.Ny) {kz : ℕ} (hkz : p.zs = kz) (hEz : kz < F.E.Nz) (hHz : kz < F.H.Nz) (h1 : p.update g F t = .ok (p1, F1))
    (h2 : p.update (g.move X 0 0) F t = .ok (p2, F2)) (ha : p.amplitude ≠ 0) (hc : Real.cos (2 * Real.pi * p.f * t + p.phase) ≠ 0) (hw : (p.widths g).1 ≠ 0) {j : ℕ} (hj : j < g.Ny)
    (hx : (g.x j + X) ^ 2 ≠ g.x j ^ 2) : ∀ i < g.Nx, F2.H.get (i : ℤ) (j : ℤ) (kz : ℤ) (.str "y") ≠ F1.H.get (i : ℤ) (j : ℤ) (kz : ℤ) (.str "y") := by
  intro i hi e
  have e1 := (C62_actual hxs hys hN hE hH hkz hEz hHz h1 i hi j hj).1
  have e2 := (C62_actual (g := g.move X 0 0) hxs hys hN hE hH hkz hEz hHz h2 i hi j hj).1
  rw [e1, e2] at e
  have e := neg_injective (Except.ok.inj e)
  unfold packetAt at e
  have k := mul_left_cancel₀ (mul_ne_zero ha hc) (mul_right_cancel₀ (Real.exp_ne_zero _) e)
  have k := Real.exp_injective k
  have hw2 : 2 * (p.widths g).1 ^ 2 ≠ 0 := mul_ne_zero two_ne_zero (pow_ne_zero _ hw)
  have k := (div_left_inj' hw2).1 k
  simp only [Grd.move] at k
  exact hx (by linarith)

end
end Src

/-! ### Wake runs -/

namespace Wake
open Src Sol Sparse
noncomputable section

/-- The wake run with source and test position moved. -/
def WakeArgs.move (X Y : ℝ) (w : WakeArgs) : WakeArgs := { w with xsource := w.xsource + X, ysource := w.ysource + Y, xtest := w.xtest + X, ytest := w.ytest + Y }

/-- The recording with its z coordinates moved. -/
def Rec.move {K : Type} [Add K] (Z : K) (r : Rec K) : Rec K := { r with zf := fun i => r.zf i + Z }

/-- The result of a run with the z coordinates of its recording moved; fields, number of steps, monitor and recorded samples are the same. -/
def WakeOut.move (Z : ℝ) (o : WakeOut) : WakeOut := { o with recording := o.recording.move Z }

section
variable {K : Type} [Field K] [LinearOrder K] [IsStrictOrderedRing K]

theorem foldMin_move (x : ℕ → K) (d : K) (l : List ℕ) (a : K) : l.foldl (fun m i => min m (x (i + 1) + d)) (a + d) = l.foldl (fun m i => min m (x (i + 1))) a + d := by
  induction l generalizing a with
  | nil => rfl
  | cons i l ih => rw [List.foldl_cons, List.foldl_cons, min_add_add_right, ih]

theorem foldMax_move (x : ℕ → K) (d : K) (l : List ℕ) (a : K) : l.foldl (fun m i => max m (x (i + 1) + d)) (a + d) = l.foldl (fun m i => max m (x (i + 1))) a + d := by
  induction l generalizing a with
  | nil => rfl
  | cons i l ih => rw [List.foldl_cons, List.foldl_cons, max_add_add_right, ih]

theorem minOf_move (n : ℕ) (x : ℕ → K) (d : K) : Wake.minOf n (fun i => x i + d) = (Wake.minOf n x).map fun m => m + d := by
  unfold Wake.minOf
  split
  · rfl
  · rw [foldMin_move]; rfl

theorem maxOf_move (n : ℕ) (x : ℕ → K) (d : K) : Wake.maxOf n (fun i => x i + d) = (Wake.maxOf n x).map fun m => m + d := by
  unfold Wake.maxOf
  split
  · rfl
  · rw [foldMax_move]; rfl

variable [FloorRing K]

/-- The quantities used in the integration, with the z extent moved. -/
def Setup.move (d : K) (su : Setup K) : Setup K := { su with zmin := su.zmin + d, zmax := su.zmax + d }

theorem setup_move (w : Par K) (r : Rec K) (d : K) : setup w (r.move d) = (setup w r).map fun su => su.move d := by
  unfold setup
  simp only [Rec.move, maxOf_move, minOf_move]
  split
  · rfl
  · cases maxOf r.nzf r.zf with
    | error e => rfl
    | ok hi =>
      cases minOf r.nzf r.zf with
      | error e => rfl
      | ok lo =>
        simp only [Except.map, bind, Except.bind, add_sub_add_right_eq_sub, Setup.move]
        rfl

theorem integrate_move (w : Par K) (su : Setup K) (r : Rec K) (d : K) (Ezt : List (ℕ → K)) (n : ℕ) (acc : K) : integrate w (su.move d) (r.move d) Ezt n acc = integrate w su r Ezt n acc := by
  have e : ∀ t z s : K, timeIndex w (su.move d) t (z + d) s = timeIndex w su t z s := fun t z s => by
    unfold timeIndex Setup.move
    simp only
    congr 2
    ring
  unfold integrate
  show List.foldlM (fun acc k => addSample su.nt Ezt k (timeIndex w (su.move d) (r.t 0) (r.zf (su.zz.getD k 0) + d) (sAxis w su n)) r.ndz r.dz k 1 acc) acc _ = _
  simp only [e]
  rfl

theorem integrateBack_move (w : Par K) (su : Setup K) (r : Rec K) (d : K) (Ezt : List (ℕ → K)) (n : ℕ) (acc : K) : integrateBack w (su.move d) (r.move d) Ezt n acc = integrateBack w su r Ezt n acc := by
  have e : ∀ t z s : K, timeIndexBack w (su.move d) t (z + d) s = timeIndexBack w su t z s := fun t z s => by
    unfold timeIndexBack Setup.move
    simp only
    congr 2
    ring
  unfold integrateBack
  show List.foldlM (fun acc k => addSample su.nt Ezt (su.zz.length - 1 - k) (timeIndexBack w (su.move d) (r.t 0) (r.zf (su.zz.getD (su.zz.length - 1 - k) 0) + d) (sAxis w su n)) r.ndz r.dz k (-1) acc) acc _ = _
  simp only [e]
  rfl

/-- **C116 (wake potential of a recording).** With the z coordinates of a recording moved, the wake potential is the same, including its s axis, skipped cells and errors. -/
theorem C116_long_wake (w : Par K) (r : Rec K) (d : K) : calcLongWP w (r.move d) = calcLongWP w r := by
  unfold calcLongWP
  rw [setup_move]
  cases setup w r with
  | error e => rfl
  | ok su =>
    simp only [Except.map, bind, Except.bind, integrate_move]
    rfl

theorem cell3d_move (w : Par K) (su : Setup K) (r : Rec K) (d : K) (WP : List K) (ij : ℤ × ℤ) : cell3d w (su.move d) (r.move d) WP ij = cell3d w su r WP ij := by
  unfold cell3d
  simp only [integrate_move, integrateBack_move]
  rfl

theorem cells3d_move (w : Par K) (su : Setup K) (r : Rec K) (d : K) (WP : List K) (l : List (ℤ × ℤ)) : cells3d w (su.move d) (r.move d) WP l = cells3d w su r WP l := by
  induction l generalizing WP with
  | nil => rfl
  | cons ij l ih =>
    unfold cells3d
    simp only [cell3d_move, ih]

/-- **C116 (wake potential of a recorded block).** The same for the recorded block of transverse cells, also for a counter-moving test particle. -/
theorem C116_block_wake (w : Par K) (r : Rec K) (d : K) : calcLongWP3d w (r.move d) = calcLongWP3d w r := by
  unfold calcLongWP3d
  rw [setup_move]
  cases setup w r with
  | error e => rfl
  | ok su =>
    simp only [Except.map, bind, Except.bind, cells3d_move]
    rfl

end

theorem body_move (X Y Z : ℝ) (s : Solver ℝ) (g : Grd) (xx yy : Sel) (cb : Option (ℝ → State ℝ → State ℝ)) (n : ℕ) (r : Run) :
    Job.body ⟨s, g.move X Y Z, xx, yy, cb⟩ n { r with beam := r.beam.move X Y Z } = (Job.body ⟨s, g, xx, yy, cb⟩ n r).map fun r => { r with beam := r.beam.move X Y Z } := by
  unfold Job.body
  simp only [C116_beam]
  cases r.beam.update g ⟨s.fld r.st.E, s.fld r.st.H, s.fld r.st.J⟩ (n * s.dt) with
  | error e => rfl
  | ok p =>
    have e : ∀ st, Job.record ⟨s, g.move X Y Z, xx, yy, cb⟩ st = Job.record ⟨s, g, xx, yy, cb⟩ st := fun st => rfl
    simp only [Except.map, bind, Except.bind, e]
    cases Job.record ⟨s, g, xx, yy, cb⟩ { r.st with E := p.2.E.array, H := p.2.H.array, J := p.2.J.array } <;> rfl

theorem loop_move (X Y Z : ℝ) (s : Solver ℝ) (g : Grd) (xx yy : Sel) (cb : Option (ℝ → State ℝ → State ℝ)) (n : ℕ) (r : Run) :
    Job.loop ⟨s, g.move X Y Z, xx, yy, cb⟩ n { r with beam := r.beam.move X Y Z } = (Job.loop ⟨s, g, xx, yy, cb⟩ n r).map fun r => { r with beam := r.beam.move X Y Z } := by
  induction n with
  | zero => rfl
  | succ n ih =>
    show Except.bind (Job.loop _ n _) _ = Except.map _ (Except.bind (Job.loop _ n _) _)
    rw [ih]
    cases Job.loop ⟨s, g, xx, yy, cb⟩ n r with
    | error e => rfl
    | ok r => exact body_move X Y Z s g xx yy cb n r

/-- **C116 (wake runs).** Take any wake run: longitudinal or both planes, with or without callback and monitor, from any fields, on any solver.  With the grid, the source and the test position moved by one
vector it succeeds or fails in the same way, with the same number of steps, the same recorded samples, the same final fields and the same monitor; only the z coordinates of the recording are moved. -/
theorem C116_wake_run (X Y Z : ℝ) (s : Solver ℝ) (g : Grd) (w : WakeArgs) (wakelength : ℝ) (longitudinal : Bool) (cb : Option (ℝ → State ℝ → State ℝ)) (mon : Option Monitor) (md : ℕ → Dset ℝ)
    (st : State ℝ) :
    wakesolve s (g.move X Y Z) (w.move X Y) wakelength longitudinal cb mon md st = (wakesolve s g w wakelength longitudinal cb mon md st).map fun o => o.move Z := by
  have hb : (w.move X Y).beam = w.beam.map fun b => b.move X Y Z := rfl
  have hi : (w.move X Y).injection = w.injection := rfl
  have hv : (w.move X Y).v = w.v := rfl
  unfold wakesolve
  rw [hb]
  simp only [hi, hv]
  have hx : Src.nearest (g.move X Y Z).Nx (g.move X Y Z).x (w.move X Y).xtest = Src.nearest g.Nx g.x w.xtest := Src.nearest_move ..
  have hy : Src.nearest (g.move X Y Z).Ny (g.move X Y Z).y (w.move X Y).ytest = Src.nearest g.Ny g.y w.ytest := Src.nearest_move ..
  have h1 : maxOf (g.move X Y Z).Nz (g.move X Y Z).z = (maxOf g.Nz g.z).map fun m => m + Z := maxOf_move ..
  have h2 : Wake.minOf (g.move X Y Z).Nz (g.move X Y Z).z = (Wake.minOf g.Nz g.z).map fun m => m + Z := minOf_move ..
  rw [hx, hy, h1, h2]
  cases Src.nearest g.Nx g.x w.xtest with
  | error e => rfl
  | ok ixt =>
    cases Src.nearest g.Ny g.y w.ytest with
    | error e => rfl
    | ok iyt =>
      cases maxOf g.Nz g.z with
      | error e => rfl
      | ok zmax =>
        cases Wake.minOf g.Nz g.z with
        | error e => rfl
        | ok zmin =>
          cases w.beam with
          | error e => rfl
          | ok b =>
            have k := fun N xx yy => loop_move X Y Z s g xx yy cb N ⟨st, b, [], mon⟩
            simp only at k
            simp only [Except.map, bind, Except.bind, add_sub_add_right_eq_sub]
            rw [k]
            cases Job.loop _ (pyInt ((wakelength + w.injection * w.v + (zmax - zmin)) / w.v / s.dt)).toNat _ <;> rfl

/-- **C116 (from the user's input).** Take any set of nodes, boundary conditions (PML included), materials and solids (given by the cells they fill) that can be set up, and any wake run.  The model moved by a
vector, with beam and test position moved along, is set up with the same time step, its run ends with the same fields, and wake potentials and impedances, longitudinal and transverse, are the same. -/
theorem C116_wake (X Y Z : ℝ) (c eps0 mu0 cfln : ℝ) (dt : Option ℝ) (nPml Nx Ny Nz : ℕ) (x y z : ℕ → ℝ) (bc : Faces String) (bg : MatSpec ℝ) (dict : String → Option (MatSpec ℝ)) (solids : List Solid)
    {t : Mats ℝ} {d : ℝ} (h : setUp c eps0 mu0 cfln dt nPml Nx Ny Nz x y z bc bg dict solids = .ok (t, d)) (w : WakeArgs) (wakelength : ℝ) (longitudinal : Bool) (mon : Option Monitor) (md : ℕ → Dset ℝ)
    {o : WakeOut} (ho : wakesolve (build (Grid.computeGrid Nx Ny Nz x y z) bc t.ieps.array t.imu.array t.sigma.array d t.useCond) (grdOf Nx Ny Nz x y z d none) w wakelength longitudinal none mon md initState = .ok o) :
    setUp c eps0 mu0 cfln dt nPml Nx Ny Nz (fun i => x i + X) (fun i => y i + Y) (fun i => z i + Z) bc bg dict solids = .ok (t, d) ∧
      ∃ o', wakesolve (build (Grid.computeGrid Nx Ny Nz (fun i => x i + X) (fun i => y i + Y) (fun i => z i + Z)) bc t.ieps.array t.imu.array t.sigma.array d t.useCond)
          (grdOf Nx Ny Nz (fun i => x i + X) (fun i => y i + Y) (fun i => z i + Z) d none)
          ⟨w.q, w.sigmaz, w.beta, w.xsource + X, w.ysource + Y, w.xtest + X, w.ytest + Y, w.ti, w.skip⟩ wakelength longitudinal none mon md initState = .ok o' ∧
        o'.Nt = o.Nt ∧ o'.st = o.st ∧ o'.mon = o.mon ∧ o'.recording.file = o.recording.file ∧
        calcLongWP (w.par wakelength) o'.recording = calcLongWP (w.par wakelength) o.recording ∧
        ∀ (fmax : ℝ) (lam : Option (List ℝ)) (nx : ℕ) (dx : ℕ → ℝ) (ny : ℕ) (dy : ℕ → ℝ),
          solveOnlyLong (w.par wakelength) fmax w.sigmaz lam o'.recording = solveOnlyLong (w.par wakelength) fmax w.sigmaz lam o.recording ∧
          solveBoth (w.par wakelength) fmax w.sigmaz lam nx dx ny dy o'.recording = solveBoth (w.par wakelength) fmax w.sigmaz lam nx dx ny dy o.recording := by
  refine ⟨(C116_setup X Y Z ..).trans h, o.move Z, ?_, rfl, rfl, rfl, rfl, C116_long_wake _ _ _, fun fmax lam nx dx ny dy => ⟨?_, ?_⟩⟩
  · rw [C116_solver]
    have e := grdOf_move X Y Z Nx Ny Nz x y z d none
    rw [Option.map_none] at e
    rw [e]
    have k := C116_wake_run X Y Z (build (Grid.computeGrid Nx Ny Nz x y z) bc t.ieps.array t.imu.array t.sigma.array d t.useCond) (grdOf Nx Ny Nz x y z d none) w wakelength longitudinal none mon md initState
    rw [ho] at k
    exact k
  · unfold solveOnlyLong
    rw [show calcLongWP _ (o.move Z).recording = _ from C116_long_wake _ _ _]
  · unfold solveBoth
    rw [show calcLongWP3d _ (o.move Z).recording = _ from C116_block_wake _ _ _]

end
end Wake
end Wakis
