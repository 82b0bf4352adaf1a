import Verif.Scale2
import Verif.Rerun

/-!
# C115: similar models have similar fields and wakes
-/

namespace Wakis
namespace Sol
open Finset Sparse Grid

/-! ### Fields -/

/-- **C115 (fields).** Take any model without PML faces that can be set up, and multiply all its lengths by `a > 0`, the time step (if one is given) by `a`, and divide all conductivities by `a`.
The scaled model can be set up too, its time step is `a` times as long, and in every history of steps and writes, with the written E and H multiplied by any `l` and the written J by `l / a`, all its
E and H are `l` times, and all its J `l / a` times those of the original model at the same step. -/
theorem C115_fields {a : ℝ} (ha : 0 < a) (l : ℝ) {c eps0 mu0 cfln : ℝ} {dt : Option ℝ} {nPml Nx Ny Nz : ℕ} {x y z : ℕ → ℝ} {bc : Faces String} (hbc : anyFace isPml bc = false) {bg : MatSpec ℝ}
    {dict : String → Option (MatSpec ℝ)} {solids : List Solid} {t : Mats ℝ} {d : ℝ} (h : setUp c eps0 mu0 cfln dt nPml Nx Ny Nz x y z bc bg dict solids = .ok (t, d)) :
    ∃ t', setUp c eps0 mu0 cfln (dt.map fun d => a * d) nPml Nx Ny Nz (fun i => a * x i) (fun i => a * y i) (fun i => a * z i) bc (scaleSpec a bg) (fun s => (dict s).map (scaleSpec a)) solids = .ok (t', a * d) ∧
      let s := build (computeGrid Nx Ny Nz x y z) bc t.ieps.array t.imu.array t.sigma.array d t.useCond
      let s' := build (computeGrid Nx Ny Nz (fun i => a * x i) (fun i => a * y i) (fun i => a * z i)) bc t'.ieps.array t'.imu.array t'.sigma.array (a * d) t'.useCond
      ∀ (evs : List (Ev ℝ)) (q : ℕ), (runEv s' initState (evs.map (scaleEv l a))).E q = l * (runEv s initState evs).E q ∧
        (runEv s' initState (evs.map (scaleEv l a))).H q = l * (runEv s initState evs).H q ∧ (runEv s' initState (evs.map (scaleEv l a))).J q = l / a * (runEv s initState evs).J q := by
  have k := setUp_scale ha c eps0 mu0 cfln dt nPml Nx Ny Nz x y z hbc bg dict solids
  rw [h] at k
  refine ⟨scaleMats a t, k, ?_⟩
  intro s s' evs q
  have hsim : Similar a s s' := build_similar ha.ne' Nx Ny Nz x y z bc _ _ (fun i => rfl) d t.useCond
  have r := run_similar (l := l) ha.ne' hsim evs initState
  have e0 : scaleSt l a (initState : State ℝ) = initState := by
    unfold scaleSt initState
    simp
  rw [e0] at r
  rw [r]
  exact ⟨rfl, rfl, rfl⟩

/-! ### With PML -/

theorem first_step (s : Solver ℝ) (J : Vec ℝ) : oneStep s ⟨fun _ => 0, fun _ => 0, J, true⟩ = advance s ⟨fun _ => 0, fun _ => 0, J, false⟩ := by
  obtain ⟨ZH, hZH⟩ := ghostH_mask (K := ℝ) s.Nx s.Ny s.Nz
  obtain ⟨ZE, hZE⟩ := ghostE_mask (K := ℝ) s.Nx s.Ny s.Nz
  unfold oneStep
  rw [if_pos rfl]
  congr 1
  unfold setGhostsTo0 Solver.fld
  simp only [State.mk.injEq, and_true]
  exact ⟨funext fun q => by rw [hZE]; exact ite_self _, funext fun q => by rw [hZH]; exact ite_self _⟩

/-- E after a current `v` at entry `r` and two steps of a fresh solver with conductivity. -/
theorem two_steps {s : Solver ℝ} (hc : s.useConductivity = true) (r : ℕ) (v : ℝ) :
    (runEv s initState [.write .J r v, .step, .step]).E r =
      -(s.dt * s.ieps r * v) + s.dt * (mulVec s.n3 s.M2 (fun i => -(s.dt * mulVec s.n3 s.M1 (fun q => if q = r then -(s.dt * s.ieps r * v) else 0) i)) r + s.ieps r * s.sigma r * (s.dt * s.ieps r * v)) := by
  have z : ∀ (M : Mat ℝ) (i : ℕ), mulVec s.n3 M (fun _ => 0) i = 0 := fun M i => by unfold mulVec; simp
  have hH : (advance s ⟨fun _ => 0, fun _ => 0, Function.update (fun _ => 0) r v, false⟩).H = fun _ => 0 := by
    funext i
    show 0 - s.dt * mulVec s.n3 s.M1 (fun _ => 0) i = 0
    rw [z]; ring
  have hE : (advance s ⟨fun _ => 0, fun _ => 0, Function.update (fun _ => 0) r v, false⟩).E = fun q => if q = r then -(s.dt * s.ieps r * v) else 0 := by
    funext i
    show 0 + s.dt * (mulVec s.n3 s.M2 (advance s ⟨fun _ => 0, fun _ => 0, Function.update (fun _ => 0) r v, false⟩).H i - s.ieps i * Function.update (fun _ => (0 : ℝ)) r v i) = _
    rw [hH, z]
    by_cases h : i = r
    · subst h; rw [Function.update_self, if_pos rfl]; ring
    · rw [Function.update_of_ne h, if_neg h]; ring
  have hJ : (advance s ⟨fun _ => 0, fun _ => 0, Function.update (fun _ => 0) r v, false⟩).J r = s.sigma r * -(s.dt * s.ieps r * v) := by
    show (if s.useConductivity then fun i => s.sigma i * (advance s ⟨fun _ => 0, fun _ => 0, Function.update (fun _ => 0) r v, false⟩).E i else _) r = _
    rw [if_pos hc, hE]
    simp
  have h1 : runEv s initState [.write .J r v, .step, .step] = oneStep s (oneStep s ⟨fun _ => 0, fun _ => 0, Function.update (fun _ => 0) r v, true⟩) := rfl
  have h2 : ∀ x : State ℝ, x.step0 = false → oneStep s x = advance s x := fun x hx => by unfold oneStep; rw [hx]; rfl
  rw [h1, first_step, h2 _ rfl]
  generalize hA : advance s ⟨fun _ => 0, fun _ => 0, Function.update (fun _ => 0) r v, false⟩ = A at hH hE hJ ⊢
  have hH2 : (advance s A).H = fun i => -(s.dt * mulVec s.n3 s.M1 A.E i) := by
    funext i
    show A.H i - s.dt * mulVec s.n3 s.M1 A.E i = _
    rw [hH]; ring
  show A.E r + s.dt * (mulVec s.n3 s.M2 (advance s A).H r - s.ieps r * A.J r) = _
  rw [hH2, hJ, hE]
  simp only [if_true]
  ring

/-- Two solvers whose operators scale but whose conductivity does not. -/
theorem pml_differ {a : ℝ} (ha : a ≠ 0) (ha1 : a ≠ 1) {l : ℝ} (hl : l ≠ 0) {s s' : Solver ℝ} (hM1 : ∀ i j, s'.M1 i j = 1 / a * s.M1 i j) (hM2 : ∀ i j, s'.M2 i j = 1 / a * s.M2 i j) (hie : s'.ieps = s.ieps)
    (hsg : s'.sigma = s.sigma) (hdt : s'.dt = a * s.dt) (hc : s.useConductivity = true) (hc' : s'.useConductivity = true) (hn : s'.n3 = s.n3) {r : ℕ} (hs : s.sigma r ≠ 0) (hi : s.ieps r ≠ 0)
    (hd : s.dt ≠ 0) :
    (runEv s' initState ([.write .J r 1, .step, .step].map (scaleEv l a))).E r ≠ l * (runEv s initState [.write .J r 1, .step, .step]).E r := by
  have e : [Ev.write .J r (1 : ℝ), .step, .step].map (scaleEv l a) = [.write .J r (l / a * 1), .step, .step] := rfl
  rw [e, two_steps hc', two_steps hc, hn, hie, hsg, hdt]
  have mv : ∀ (k : ℝ) (M M' : Mat ℝ) (v v' : Vec ℝ) (i : ℕ), (∀ i j, M' i j = 1 / a * M i j) → (∀ j, v' j = k * v j) → mulVec s.n3 M' v' i = k / a * mulVec s.n3 M v i := by
    intro k M M' v v' i hM hv
    unfold mulVec
    rw [Finset.mul_sum]
    exact sum_congr rfl fun j _ => by rw [hM, hv]; ring
  have e1 : ∀ i, mulVec s.n3 s'.M1 (fun q => if q = r then -(a * s.dt * s.ieps r * (l / a * 1)) else 0) i = l / a * mulVec s.n3 s.M1 (fun q => if q = r then -(s.dt * s.ieps r * 1) else 0) i :=
    fun i => mv l _ _ _ _ i hM1 fun j => by
      by_cases h : j = r
      · simp only [h, if_true]; field_simp
      · simp [h]
  have e2 : mulVec s.n3 s'.M2 (fun i => -(a * s.dt * mulVec s.n3 s'.M1 (fun q => if q = r then -(a * s.dt * s.ieps r * (l / a * 1)) else 0) i)) r =
      l / a * mulVec s.n3 s.M2 (fun i => -(s.dt * mulVec s.n3 s.M1 (fun q => if q = r then -(s.dt * s.ieps r * 1) else 0) i)) r :=
    mv l _ _ _ _ r hM2 fun j => by rw [e1]; field_simp
  rw [e2]
  generalize mulVec s.n3 s.M2 (fun i => -(s.dt * mulVec s.n3 s.M1 (fun q => if q = r then -(s.dt * s.ieps r * 1) else 0) i)) r = X
  intro hh
  have : l * (a - 1) * (s.dt * s.ieps r) ^ 2 * s.sigma r = 0 := by
    have h3 : -(a * s.dt * s.ieps r * (l / a * 1)) + a * s.dt * (l / a * X + s.ieps r * s.sigma r * (a * s.dt * s.ieps r * (l / a * 1))) =
        l * (-(s.dt * s.ieps r * 1) + s.dt * (X + s.ieps r * s.sigma r * (s.dt * s.ieps r * 1))) + l * (a - 1) * (s.dt * s.ieps r) ^ 2 * s.sigma r := by
      field_simp
      ring
    linarith
  have h4 : l * (a - 1) * (s.dt * s.ieps r) ^ 2 * s.sigma r ≠ 0 := mul_ne_zero (mul_ne_zero (mul_ne_zero hl (sub_ne_zero.2 ha1)) (pow_ne_zero _ (mul_ne_zero hd hi))) hs
  exact h4 this

theorem build_ops {a : ℝ} (ha : a ≠ 0) (Nx Ny Nz : ℕ) (x y z : ℕ → ℝ) (bc : Faces String) (ieps imu sigma sigma' : Vec ℝ) (dt : ℝ) (use : Bool) :
    let s := build (computeGrid Nx Ny Nz x y z) bc ieps imu sigma dt use
    let s' := build (computeGrid Nx Ny Nz (stretch a x) (stretch a y) (stretch a z)) bc ieps imu sigma' (a * dt) use
    (∀ i j, s'.M1 i j = 1 / a * s.M1 i j) ∧ ∀ i j, s'.M2 i j = 1 / a * s.M2 i j := by
  have sim := build_similar (a := a) ha Nx Ny Nz x y z bc ieps imu (sigma := sigma) (sigma' := fun i => 1 / a * sigma i) (fun _ => rfl) dt use
  exact ⟨sim.M1, sim.M2⟩

theorem ieps_build (g g' : Geom ℝ) (bc : Faces String) (ieps imu sigma : Vec ℝ) (dt dt' : ℝ) (use : Bool) : (build g' bc ieps imu sigma dt' use).ieps = (build g bc ieps imu sigma dt use).ieps := rfl
theorem sigma_build (g g' : Geom ℝ) (bc : Faces String) (ieps imu sigma : Vec ℝ) (dt dt' : ℝ) (use : Bool) : (build g' bc ieps imu sigma dt' use).sigma = (build g bc ieps imu sigma dt use).sigma := rfl
theorem dt_build (a : ℝ) (g g' : Geom ℝ) (bc : Faces String) (ieps imu sigma : Vec ℝ) (dt : ℝ) (use : Bool) : (build g' bc ieps imu sigma (a * dt) use).dt = a * (build g bc ieps imu sigma dt use).dt := rfl
theorem n3_build {g g' : Geom ℝ} (h1 : g'.Nx = g.Nx) (h2 : g'.Ny = g.Ny) (h3 : g'.Nz = g.Nz) (bc : Faces String) (ieps imu sigma : Vec ℝ) (dt dt' : ℝ) (use : Bool) :
    (build g' bc ieps imu sigma dt' use).n3 = (build g bc ieps imu sigma dt use).n3 := by
  have e : ∀ (g : Geom ℝ) (dt : ℝ), (build g bc ieps imu sigma dt use).Nx = g.Nx ∧ (build g bc ieps imu sigma dt use).Ny = g.Ny ∧ (build g bc ieps imu sigma dt use).Nz = g.Nz := fun _ _ => ⟨rfl, rfl, rfl⟩
  unfold Solver.n3
  rw [(e g' dt').1, (e g' dt').2.1, (e g' dt').2.2, (e g dt).1, (e g dt).2.1, (e g dt).2.2, h1, h2, h3]

/-- **C115 (refuted with PML).** The conductivity of the PML layers does not scale.  Take any model of a background without conductivity that has a PML face and can be set up, with a cell in which there
is conductivity.  Then its fields are not similar to those of the scaled model, for any `a ≠ 1` and `l ≠ 0`. -/
theorem C115_pml_refuted {a : ℝ} (ha : 0 < a) (ha1 : a ≠ 1) {l : ℝ} (hl : l ≠ 0) {c eps0 mu0 cfln : ℝ} {dt : Option ℝ} {nPml Nx Ny Nz : ℕ} {x y z : ℕ → ℝ} {bc : Faces String} (hbc : anyFace isPml bc = true)
    {eps mu : RelC ℝ} {t : Mats ℝ} {d : ℝ} (hd : d ≠ 0) (h : setUp c eps0 mu0 cfln dt nPml Nx Ny Nz x y z bc (.vals ⟨eps, mu, none⟩) (fun _ => none) [] = .ok (t, d)) {r : ℕ} (hs : t.sigma.array r ≠ 0)
    (hi : t.ieps.array r ≠ 0) :
    ¬ ∃ t', setUp c eps0 mu0 cfln (dt.map fun d => a * d) nPml Nx Ny Nz (fun i => a * x i) (fun i => a * y i) (fun i => a * z i) bc (scaleSpec a (.vals ⟨eps, mu, none⟩)) (fun _ => none) [] = .ok (t', a * d) ∧
      let s := build (computeGrid Nx Ny Nz x y z) bc t.ieps.array t.imu.array t.sigma.array d t.useCond
      let s' := build (computeGrid Nx Ny Nz (fun i => a * x i) (fun i => a * y i) (fun i => a * z i)) bc t'.ieps.array t'.imu.array t'.sigma.array (a * d) t'.useCond
      ∀ (evs : List (Ev ℝ)) (q : ℕ), (runEv s' initState (evs.map (scaleEv l a))).E q = l * (runEv s initState evs).E q := by
  rintro ⟨t', h', hE⟩
  obtain rfl : t' = t := by
    unfold setUp at h h'
    have e : scaleSpec a (.vals (⟨eps, mu, none⟩ : Material ℝ)) = .vals ⟨eps, mu, none⟩ := rfl
    rw [e] at h'
    cases h1 : materials Nx Ny Nz eps0 mu0 (anyFace isPml bc) (.vals ⟨eps, mu, none⟩) (fun _ => none) [] with
    | error e => rw [h1] at h; cases h
    | ok t0 =>
      rw [h1] at h h'
      simp only [bind, Except.bind] at h h'
      cases h2 : pmlStage nPml bc t0 with
      | error e => rw [h2] at h; cases h
      | ok t1 =>
        rw [h2] at h h'
        simp only at h h'
        split at h
        · cases h
        · split at h'
          · cases h'
          · cases h; cases h'; rfl
  have uc : ∀ (g : Geom ℝ) (d : ℝ), (build g bc t'.ieps.array t'.imu.array t'.sigma.array d t'.useCond).useConductivity = true := fun g d => by
    show (anyFace isPml bc || t'.useCond) = true
    rw [hbc]; rfl
  obtain ⟨m1, m2⟩ := build_ops (a := a) ha.ne' Nx Ny Nz x y z bc t'.ieps.array t'.imu.array t'.sigma.array t'.sigma.array d t'.useCond
  have nn := n3_build (g := computeGrid Nx Ny Nz x y z) (g' := computeGrid Nx Ny Nz (stretch a x) (stretch a y) (stretch a z)) rfl rfl rfl bc t'.ieps.array t'.imu.array t'.sigma.array d (a * d) t'.useCond
  have u1 := uc (computeGrid Nx Ny Nz x y z) d
  have u2 := uc (computeGrid Nx Ny Nz (stretch a x) (stretch a y) (stretch a z)) (a * d)
  have hE' := hE [.write .J r 1, .step, .step] r
  have ie := ieps_build (computeGrid Nx Ny Nz x y z) (computeGrid Nx Ny Nz (stretch a x) (stretch a y) (stretch a z)) bc t'.ieps.array t'.imu.array t'.sigma.array d (a * d) t'.useCond
  have is := sigma_build (computeGrid Nx Ny Nz x y z) (computeGrid Nx Ny Nz (stretch a x) (stretch a y) (stretch a z)) bc t'.ieps.array t'.imu.array t'.sigma.array d (a * d) t'.useCond
  have idt := dt_build a (computeGrid Nx Ny Nz x y z) (computeGrid Nx Ny Nz (stretch a x) (stretch a y) (stretch a z)) bc t'.ieps.array t'.imu.array t'.sigma.array d t'.useCond
  have f1 : (build (computeGrid Nx Ny Nz x y z) bc t'.ieps.array t'.imu.array t'.sigma.array d t'.useCond).sigma = t'.sigma.array := rfl
  have f2 : (build (computeGrid Nx Ny Nz x y z) bc t'.ieps.array t'.imu.array t'.sigma.array d t'.useCond).ieps = t'.ieps.array := rfl
  have f3 : (build (computeGrid Nx Ny Nz x y z) bc t'.ieps.array t'.imu.array t'.sigma.array d t'.useCond).dt = d := rfl
  rw [← f1] at hs
  rw [← f2] at hi
  rw [← f3] at hd
  change (runEv (build (computeGrid Nx Ny Nz (stretch a x) (stretch a y) (stretch a z)) bc t'.ieps.array t'.imu.array t'.sigma.array (a * d) t'.useCond) initState _).E r = _ at hE'
  generalize build (computeGrid Nx Ny Nz (stretch a x) (stretch a y) (stretch a z)) bc t'.ieps.array t'.imu.array t'.sigma.array (a * d) t'.useCond = s' at *
  generalize build (computeGrid Nx Ny Nz x y z) bc t'.ieps.array t'.imu.array t'.sigma.array d t'.useCond = s at *
  exact pml_differ ha.ne' ha1 hl m1 m2 ie is idt u1 u2 nn hs hi hd hE'

end Sol
end Wakis
