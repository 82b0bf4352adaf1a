import Verif.BeamCharge
import Verif.Charge
import Verif.Rerun

/-!
# C145: what is recorded does not change the run, and what the run of both planes computes

A wake run can record one column of cells (`compute_plane = "longitudinal"`) or the three by three columns around it (`"both"`), and a monitor may watch.
-/

namespace Wakis
namespace Wake
open Src Sol Sparse Fld
noncomputable section

/-! ### Specification -/

/-- The same bunch on the same path; test particle and skipped cells may differ. -/
structure SameBeam (w w' : WakeArgs) : Prop where
  q : w.q = w'.q
  sigmaz : w.sigmaz = w'.sigmaz
  beta : w.beta = w'.beta
  xsource : w.xsource = w'.xsource
  ysource : w.ysource = w'.ysource
  ti : w.ti = w'.ti

/-- The test particle moved to another transverse position. -/
def WakeArgs.test (w : WakeArgs) (X Y : ℝ) : WakeArgs := { w with xtest := X, ytest := Y }

/-- The computed longitudinal wake at sample `n`. -/
def longWake (r : Py (List ℝ × List ℝ)) (n : ℕ) : Option ℝ := r.toOption.bind fun x => x.2[n]?

/-! ### Recording does not act on the fields -/

theorem body_inv {j : Job} {n : ℕ} {r r1 : Run} (h : j.body n r = .ok r1) :
    ∃ p d, r.beam.update j.g ⟨j.s.fld r.st.E, j.s.fld r.st.H, j.s.fld r.st.J⟩ (n * j.s.dt) = .ok p ∧
      r1 = ⟨match j.callback with | some f => f (n * j.s.dt) (oneStep j.s { r.st with E := p.2.E.array, H := p.2.H.array, J := p.2.J.array }) | none => oneStep j.s { r.st with E := p.2.E.array, H := p.2.H.array, J := p.2.J.array },
        p.1, r.frames ++ [d], r.mon.map fun m => m.update (j.cells (oneStep j.s { r.st with E := p.2.E.array, H := p.2.H.array, J := p.2.J.array }).E) j.s.dt⟩ := by
  unfold Job.body at h
  simp only [bind, Except.bind, pure, Except.pure] at h
  cases hp : r.beam.update j.g ⟨j.s.fld r.st.E, j.s.fld r.st.H, j.s.fld r.st.J⟩ (n * j.s.dt) with
  | error e => rw [hp] at h; exact absurd h (by simp)
  | ok p =>
    rw [hp] at h
    simp only at h
    cases hd : j.record { r.st with E := p.2.E.array, H := p.2.H.array, J := p.2.J.array } with
    | error e => rw [hd] at h; exact absurd h (by simp)
    | ok d =>
      rw [hd] at h
      exact ⟨p, d, rfl, (Except.ok.inj h).symm⟩

theorem loop_same {j j' : Job} (hs : j.s = j'.s) (hg : j.g = j'.g) (hc : j.callback = j'.callback) {r0 r0' : Run} (h1 : r0.st = r0'.st) (h2 : r0.beam = r0'.beam) :
    ∀ n {r r' : Run}, j.loop n r0 = .ok r → j'.loop n r0' = .ok r' → r.st = r'.st ∧ r.beam = r'.beam ∧ (r0.mon = r0'.mon → r.mon = r'.mon)
  | 0, r, r', h, h' => by
    cases Except.ok.inj h
    cases Except.ok.inj h'
    exact ⟨h1, h2, id⟩
  | n + 1, r, r', h, h' => by
    unfold Job.loop at h h'
    simp only [bind, Except.bind] at h h'
    cases ha : j.loop n r0 with
    | error e => rw [ha] at h; exact absurd h (by simp)
    | ok a =>
    cases hb : j'.loop n r0' with
    | error e => rw [hb] at h'; exact absurd h' (by simp)
    | ok b =>
      rw [ha] at h
      rw [hb] at h'
      obtain ⟨i1, i2, i3⟩ := loop_same hs hg hc h1 h2 n ha hb
      obtain ⟨p, d, e1, rfl⟩ := body_inv h
      obtain ⟨p', d', e1', rfl⟩ := body_inv h'
      rw [i1, i2, hs, hg] at e1
      obtain rfl : p = p' := Except.ok.inj (e1.symm.trans e1')
      refine ⟨?_, rfl, fun hm => ?_⟩
      · show (match j.callback with | some f => _ | none => _) = _
        rw [hc, hs, i1]
      · show a.mon.map _ = b.mon.map _
        unfold Job.cells
        rw [i3 hm, hs, i1]

theorem wakesolve_inv {s : Solver ℝ} {g : Grd} {w : WakeArgs} {wakelength : ℝ} {long : Bool} {cb : Option (ℝ → State ℝ → State ℝ)} {mon : Option Monitor} {md : ℕ → Dset ℝ} {st : State ℝ} {o : WakeOut}
    (h : wakesolve s g w wakelength long cb mon md st = .ok o) :
    ∃ xx yy zmin zmax b r, maxOf g.Nz g.z = .ok zmax ∧ Wake.minOf g.Nz g.z = .ok zmin ∧ w.beam = .ok b ∧
      Job.loop ⟨s, g, xx, yy, cb⟩ (pyInt ((wakelength + w.injection * w.v + (zmax - zmin)) / w.v / s.dt)).toNat ⟨st, b, [], mon⟩ = .ok r ∧
      o = r.out s g md (pyInt ((wakelength + w.injection * w.v + (zmax - zmin)) / w.v / s.dt)).toNat := by
  unfold wakesolve at h
  simp only [bind, Except.bind, pure, Except.pure] at h
  cases h1 : nearest g.Nx g.x w.xtest with
  | error e => rw [h1] at h; exact absurd h (by simp)
  | ok ixt =>
  cases h2 : nearest g.Ny g.y w.ytest with
  | error e => rw [h1, h2] at h; exact absurd h (by simp)
  | ok iyt =>
  cases h3 : maxOf g.Nz g.z with
  | error e => rw [h1, h2, h3] at h; exact absurd h (by simp)
  | ok zmax =>
  cases h4 : Wake.minOf g.Nz g.z with
  | error e => rw [h1, h2, h3, h4] at h; exact absurd h (by simp)
  | ok zmin =>
  cases h5 : w.beam with
  | error e => rw [h1, h2, h3, h4, h5] at h; exact absurd h (by simp)
  | ok b =>
    rw [h1, h2, h3, h4, h5] at h
    simp only at h
    generalize hx : (if long = true then Sel.int (ixt : ℤ) else Sel.slice (some ((ixt : ℤ) - 1)) (some (ixt + 2))) = xx at h
    generalize hy : (if long = true then Sel.int (iyt : ℤ) else Sel.slice (some ((iyt : ℤ) - 1)) (some (iyt + 2))) = yy at h
    cases h6 : Job.loop ⟨s, g, xx, yy, cb⟩ (pyInt ((wakelength + w.injection * w.v + (zmax - zmin)) / w.v / s.dt)).toNat ⟨st, b, [], mon⟩ with
    | error e => rw [h6] at h; exact absurd h (by simp)
    | ok r =>
      rw [h6] at h
      exact ⟨xx, yy, zmin, zmax, b, r, rfl, rfl, rfl, h6, (Except.ok.inj h).symm⟩

/-- **C145 (observation does not disturb).** Two completed wake runs of the same solver from the same fields, with the same bunch, wake length and callback, take the same number of steps and end with exactly the same
fields, whatever planes they record, wherever the test particle is and whether a monitor watches; the same monitor has seen the same. -/
theorem C145_undisturbed {s : Solver ℝ} {g : Grd} {w w' : WakeArgs} (hw : SameBeam w w') {wakelength : ℝ} {long long' : Bool} {cb : Option (ℝ → State ℝ → State ℝ)} {mon mon' : Option Monitor}
    {md md' : ℕ → Dset ℝ} {st : State ℝ} {o o' : WakeOut} (h : wakesolve s g w wakelength long cb mon md st = .ok o) (h' : wakesolve s g w' wakelength long' cb mon' md' st = .ok o') :
    o.Nt = o'.Nt ∧ o.st = o'.st ∧ (mon = mon' → o.mon = o'.mon) := by
  obtain ⟨xx, yy, zmin, zmax, b, r, h1, h2, h3, h4, rfl⟩ := wakesolve_inv h
  obtain ⟨xx', yy', zmin', zmax', b', r', h1', h2', h3', h4', rfl⟩ := wakesolve_inv h'
  obtain rfl := Except.ok.inj (h1.symm.trans h1')
  obtain rfl := Except.ok.inj (h2.symm.trans h2')
  have ev : w.v = w'.v := by unfold WakeArgs.v; rw [hw.beta]
  have ei : w.injection = w'.injection := by unfold WakeArgs.injection; rw [hw.ti, hw.sigmaz, hw.beta, ev]
  have eb : w.beam = w'.beam := by unfold WakeArgs.beam; rw [hw.xsource, hw.ysource, hw.beta, hw.q, hw.sigmaz]
  rw [eb] at h3
  obtain rfl := Except.ok.inj (h3.symm.trans h3')
  rw [ev, ei] at h4 ⊢
  obtain ⟨a1, a2, a3⟩ := loop_same (j := ⟨s, g, xx, yy, cb⟩) (j' := ⟨s, g, xx', yy', cb⟩) rfl rfl rfl (r0 := ⟨st, b, [], mon⟩) (r0' := ⟨st, b, [], mon'⟩) rfl rfl _ h4 h4'
  exact ⟨rfl, a1, a3⟩

/-! ### The wake of the centre cell in a run of both planes -/

theorem states_same {s : Solver ℝ} {g : Grd} {w : WakeArgs} (hf : Fitting s g) {zmin : ℝ} {S1 S2 D1 D2 : ℕ → State ℝ} {N : ℕ} (h0 : S1 0 = S2 0)
    (h1 : ∀ n < N, Driven s g w zmin (n * s.dt) (S1 n) (D1 n) ∧ S1 (n + 1) = oneStep s (D1 n)) (h2 : ∀ n < N, Driven s g w zmin (n * s.dt) (S2 n) (D2 n) ∧ S2 (n + 1) = oneStep s (D2 n)) :
    ∀ n ≤ N, SameCells s (S1 n) (S2 n) ∧ (S1 n).step0 = (S2 n).step0 := by
  intro n
  induction n with
  | zero => intro _; rw [h0]; exact ⟨fun _ _ => ⟨rfl, rfl, rfl⟩, rfl⟩
  | succ n ih =>
    intro hn
    obtain ⟨i1, i2⟩ := ih (by omega)
    obtain ⟨d1, e1⟩ := h1 n (by omega)
    obtain ⟨d2, e2⟩ := h2 n (by omega)
    rw [e1, e2]
    refine ⟨oneStep_same s (driven_same hf d1 d2 i1) (.inl ?_), ?_⟩
    · rw [d1.step0, d2.step0]; exact i2
    · rw [oneStep_step0, oneStep_step0]

/-- A run of both planes and a longitudinal run with the test particle in cell `(a, b)` of the recorded block, from the same fields. -/
theorem cell_core {s : Solver ℝ} {g : Grd} (hf : Fitting s g) (hdt : 0 < s.dt) {w : WakeArgs} (hq : w.q ≠ 0) (hskip : w.skip = 0) (hbeta : 0 < w.beta) (wakelength : ℝ)
    (mon : Option Monitor) (md : ℕ → Dset ℝ) (st : State ℝ) {ixt iyt : ℕ} (hx : IsNearest g.Nx g.x w.xtest ixt) (hy : IsNearest g.Ny g.y w.ytest iyt) (h1 : 0 < ixt) (h2 : ixt + 1 < g.Nx) (h3 : 0 < iyt)
    (h4 : iyt + 1 < g.Ny) :
    ∃ (o : WakeOut) (S D : ℕ → State ℝ) (zmin zmax : ℝ) (Ez : ℕ → ℕ → ℕ → ℕ → ℝ), wakesolve s g w wakelength false none mon md st = .ok o ∧
      o.Nt = (stepsFor wakelength w.injection w.v zmin zmax s.dt).toNat ∧ Largest g.Nz g.z zmax ∧ Smallest g.Nz g.z zmin ∧ S 0 = st ∧ (∀ n < o.Nt, Driven s g w zmin (n * s.dt) (S n) (D n) ∧ S (n + 1) = oneStep s (D n)) ∧
      (∀ n < o.Nt, ∀ a < 3, ∀ b < 3, ∀ k < g.Nz, (s.fld (S n).E).get ((ixt - 1 + a : ℕ) : ℤ) ((iyt - 1 + b : ℕ) : ℤ) (k : ℤ) (.str "z") = .ok (Ez n a b k)) ∧
      (3 ≤ o.Nt → o.Nt ≤ 100000 → ∀ n < arangeLen (-w.injection * w.v) wakelength (s.dt * w.v),
        cellWake (calcLongWP3d (w.par wakelength) o.recording) 4 n =
          some (∑ m ∈ Finset.range 5, (∑ k ∈ Finset.range g.Nz, seen o.Nt (fun t k => Ez t (m / 3) (m % 3) k) (w.v * s.dt) n k (g.z k - zmin) * g.dz k) / (w.q * 10 ^ 12) ^ (5 - m))) ∧
      ∀ a < 3, ∀ b < 3, ∀ X Y, IsNearest g.Nx g.x X (ixt - 1 + a) → IsNearest g.Ny g.y Y (iyt - 1 + b) → ∀ mon' md', ∃ o', wakesolve s g (w.test X Y) wakelength true none mon' md' st = .ok o' ∧ o'.Nt = o.Nt ∧
        (o.Nt ≤ 100000 → ∀ n < o.Nt, ∀ k < g.Nz, sample o'.recording n k = some (Ez n a b k)) ∧
        (3 ≤ o.Nt → o.Nt ≤ 100000 → ∀ n < arangeLen (-w.injection * w.v) wakelength (s.dt * w.v),
          longWake (calcLongWP (w.par wakelength) o'.recording) n = some ((∑ k ∈ Finset.range g.Nz, seen o.Nt (fun t k => Ez t a b k) (w.v * s.dt) n k (g.z k - zmin) * g.dz k) / (w.q * 10 ^ 12))) := by
  obtain ⟨o1, S1, D1, zmin, zmax, Ez1, p1, pN, p0, pS, pD, pR, pn, pz, pdz, pE, -⟩ := C65_both_partial s g w hf hdt wakelength none mon md st hx hy h1 h2 h3 h4
  have least := pR.least
  rw [pz] at least
  have greatest := pR.greatest
  rw [pz] at greatest
  have hvp : 0 < w.v := mul_pos hbeta (by unfold cLight; norm_num)
  refine ⟨o1, S1, D1, zmin, zmax, Ez1, p1, pN, greatest, least, p0, pD, pE, fun hN3 hN n hn => ?_, fun a ha b hb X Y hX hY mon' md' => ?_⟩
  · have hzz : zzPos w.skip g.Nz = List.range g.Nz := by rw [hskip]; exact zzPos_zero _
    have k1 := C48_actual (w.par wakelength) pR hvp hdt hN3 hN (by show (zzPos w.skip g.Nz).length ≤ _; rw [hzz, List.length_range, pn]) rfl hq
    rw [k1]
    unfold cellWake
    simp only [Except.toOption, Option.bind_some]
    rw [List.getElem?_map, List.getElem?_range (show 4 < (2 * (w.par wakelength).nTrans + 1) * (2 * (w.par wakelength).nTrans + 1) from (by decide : 4 < (2 * 1 + 1) * (2 * 1 + 1)))]
    simp only [Option.map_some, Option.bind_some]
    rw [List.getElem?_map, List.getElem?_range (show n < nsOf (w.par wakelength) o1.Nt s.dt zmin zmax from hn)]
    simp only [Option.map_some, Option.some.injEq]
    refine Finset.sum_congr rfl fun m _ => ?_
    have hI : cellIntegral (w.par wakelength) o1.recording o1.Nt g.Nz s.dt zmin Ez1 m n = ∑ k ∈ Finset.range g.Nz, seen o1.Nt (fun t k => Ez1 t (m / 3) (m % 3) k) (w.v * s.dt) n k (g.z k - zmin) * g.dz k := by
      unfold cellIntegral cellSum
      show ∑ k ∈ Finset.range (zzPos w.skip g.Nz).length, seen o1.Nt (fun t k => Ez1 t (m / 3) (m % 3) ((zzPos w.skip g.Nz).getD k 0)) (w.v * s.dt) n k (o1.recording.zf ((zzPos w.skip g.Nz).getD k 0) - zmin) * o1.recording.dz k = _
      rw [hzz, List.length_range, pz, pdz]
      refine Finset.sum_congr rfl fun k hk => ?_
      have hk := Finset.mem_range.1 hk
      unfold seen
      simp only [getD_range hk]
    rw [hI]
    rfl
  · obtain ⟨o2, S2, D2, zmin', zmax', ixt', iyt', Ez2, q1, qx, qy, qN, q0, qS, qD, qR, qn, qz, qdz, qE, -⟩ := C65_records s g (w.test X Y) hf hdt wakelength none mon' md' st
    obtain rfl : ixt - 1 + a = ixt' := C44_unique hX qx
    obtain rfl : iyt - 1 + b = iyt' := C44_unique hY qy
    obtain rfl : zmin = zmin' := by have b := qR.least; rw [qz] at b; exact smallest_unique least b
    obtain rfl : zmax = zmax' := by have b := qR.greatest; rw [qz] at b; exact largest_unique greatest b
    have eN : o2.Nt = o1.Nt := by rw [qN, pN]; rfl
    have qD' : ∀ n < o1.Nt, Driven s g w zmin (n * s.dt) (S2 n) (D2 n) ∧ S2 (n + 1) = oneStep s (D2 n) := fun n hn => by
      obtain ⟨d, e⟩ := qD n (eN ▸ hn)
      exact ⟨⟨d.E, d.H, d.step0, d.J⟩, e⟩
    have hS := states_same hf (p0.trans q0.symm) pD qD'
    have hEz : ∀ n < o1.Nt, ∀ k < g.Nz, Ez2 n k = Ez1 n a b k := by
      intro n hn k hk
      have f1 := pE n hn a ha b hb k hk
      have f2 := qE n (eN ▸ hn) k hk
      have hz : Names (.str "z") 2 := names_iff.2 (by decide)
      have hx' : ixt - 1 + a < s.Nx := by rw [← hf.Nx]; omega
      have hy' : iyt - 1 + b < s.Ny := by rw [← hf.Ny]; omega
      have hk' : k < s.Nz := by rwa [hf.Nz] at hk
      rw [get_at3 (f := s.fld (S1 n).E) _ hz hx' hy' hk'] at f1
      rw [get_at3 (f := s.fld (S2 n).E) _ hz hx' hy' hk'] at f2
      rw [← Except.ok.inj f1, ← Except.ok.inj f2]
      exact ((hS n hn.le).1 (pos s.Nx s.Ny s.Nz 2 (ixt - 1 + a) (iyt - 1 + b) k) (pos_lt (by decide) hx' hy' hk')).1.symm
    refine ⟨o2, q1, eN, fun hN n hn k hk => ?_, fun hN3 hN n hn => ?_⟩
    · unfold sample
      rw [qR.file, C49_frames_partial md' (by omega) _ (by omega)]
      simp only [hk, if_true]
      rw [hEz n hn k hk]
    · have k2 := C47_line_integral qR (w.par wakelength) hvp hdt (by omega) (by omega) (by rw [qn]) hskip
      rw [k2]
      unfold longWake
      simp only [Except.toOption, Option.bind_some]
      rw [List.getElem?_map, List.getElem?_range (show n < arangeLen (-(w.par wakelength).ti * (w.par wakelength).v) (lengthOf (w.par wakelength) o2.Nt s.dt zmin zmax) (s.dt * (w.par wakelength).v) from hn)]
      simp only [Option.map_some, Option.some.injEq]
      show (∑ k ∈ Finset.range g.Nz, seen o2.Nt Ez2 (w.v * s.dt) n k (o2.recording.zf k - zmin) * o2.recording.dz k) / (w.q * 10 ^ 12) = _
      congr 1
      refine Finset.sum_congr rfl fun k hk => ?_
      have hk := Finset.mem_range.1 hk
      rw [eN, qz, qdz]
      have := seen_scale (a := 1) one_ne_zero 1 o1.Nt (Ez := fun t k => Ez1 t a b k) (Ez' := Ez2) (k := k) (fun n hn => by rw [one_mul]; exact hEz n hn k hk) (w.v * s.dt) n
        (div_nonneg (sub_nonneg.2 (least.2 k hk)) (mul_pos hvp hdt).le)
      rw [one_mul, one_mul, one_mul] at this
      rw [this]

/-- **C145 (the wake of a run of both planes: what happens).** The longitudinal wake `W` reported by a run of both planes is not the one `W₄` a longitudinal run reports for the same test particle: it is
`W₄ + W₃/Q + W₂/Q² + W₁/Q³ + W₀/Q⁴`, where `W₀ … W₃` are the wakes longitudinal runs report for test particles in the four cells of the block recorded before the centre, and `Q` is the charge in pC. -/
theorem C145_wake_actual {s : Solver ℝ} {g : Grd} (hf : Fitting s g) (hdt : 0 < s.dt) {w : WakeArgs} (hq : w.q ≠ 0) (hskip : w.skip = 0) (hbeta : 0 < w.beta) (wakelength : ℝ)
    (mon : Option Monitor) (md : ℕ → Dset ℝ) (st : State ℝ) {ixt iyt : ℕ} (hx : IsNearest g.Nx g.x w.xtest ixt) (hy : IsNearest g.Ny g.y w.ytest iyt) (h1 : 0 < ixt) (h2 : ixt + 1 < g.Nx) (h3 : 0 < iyt)
    (h4 : iyt + 1 < g.Ny) (X Y : ℕ → ℝ) (hX : ∀ a < 3, IsNearest g.Nx g.x (X a) (ixt - 1 + a)) (hY : ∀ b < 3, IsNearest g.Ny g.y (Y b) (iyt - 1 + b)) (mon' : ℕ → Option Monitor) (md' : ℕ → ℕ → Dset ℝ) :
    ∃ (o : WakeOut) (o' : ℕ → WakeOut), wakesolve s g w wakelength false none mon md st = .ok o ∧
      (∀ m < 9, wakesolve s g (w.test (X (m / 3)) (Y (m % 3))) wakelength true none (mon' m) (md' m) st = .ok (o' m) ∧ (o' m).Nt = o.Nt) ∧
      (3 ≤ o.Nt → o.Nt ≤ 100000 → ∀ n < arangeLen (-w.injection * w.v) wakelength (s.dt * w.v), ∃ W : ℕ → ℝ, (∀ m < 9, longWake (calcLongWP (w.par wakelength) (o' m).recording) n = some (W m)) ∧
        cellWake (calcLongWP3d (w.par wakelength) o.recording) 4 n =
          some (W 4 + W 3 / (w.q * 10 ^ 12) + W 2 / (w.q * 10 ^ 12) ^ 2 + W 1 / (w.q * 10 ^ 12) ^ 3 + W 0 / (w.q * 10 ^ 12) ^ 4)) := by
  obtain ⟨o, S, D, zmin, zmax, Ez, a1, -, -, -, -, -, -, a2, a3⟩ := cell_core hf hdt hq hskip hbeta wakelength mon md st hx hy h1 h2 h3 h4
  have key : ∀ m, ∃ o', m < 9 → wakesolve s g (w.test (X (m / 3)) (Y (m % 3))) wakelength true none (mon' m) (md' m) st = .ok o' ∧ o'.Nt = o.Nt ∧
      (3 ≤ o.Nt → o.Nt ≤ 100000 → ∀ n < arangeLen (-w.injection * w.v) wakelength (s.dt * w.v),
          longWake (calcLongWP (w.par wakelength) o'.recording) n = some ((∑ k ∈ Finset.range g.Nz, seen o.Nt (fun t k => Ez t (m / 3) (m % 3) k) (w.v * s.dt) n k (g.z k - zmin) * g.dz k) / (w.q * 10 ^ 12))) := by
    intro m
    by_cases hm : m < 9
    · obtain ⟨o', b1, b2, -, b3⟩ := a3 (m / 3) (by omega) (m % 3) (by omega) _ _ (hX _ (by omega)) (hY _ (by omega)) (mon' m) (md' m)
      exact ⟨o', fun _ => ⟨b1, b2, b3⟩⟩
    · exact ⟨o, fun h => absurd h hm⟩
  choose o' ho' using key
  refine ⟨o, o', a1, fun m hm => ⟨(ho' m hm).1, (ho' m hm).2.1⟩, fun hN3 hN n hn => ⟨_, fun m hm => (ho' m hm).2.2 hN3 hN n hn, ?_⟩⟩
  rw [a2 hN3 hN n hn]
  have hQ : w.q * 10 ^ 12 ≠ 0 := mul_ne_zero hq (by positivity)
  simp only [Finset.sum_range_succ, Finset.sum_range_zero, zero_add, Option.some.injEq]
  field_simp
  ring

/-- **C145 (partial: the samples).** What a longitudinal run records is, sample by sample, the Ez along the middle column of the block a run of both planes records; the two runs take the same number of steps.
Missing: the wakes computed from it differ, `C145_refuted`. -/
theorem C145_samples_partial {s : Solver ℝ} {g : Grd} (hf : Fitting s g) (hdt : 0 < s.dt) {w : WakeArgs} (wakelength : ℝ)
    (mon mon' : Option Monitor) (md md' : ℕ → Dset ℝ) (st : State ℝ) {ixt iyt : ℕ} (hx : IsNearest g.Nx g.x w.xtest ixt) (hy : IsNearest g.Ny g.y w.ytest iyt) (h1 : 0 < ixt) (h2 : ixt + 1 < g.Nx) (h3 : 0 < iyt)
    (h4 : iyt + 1 < g.Ny) :
    ∃ o o', wakesolve s g w wakelength false none mon md st = .ok o ∧ wakesolve s g w wakelength true none mon' md' st = .ok o' ∧ o'.Nt = o.Nt ∧
      (o.Nt ≤ 100000 → ∀ n < o.Nt, ∃ name name' v v', o.recording.file[n]? = some (name, .d3 3 3 g.Nz v) ∧ o'.recording.file[n]? = some (name', .d1 g.Nz v') ∧ ∀ k < g.Nz, v' k = v 1 1 k) := by
  obtain ⟨o1, S1, D1, zmin, zmax, Ez1, p1, pN, p0, pS, pD, pR, pn, pz, pdz, pE, -⟩ := C65_both_partial s g w hf hdt wakelength none mon md st hx hy h1 h2 h3 h4
  have least := pR.least
  rw [pz] at least
  have greatest := pR.greatest
  rw [pz] at greatest
  obtain ⟨o2, S2, D2, zmin', zmax', ixt', iyt', Ez2, q1, qx, qy, qN, q0, qS, qD, qR, qn, qz, qdz, qE, -⟩ := C65_records s g w hf hdt wakelength none mon' md' st
  obtain rfl : ixt = ixt' := C44_unique hx qx
  obtain rfl : iyt = iyt' := C44_unique hy qy
  obtain rfl : zmin = zmin' := by have b := qR.least; rw [qz] at b; exact smallest_unique least b
  obtain rfl : zmax = zmax' := by have b := qR.greatest; rw [qz] at b; exact largest_unique greatest b
  have eN : o2.Nt = o1.Nt := by rw [qN, pN]
  have hS := states_same hf (p0.trans q0.symm) pD fun n hn => qD n (eN ▸ hn)
  refine ⟨o1, o2, p1, q1, eN, fun hN n hn => ⟨frameName n, frameName n, Ez1 n, Ez2 n, ?_, ?_, fun k hk => ?_⟩⟩
  · rw [pR.file, C49_frames_partial md hN _ hn]
  · rw [qR.file, C49_frames_partial md' (by omega) _ (by omega)]
  · have f1 := pE n hn 1 (by decide) 1 (by decide) k hk
    have f2 := qE n (eN ▸ hn) k hk
    have hz : Names (.str "z") 2 := names_iff.2 (by decide)
    have hx' : ixt < s.Nx := by rw [← hf.Nx]; omega
    have hy' : iyt < s.Ny := by rw [← hf.Ny]; omega
    have hk' : k < s.Nz := by rwa [hf.Nz] at hk
    rw [Nat.sub_add_cancel h1, Nat.sub_add_cancel h3, get_at3 (f := s.fld (S1 n).E) _ hz hx' hy' hk'] at f1
    rw [get_at3 (f := s.fld (S2 n).E) _ hz hx' hy' hk'] at f2
    rw [← Except.ok.inj f1, ← Except.ok.inj f2]
    exact ((hS n hn.le).1 (pos s.Nx s.Ny s.Nz 2 ixt iyt k) (pos_lt (by decide) hx' hy' hk')).1.symm

/-- **C145 (refuted).** On every grid with a single layer, for every solver with non-zero permittivity and every charged beam in the corner of the recorded block, the longitudinal wake reported by a run of both
planes differs from the one reported by a longitudinal run with the same arguments (at the second sample). -/
theorem C145_refuted {s : Solver ℝ} {g : Grd} (hf : Fitting s g) (hz1 : g.Nz = 1) (hdt : 0 < s.dt) (hi : ∀ q, s.ieps q ≠ 0) {w : WakeArgs} (hq : w.q ≠ 0)
    (hskip : w.skip = 0) (hbeta : 0 < w.beta) (hs : w.sigmaz ≠ 0) (wakelength : ℝ) (mon mon' : Option Monitor) (md md' : ℕ → Dset ℝ) {ixt iyt : ℕ} (hx : IsNearest g.Nx g.x w.xtest ixt)
    (hy : IsNearest g.Ny g.y w.ytest iyt) (h1 : 0 < ixt) (h2 : ixt + 1 < g.Nx) (h3 : 0 < iyt) (h4 : iyt + 1 < g.Ny) (hxs : IsNearest g.Nx g.x w.xsource (ixt - 1)) (hys : IsNearest g.Ny g.y w.ysource (iyt - 1))
    (hd : g.dx (ixt - 1) ≠ 0 ∧ g.dy (iyt - 1) ≠ 0 ∧ g.dz 0 ≠ 0) (hlen : 1 < arangeLen (-w.injection * w.v) wakelength (s.dt * w.v))
    (hsteps : 3 ≤ ⌊(wakelength + w.injection * w.v) / (w.v * s.dt)⌋ ∧ ⌊(wakelength + w.injection * w.v) / (w.v * s.dt)⌋ ≤ 100000) :
    ∃ o o', wakesolve s g w wakelength false none mon md initState = .ok o ∧ wakesolve s g w wakelength true none mon' md' initState = .ok o' ∧
      longWake (calcLongWP (w.par wakelength) o'.recording) 1 = some 0 ∧ cellWake (calcLongWP3d (w.par wakelength) o.recording) 4 1 ≠ some 0 := by
  obtain ⟨o, S, D, zmin, zmax, Ez, a1, aN, ag, az, a0, aD, aE, a2, a3⟩ := cell_core hf hdt hq hskip hbeta wakelength mon md initState hx hy h1 h2 h3 h4
  have hzz : zmax - zmin = 0 := by
    obtain ⟨m, hm, em⟩ := az.1
    obtain ⟨m', hm', em'⟩ := ag.1
    obtain rfl : m = 0 := by omega
    obtain rfl : m' = 0 := by omega
    exact sub_eq_zero.2 (em'.trans em.symm)
  have hNt : 3 ≤ o.Nt ∧ o.Nt ≤ 100000 := by
    rw [aN]
    unfold stepsFor
    rw [hzz, add_zero, div_div]
    have e := hsteps.1
    have hpos : 0 ≤ (wakelength + w.injection * w.v) / (w.v * s.dt) := by
      by_contra h
      have := Int.floor_lt.2 (show (wakelength + w.injection * w.v) / (w.v * s.dt) < ((0 : ℤ) : ℝ) by push_cast; linarith)
      omega
    unfold pyInt
    rw [if_pos hpos]
    omega
  obtain ⟨hN3, hN⟩ := hNt
  obtain ⟨o', b1, -, -, b2⟩ := a3 1 (by decide) 1 (by decide) w.xtest w.ytest (by rwa [Nat.sub_add_cancel h1]) (by rwa [Nat.sub_add_cancel h3]) mon' md'
  have hQ : w.q * 10 ^ 12 ≠ 0 := mul_ne_zero hq (by positivity)
  have hvp : 0 < w.v := mul_pos hbeta (by unfold cLight; norm_num)
  have hzm : g.z 0 - zmin = 0 := by
    obtain ⟨m, hm, em⟩ := az.1
    obtain rfl : m = 0 := by omega
    rw [← em, sub_self]
  have hI : ∀ a b, (∑ k ∈ Finset.range g.Nz, seen o.Nt (fun t k => Ez t a b k) (w.v * s.dt) 1 k (g.z k - zmin) * g.dz k) = Ez 1 a b 0 * g.dz 0 := by
    intro a b
    rw [hz1, Finset.sum_range_one, hzm]
    unfold seen
    rw [zero_div, Int.floor_zero, if_pos (by omega), show ((1 : ℕ) + (0 : ℤ)).toNat = 1 from rfl]
  obtain ⟨hD, hS1⟩ := aD 0 (by omega)
  rw [a0] at hD
  have hnames : Names (.str "z") 2 := names_iff.2 (by decide)
  have nz : 0 < s.Nz := hf.posz
  have hE : ∀ a < 3, ∀ b < 3, Ez 1 a b 0 = -(s.dt * (s.ieps (pos s.Nx s.Ny s.Nz 2 (ixt - 1 + a) (iyt - 1 + b) 0) * (D 0).J (pos s.Nx s.Ny s.Nz 2 (ixt - 1 + a) (iyt - 1 + b) 0))) := by
    intro a ha b hb
    have f := aE 1 (by omega) a ha b hb 0 (by omega)
    rw [get_at3 (f := s.fld (S 1).E) _ hnames (show ixt - 1 + a < s.Nx by rw [← hf.Nx]; omega) (show iyt - 1 + b < s.Ny by rw [← hf.Ny]; omega) nz, hS1] at f
    exact (Except.ok.inj f).symm.trans (first_E s (D 0) hD.E hD.H _)
  have hE0 : ∀ a < 3, ∀ b < 3, ¬ (a = 0 ∧ b = 0) → Ez 1 a b 0 = 0 := by
    intro a ha b hb hab
    rw [hE a ha b hb, driven_entry hD (by decide) (by rw [← hf.Nx]; omega) (by rw [← hf.Ny]; omega) nz ?_]
    · show -(s.dt * (_ * (0 : ℝ))) = 0
      ring
    · rintro ⟨-, n1, n2⟩
      have e1 := C44_unique n1 hxs
      have e2 := C44_unique n2 hys
      omega
  refine ⟨o, o', a1, b1, ?_, ?_⟩
  · rw [b2 hN3 hN 1 hlen, hI, hE0 1 (by decide) 1 (by decide) (by decide), zero_mul, zero_div]
  · rw [a2 hN3 hN 1 hlen]
    simp only [Finset.sum_range_succ, Finset.sum_range_zero, zero_add, hI]
    rw [hE0 (1 / 3) (by decide) (1 % 3) (by decide) (by decide), hE0 (2 / 3) (by decide) (2 % 3) (by decide) (by decide), hE0 (3 / 3) (by decide) (3 % 3) (by decide) (by decide),
      hE0 (4 / 3) (by decide) (4 % 3) (by decide) (by decide)]
    simp only [zero_mul, zero_div, add_zero, ne_eq, Option.some.injEq]
    refine div_ne_zero (mul_ne_zero ?_ hd.2.2) (pow_ne_zero _ hQ)
    obtain ⟨b, hb⟩ : ∃ b, w.beam = .ok b := ⟨_, rfl⟩
    rw [show Ez 1 (0 / 3) (0 % 3) 0 = _ from hE 0 (by decide) 0 (by decide)]
    refine neg_ne_zero.2 (mul_ne_zero hdt.ne' (mul_ne_zero (hi _) ?_))
    obtain ⟨b', -, i0, l0, hi0, hl0, -, hval⟩ := hD.J
    obtain rfl := nearest_unique hxs hi0
    obtain rfl := nearest_unique hys hl0
    have v := hval 0 (by omega)
    rw [get_at3 (f := s.fld (D 0).J) _ hnames (show ixt - 1 < s.Nx by rw [← hf.Nx]; omega) (show iyt - 1 < s.Ny by rw [← hf.Ny]; omega) nz] at v
    have v : (D 0).J (pos s.Nx s.Ny s.Nz 2 (ixt - 1) (iyt - 1) 0) = _ := Except.ok.inj v
    rw [Nat.add_zero, Nat.add_zero, v]
    refine div_ne_zero (mul_ne_zero (mul_ne_zero hq hvp.ne') ?_) (mul_ne_zero hd.1 hd.2.1)
    unfold lineDensity
    refine div_ne_zero (Real.exp_pos _).ne' (Real.sqrt_pos.2 ?_).ne'
    have := Real.pi_pos
    have := sq_pos_of_ne_zero hs
    positivity

example : ∃ o o', wakesolve oneLayer ⟨3, 3, 1, fun i => i, fun i => i, fun i => i, fun _ => 1, fun _ => 1, fun _ => 1, 1, none⟩ ⟨1, 1, 1 / cLight, 0, 0, 1, 1, some 0, 0⟩ 4 false none none (fun _ => .d1 0 0) initState = .ok o ∧
    wakesolve oneLayer ⟨3, 3, 1, fun i => i, fun i => i, fun i => i, fun _ => 1, fun _ => 1, fun _ => 1, 1, none⟩ ⟨1, 1, 1 / cLight, 0, 0, 1, 1, some 0, 0⟩ 4 true none none (fun _ => .d1 0 0) initState = .ok o' ∧
    o.st = o'.st ∧ longWake (calcLongWP (WakeArgs.par ⟨1, 1, 1 / cLight, 0, 0, 1, 1, some 0, 0⟩ 4) o'.recording) 1 ≠ cellWake (calcLongWP3d (WakeArgs.par ⟨1, 1, 1 / cLight, 0, 0, 1, 1, some 0, 0⟩ 4) o.recording) 4 1 := by
  have hc : (cLight : ℝ) ≠ 0 := by unfold cLight; norm_num
  have hv : (WakeArgs.mk 1 1 (1 / cLight) 0 0 1 1 (some 0) 0).v = 1 := div_mul_cancel₀ _ hc
  have hi : (WakeArgs.mk 1 1 (1 / cLight) 0 0 1 1 (some 0) 0).injection = 0 := rfl
  have n0 : IsNearest 3 (fun i : ℕ => (i : ℝ)) 0 0 := ⟨by decide, fun k _ => by simp, fun k hk => by omega⟩
  have n1 : IsNearest 3 (fun i : ℕ => (i : ℝ)) 1 1 := ⟨by decide, fun k _ => by simp, fun k hk => by
    obtain rfl : k = 0 := by omega
    norm_num⟩
  obtain ⟨o, o', e1, e2, e3, e4⟩ := C145_refuted (s := oneLayer) (g := ⟨3, 3, 1, fun i => i, fun i => i, fun i => i, fun _ => 1, fun _ => 1, fun _ => 1, 1, none⟩) (w := ⟨1, 1, 1 / cLight, 0, 0, 1, 1, some 0, 0⟩)
    ⟨rfl, rfl, rfl, by decide, by decide, by decide, rfl⟩ rfl one_pos (fun _ => one_ne_zero) one_ne_zero rfl
    (div_pos one_pos (by unfold cLight; norm_num)) one_ne_zero 4 none none (fun _ => .d1 0 0) (fun _ => .d1 0 0) (ixt := 1) (iyt := 1) n1 n1 (by decide) (by decide) (by decide) (by decide) n0 n0
    ⟨one_ne_zero, one_ne_zero, one_ne_zero⟩ (by
      rw [hv, hi]
      show 1 < arangeLen (-(0 : ℝ) * 1) 4 (1 * 1)
      unfold arangeLen
      norm_num) (by
      rw [hv, hi]
      show 3 ≤ ⌊((4 : ℝ) + 0 * 1) / (1 * 1)⌋ ∧ ⌊((4 : ℝ) + 0 * 1) / (1 * 1)⌋ ≤ 100000
      norm_num)
  exact ⟨o, o', e1, e2, (C145_undisturbed ⟨rfl, rfl, rfl, rfl, rfl, rfl⟩ e1 e2).2.1, by rw [e3]; exact e4.symm⟩

example : ∃ (o : WakeOut) (o' : ℕ → WakeOut),
    wakesolve oneLayer ⟨3, 3, 1, fun i => i, fun i => i, fun i => i, fun _ => 1, fun _ => 1, fun _ => 1, 1, none⟩ ⟨1, 1, 1, 0, 0, 1, 1, some 0, 0⟩ 4 false none none (fun _ => .d1 0 0) initState = .ok o ∧
    ∀ m < 9, (o' m).Nt = o.Nt := by
  have n0 : ∀ a : ℕ, a < 3 → IsNearest 3 (fun i : ℕ => (i : ℝ)) (a : ℝ) (1 - 1 + a) := fun a ha => ⟨by omega, fun k _ => by simp, fun k hk => by
    simp only [Nat.sub_self, Nat.zero_add] at hk ⊢
    rw [sub_self, abs_zero]
    exact abs_pos.2 (sub_ne_zero.2 (by exact_mod_cast hk.ne))⟩
  have n1 : IsNearest 3 (fun i : ℕ => (i : ℝ)) 1 1 := by simpa using n0 1 (by decide)
  obtain ⟨o, o', e1, e2, -⟩ := C145_wake_actual (s := oneLayer) (g := ⟨3, 3, 1, fun i => i, fun i => i, fun i => i, fun _ => 1, fun _ => 1, fun _ => 1, 1, none⟩) (w := ⟨1, 1, 1, 0, 0, 1, 1, some 0, 0⟩)
    ⟨rfl, rfl, rfl, by decide, by decide, by decide, rfl⟩ one_pos one_ne_zero rfl one_pos 4 none (fun _ => .d1 0 0) initState (ixt := 1) (iyt := 1) n1 n1 (by decide) (by decide) (by decide) (by decide)
    (fun a => (a : ℝ)) (fun a => (a : ℝ)) n0 n0 (fun _ => none) (fun _ _ => .d1 0 0)
  exact ⟨o, o', e1, fun m hm => (e2 m hm).2⟩

end
end Wake
end Wakis
