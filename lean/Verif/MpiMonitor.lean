import Verif.MpiWake

/-!
# C148: field monitors in a wake run on several ranks

`wakis/routines.py:424-425` with `use_mpi`: every rank has a monitor of its own, which it updates with its own fields (slab and ghost layers) at the end of each pass.
-/

namespace Wakis
namespace Wake
open Src Sol Sparse Fld Mpi

noncomputable section

/-- field_monitors.py:57-102 called from routines.py:424-425 on a rank with solver `s`: the monitor `m` after `N` passes, when `fields n` are the electric fields of the rank at the end of pass `n`. -/
def rankMonitor (s : Solver ℝ) (fields : ℕ → Vec ℝ) (m : Monitor) (N : ℕ) : Monitor :=
  (List.range N).foldl (fun m n => m.update (fun c i j k => (s.fld (fields n)).at3 c i j k) s.dt) m

/-- The memories with which the ranks, started from zero fields, come to the end of `prog` in some schedule of the messages. -/
def EndOf (eager : ℕ → ℕ → Bool) (prog : ℕ → List (Instr (State ℝ) (ℕ → ℕ → ℝ))) (mem : ℕ → State ℝ) : Prop :=
  ∃ (l : List Act) (net : Net (State ℝ) (ℕ → ℕ → ℝ)), Mpi.run eager (start prog fun _ => initState) l = some net ∧ net.Done ∧ mem = fun r => (net.proc r).loc

theorem Ends.exists {eager : ℕ → ℕ → Bool} {prog : ℕ → List (Instr (State ℝ) (ℕ → ℕ → ℝ))} {P : (ℕ → State ℝ) → Prop} (h : Ends eager prog P) : ∃ mem, EndOf eager prog mem := by
  obtain ⟨total, ht⟩ := h
  obtain ⟨-, ⟨l', z, hl, hz⟩, -⟩ := ht [] _ rfl
  exact ⟨_, l', z, hl, hz, rfl⟩

theorem Ends.of_end {eager : ℕ → ℕ → Bool} {prog : ℕ → List (Instr (State ℝ) (ℕ → ℕ → ℝ))} {P : (ℕ → State ℝ) → Prop} (h : Ends eager prog P) {mem : ℕ → State ℝ} (hm : EndOf eager prog mem) : P mem := by
  obtain ⟨total, ht⟩ := h
  obtain ⟨l, net, hl, hd, rfl⟩ := hm
  exact (ht l net hl).2.2 hd

/-- The fields after every pass, as in `C146_final_partial` after the last. -/
theorem passes {J : Mpi.Job ℝ} {s : ℕ → Solver ℝ} {S : Solver ℝ} {g : ℕ → Grd} {w : WakeArgs} {b : Beam} (h : Setting J s S g w b) {wakelength : ℝ} {mon : Option Monitor} {md : ℕ → Dset ℝ}
    {o : WakeOut} (ho : wakesolve S ((boxOf J).serial J.size) w wakelength true none mon md initState = .ok o) (eager : ℕ → ℕ → Bool) :
    ∃ St : ℕ → State ℝ, (o.mon = mon.map fun m => rankMonitor S (fun n => (St (n + 1)).E) m o.Nt) ∧
      ∀ n ≤ o.Nt, Ends eager (loopProg s g b J.size n) fun mem => ∀ r < J.size, ∀ f c i j k, c < 3 → i < J.Nx → j < J.Ny → k < (s r).Nz →
        cell (s r) f (mem r) c i j k = cell S f (St n) c i j (r * (J.NZ / J.size) - Grid.ghostLo r + k) := by
  obtain ⟨D, hD, rfl, hrk, e1, e2⟩ := h.same
  have hf := hD.fitting
  have hdt : 0 < D.serial.dt := by rw [e1]; exact h.step
  obtain ⟨o', St, Dr, zmin, zmax, ixt, iyt, Ez, p1, px, py, pN, p0, pS, pD, pR, -, pz, -, pE, pM⟩ := C65_records D.serial ((boxOf J).serial J.size) w hf hdt wakelength none mon md initState
  obtain rfl := Except.ok.inj (p1.symm.trans ho)
  have hz : Smallest J.NZ ((boxOf J).serial J.size).z zmin := by have a := pR.least; rw [pz] at a; exact a
  refine ⟨St, ?_, fun n hn => ?_⟩
  · rw [pM]
    congr 1
    funext m
    unfold rankMonitor
    refine List.foldl_ext _ _ _ fun m n hn => ?_
    show _ = m.update (fun c i j k => (D.serial.fld (St (n + 1)).E).at3 c i j k) D.serial.dt
    rw [(pD n (List.mem_range.1 hn)).2]
    rfl
  · have hrel := hD.loop hz p0 pD n hn
    rw [(loopProg_congr g b (fun r hr => (hrk r hr).symm) n).1, ← hD.hsize]
    have hsl := hD.ok.slabs
    have e : loopProg D.rank g b D.size n = fun r => loopProg D.rank g b D.size n r ++ [] := by funext r; simp
    refine ends_of_reach (fun r i hi => loopProg_ok g b hsl _ r i hi) (by rw [e]; exact loop_reach g b hsl (by have := hD.ok.ranks; omega) D.n _ _ _) ?_
    intro r hr f c i j k hc hi hj hk
    rw [hD.hsize] at hr
    rw [← hrk r hr] at hk ⊢
    rw [← hD.hsize] at hr
    rw [← hD.hx] at hi
    rw [← hD.hy] at hj
    have ho : r * (J.NZ / D.size) - Grid.ghostLo r = D.o r := by rw [hD.hsize, ← hD.hn]; rfl
    rw [ho]
    cases f with
    | E => exact hrel.E r hr c i j k hc hi hj hk
    | H => exact hrel.H r hr c i j k hc hi hj hk
    | J => exact hrel.J r hr c i j k hc hi hj hk

/-- Two monitors of the same frequencies, step and number of updates. -/
structure Alike (m m' : Monitor) : Prop where
  freqs : m.freqs = m'.freqs
  time_index : m.time_index = m'.time_index
  dt : m.dt = m'.dt

theorem rankMonitor_succ (s : Solver ℝ) (F : ℕ → Vec ℝ) (m : Monitor) (N : ℕ) :
    rankMonitor s F m (N + 1) = (rankMonitor s F m N).update (fun c i j k => (s.fld (F N)).at3 c i j k) s.dt := by
  unfold rankMonitor
  rw [List.range_succ, List.foldl_append]
  rfl

theorem rankMonitor_alike {s S : Solver ℝ} (hdt : s.dt = S.dt) (F G : ℕ → Vec ℝ) {m m' : Monitor} (hm : Alike m m') (N : ℕ) : Alike (rankMonitor s F m N) (rankMonitor S G m' N) := by
  induction N with
  | zero => exact hm
  | succ N ha =>
    rw [rankMonitor_succ, rankMonitor_succ]
    refine ⟨ha.freqs, ?_, ?_⟩
    · show _ + 1 = _ + 1
      rw [ha.time_index]
    · show some _ = some _
      rw [ha.dt, hdt]

theorem rankMonitor_slab {s S : Solver ℝ} (hdt : s.dt = S.dt) {F G : ℕ → Vec ℝ} {c i j k k' : ℕ} {m m' : Monitor} (hm : Alike m m') (h0 : ∀ f, m.acc c f i j k = m'.acc c f i j k') (N : ℕ)
    (h : ∀ n < N, (s.fld (F n)).at3 c i j k = (S.fld (G n)).at3 c i j k') (f : ℕ) : (rankMonitor s F m N).acc c f i j k = (rankMonitor S G m' N).acc c f i j k' := by
  induction N with
  | zero => exact h0 f
  | succ N ih =>
    have ha := rankMonitor_alike hdt F G hm N
    have hv := ih fun n hn => h n (by omega)
    rw [rankMonitor_succ, rankMonitor_succ]
    show _ + (((s.fld (F N)).at3 c i j k : ℝ) : ℂ) * Complex.exp _ = _ + (((S.fld (G N)).at3 c i j k' : ℝ) : ℂ) * Complex.exp _
    rw [hv, h N (by omega), ha.freqs, ha.time_index, ha.dt, hdt]

/-- With a completed run of any planes there is a longitudinal run of the same fields and monitor (C145). -/
theorem long_run {J : Mpi.Job ℝ} {s : ℕ → Solver ℝ} {S : Solver ℝ} {g : ℕ → Grd} {w : WakeArgs} {b : Beam} (h : Setting J s S g w b) {wakelength : ℝ} {long : Bool} {mon : Option Monitor} {md : ℕ → Dset ℝ}
    {o : WakeOut} (ho : wakesolve S ((boxOf J).serial J.size) w wakelength long none mon md initState = .ok o) :
    ∃ o', wakesolve S ((boxOf J).serial J.size) w wakelength true none mon md initState = .ok o' ∧ o.Nt = o'.Nt ∧ o.st = o'.st ∧ o.mon = o'.mon := by
  obtain ⟨D, hD, e0, -, e1, -⟩ := h.same
  obtain ⟨o', -, -, -, -, -, -, -, p1, -⟩ := C65_records S ((boxOf J).serial J.size) w (e0 ▸ hD.fitting) (by rw [e1]; exact h.step) wakelength none mon md initState
  obtain ⟨q1, q2, q3⟩ := C145_undisturbed ⟨rfl, rfl, rfl, rfl, rfl, rfl⟩ ho p1
  exact ⟨o', p1, q1, q2, q3 rfl⟩

/-- **C146 (the fields at the end, any planes; partial).** `C146_final_partial` for runs that record any planes. -/
theorem C146_final_planes_partial {J : Mpi.Job ℝ} {s : ℕ → Solver ℝ} {S : Solver ℝ} {g : ℕ → Grd} {w : WakeArgs} {b : Beam} (h : Setting J s S g w b) {wakelength : ℝ} {long : Bool} {mon : Option Monitor}
    {md : ℕ → Dset ℝ} {o : WakeOut} (ho : wakesolve S ((boxOf J).serial J.size) w wakelength long none mon md initState = .ok o) (eager : ℕ → ℕ → Bool) :
    Ends eager (loopProg s g b J.size o.Nt) fun mem => ∀ r < J.size, ∀ f c i j k, c < 3 → i < J.Nx → j < J.Ny → k < (s r).Nz →
      cell (s r) f (mem r) c i j k = cell S f o.st c i j (r * (J.NZ / J.size) - Grid.ghostLo r + k) := by
  obtain ⟨o', ho', e1, e2, -⟩ := long_run h ho
  rw [e1, e2]
  exact C146_final_partial h ho' eager

/-- **C148 (partial).**  A wake run of any planes on several ranks, every rank with a new monitor of the same frequencies: in every pass the ranks come to the update of their monitors; whatever the schedules that led there, at the end of the
run the monitor of a rank has made as many updates with the same time step as that of the run on one process and holds in every cell of its slab, ghost layers included, what the latter holds in the same cell of the whole grid.
Missing: as in C146. -/
theorem C148_monitor_partial {J : Mpi.Job ℝ} {s : ℕ → Solver ℝ} {S : Solver ℝ} {g : ℕ → Grd} {w : WakeArgs} {b : Beam} (h : Setting J s S g w b) {wakelength : ℝ} {long : Bool} {freqs : List ℝ} {md : ℕ → Dset ℝ}
    {o : WakeOut} (ho : wakesolve S ((boxOf J).serial J.size) w wakelength long none (some (.new freqs)) md initState = .ok o) (eager : ℕ → ℕ → Bool) :
    ∃ om, o.mon = some om ∧ (∀ n < o.Nt, ∃ mem, EndOf eager (loopProg s g b J.size (n + 1)) mem) ∧
      ∀ mems : ℕ → ℕ → State ℝ, (∀ n < o.Nt, EndOf eager (loopProg s g b J.size (n + 1)) (mems n)) → ∀ r < J.size,
        (rankMonitor (s r) (fun n => (mems n r).E) (.new freqs) o.Nt).time_index = om.time_index ∧ (rankMonitor (s r) (fun n => (mems n r).E) (.new freqs) o.Nt).dt = om.dt ∧
        ∀ c f i j k, c < 3 → i < J.Nx → j < J.Ny → k < (s r).Nz →
          (rankMonitor (s r) (fun n => (mems n r).E) (.new freqs) o.Nt).acc c f i j k = om.acc c f i j (r * (J.NZ / J.size) - Grid.ghostLo r + k) := by
  obtain ⟨o', ho', n1, -, n3⟩ := long_run h ho
  rw [n1, n3]
  clear ho n1 n3
  obtain ⟨St, hmon, hp⟩ := passes h ho' eager
  obtain ⟨D, hD, -, -, e1, e2⟩ := h.same
  refine ⟨_, hmon, fun n hn => (hp (n + 1) hn).exists, fun mems hm r hr => ?_⟩
  have hcell : ∀ c i j k, c < 3 → i < J.Nx → j < J.Ny → k < (s r).Nz → ∀ n < o'.Nt,
      ((s r).fld (mems n r).E).at3 c i j k = (S.fld (St (n + 1)).E).at3 c i j (r * (J.NZ / J.size) - Grid.ghostLo r + k) := fun c i j k hc hi hj hk n hn =>
    (hp (n + 1) hn).of_end (hm n hn) r hr .E c i j k hc hi hj hk
  have hdt : (s r).dt = S.dt := by rw [e1, e2 r hr]
  have ha : Alike (rankMonitor (s r) (fun n => (mems n r).E) (.new freqs) o'.Nt) (rankMonitor S (fun n => (St (n + 1)).E) (.new freqs) o'.Nt) := rankMonitor_alike hdt _ _ ⟨rfl, rfl, rfl⟩ _
  refine ⟨ha.time_index, ha.dt, fun c f i j k hc hi hj hk => ?_⟩
  exact rankMonitor_slab (F := fun n => (mems n r).E) (G := fun n => (St (n + 1)).E) (c := c) (i := i) (j := j) (k := k) (k' := r * (J.NZ / J.size) - Grid.ghostLo r + k) (m := .new freqs) (m' := .new freqs) hdt ⟨rfl, rfl, rfl⟩ (fun _ => rfl) o'.Nt (hcell c i j k hc hi hj hk) f

/-- Non-vacuity: the setting of C146 with a monitor of two frequencies. -/
example (eager : ℕ → ℕ → Bool) : ∃ s S g b o om, Setting pairJob s S g pairBeam b ∧
    wakesolve S ((boxOf pairJob).serial pairJob.size) pairBeam 1 true none (some (.new [1, 2])) (fun _ => .d1 0 0) initState = .ok o ∧ o.mon = some om ∧
    ∀ n < o.Nt, ∃ mem, EndOf eager (loopProg s g b pairJob.size (n + 1)) mem := by
  obtain ⟨s, S, g, b, h⟩ := pair_setting
  obtain ⟨D, hD, e0, hrk, e1, e2⟩ := h.same
  obtain ⟨o, St, Dr, zmin, zmax, ixt, iyt, Ez, p1, -⟩ :=
    C65_records S ((boxOf pairJob).serial pairJob.size) pairBeam (e0 ▸ hD.fitting) (by rw [e1]; exact h.step) 1 none (some (.new [1, 2])) (fun _ => .d1 0 0) initState
  obtain ⟨om, h1, h2, -⟩ := C148_monitor_partial h p1 eager
  exact ⟨s, S, g, b, o, om, h, p1, h1, h2⟩

end

end Wake
end Wakis
