import Verif.BothPlanes

/-!
# C108 for runs of both planes

A second wake run with the same solver, with and without `reset_fields` in between, when three by three columns are recorded.
-/

namespace Wakis
namespace Wake
open Src Sol Sparse Fld
noncomputable section

/-! ### Specification -/

/-- Two runs of both planes have the same number of steps, end with the same fields in every cell, and their recordings hold the same blocks, entry by entry. -/
def SameRunBoth (s : Solver ℝ) (g : Grd) (o1 o2 : WakeOut) : Prop :=
  o1.Nt = o2.Nt ∧ SameCells s o1.st o2.st ∧ ∀ n < o1.Nt, ∃ name u u', o1.recording.file[n]? = some (name, .d3 3 3 g.Nz u) ∧ o2.recording.file[n]? = some (name, .d3 3 3 g.Nz u') ∧
    ∀ a < 3, ∀ b < 3, ∀ k < g.Nz, u a b k = u' a b k

/-- The claim: a second wake run of both planes with the same solver repeats the first. -/
def RepeatsBoth (s : Solver ℝ) (g : Grd) (w : WakeArgs) (wakelength : ℝ) : Prop :=
  ∀ (md : ℕ → Dset ℝ) (o1 o2 : WakeOut), wakesolve s g w wakelength false none none md initState = .ok o1 → o1.Nt ≤ 100000 → wakesolve s g w wakelength false none none md o1.st = .ok o2 → SameRunBoth s g o1 o2

/-! ### Theorems -/

theorem states_same_cells {s : Solver ℝ} {g : Grd} {w : WakeArgs} (hf : Fitting s g) {zmin : ℝ} {S1 S2 D1 D2 : ℕ → State ℝ} {N : ℕ} (h : SameCells s (S1 0) (S2 0))
    (h0 : (S1 0).step0 = (S2 0).step0 ∨ ∀ q < s.n3, (S1 0).E q = 0 ∧ (S1 0).H q = 0)
    (h1 : ∀ n < N, Driven s g w zmin (n * s.dt) (S1 n) (D1 n) ∧ S1 (n + 1) = oneStep s (D1 n)) (h2 : ∀ n < N, Driven s g w zmin (n * s.dt) (S2 n) (D2 n) ∧ S2 (n + 1) = oneStep s (D2 n)) :
    ∀ n ≤ N, SameCells s (S1 n) (S2 n) ∧ ((S1 n).step0 = (S2 n).step0 ∨ ∀ q < s.n3, (S1 n).E q = 0 ∧ (S1 n).H q = 0) := by
  intro n
  induction n with
  | zero => intro _; exact ⟨h, h0⟩
  | succ n ih =>
    intro hn
    obtain ⟨i1, i2⟩ := ih (by omega)
    obtain ⟨d1, e1⟩ := h1 n (by omega)
    obtain ⟨d2, e2⟩ := h2 n (by omega)
    rw [e1, e2]
    refine ⟨oneStep_same s (driven_same hf d1 d2 i1) ?_, .inl ?_⟩
    · rw [d1.step0, d2.step0, d1.E, d1.H]; exact i2
    · rw [oneStep_step0, oneStep_step0]

/-- **C108 (both planes, same cells).** As `C108_same_start`, for runs of both planes with the recorded block inside the grid. -/
theorem C108_both_same_start {s : Solver ℝ} {g : Grd} {w : WakeArgs} (hf : Fitting s g) (hdt : 0 < s.dt) {ixt iyt : ℕ} (hx : IsNearest g.Nx g.x w.xtest ixt) (hy : IsNearest g.Ny g.y w.ytest iyt)
    (b1 : 0 < ixt) (b2 : ixt + 1 < g.Nx) (b3 : 0 < iyt) (b4 : iyt + 1 < g.Ny) {wakelength : ℝ} {mon mon' : Option Monitor} {md md' : ℕ → Dset ℝ} {a b : State ℝ}
    (h : SameCells s a b) (h0 : a.step0 = b.step0 ∨ ∀ q < s.n3, a.E q = 0 ∧ a.H q = 0) {o1 o2 : WakeOut} (h1 : wakesolve s g w wakelength false none mon md a = .ok o1)
    (h2 : wakesolve s g w wakelength false none mon' md' b = .ok o2) (hN : o1.Nt ≤ 100000) : SameRunBoth s g o1 o2 := by
  obtain ⟨o1', S1, D1, zmin, zmax, Ez1, p1, pN, p0, pS, pD, pR, -, pz, -, pE, -⟩ := C65_both_partial s g w hf hdt wakelength none mon md a hx hy b1 b2 b3 b4
  obtain ⟨o2', S2, D2, zmin', zmax', Ez2, q1, qN, q0, qS, qD, qR, -, qz, -, qE, -⟩ := C65_both_partial s g w hf hdt wakelength none mon' md' b hx hy b1 b2 b3 b4
  obtain rfl := Except.ok.inj (p1.symm.trans h1)
  obtain rfl := Except.ok.inj (q1.symm.trans h2)
  obtain rfl : zmin = zmin' := by
    have a := pR.least; have b := qR.least; rw [pz] at a; rw [qz] at b; exact smallest_unique a b
  obtain rfl : zmax = zmax' := by
    have a := pR.greatest; have b := qR.greatest; rw [pz] at a; rw [qz] at b; exact largest_unique a b
  have eN : o1'.Nt = o2'.Nt := pN.trans qN.symm
  have hS := states_same_cells hf (by rw [p0, q0]; exact h) (by rw [p0, q0]; exact h0) pD fun n hn => qD n (eN ▸ hn)
  refine ⟨eN, ?_, fun n hn => ⟨frameName n, Ez1 n, Ez2 n, ?_, ?_, fun a ha b hb k hk => ?_⟩⟩
  · rw [pS, qS, ← eN]; exact (hS _ le_rfl).1
  · rw [pR.file, C49_frames_partial md hN _ hn]
  · rw [qR.file, C49_frames_partial md' (eN ▸ hN) _ (eN ▸ hn)]
  · have f1 := pE n hn a ha b hb k hk
    have f2 := qE n (eN ▸ hn) a ha b hb k hk
    have hz : Names (.str "z") 2 := names_iff.2 (by decide)
    have hx' : ixt - 1 + a < s.Nx := by rw [← hf.Nx]; omega
    have hy' : iyt - 1 + b < s.Ny := by rw [← hf.Ny]; omega
    have hk' : k < s.Nz := by rwa [hf.Nz] at hk
    rw [get_at3 (f := s.fld (S1 n).E) _ hz hx' hy' hk'] at f1
    rw [get_at3 (f := s.fld (S2 n).E) _ hz hx' hy' hk'] at f2
    rw [← Except.ok.inj f1, ← Except.ok.inj f2]
    exact ((hS n hn.le).1 (pos s.Nx s.Ny s.Nz 2 (ixt - 1 + a) (iyt - 1 + b) k) (pos_lt (by decide) hx' hy' hk')).1

/-- **C108 (both planes, after a reset, partial).** If the fields are reset between two wake runs of both planes, the second one repeats the run of a new solver. Missing: `C108_both_refuted`. -/
theorem C108_both_after_reset_partial {s : Solver ℝ} {g : Grd} {w : WakeArgs} (hf : Fitting s g) (hdt : 0 < s.dt) {ixt iyt : ℕ} (hx : IsNearest g.Nx g.x w.xtest ixt) (hy : IsNearest g.Ny g.y w.ytest iyt)
    (b1 : 0 < ixt) (b2 : ixt + 1 < g.Nx) (b3 : 0 < iyt) (b4 : iyt + 1 < g.Ny) {wakelength : ℝ} {mon mon' : Option Monitor} {md md' : ℕ → Dset ℝ} (st : State ℝ)
    {o1 o2 : WakeOut} (h1 : wakesolve s g w wakelength false none mon md initState = .ok o1)
    (h2 : wakesolve s g w wakelength false none mon' md' (resetFields s st) = .ok o2) (hN : o1.Nt ≤ 100000) : SameRunBoth s g o1 o2 :=
  C108_both_same_start hf hdt hx hy b1 b2 b3 b4 (fun q hq => by obtain ⟨e1, e2, e3⟩ := C22_reset s st q hq; exact ⟨e1.symm, e2.symm, e3.symm⟩) (.inr fun _ _ => ⟨rfl, rfl⟩) h1 h2 hN

/-- **C108 (both planes, what happens).** The first block a run of both planes records is the Ez of the fields it starts from. -/
theorem C108_both_first_frame {s : Solver ℝ} {g : Grd} {w : WakeArgs} (hf : Fitting s g) (hdt : 0 < s.dt) {ixt iyt : ℕ} (hx : IsNearest g.Nx g.x w.xtest ixt) (hy : IsNearest g.Ny g.y w.ytest iyt)
    (b1 : 0 < ixt) (b2 : ixt + 1 < g.Nx) (b3 : 0 < iyt) (b4 : iyt + 1 < g.Ny) {wakelength : ℝ} {mon : Option Monitor} {md : ℕ → Dset ℝ} {st : State ℝ} {o : WakeOut}
    (h : wakesolve s g w wakelength false none mon md st = .ok o) (hN : o.Nt ≤ 100000) (hN0 : 0 < o.Nt) :
    ∃ name u, o.recording.file[0]? = some (name, .d3 3 3 g.Nz u) ∧ ∀ a < 3, ∀ b < 3, ∀ k < g.Nz, u a b k = (s.fld st.E).at3 2 (ixt - 1 + a) (iyt - 1 + b) k := by
  obtain ⟨o', S, D, zmin, zmax, Ez, p1, pN, p0, pS, pD, pR, -, pz, -, pE, -⟩ := C65_both_partial s g w hf hdt wakelength none mon md st hx hy b1 b2 b3 b4
  obtain rfl := Except.ok.inj (p1.symm.trans h)
  refine ⟨frameName 0, Ez 0, by rw [pR.file, C49_frames_partial md hN _ hN0], fun a ha b hb k hk => ?_⟩
  have f1 := pE 0 hN0 a ha b hb k hk
  rw [get_at3 (f := s.fld (S 0).E) _ (names_iff.2 (by decide) : Names (.str "z") 2) (show ixt - 1 + a < s.Nx by rw [← hf.Nx]; omega) (show iyt - 1 + b < s.Ny by rw [← hf.Ny]; omega) (by rwa [hf.Nz] at hk), p0] at f1
  exact (Except.ok.inj f1).symm

/-- **C108 (both planes, refuted in general).** On every grid, for every solver with non-zero permittivity and every charged beam whose test line is the source line, the second of two runs of both planes of one step
records something else than the first. -/
theorem C108_both_differs {s : Solver ℝ} {g : Grd} {w : WakeArgs} (hf : Fitting s g) (hdt : 0 < s.dt) (hi : ∀ q, s.ieps q ≠ 0)
    (hq : w.q ≠ 0) (hv : w.v ≠ 0) (hs : w.sigmaz ≠ 0) {ixt iyt : ℕ} (hx : IsNearest g.Nx g.x w.xtest ixt) (hy : IsNearest g.Ny g.y w.ytest iyt)
    (hxs : IsNearest g.Nx g.x w.xsource ixt) (hys : IsNearest g.Ny g.y w.ysource iyt) (b1 : 0 < ixt) (b2 : ixt + 1 < g.Nx) (b3 : 0 < iyt) (b4 : iyt + 1 < g.Ny)
    (hd : g.dx ixt ≠ 0 ∧ g.dy iyt ≠ 0) {wakelength : ℝ} {md : ℕ → Dset ℝ} {o : WakeOut} (h : wakesolve s g w wakelength false none none md initState = .ok o) (h1 : o.Nt = 1) : ¬ RepeatsBoth s g w wakelength := by
  intro H
  obtain ⟨o2, -, -, -, -, -, p2, -⟩ := C65_both_partial s g w hf hdt wakelength none none md o.st hx hy b1 b2 b3 b4
  obtain ⟨eN, -, hs2⟩ := H md o o2 h (by omega) p2
  obtain ⟨oL, hL, n1, n2⟩ := companion hf hdt h
  have hk : 0 < g.Nz := by rw [hf.Nz]; exact hf.posz
  obtain ⟨name, u, u', f1, f2, f3⟩ := hs2 0 (by omega)
  obtain ⟨m1, v1, g1, g2⟩ := C108_both_first_frame hf hdt hx hy b1 b2 b3 b4 h (by omega) (by omega)
  obtain ⟨m2, v2, g3, g4⟩ := C108_both_first_frame hf hdt hx hy b1 b2 b3 b4 p2 (by omega) (by omega)
  have e1 : u = v1 := by
    have := Option.some.inj (f1.symm.trans g1)
    injection (Prod.mk.inj this).2
  have e2 : u' = v2 := by
    have := Option.some.inj (f2.symm.trans g3)
    injection (Prod.mk.inj this).2
  have e := f3 1 (by decide) 1 (by decide) 0 hk
  rw [e1, e2, g2 1 (by decide) 1 (by decide) 0 hk, g4 1 (by decide) 1 (by decide) 0 hk, Nat.sub_add_cancel b1, Nat.sub_add_cancel b3, n2] at e
  exact (beam_kick hf hdt hi hq hv hs hxs hys hd hL (by omega)).1 0 hf.posz e.symm

/-- One layer of three by three cells; a bunch as long as a cell with speed 1 in the centre. -/
theorem one_layer_run (st : State ℝ) : ∃ o, wakesolve oneLayer ⟨3, 3, 1, fun i => i, fun i => i, fun i => i, fun _ => 1, fun _ => 1, fun _ => 1, 1, none⟩ ⟨1, 1, 1 / cLight, 1, 1, 1, 1, some 0, 0⟩ 1 false none none (fun _ => .d1 0 0) st = .ok o ∧ o.Nt = 1 := by
  have hc : (cLight : ℝ) ≠ 0 := by unfold cLight; norm_num
  have hv : (WakeArgs.mk 1 1 (1 / cLight) 1 1 1 1 (some 0) 0).v = 1 := div_mul_cancel₀ _ hc
  have n1 : IsNearest 3 (fun i : ℕ => (i : ℝ)) 1 1 := ⟨by decide, fun k _ => by simp, fun k hk => by
    obtain rfl : k = 0 := by omega
    norm_num⟩
  obtain ⟨o, S, D, zmin, zmax, Ez, p1, pN, -, -, -, pR, -, pz, -⟩ := C65_both_partial oneLayer ⟨3, 3, 1, fun i => i, fun i => i, fun i => i, fun _ => 1, fun _ => 1, fun _ => 1, 1, none⟩
    ⟨1, 1, 1 / cLight, 1, 1, 1, 1, some 0, 0⟩ ⟨rfl, rfl, rfl, by decide, by decide, by decide, rfl⟩ one_pos 1 none none (fun _ => .d1 0 0) st n1 n1 (by decide) (by decide) (by decide) (by decide)
  refine ⟨o, p1, ?_⟩
  have l := pR.least
  have m := pR.greatest
  rw [pz] at l m
  obtain ⟨i, hi, rfl⟩ := l.1
  obtain ⟨j, hj, rfl⟩ := m.1
  obtain rfl : i = 0 := by have : i < 1 := hi; omega
  obtain rfl : j = 0 := by have : j < 1 := hj; omega
  rw [pN, hv]
  show (stepsFor 1 0 1 ((0 : ℕ) : ℝ) ((0 : ℕ) : ℝ) 1).toNat = 1
  unfold stepsFor pyInt
  norm_num

/-- **C108 (both planes, refuted).** There is a solver built by the constructor for which a second run of both planes does not repeat the first. -/
theorem C108_both_refuted : ∃ (s : Solver ℝ) (g : Grd) (w : WakeArgs) (wakelength : ℝ), Fitting s g ∧ 0 < s.dt ∧ ¬ RepeatsBoth s g w wakelength := by
  obtain ⟨o, p1, hN1⟩ := one_layer_run initState
  have hc : (cLight : ℝ) ≠ 0 := by unfold cLight; norm_num
  have hv : (WakeArgs.mk 1 1 (1 / cLight) 1 1 1 1 (some 0) 0).v = 1 := div_mul_cancel₀ _ hc
  have n1 : IsNearest 3 (fun i : ℕ => (i : ℝ)) 1 1 := ⟨by decide, fun k _ => by simp, fun k hk => by
    obtain rfl : k = 0 := by omega
    norm_num⟩
  have hf : Fitting oneLayer ⟨3, 3, 1, fun i => i, fun i => i, fun i => i, fun _ => 1, fun _ => 1, fun _ => 1, 1, none⟩ := ⟨rfl, rfl, rfl, by decide, by decide, by decide, rfl⟩
  exact ⟨oneLayer, _, _, 1, hf, one_pos, C108_both_differs hf one_pos (fun _ => one_ne_zero) one_ne_zero (by rw [hv]; exact one_ne_zero) one_ne_zero n1 n1 n1 n1 (by decide) (by decide) (by decide) (by decide)
    ⟨one_ne_zero, one_ne_zero⟩ p1 hN1⟩

/-- Runs as in `C108_both_after_reset_partial` exist. -/
example : ∃ o1 o2, wakesolve oneLayer ⟨3, 3, 1, fun i => i, fun i => i, fun i => i, fun _ => 1, fun _ => 1, fun _ => 1, 1, none⟩ ⟨1, 1, 1 / cLight, 1, 1, 1, 1, some 0, 0⟩ 1 false none none (fun _ => .d1 0 0) initState = .ok o1 ∧
    o1.Nt ≤ 100000 ∧ wakesolve oneLayer ⟨3, 3, 1, fun i => i, fun i => i, fun i => i, fun _ => 1, fun _ => 1, fun _ => 1, 1, none⟩ ⟨1, 1, 1 / cLight, 1, 1, 1, 1, some 0, 0⟩ 1 false none none (fun _ => .d1 0 0) (resetFields oneLayer o1.st) = .ok o2 := by
  obtain ⟨o1, p1, n1⟩ := one_layer_run initState
  obtain ⟨o2, p2, n2⟩ := one_layer_run (resetFields oneLayer o1.st)
  exact ⟨o1, o2, p1, by omega, p2⟩

end
end Wake
end Wakis
