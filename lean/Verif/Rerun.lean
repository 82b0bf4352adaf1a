import Verif.WakeEm
import Verif.Stability

/-!
# C108: a second wake run with the same solver

`wakesolve` (`wakis/routines.py:325-437`) starts from the fields the solver holds.
-/

namespace Wakis
namespace Wake
open Src Sol Sparse Fld
noncomputable section

/-! ### Specification -/

/-- The two states hold the same fields in every cell. -/
def SameCells (s : Solver ℝ) (a b : State ℝ) : Prop := ∀ q < s.n3, a.E q = b.E q ∧ a.H q = b.H q ∧ a.J q = b.J q

/-- The sample of Ez of cell `k` in frame `n` of a longitudinal recording. -/
def sample (r : Rec ℝ) (n k : ℕ) : Option ℝ :=
  match r.file[n]? with
  | some (_, .d1 m v) => if k < m then some (v k) else none
  | _ => none

/-- The two runs recorded the same samples and end with the same fields. -/
def SameRun (s : Solver ℝ) (g : Grd) (o1 o2 : WakeOut) : Prop :=
  o1.Nt = o2.Nt ∧ SameCells s o1.st o2.st ∧ ∀ n < o1.Nt, ∀ k < g.Nz, sample o1.recording n k = sample o2.recording n k

/-! ### Steps depend on the cells only -/

theorem advance_same (s : Solver ℝ) {a b : State ℝ} (h : SameCells s a b) : SameCells s (advance s a) (advance s b) := by
  have hH : ∀ q < s.n3, (advance s a).H q = (advance s b).H q := by
    intro q hq
    show a.H q - s.dt * mulVec s.n3 s.M1 a.E q = b.H q - s.dt * mulVec s.n3 s.M1 b.E q
    rw [(h q hq).2.1, mulVec_congr (fun j _ => rfl) fun j hj => (h j hj).1]
  have hE : ∀ q < s.n3, (advance s a).E q = (advance s b).E q := by
    intro q hq
    show a.E q + s.dt * (mulVec s.n3 s.M2 (advance s a).H q - s.ieps q * a.J q) = b.E q + s.dt * (mulVec s.n3 s.M2 (advance s b).H q - s.ieps q * b.J q)
    rw [(h q hq).1, (h q hq).2.2, mulVec_congr (fun j _ => rfl) fun j hj => hH j hj]
  intro q hq
  refine ⟨hE q hq, hH q hq, ?_⟩
  show (if s.useConductivity then fun i => s.sigma i * (advance s a).E i else a.J) q = (if s.useConductivity then fun i => s.sigma i * (advance s b).E i else b.J) q
  split_ifs
  · simp only [hE q hq]
  · exact (h q hq).2.2

theorem oneStep_same (s : Solver ℝ) {a b : State ℝ} (h : SameCells s a b) (h0 : a.step0 = b.step0 ∨ ∀ q < s.n3, a.E q = 0 ∧ a.H q = 0) : SameCells s (oneStep s a) (oneStep s b) := by
  obtain ⟨ZH, hZH⟩ := ghostH_mask (K := ℝ) s.Nx s.Ny s.Nz
  obtain ⟨ZE, hZE⟩ := ghostE_mask (K := ℝ) s.Nx s.Ny s.Nz
  have key : ∀ x : State ℝ, oneStep s x = advance s (if x.step0 then { setGhostsTo0 s x with step0 := false } else x) := by
    intro x; unfold oneStep; split_ifs <;> rfl
  rw [key a, key b]
  apply advance_same
  intro q hq
  obtain ⟨e1, e2, e3⟩ := h q hq
  rcases h0 with h0 | h0
  · rw [h0]
    split_ifs
    · simp only [setGhostsTo0, Solver.fld, hZH, hZE, e1, e2, e3, and_self]
    · exact ⟨e1, e2, e3⟩
  · obtain ⟨z1, z2⟩ := h0 q hq
    have z1' := e1 ▸ z1
    have z2' := e2 ▸ z2
    have f : ∀ x : State ℝ, x.E q = 0 → x.H q = 0 → (if x.step0 then { setGhostsTo0 s x with step0 := false } else x).E q = 0 ∧ (if x.step0 then { setGhostsTo0 s x with step0 := false } else x).H q = 0 ∧
        (if x.step0 then { setGhostsTo0 s x with step0 := false } else x).J q = x.J q := by
      intro x hx1 hx2
      split_ifs
      · simp only [setGhostsTo0, Solver.fld, hZH, hZE, hx1, hx2, ite_self, and_self]
      · exact ⟨hx1, hx2, rfl⟩
    obtain ⟨a1, a2, a3⟩ := f a z1 z2
    obtain ⟨b1, b2, b3⟩ := f b z1' z2'
    exact ⟨a1.trans b1.symm, a2.trans b2.symm, a3.trans (e3.trans b3.symm)⟩

theorem oneStep_step0 (s : Solver ℝ) (a : State ℝ) : (oneStep s a).step0 = false := by
  unfold oneStep
  split_ifs with h
  · rfl
  · show a.step0 = false; simpa using h

/-! ### The beam overwrites the same cells -/

/-- The names of the components. -/
theorem names_of (c : ℕ) (hc : c < 3) : ∃ key, Names key c := by
  rcases (by omega : c = 0 ∨ c = 1 ∨ c = 2) with e | e | e <;> subst e
  · exact ⟨.str "x", names_iff.2 (by decide)⟩
  · exact ⟨.str "y", names_iff.2 (by decide)⟩
  · exact ⟨.str "z", names_iff.2 (by decide)⟩

/-- Two states driven at the same time by the same beam have the same current wherever the undriven ones do; in the beam's column always. -/
theorem driven_J {s : Solver ℝ} {g : Grd} {w : WakeArgs} (hf : Fitting s g) {zmin t : ℝ} {a b a' b' : State ℝ} (ha : Driven s g w zmin t a a') (hb : Driven s g w zmin t b b')
    {c i j k : ℕ} (hc : c < 3) (hi : i < s.Nx) (hj : j < s.Ny) (hk : k < s.Nz)
    (h : ¬ (c = 2 ∧ IsNearest g.Nx g.x w.xsource i ∧ IsNearest g.Ny g.y w.ysource j) → (s.fld a.J).at3 c i j k = (s.fld b.J).at3 c i j k) :
    (s.fld a'.J).at3 c i j k = (s.fld b'.J).at3 c i j k := by
  obtain ⟨b1, hb1, ia, la, hia, hla, sa, va⟩ := ha.J
  obtain ⟨b2, hb2, ib, lb, hib, hlb, sb, vb⟩ := hb.J
  obtain rfl := Except.ok.inj (hb1.symm.trans hb2)
  obtain rfl := nearest_unique hia hib
  obtain rfl := nearest_unique hla hlb
  obtain ⟨key, hkey⟩ := names_of c hc
  by_cases hcol : c = 2 ∧ IsNearest g.Nx g.x w.xsource i ∧ IsNearest g.Ny g.y w.ysource j
  · obtain ⟨rfl, n1, n2⟩ := hcol
    obtain rfl := nearest_unique hia n1
    obtain rfl := nearest_unique hla n2
    have hz : Names (.str "z") 2 := names_iff.2 (by decide)
    have e1 := va k (by rw [hf.Nz]; exact hk)
    have e2 := vb k (by rw [hf.Nz]; exact hk)
    rw [get_at3 (f := s.fld a'.J) _ hz hi hj hk] at e1
    rw [get_at3 (f := s.fld b'.J) _ hz hi hj hk] at e2
    exact (Except.ok.inj e1).trans (Except.ok.inj e2).symm
  · have e1 := sa.2.2.2 key c i j k hkey hi hj hk hcol
    have e2 := sb.2.2.2 key c i j k hkey hi hj hk hcol
    rw [get_at3 (f := s.fld a'.J) _ hkey hi hj hk, get_at3 (f := s.fld a.J) _ hkey hi hj hk] at e1
    rw [get_at3 (f := s.fld b'.J) _ hkey hi hj hk, get_at3 (f := s.fld b.J) _ hkey hi hj hk] at e2
    exact (Except.ok.inj e1).trans ((h hcol).trans (Except.ok.inj e2).symm)

theorem driven_same {s : Solver ℝ} {g : Grd} {w : WakeArgs} (hf : Fitting s g) {zmin t : ℝ} {a b a' b' : State ℝ} (ha : Driven s g w zmin t a a') (hb : Driven s g w zmin t b b')
    (h : SameCells s a b) : SameCells s a' b' := by
  intro q hq
  rw [ha.E, ha.H, hb.E, hb.H]
  refine ⟨(h q hq).1, (h q hq).2.1, ?_⟩
  obtain ⟨c, i, j, k, hc, hi, hj, hk, rfl⟩ := pos_surj hq
  exact driven_J hf ha hb hc hi hj hk fun _ => (h _ hq).2.2

/-! ### C108 -/

/-- **C108 (same cells).** Two wake runs of the same solver and beam, without callback, from fields that agree in every cell, record the same samples and end with the same fields
(at most 100000 steps, see C49); also if only one of the solvers has made steps before, provided E and H are zero. -/
theorem C108_same_start {s : Solver ℝ} {g : Grd} {w : WakeArgs} (hf : Fitting s g) (hdt : 0 < s.dt) {wakelength : ℝ} {mon mon' : Option Monitor} {md md' : ℕ → Dset ℝ} {a b : State ℝ}
    (h : SameCells s a b) (h0 : a.step0 = b.step0 ∨ ∀ q < s.n3, a.E q = 0 ∧ a.H q = 0) {o1 o2 : WakeOut} (h1 : wakesolve s g w wakelength true none mon md a = .ok o1)
    (h2 : wakesolve s g w wakelength true none mon' md' b = .ok o2) (hN : o1.Nt ≤ 100000) : SameRun s g o1 o2 := by
  obtain ⟨o1', S1, D1, zmin, zmax, ixt, iyt, Ez1, p1, px, py, pN, p0, pS, pD, pR, -, pz, -, pE, -⟩ := C65_records s g w hf hdt wakelength none mon md a
  obtain ⟨o2', S2, D2, zmin', zmax', ixt', iyt', Ez2, q1, qx, qy, qN, q0, qS, qD, qR, -, qz, -, qE, -⟩ := C65_records s g w hf hdt wakelength none mon' md' b
  obtain rfl := Except.ok.inj (p1.symm.trans h1)
  obtain rfl := Except.ok.inj (q1.symm.trans h2)
  obtain rfl := nearest_unique px qx
  obtain rfl := nearest_unique py qy
  obtain rfl : zmin = zmin' := by
    have a := pR.least; have b := qR.least; rw [pz] at a; rw [qz] at b; exact smallest_unique a b
  obtain rfl : zmax = zmax' := by
    have a := pR.greatest; have b := qR.greatest; rw [pz] at a; rw [qz] at b
    obtain ⟨i, hi, rfl⟩ := a.1
    obtain ⟨l, hl, rfl⟩ := b.1
    exact le_antisymm (b.2 i hi) (a.2 l hl)
  have eN : o1'.Nt = o2'.Nt := pN.trans qN.symm
  have hS : ∀ n ≤ o1'.Nt, SameCells s (S1 n) (S2 n) ∧ ((S1 n).step0 = (S2 n).step0 ∨ ∀ q < s.n3, (S1 n).E q = 0 ∧ (S1 n).H q = 0) := by
    intro n
    induction n with
    | zero => intro _; rw [p0, q0]; exact ⟨h, h0⟩
    | succ n ih =>
      intro hn
      obtain ⟨i1, i2⟩ := ih (by omega)
      obtain ⟨d1, e1⟩ := pD n (by omega)
      obtain ⟨d2, e2⟩ := qD n (by omega)
      have e1' : S1 (n + 1) = oneStep s (D1 n) := e1
      have e2' : S2 (n + 1) = oneStep s (D2 n) := e2
      rw [e1', e2']
      refine ⟨oneStep_same s (driven_same hf d1 d2 i1) ?_, .inl ?_⟩
      · rw [d1.step0, d2.step0, d1.E, d1.H]; exact i2
      · rw [oneStep_step0, oneStep_step0]
  refine ⟨eN, ?_, fun n hn k hk => ?_⟩
  · rw [pS, qS, ← eN]; exact (hS _ le_rfl).1
  · have f1 := pE n hn k hk
    have f2 := qE n (eN ▸ hn) k hk
    have hz : Names (.str "z") 2 := names_iff.2 (by decide)
    have hx' : ixt < s.Nx := by have := px.1; rwa [hf.Nx] at this
    have hy' : iyt < s.Ny := by have := py.1; rwa [hf.Ny] at this
    have hk' : k < s.Nz := by rwa [hf.Nz] at hk
    rw [get_at3 (f := s.fld (S1 n).E) _ hz hx' hy' hk'] at f1
    rw [get_at3 (f := s.fld (S2 n).E) _ hz hx' hy' hk'] at f2
    have e : (s.fld (S1 n).E).at3 2 ixt iyt k = (s.fld (S2 n).E).at3 2 ixt iyt k := ((hS n hn.le).1 (pos s.Nx s.Ny s.Nz 2 ixt iyt k) (pos_lt (by decide) hx' hy' hk')).1
    unfold sample
    rw [pR.file, qR.file, C49_frames_partial md hN _ hn, C49_frames_partial md' (eN ▸ hN) _ (eN ▸ hn)]
    simp only [hk, if_true]
    rw [← Except.ok.inj f1, ← Except.ok.inj f2, e]

/-- **C108 (partial: after a reset).** If the fields are reset between two wake runs (`reset_fields`), the second one repeats the run of a new solver exactly, whatever happened before:
same samples, same final fields.  Missing: `C108_refuted`, the second run without the reset. -/
theorem C108_after_reset_partial {s : Solver ℝ} {g : Grd} {w : WakeArgs} (hf : Fitting s g) (hdt : 0 < s.dt) {wakelength : ℝ} {mon mon' : Option Monitor} {md md' : ℕ → Dset ℝ} (st : State ℝ)
    {o1 o2 : WakeOut} (h1 : wakesolve s g w wakelength true none mon md initState = .ok o1)
    (h2 : wakesolve s g w wakelength true none mon' md' (resetFields s st) = .ok o2) (hN : o1.Nt ≤ 100000) : SameRun s g o1 o2 :=
  C108_same_start hf hdt (fun q hq => by obtain ⟨e1, e2, e3⟩ := C22_reset s st q hq; exact ⟨e1.symm, e2.symm, e3.symm⟩) (.inr fun _ _ => ⟨rfl, rfl⟩) h1 h2 hN

/-- **C108 (what happens).** Without a reset the second run starts from the fields the first one left: its first frame is the Ez of the end of the first run. -/
theorem C108_first_frame {s : Solver ℝ} {g : Grd} {w : WakeArgs} (hf : Fitting s g) (hdt : 0 < s.dt) {wakelength : ℝ} {mon : Option Monitor} {md : ℕ → Dset ℝ} {st : State ℝ} {o : WakeOut}
    (h : wakesolve s g w wakelength true none mon md st = .ok o) (hN : o.Nt ≤ 100000) (hN0 : 0 < o.Nt) {i j : ℕ} (hi : IsNearest g.Nx g.x w.xtest i) (hj : IsNearest g.Ny g.y w.ytest j)
    {k : ℕ} (hk : k < g.Nz) : sample o.recording 0 k = some ((s.fld st.E).at3 2 i j k) := by
  obtain ⟨o', S, D, zmin, zmax, ixt, iyt, Ez, p1, px, py, -, p0, -, -, pR, -, -, -, pE, -⟩ := C65_records s g w hf hdt wakelength none mon md st
  obtain rfl := Except.ok.inj (p1.symm.trans h)
  obtain rfl := nearest_unique px hi
  obtain rfl := nearest_unique py hj
  have f1 := pE 0 hN0 k hk
  have hz : Names (.str "z") 2 := names_iff.2 (by decide)
  rw [get_at3 (f := s.fld (S 0).E) _ hz (by have := px.1; rwa [hf.Nx] at this) (by have := py.1; rwa [hf.Ny] at this) (by rwa [hf.Nz] at hk), p0] at f1
  unfold sample
  rw [pR.file, C49_frames_partial md hN _ hN0]
  simp only [hk, if_true]
  rw [Except.ok.inj f1]

/-! ### What the second run adds: the ringing of the first -/

/-- `c` is the sum of `a` and `b` in every cell. -/
def SumOf (s : Solver ℝ) (a b c : State ℝ) : Prop := ∀ q < s.n3, c.E q = a.E q + b.E q ∧ c.H q = a.H q + b.H q ∧ c.J q = a.J q + b.J q

theorem advance_sum (s : Solver ℝ) {a b c : State ℝ} (h : SumOf s a b c) : SumOf s (advance s a) (advance s b) (advance s c) := by
  have hH : ∀ q < s.n3, (advance s c).H q = (advance s a).H q + (advance s b).H q := by
    intro q hq
    show c.H q - s.dt * mulVec s.n3 s.M1 c.E q = (a.H q - s.dt * mulVec s.n3 s.M1 a.E q) + (b.H q - s.dt * mulVec s.n3 s.M1 b.E q)
    rw [(h q hq).2.1, mulVec_congr (M' := s.M1) (v' := fun j => a.E j + b.E j) (fun j _ => rfl) fun j hj => (h j hj).1, mulVec_add]
    ring
  have hE : ∀ q < s.n3, (advance s c).E q = (advance s a).E q + (advance s b).E q := by
    intro q hq
    show c.E q + s.dt * (mulVec s.n3 s.M2 (advance s c).H q - s.ieps q * c.J q) =
      (a.E q + s.dt * (mulVec s.n3 s.M2 (advance s a).H q - s.ieps q * a.J q)) + (b.E q + s.dt * (mulVec s.n3 s.M2 (advance s b).H q - s.ieps q * b.J q))
    rw [(h q hq).1, (h q hq).2.2, mulVec_congr (M' := s.M2) (v' := fun j => (advance s a).H j + (advance s b).H j) (fun j _ => rfl) fun j hj => hH j hj, mulVec_add]
    ring
  intro q hq
  refine ⟨hE q hq, hH q hq, ?_⟩
  show (if s.useConductivity then fun i => s.sigma i * (advance s c).E i else c.J) q =
    (if s.useConductivity then fun i => s.sigma i * (advance s a).E i else a.J) q + (if s.useConductivity then fun i => s.sigma i * (advance s b).E i else b.J) q
  split_ifs
  · simp only [hE q hq]; ring
  · exact (h q hq).2.2

theorem oneStep_sum (s : Solver ℝ) {a b c : State ℝ} (h : SumOf s a b c) (ha : a.step0 = false ∨ ∀ q < s.n3, a.E q = 0 ∧ a.H q = 0) (hb : b.step0 = false) (hc : c.step0 = false) :
    SumOf s (oneStep s a) (oneStep s b) (oneStep s c) := by
  have eb : oneStep s b = advance s b := by unfold oneStep; rw [hb]; rfl
  have ec : oneStep s c = advance s c := by unfold oneStep; rw [hc]; rfl
  have ea : SameCells s (oneStep s a) (oneStep s { a with step0 := false }) := by
    refine oneStep_same s (fun _ _ => ⟨rfl, rfl, rfl⟩) ?_
    rcases ha with ha | ha
    · exact .inl ha
    · exact .inr ha
  have ea' : oneStep s { a with step0 := false } = advance s { a with step0 := false } := by unfold oneStep; rfl
  rw [eb, ec]
  rw [ea'] at ea
  have k := advance_sum s (a := { a with step0 := false }) h
  intro q hq
  obtain ⟨e1, e2, e3⟩ := ea q hq
  rw [e1, e2, e3]
  exact k q hq

theorem oneStep_J {s : Solver ℝ} (hcond : s.useConductivity = false) (a : State ℝ) : (oneStep s a).J = a.J := by
  have key : ∀ x : State ℝ, (advance s x).J = x.J := fun x => by
    show (if s.useConductivity = true then _ else x.J) = x.J
    rw [hcond]
    rfl
  unfold oneStep
  split
  · exact key _
  · exact key _

/-- Where the beam does not pass, the current of a run without conductivity stays zero. -/
theorem quiet_J {s : Solver ℝ} {g : Grd} {w : WakeArgs} {zmin : ℝ} (hcond : s.useConductivity = false) {N : ℕ} {S D : ℕ → State ℝ}
    (hD : ∀ n < N, Driven s g w zmin (n * s.dt) (S n) (D n) ∧ S (n + 1) = oneStep s (D n)) {c i j k : ℕ} (hc : c < 3) (hi : i < s.Nx) (hj : j < s.Ny) (hk : k < s.Nz)
    (hout : ¬ (c = 2 ∧ IsNearest g.Nx g.x w.xsource i ∧ IsNearest g.Ny g.y w.ysource j)) (h0 : (s.fld (S 0).J).at3 c i j k = 0) : ∀ n ≤ N, (s.fld (S n).J).at3 c i j k = 0 := by
  intro n
  induction n with
  | zero => intro _; exact h0
  | succ n ih =>
    intro hn
    obtain ⟨d, e⟩ := hD n (by omega)
    obtain ⟨-, -, -, -, -, -, sb, -⟩ := d.J
    obtain ⟨key, hkey⟩ := names_of c hc
    have e1 := sb.2.2.2 key c i j k hkey hi hj hk hout
    rw [get_at3 (f := s.fld (D n).J) _ hkey hi hj hk, get_at3 (f := s.fld (S n).J) _ hkey hi hj hk, ih (by omega)] at e1
    have hJ : (oneStep s (D n)).J = (D n).J := oneStep_J hcond _
    rw [e, hJ]
    exact Except.ok.inj e1

/-- **C108 (what the second run records).** Without conductivity, the second of two wake runs records at every step and cell the sample of the first run plus the Ez of the fields the first
run left, freely ringing on without beam. -/
theorem C108_ringing {s : Solver ℝ} {g : Grd} {w : WakeArgs} (hf : Fitting s g) (hdt : 0 < s.dt) (hcond : s.useConductivity = false) {wakelength : ℝ} {md : ℕ → Dset ℝ} {o1 o2 : WakeOut}
    (h1 : wakesolve s g w wakelength true none none md initState = .ok o1) (h2 : wakesolve s g w wakelength true none none md o1.st = .ok o2) (hN : o1.Nt ≤ 100000) (hN0 : 0 < o1.Nt)
    {i j : ℕ} (hi : IsNearest g.Nx g.x w.xtest i) (hj : IsNearest g.Ny g.y w.ytest j) {n k : ℕ} (hn : n < o1.Nt) (hk : k < g.Nz) :
    ∃ e1, sample o1.recording n k = some e1 ∧
      sample o2.recording n k = some (e1 + (s.fld ((oneStep s)^[n] ⟨o1.st.E, o1.st.H, fun _ => 0, false⟩).E).at3 2 i j k) := by
  obtain ⟨o1', S1, D1, zmin, zmax, ixt, iyt, Ez1, p1, px, py, pN, p0, pS, pD, pR, -, pz, -, pE, -⟩ := C65_records s g w hf hdt wakelength none none md initState
  obtain rfl := Except.ok.inj (p1.symm.trans h1)
  obtain ⟨o2', S2, D2, zmin', zmax', ixt', iyt', Ez2, q1, qx, qy, qN, q0, qS, qD, qR, -, qz, -, qE, -⟩ := C65_records s g w hf hdt wakelength none none md o1'.st
  obtain rfl := Except.ok.inj (q1.symm.trans h2)
  obtain rfl := nearest_unique px qx
  obtain rfl := nearest_unique py qy
  obtain rfl := nearest_unique px hi
  obtain rfl := nearest_unique py hj
  obtain rfl : zmin = zmin' := by
    have a := pR.least; have b := qR.least; rw [pz] at a; rw [qz] at b; exact smallest_unique a b
  obtain rfl : zmax = zmax' := by
    have a := pR.greatest; have b := qR.greatest; rw [pz] at a; rw [qz] at b
    obtain ⟨i, hi, rfl⟩ := a.1
    obtain ⟨l, hl, rfl⟩ := b.1
    exact le_antisymm (b.2 i hi) (a.2 l hl)
  have eN : o1'.Nt = o2'.Nt := pN.trans qN.symm
  have pD' : ∀ n < o1'.Nt, Driven s g w zmin (n * s.dt) (S1 n) (D1 n) ∧ S1 (n + 1) = oneStep s (D1 n) := pD
  have qD' : ∀ n < o2'.Nt, Driven s g w zmin (n * s.dt) (S2 n) (D2 n) ∧ S2 (n + 1) = oneStep s (D2 n) := qD
  have hlast : o1'.st.step0 = false := by
    obtain ⟨m, hm⟩ : ∃ m, o1'.Nt = m + 1 := ⟨o1'.Nt - 1, by omega⟩
    rw [pS, hm, (pD' m (by omega)).2, oneStep_step0]
  have z1 : ∀ {c x y z : ℕ}, c < 3 → x < s.Nx → y < s.Ny → z < s.Nz → ¬ (c = 2 ∧ IsNearest g.Nx g.x w.xsource x ∧ IsNearest g.Ny g.y w.ysource y) →
      ∀ n ≤ o1'.Nt, (s.fld (S1 n).J).at3 c x y z = 0 := fun hc hx hy hz ho => quiet_J hcond pD' hc hx hy hz ho (by rw [p0]; rfl)
  have z2 : ∀ {c x y z : ℕ}, c < 3 → x < s.Nx → y < s.Ny → z < s.Nz → ¬ (c = 2 ∧ IsNearest g.Nx g.x w.xsource x ∧ IsNearest g.Ny g.y w.ysource y) →
      ∀ n ≤ o2'.Nt, (s.fld (S2 n).J).at3 c x y z = 0 := fun hc hx hy hz ho =>
    quiet_J hcond qD' hc hx hy hz ho (by rw [q0, pS]; exact z1 hc hx hy hz ho _ le_rfl)
  let R : ℕ → State ℝ := fun n => (oneStep s)^[n] ⟨o1'.st.E, o1'.st.H, fun _ => 0, false⟩
  have hR : ∀ n, (R n).step0 = false ∧ (R n).J = fun _ => 0 := by
    intro n
    induction n with
    | zero => exact ⟨rfl, rfl⟩
    | succ n ih =>
      have e : R (n + 1) = oneStep s (R n) := Function.iterate_succ_apply' ..
      rw [e]
      refine ⟨oneStep_step0 s _, ?_⟩
      have hJ : (oneStep s (R n)).J = (R n).J := oneStep_J hcond _
      rw [hJ, ih.2]
  have main : ∀ n ≤ o1'.Nt, (S2 n).step0 = false ∧ ((S1 n).step0 = false ∨ ∀ q < s.n3, (S1 n).E q = 0 ∧ (S1 n).H q = 0) ∧
      ∀ q < s.n3, (S2 n).E q = (S1 n).E q + (R n).E q ∧ (S2 n).H q = (S1 n).H q + (R n).H q := by
    intro n
    induction n with
    | zero =>
      intro _
      rw [p0, q0]
      refine ⟨hlast, .inr fun _ _ => ⟨rfl, rfl⟩, fun q _ => ⟨?_, ?_⟩⟩
      · show o1'.st.E q = 0 + o1'.st.E q; rw [zero_add]
      · show o1'.st.H q = 0 + o1'.st.H q; rw [zero_add]
    | succ n ih =>
      intro hn
      obtain ⟨i0, i1, i2⟩ := ih (by omega)
      obtain ⟨d1, e1⟩ := pD' n (by omega)
      obtain ⟨d2, e2⟩ := qD' n (by omega)
      have e3 : R (n + 1) = oneStep s (R n) := Function.iterate_succ_apply' ..
      have hs : SumOf s (D1 n) (R n) (D2 n) := by
        intro q hq
        rw [d1.E, d1.H, d2.E, d2.H]
        refine ⟨(i2 q hq).1, (i2 q hq).2, ?_⟩
        rw [(hR n).2, add_zero]
        obtain ⟨c, x, y, z, hc, hx, hy, hz, rfl⟩ := pos_surj hq
        exact driven_J hf d2 d1 hc hx hy hz fun ho => (z2 hc hx hy hz ho n (by omega)).trans (z1 hc hx hy hz ho n (by omega)).symm
      have k := oneStep_sum s hs (by rw [d1.step0, d1.E, d1.H]; exact i1) (hR n).1 (by rw [d2.step0]; exact i0)
      rw [e1, e2, e3]
      exact ⟨oneStep_step0 s _, .inl (oneStep_step0 s _), fun q hq => ⟨(k q hq).1, (k q hq).2.1⟩⟩
  have f1 := pE n hn k hk
  have f2 := qE n (eN ▸ hn) k hk
  have hz : Names (.str "z") 2 := names_iff.2 (by decide)
  have hx' : ixt < s.Nx := by have := px.1; rwa [hf.Nx] at this
  have hy' : iyt < s.Ny := by have := py.1; rwa [hf.Ny] at this
  have hk' : k < s.Nz := by rwa [hf.Nz] at hk
  rw [get_at3 (f := s.fld (S1 n).E) _ hz hx' hy' hk'] at f1
  rw [get_at3 (f := s.fld (S2 n).E) _ hz hx' hy' hk'] at f2
  have e : (s.fld (S2 n).E).at3 2 ixt iyt k = (s.fld (S1 n).E).at3 2 ixt iyt k + (s.fld (R n).E).at3 2 ixt iyt k :=
    ((main n hn.le).2.2 (pos s.Nx s.Ny s.Nz 2 ixt iyt k) (pos_lt (by decide) hx' hy' hk')).1
  refine ⟨Ez1 n k, ?_, ?_⟩
  · unfold sample
    rw [pR.file, C49_frames_partial md hN _ hn]
    simp only [hk, if_true]
  · unfold sample
    rw [qR.file, C49_frames_partial md (eN ▸ hN) _ (eN ▸ hn)]
    simp only [hk, if_true]
    rw [← Except.ok.inj f2, e, Except.ok.inj f1]

/-- The claim: a second wake run with the same solver repeats the first. -/
def Repeats (s : Solver ℝ) (g : Grd) (w : WakeArgs) (wakelength : ℝ) : Prop :=
  ∀ (md : ℕ → Dset ℝ) (o1 o2 : WakeOut), wakesolve s g w wakelength true none none md initState = .ok o1 → o1.Nt ≤ 100000 → wakesolve s g w wakelength true none none md o1.st = .ok o2 → SameRun s g o1 o2

/-- **C108 (refuted, in general).** On every grid, for every solver with non-zero permittivity and every charged beam whose test line is the source line, the second of two wake runs of one step
records something else than the first. -/
theorem C108_differs {s : Solver ℝ} {g : Grd} {w : WakeArgs} (hf : Fitting s g) (hdt : 0 < s.dt) (hi : ∀ q, s.ieps q ≠ 0)
    (hq : w.q ≠ 0) (hv : w.v ≠ 0) (hs : w.sigmaz ≠ 0) (hx : w.xtest = w.xsource) (hy : w.ytest = w.ysource) (hd : ∀ i, g.dx i ≠ 0 ∧ g.dy i ≠ 0)
    {wakelength : ℝ} {md : ℕ → Dset ℝ} {o : WakeOut} (h : wakesolve s g w wakelength true none none md initState = .ok o) (h1 : o.Nt = 1) : ¬ Repeats s g w wakelength := by
  intro H
  obtain ⟨i, -, ni⟩ := C44_nearest (by rw [hf.Nx]; exact hf.posx : 0 < g.Nx) g.x w.xsource
  obtain ⟨j, -, nj⟩ := C44_nearest (by rw [hf.Ny]; exact hf.posy : 0 < g.Ny) g.y w.ysource
  obtain ⟨o2, -, -, -, -, -, -, -, p2, -⟩ := C65_records s g w hf hdt wakelength none none md o.st
  obtain ⟨eN, -, hs2⟩ := H md o o2 h (by omega) p2
  have hk : 0 < g.Nz := by rw [hf.Nz]; exact hf.posz
  have e := hs2 0 (by omega) 0 hk
  rw [C108_first_frame hf hdt h (by omega) (by omega) (by rw [hx]; exact ni) (by rw [hy]; exact nj) hk,
    C108_first_frame hf hdt p2 (by omega) (by omega) (by rw [hx]; exact ni) (by rw [hy]; exact nj) hk] at e
  exact (beam_kick hf hdt hi hq hv hs ni nj ⟨(hd i).1, (hd j).2⟩ h h1).1 0 hf.posz (Option.some.inj e).symm

/-- A vacuum box with open faces, built by the constructor. -/
def openBox : Solver ℝ := build (Grid.computeGrid 2 2 2 (fun i => i) (fun i => i) fun i => i) (openLow lowAbc) (fun _ => 1) (fun _ => 1) (fun _ => 0) (1 / 2) false

theorem openBox_fits : Fitting openBox absorbingGrd := ⟨rfl, rfl, rfl, two_pos, two_pos, two_pos, rfl⟩

/-- **C108 (refuted).** There is a solver built by the constructor for which a second wake run does not repeat the first. -/
theorem C108_refuted : ∃ (s : Solver ℝ) (g : Grd) (w : WakeArgs) (wakelength : ℝ), Fitting s g ∧ 0 < s.dt ∧ ¬ Repeats s g w wakelength := by
  obtain ⟨o, p1, hN1⟩ := one_step_run openBox openBox_fits rfl initState
  have hdt : (0 : ℝ) < openBox.dt := by show (0 : ℝ) < 1 / 2; norm_num
  exact ⟨openBox, absorbingGrd, unitBeam, _, openBox_fits, hdt,
    C108_differs openBox_fits hdt (fun q => one_ne_zero) one_ne_zero unitBeam_v one_ne_zero rfl rfl (fun _ => ⟨one_ne_zero, one_ne_zero⟩) p1 hN1⟩

/-- Runs as in `C108_after_reset_partial` exist. -/
example : ∃ o1 o2, wakesolve openBox absorbingGrd unitBeam (cLight / 2 - 1) true none none (fun _ => .d1 0 0) initState = .ok o1 ∧ o1.Nt ≤ 100000 ∧
    wakesolve openBox absorbingGrd unitBeam (cLight / 2 - 1) true none none (fun _ => .d1 0 0) (resetFields openBox o1.st) = .ok o2 := by
  obtain ⟨o1, p1, n1⟩ := one_step_run openBox openBox_fits rfl initState
  obtain ⟨o2, p2, n2⟩ := one_step_run openBox openBox_fits rfl (resetFields openBox o1.st)
  exact ⟨o1, o2, p1, by omega, p2⟩

end
end Wake
end Wakis
