import Verif.Axes
import Verif.TimeStep
import Verif.MaterialProps

/-!
# C119 (continued): materials and time step; open faces
-/

namespace Wakis
namespace Sol
open Sparse Grid

/-! ### Materials and time step -/

theorem pyMin_same {K : Type _} [LinearOrder K] {l l' : List K} (h : ∀ a, a ∈ l ↔ a ∈ l') : pyMin l = pyMin l' := by
  have ne : ∀ l : List K, l ≠ [] → ∃ m, pyMin l = .ok m := by
    intro l hl
    cases l with
    | nil => exact absurd rfl hl
    | cons a l => exact ⟨_, rfl⟩
  rcases eq_or_ne l [] with h0 | h0
  · have h0' : l' = [] := by
      rw [List.eq_nil_iff_forall_not_mem]
      intro a ha
      rw [← h, h0] at ha
      exact absurd ha (List.not_mem_nil)
    rw [h0, h0']
  · have h0' : l' ≠ [] := by
      obtain ⟨a, ha⟩ := List.exists_mem_of_ne_nil l h0
      exact List.ne_nil_of_mem ((h a).1 ha)
    obtain ⟨m, hm⟩ := ne l h0
    obtain ⟨m', hm'⟩ := ne l' h0'
    rw [hm, hm']
    obtain ⟨a1, a2⟩ := pyMin_spec hm
    obtain ⟨b1, b2⟩ := pyMin_spec hm'
    rw [le_antisymm (a2 m' ((h m').2 b1)) (b2 m ((h m).1 a1))]

theorem cflDt_turn (c cfln : ℝ) (dx dy dz : List ℝ) : cflDt c cfln dy dz dx = cflDt c cfln dx dy dz := by
  unfold cflDt
  have e : ∀ l : List ℝ, pyMin l = .error .valueError ∨ ∃ m, pyMin l = .ok m := fun l => by cases l; exacts [.inl rfl, .inr ⟨_, rfl⟩]
  rcases e dx with h1 | ⟨a, h1⟩ <;> rcases e dy with h2 | ⟨b, h2⟩ <;> rcases e dz with h3 | ⟨d, h3⟩ <;> rw [h1, h2, h3] <;> try rfl
  show Except.ok _ = Except.ok _
  rw [show 1 / b ^ 2 + 1 / d ^ 2 + 1 / a ^ 2 = 1 / a ^ 2 + 1 / b ^ 2 + 1 / d ^ 2 by ring]

theorem cflDt_swap (c cfln : ℝ) (dx dy dz : List ℝ) : cflDt c cfln dy dx dz = cflDt c cfln dx dy dz := by
  unfold cflDt
  have e : ∀ l : List ℝ, pyMin l = .error .valueError ∨ ∃ m, pyMin l = .ok m := fun l => by cases l; exacts [.inl rfl, .inr ⟨_, rfl⟩]
  rcases e dx with h1 | ⟨a, h1⟩ <;> rcases e dy with h2 | ⟨b, h2⟩ <;> rcases e dz with h3 | ⟨d, h3⟩ <;> rw [h1, h2, h3] <;> try rfl
  show Except.ok _ = Except.ok _
  rw [show 1 / b ^ 2 + 1 / a ^ 2 + 1 / d ^ 2 = 1 / a ^ 2 + 1 / b ^ 2 + 1 / d ^ 2 by ring]

theorem limitDt_congr {t t' : Mats ℝ} (hu : t'.useCond = t.useCond) (h1 : ∀ r < 3 * t.ieps.N, ∃ r' < 3 * t'.ieps.N, t'.ieps.array r' = t.ieps.array r ∧ t'.sigma.array r' = t.sigma.array r)
    (h2 : ∀ r < 3 * t'.ieps.N, ∃ r' < 3 * t.ieps.N, t.ieps.array r' = t'.ieps.array r ∧ t.sigma.array r' = t'.sigma.array r) (dt : ℝ) : limitDt t' dt = limitDt t dt := by
  have key : ∀ {t t' : Mats ℝ}, (∀ r < 3 * t.ieps.N, ∃ r' < 3 * t'.ieps.N, t'.ieps.array r' = t.ieps.array r ∧ t'.sigma.array r' = t.sigma.array r) → ∀ a ∈ taus t, a ∈ taus t' := by
    intro t t' h a ha
    unfold taus at ha ⊢
    simp only [List.mem_map, List.mem_filter, List.mem_range, decide_eq_true_eq] at ha ⊢
    obtain ⟨n, ⟨hn, hs, he⟩, rfl⟩ := ha
    obtain ⟨n', hn', e1, e2⟩ := h n hn
    exact ⟨n', ⟨hn', by rw [e2]; exact hs, by rw [e1]; exact he⟩, by rw [e1, e2]⟩
  unfold limitDt
  rw [hu, pyMin_same fun a => ⟨key h2 a, key h1 a⟩]

section
variable {c eps0 mu0 cfln : ℝ} {dt : Option ℝ} {nPml Nx Ny Nz : ℕ} {x y z : ℕ → ℝ} {bc : Faces String} {bg : MatSpec ℝ} {dict : String → Option (MatSpec ℝ)} {solids : List Solid} {mb : Material ℝ}

/-- The cells of a solid with the axes renamed in turn. -/
def turnSolid (s : Solid) : Solid := (s.1, fun j k i => s.2 i j k)

/-- The cells of a solid with the first two axes exchanged. -/
def swapSolid (s : Solid) : Solid := (s.1, fun j i k => s.2 i j k)

theorem lastHit_map {f : Solid → Solid} (P : Solid → Bool) (l : List Solid) : lastHit P (l.map f) = (lastHit (fun s => P (f s)) l).map f := by
  unfold lastHit
  rw [← List.map_reverse, List.find?_map]
  rfl

theorem find_name {f : Solid → Solid} (hf : ∀ s, (f s).1 = s.1) {α : Type} (g : String → α) (o : Option Solid) (d : α) : ((o.map f).map fun s => g s.1).getD d = (o.map fun s => g s.1).getD d := by
  cases o with
  | none => rfl
  | some s => simp only [Option.map_some, Option.getD_some, hf]

theorem setUp_noPml (hp : anyFace isPml bc = false) (Nx Ny Nz : ℕ) (x y z : ℕ → ℝ) (solids : List Solid) {t : Mats ℝ} (h : materials Nx Ny Nz eps0 mu0 false bg dict solids = .ok t) :
    setUp c eps0 mu0 cfln dt nPml Nx Ny Nz x y z bc bg dict solids = (chooseDt c cfln dt (diffs x Nx) (diffs y Ny) (diffs z Nz) t).map fun d => (t, d) := by
  unfold setUp pmlStage
  rw [hp, h]
  show (chooseDt c cfln dt (diffs x Nx) (diffs y Ny) (diffs z Nz) t >>= fun d => pure (t, d)) = _
  cases chooseDt c cfln dt (diffs x Nx) (diffs y Ny) (diffs z Nz) t <;> rfl

/-- The set-up of a model with renamed cells. -/
theorem setUp_renamed (hb : MeansMaterial bg mb) (hk : ∀ s ∈ solids, ∃ spec m, dict s.1 = some spec ∧ MeansMaterial spec m) (hp : anyFace isPml bc = false) {bc' : Faces String} (hp' : anyFace isPml bc' = false)
    {Nx' Ny' Nz' : ℕ} {x' y' z' : ℕ → ℝ} {f : Solid → Solid} (hname : ∀ s, (f s).1 = s.1) (ψ : ℕ → ℕ → ℕ → ℕ × ℕ × ℕ) (hmask : ∀ s i j k, (f s).2 (ψ i j k).1 (ψ i j k).2.1 (ψ i j k).2.2 = s.2 i j k)
    (hr : ∀ i < Nx, ∀ j < Ny, ∀ k < Nz, (ψ i j k).1 < Nx' ∧ (ψ i j k).2.1 < Ny' ∧ (ψ i j k).2.2 < Nz') (hsurj : ∀ i' < Nx', ∀ j' < Ny', ∀ k' < Nz', ∃ i < Nx, ∃ j < Ny, ∃ k < Nz, ψ i j k = (i', j', k'))
    (hcfl : cflDt c cfln (diffs x' Nx') (diffs y' Ny') (diffs z' Nz') = cflDt c cfln (diffs x Nx) (diffs y Ny) (diffs z Nz))
    {t : Mats ℝ} {d : ℝ} (h : setUp c eps0 mu0 cfln dt nPml Nx Ny Nz x y z bc bg dict solids = .ok (t, d)) :
    ∃ t', setUp c eps0 mu0 cfln dt nPml Nx' Ny' Nz' x' y' z' bc' bg dict (solids.map f) = .ok (t', d) ∧ t'.useCond = t.useCond ∧
      ∀ a < 3, ∀ a' < 3, ∀ i < Nx, ∀ j < Ny, ∀ k < Nz, t'.ieps.array (pos Nx' Ny' Nz' a' (ψ i j k).1 (ψ i j k).2.1 (ψ i j k).2.2) = t.ieps.array (pos Nx Ny Nz a i j k) ∧
        t'.imu.array (pos Nx' Ny' Nz' a' (ψ i j k).1 (ψ i j k).2.1 (ψ i j k).2.2) = t.imu.array (pos Nx Ny Nz a i j k) ∧
        t'.sigma.array (pos Nx' Ny' Nz' a' (ψ i j k).1 (ψ i j k).2.1 (ψ i j k).2.2) = t.sigma.array (pos Nx Ny Nz a i j k) := by
  obtain ⟨t1, m1, s1, u1, c1⟩ := materials_ok (Nx := Nx) (Ny := Ny) (Nz := Nz) (eps0 := eps0) (mu0 := mu0) (use0 := false) hb hk
  have hk' : ∀ s ∈ solids.map f, ∃ spec m, dict s.1 = some spec ∧ MeansMaterial spec m := by
    intro s hs
    obtain ⟨s0, h0, rfl⟩ := List.mem_map.1 hs
    rw [hname]
    exact hk s0 h0
  obtain ⟨t2, m2, s2, u2, c2⟩ := materials_ok (Nx := Nx') (Ny := Ny') (Nz := Nz') (eps0 := eps0) (mu0 := mu0) (use0 := false) hb hk'
  rw [setUp_noPml hp _ _ _ _ _ _ _ m1] at h
  have at1 : ∀ (F : Fld ℝ), F.Nx = Nx ∧ F.Ny = Ny ∧ F.Nz = Nz → ∀ a i j k, F.at3 a i j k = F.array (pos Nx Ny Nz a i j k) := by
    rintro F ⟨rfl, rfl, rfl⟩ a i j k
    rfl
  have at2 : ∀ (F : Fld ℝ), F.Nx = Nx' ∧ F.Ny = Ny' ∧ F.Nz = Nz' → ∀ a i j k, F.at3 a i j k = F.array (pos Nx' Ny' Nz' a i j k) := by
    rintro F ⟨rfl, rfl, rfl⟩ a i j k
    rfl
  have cell : ∀ a < 3, ∀ a' < 3, ∀ i < Nx, ∀ j < Ny, ∀ k < Nz, t2.ieps.array (pos Nx' Ny' Nz' a' (ψ i j k).1 (ψ i j k).2.1 (ψ i j k).2.2) = t1.ieps.array (pos Nx Ny Nz a i j k) ∧
        t2.imu.array (pos Nx' Ny' Nz' a' (ψ i j k).1 (ψ i j k).2.1 (ψ i j k).2.2) = t1.imu.array (pos Nx Ny Nz a i j k) ∧
        t2.sigma.array (pos Nx' Ny' Nz' a' (ψ i j k).1 (ψ i j k).2.1 (ψ i j k).2.2) = t1.sigma.array (pos Nx Ny Nz a i j k) := by
    intro a ha a' ha' i hi j hj k hk
    obtain ⟨e1, e2, e3⟩ := c1 a ha i hi j hj k hk
    obtain ⟨r1, r2, r3⟩ := hr i hi j hj k hk
    obtain ⟨f1, f2, f3⟩ := c2 a' ha' _ r1 _ r2 _ r3
    rw [← at1 _ s1.1, ← at1 _ s1.2, ← at1 _ s1.3, ← at2 _ s2.1, ← at2 _ s2.2, ← at2 _ s2.3, e1, e2, e3, f1, f2, f3, lastHit_map, lastHit_map]
    simp only [hmask, hname]
    exact ⟨find_name hname (fun n => (matOf dict n).eps.over 1 eps0) _ _, find_name hname (fun n => (matOf dict n).mu.over 1 mu0) _ _, find_name hname (fun n => (matOf dict n).sigma.getD 0) _ _⟩
  have hu : t2.useCond = t1.useCond := by
    rw [u1, u2, List.any_map]
    congr 1
    simp only [Function.comp_def, hname]
  have N1 : t1.ieps.N = Nx * Ny * Nz := by
    obtain ⟨q1, q2, q3⟩ := s1.1
    show t1.ieps.Nx * t1.ieps.Ny * t1.ieps.Nz = _
    rw [q1, q2, q3]
  have N2 : t2.ieps.N = Nx' * Ny' * Nz' := by
    obtain ⟨q1, q2, q3⟩ := s2.1
    show t2.ieps.Nx * t2.ieps.Ny * t2.ieps.Nz = _
    rw [q1, q2, q3]
  have hd : chooseDt c cfln dt (diffs x' Nx') (diffs y' Ny') (diffs z' Nz') t2 = chooseDt c cfln dt (diffs x Nx) (diffs y Ny) (diffs z Nz) t1 := by
    have lim : ∀ dt, limitDt t2 dt = limitDt t1 dt := by
      refine limitDt_congr hu ?_ ?_
      · intro r hr1
        rw [N1] at hr1
        obtain ⟨a, i, j, k, ha, hi, hj, hk, rfl⟩ := pos_surj hr1
        obtain ⟨r1, r2, r3⟩ := hr i hi j hj k hk
        exact ⟨_, by rw [N2]; exact pos_lt ha r1 r2 r3, (cell a ha a ha i hi j hj k hk).1, (cell a ha a ha i hi j hj k hk).2.2⟩
      · intro r hr1
        rw [N2] at hr1
        obtain ⟨a, i', j', k', ha, hi', hj', hk', rfl⟩ := pos_surj hr1
        obtain ⟨i, hi, j, hj, k, hk, e⟩ := hsurj i' hi' j' hj' k' hk'
        have := cell a ha a ha i hi j hj k hk
        rw [e] at this
        exact ⟨_, by rw [N1]; exact pos_lt ha hi hj hk, this.1.symm, this.2.2.symm⟩
    unfold chooseDt
    rw [hcfl]
    simp only [lim]
  cases hc : chooseDt c cfln dt (diffs x Nx) (diffs y Ny) (diffs z Nz) t1 with
  | error e => rw [hc] at h; exact absurd h (by simp [Except.map])
  | ok d0 =>
    rw [hc] at h
    simp only [Except.map, Except.ok.injEq, Prod.mk.injEq] at h
    obtain ⟨rfl, rfl⟩ := h
    refine ⟨t2, ?_, hu, cell⟩
    rw [setUp_noPml hp' _ _ _ _ _ _ _ m2, hd, hc]
    rfl

/-- **C119 (set-up, partial).** Without PML faces, for every choice of materials and solids: if the set-up of the model succeeds, that of the model with the axes renamed in turn succeeds with the same time step
and the same materials in the renamed cells. -/
theorem C119_setup_turn_partial (hb : MeansMaterial bg mb) (hk : ∀ s ∈ solids, ∃ spec m, dict s.1 = some spec ∧ MeansMaterial spec m) (hp : anyFace isPml bc = false)
    {t : Mats ℝ} {d : ℝ} (h : setUp c eps0 mu0 cfln dt nPml Nx Ny Nz x y z bc bg dict solids = .ok (t, d)) :
    ∃ t', setUp c eps0 mu0 cfln dt nPml Ny Nz Nx y z x (turnFaces bc) bg dict (solids.map turnSolid) = .ok (t', d) ∧ t'.useCond = t.useCond ∧ Turned Nx Ny Nz t.ieps.array t'.ieps.array ∧
      Turned Nx Ny Nz t.imu.array t'.imu.array ∧ Turned Nx Ny Nz t.sigma.array t'.sigma.array := by
  obtain ⟨t', e, hu, hc⟩ := setUp_renamed (dt := dt) (nPml := nPml) (x' := y) (y' := z) (z' := x) hb hk hp (bc' := turnFaces bc) (by rw [turn_any, hp]) (f := turnSolid) (fun _ => rfl) (fun i j k => (j, k, i)) (fun _ _ _ _ => rfl)
    (fun i hi j hj k hk => ⟨hj, hk, hi⟩) (fun i' hi' j' hj' k' hk' => ⟨k', hk', i', hi', j', hj', rfl⟩) (cflDt_turn _ _ _ _ _) h
  refine ⟨t', e, hu, fun i hi j hj k hk => ?_, fun i hi j hj k hk => ?_, fun i hi j hj k hk => ?_⟩
  · exact ⟨(hc 1 (by decide) 0 (by decide) i hi j hj k hk).1, (hc 2 (by decide) 1 (by decide) i hi j hj k hk).1, (hc 0 (by decide) 2 (by decide) i hi j hj k hk).1⟩
  · exact ⟨(hc 1 (by decide) 0 (by decide) i hi j hj k hk).2.1, (hc 2 (by decide) 1 (by decide) i hi j hj k hk).2.1, (hc 0 (by decide) 2 (by decide) i hi j hj k hk).2.1⟩
  · exact ⟨(hc 1 (by decide) 0 (by decide) i hi j hj k hk).2.2, (hc 2 (by decide) 1 (by decide) i hi j hj k hk).2.2, (hc 0 (by decide) 2 (by decide) i hi j hj k hk).2.2⟩

/-- **C119 (set-up, partial).** The same for the exchange of the first two axes. -/
theorem C119_setup_swap_partial (hb : MeansMaterial bg mb) (hk : ∀ s ∈ solids, ∃ spec m, dict s.1 = some spec ∧ MeansMaterial spec m) (hp : anyFace isPml bc = false)
    {t : Mats ℝ} {d : ℝ} (h : setUp c eps0 mu0 cfln dt nPml Nx Ny Nz x y z bc bg dict solids = .ok (t, d)) :
    ∃ t', setUp c eps0 mu0 cfln dt nPml Ny Nx Nz y x z (swapFaces bc) bg dict (solids.map swapSolid) = .ok (t', d) ∧ t'.useCond = t.useCond ∧ Swapped Nx Ny Nz 1 t.ieps.array t'.ieps.array ∧
      Swapped Nx Ny Nz 1 t.imu.array t'.imu.array ∧ Swapped Nx Ny Nz 1 t.sigma.array t'.sigma.array := by
  obtain ⟨t', e, hu, hc⟩ := setUp_renamed (dt := dt) (nPml := nPml) (x' := y) (y' := x) (z' := z) hb hk hp (bc' := swapFaces bc) (by rw [swap_any, hp]) (f := swapSolid) (fun _ => rfl) (fun i j k => (j, i, k)) (fun _ _ _ _ => rfl)
    (fun i hi j hj k hk => ⟨hj, hi, hk⟩) (fun i' hi' j' hj' k' hk' => ⟨j', hj', i', hi', k', hk', rfl⟩) (cflDt_swap _ _ _ _ _) h
  refine ⟨t', e, hu, fun i hi j hj k hk => ?_, fun i hi j hj k hk => ?_, fun i hi j hj k hk => ?_⟩ <;> simp only [one_mul]
  · exact ⟨(hc 1 (by decide) 0 (by decide) i hi j hj k hk).1, (hc 0 (by decide) 1 (by decide) i hi j hj k hk).1, (hc 2 (by decide) 2 (by decide) i hi j hj k hk).1⟩
  · exact ⟨(hc 1 (by decide) 0 (by decide) i hi j hj k hk).2.1, (hc 0 (by decide) 1 (by decide) i hi j hj k hk).2.1, (hc 2 (by decide) 2 (by decide) i hi j hj k hk).2.1⟩
  · exact ⟨(hc 1 (by decide) 0 (by decide) i hi j hj k hk).2.2, (hc 0 (by decide) 1 (by decide) i hi j hj k hk).2.2, (hc 2 (by decide) 2 (by decide) i hi j hj k hk).2.2⟩
end

/-! ### Open faces -/

/-- **C119 (refuted for open faces).** With no electric or magnetic face the axes are not alike, on every grid of at least two cells in x and y (with non-zero lengths, areas and time step): there are
fields, the second the first with the axes renamed in turn, for which one step gives different fields. -/
theorem C119_open_refuted {K : Type _} [Field K] [DecidableEq K] (Nx Ny Nz : ℕ) (x y z : ℕ → K) {bc : Faces String} (hpec : anyFace isPec bc = false) (hpmc : anyFace isPmcAny bc = false) (ieps imu sigma ieps' imu' sigma' : Vec K) {dt : K} (hdt : dt ≠ 0) (uc : Bool)
    (hx : 2 ≤ Nx) (hy : 2 ≤ Ny) (hz : 1 ≤ Nz) (hL : ∀ q < 3 * (Nx * Ny * Nz), (computeGrid Nx Ny Nz x y z).L.array q ≠ 0)
    (hA : ∀ q < 3 * (Nx * Ny * Nz), (computeGrid Nx Ny Nz x y z).iA.array q ≠ 0) (hmu : ∀ q < 3 * (Nx * Ny * Nz), imu q ≠ 0) :
    ∃ a b : State K, TurnedSt Nx Ny Nz a b ∧
      ¬ TurnedSt Nx Ny Nz (oneStep (build (computeGrid Nx Ny Nz x y z) bc ieps imu sigma dt uc) a) (oneStep (build (computeGrid Ny Nz Nx y z x) (turnFaces bc) ieps' imu' sigma' dt uc) b) := by
  have hN : pos Nx Ny Nz 2 (Nx - 1) 0 0 < 3 * (Nx * Ny * Nz) := pos_lt (by decide) (by omega) (by omega) (by omega)
  have hN' : pos Ny Nz Nx 1 0 0 (Nx - 1) < 3 * (Ny * Nz * Nx) := pos_lt (by decide) (by omega) (by omega) (by omega)
  have hP : fl Nx Ny (Nx - 1) 0 0 < Nx * Ny * Nz := fl_lt (by omega) (by omega) (by omega)
  have hP' : fl Ny Nz 0 0 (Nx - 1) < Ny * Nz * Nx := fl_lt (by omega) (by omega) (by omega)
  refine ⟨⟨fun q => if q = pos Nx Ny Nz 1 0 1 0 then 1 else 0, fun _ => 0, fun _ => 0, false⟩, ⟨fun q => if q = pos Ny Nz Nx 0 1 0 0 then 1 else 0, fun _ => 0, fun _ => 0, false⟩, ⟨?_, fun i _ j _ k _ => ⟨rfl, rfl, rfl⟩, fun i _ j _ k _ => ⟨rfl, rfl, rfl⟩, rfl⟩, ?_⟩
  · intro i hi j hj k hk
    have e1 : ∀ c < 3, (pos Nx Ny Nz c i j k = pos Nx Ny Nz 1 0 1 0 ↔ c = 1 ∧ i = 0 ∧ j = 1 ∧ k = 0) := fun c hc =>
      ⟨fun h => Mpi.pos_inj hi hj hk (by omega) (by omega) (by omega) h, by rintro ⟨rfl, rfl, rfl, rfl⟩; rfl⟩
    have e2 : ∀ c < 3, (pos Ny Nz Nx c j k i = pos Ny Nz Nx 0 1 0 0 ↔ c = 0 ∧ j = 1 ∧ k = 0 ∧ i = 0) := fun c hc =>
      ⟨fun h => Mpi.pos_inj hj hk hi (by omega) (by omega) (by omega) h, by rintro ⟨rfl, rfl, rfl, rfl⟩; rfl⟩
    simp only [e1 0 (by decide), e1 1 (by decide), e1 2 (by decide), e2 0 (by decide), e2 1 (by decide), e2 2 (by decide)]
    refine ⟨if_congr (by tauto) rfl rfl, ?_, ?_⟩ <;> simp
  · intro H
    have h := (H.H (Nx - 1) (by omega) 0 (by omega) 0 (by omega)).2.1
    have one : ∀ (s : Solver K) (st : State K), st.step0 = false → oneStep s st = advance s st := by
      intro s st hst
      unfold oneStep
      rw [hst]
      rfl
    have hcol : ∀ q, colMask (computeGrid Nx Ny Nz x y z) bc q = 1 := by intro q; unfold colMask; rw [hpec]; rfl
    have hcol' : ∀ q, colMask (computeGrid Ny Nz Nx y z x) (turnFaces bc) q = 1 := by intro q; unfold colMask; rw [turn_any, hpec]; rfl
    rw [one _ _ rfl, one _ _ rfl] at h
    rw [advance_H _ _ _ _ _ _ _ _ hN', advance_H _ _ _ _ _ _ _ _ hN, rowMask_one _ _ hpmc, rowMask_one _ _ (by rw [turn_any, hpmc])] at h
    simp only [hcol, hcol', one_mul] at h
    have lhs : mulVec (3 * (Ny * Nz * Nx)) (C0 Ny Nz Nx) (fun q => (computeGrid Ny Nz Nx y z x).L.array q * if q = pos Ny Nz Nx 0 1 0 0 then 1 else 0) (pos Ny Nz Nx 1 0 0 (Nx - 1)) = 0 := by
      unfold pos
      rw [C0_y hP']
      have o : ¬ (fl Ny Nz 0 0 (Nx - 1) + Ny * Nz < Ny * Nz * Nx) := by
        obtain ⟨n, rfl⟩ : ∃ n, Nx = n + 1 := ⟨Nx - 1, by omega⟩
        unfold fl
        have : Ny * (0 + Nz * (n + 1 - 1)) = Ny * Nz * n := by rw [Nat.add_sub_cancel]; ring
        have e : Ny * Nz * (n + 1) = Ny * Nz * n + Ny * Nz := by ring
        omega
      have n1 : ¬ (0 * (Ny * Nz * Nx) + fl Ny Nz 0 0 (Nx - 1) = 0 * (Ny * Nz * Nx) + fl Ny Nz 1 0 0) := fun e => by
        have := (Mpi.pos_inj (Nx := Ny) (Ny := Nz) (Nz := Nx) (c := 0) (c' := 0) (by omega) (by omega) (by omega) (by omega) (by omega) (by omega) e).2.1
        omega
      have big : ∀ q, q < Ny * Nz * Nx → ¬ (2 * (Ny * Nz * Nx) + q = 0 * (Ny * Nz * Nx) + fl Ny Nz 1 0 0) := fun q hq => by
        have : fl Ny Nz 1 0 0 < Ny * Nz * Nx := fl_lt (by omega) (by omega) (by omega)
        omega
      unfold ext
      rw [if_neg o, if_pos hP', if_pos hP']
      simp only []
      rw [if_neg n1, if_neg (big _ hP')]
      split_ifs with hq hq2
      · exact absurd hq2 (big _ hq)
      · ring
      · ring
    have rhs : mulVec (3 * (Nx * Ny * Nz)) (C0 Nx Ny Nz) (fun q => (computeGrid Nx Ny Nz x y z).L.array q * if q = pos Nx Ny Nz 1 0 1 0 then 1 else 0) (pos Nx Ny Nz 2 (Nx - 1) 0 0) = (computeGrid Nx Ny Nz x y z).L.array (pos Nx Ny Nz 1 0 1 0) := by
      unfold pos
      rw [C0_z hP]
      have hnx : fl Nx Ny (Nx - 1) 0 0 + 1 = fl Nx Ny 0 1 0 := by unfold fl; simp only [Nat.mul_zero, Nat.add_zero, Nat.zero_add]; omega
      have hq : fl Nx Ny 0 1 0 < Nx * Ny * Nz := fl_lt (by omega) (by omega) (by omega)
      rw [hnx]
      unfold ext
      rw [if_pos hq, if_pos hP, if_pos hP]
      simp only []
      rw [if_pos trivial, if_neg (by omega : ¬ (1 * (Nx * Ny * Nz) + fl Nx Ny (Nx - 1) 0 0 = 1 * (Nx * Ny * Nz) + fl Nx Ny 0 1 0)), if_neg (by omega : ¬ (0 * (Nx * Ny * Nz) + fl Nx Ny (Nx - 1) 0 0 = 1 * (Nx * Ny * Nz) + fl Nx Ny 0 1 0))]
      split_ifs with hq2 hq3
      · omega
      · ring
      · ring
    have h2 : (0 : K) - dt * ((computeGrid Ny Nz Nx y z x).iA.array (pos Ny Nz Nx 1 0 0 (Nx - 1)) * imu' (pos Ny Nz Nx 1 0 0 (Nx - 1)) * 0) = 0 - dt * ((computeGrid Nx Ny Nz x y z).iA.array (pos Nx Ny Nz 2 (Nx - 1) 0 0) * imu (pos Nx Ny Nz 2 (Nx - 1) 0 0) * (computeGrid Nx Ny Nz x y z).L.array (pos Nx Ny Nz 1 0 1 0)) := by
      refine Eq.trans (congrArg (fun r => 0 - dt * (_ * r)) lhs.symm) (h.trans (congrArg (fun r => 0 - dt * (_ * r)) rhs))
    rw [mul_zero, mul_zero, sub_zero, zero_sub, eq_comm, neg_eq_zero] at h2
    rcases mul_eq_zero.1 h2 with h' | h'
    · exact hdt h'
    · rcases mul_eq_zero.1 h' with h' | h'
      · rcases mul_eq_zero.1 h' with h' | h'
        · exact hA _ hN h'
        · exact hmu _ hN h'
      · exact hL _ (pos_lt (by decide) (by omega) (by omega) (by omega)) h'

/-- A grid of 3 × 2 × 2 cells, closed by PEC and PML faces, with materials that differ from cell to cell: one of all the fields that turn into each other. -/
example (v : Vec ℚ) : ∃ v', Turned 3 2 2 v v' := by
  refine ⟨fun q => v (pos 3 2 2 (if q / 12 = 0 then 1 else if q / 12 = 1 then 2 else 0) (q % 12 / 4) (q % 2) (q % 4 / 2)), ?_⟩
  intro i hi j hj k hk
  interval_cases i <;> interval_cases j <;> interval_cases k <;> exact ⟨rfl, rfl, rfl⟩

/-- Any number of steps without assignments between them. -/
theorem C119_turn_free_partial {K : Type _} [Field K] [DecidableEq K] (Nx Ny Nz : ℕ) (x y z : ℕ → K) {bc : Faces String} (h : PecLike bc) {ieps imu sigma ieps' imu' sigma' : Vec K} (he : Turned Nx Ny Nz ieps ieps')
    (hm : Turned Nx Ny Nz imu imu') (hs : Turned Nx Ny Nz sigma sigma') (dt : K) (uc : Bool) (N : ℕ) {a b : State K} (h0 : TurnedSt Nx Ny Nz a b) :
    TurnedSt Nx Ny Nz ((oneStep (build (computeGrid Nx Ny Nz x y z) bc ieps imu sigma dt uc))^[N] a) ((oneStep (build (computeGrid Ny Nz Nx y z x) (turnFaces bc) ieps' imu' sigma' dt uc))^[N] b) := by
  generalize hS : build (computeGrid Nx Ny Nz x y z) bc ieps imu sigma dt uc = s
  generalize hS' : build (computeGrid Ny Nz Nx y z x) (turnFaces bc) ieps' imu' sigma' dt uc = s'
  subst hS hS'
  exact C119_turn_partial Nx Ny Nz x y z h he hm hs dt uc (N := N) (S := fun n => (oneStep (build (computeGrid Nx Ny Nz x y z) bc ieps imu sigma dt uc))^[n] a) (D := fun n => (oneStep (build (computeGrid Nx Ny Nz x y z) bc ieps imu sigma dt uc))^[n] a)
    (S' := fun n => (oneStep (build (computeGrid Ny Nz Nx y z x) (turnFaces bc) ieps' imu' sigma' dt uc))^[n] b) (D' := fun n => (oneStep (build (computeGrid Ny Nz Nx y z x) (turnFaces bc) ieps' imu' sigma' dt uc))^[n] b)
    ⟨fun m _ => Function.iterate_succ_apply' _ _ _, fun _ _ => rfl⟩ ⟨fun m _ => Function.iterate_succ_apply' _ _ _, fun _ _ => rfl⟩ h0 (fun _ _ h => h)

/-- Twenty steps of a closed 3 × 2 × 2 model and of the same model with the axes renamed. -/
example (v m s e : Vec ℚ) (v' m' s' e' : Vec ℚ) (h1 : Turned 3 2 2 v v') (h2 : Turned 3 2 2 m m') (h3 : Turned 3 2 2 s s') (h4 : Turned 3 2 2 e e') :
    TurnedSt 3 2 2 ((oneStep (build (computeGrid 3 2 2 (fun i => (i : ℚ) ^ 2) (fun i => 2 * (i : ℚ)) fun i => 3 * (i : ℚ)) ⟨"pec", "PEC", "pml", "electric", "pec", "pml"⟩ m e s (1 / 2) true))^[20] ⟨v, v, v, true⟩)
      ((oneStep (build (computeGrid 2 2 3 (fun i => 2 * (i : ℚ)) (fun i => 3 * (i : ℚ)) fun i => (i : ℚ) ^ 2) (turnFaces ⟨"pec", "PEC", "pml", "electric", "pec", "pml"⟩) m' e' s' (1 / 2) true))^[20] ⟨v', v', v', true⟩) :=
  C119_turn_free_partial 3 2 2 _ _ _ (by intro a s ha; interval_cases a <;> cases s <;> decide) h2 h4 h3 _ _ 20 ⟨h1, h1, h1, rfl⟩

/-- Open faces on it: the claim fails. -/
example : ∃ a b : State ℚ, TurnedSt 3 2 2 a b ∧ ¬ TurnedSt 3 2 2 (oneStep (build (computeGrid 3 2 2 (fun i => (i : ℚ)) (fun i => (i : ℚ)) fun i => (i : ℚ)) ⟨"open", "open", "open", "open", "open", "open"⟩ (fun _ => 1) (fun _ => 1) (fun _ => 0) (1 / 2) false) a)
      (oneStep (build (computeGrid 2 2 3 (fun i => (i : ℚ)) (fun i => (i : ℚ)) fun i => (i : ℚ)) (turnFaces ⟨"open", "open", "open", "open", "open", "open"⟩) (fun _ => 1) (fun _ => 1) (fun _ => 0) (1 / 2) false) b) :=
  C119_open_refuted 3 2 2 _ _ _ (bc := ⟨"open", "open", "open", "open", "open", "open"⟩) (by decide) (by decide) _ _ _ _ _ _ (by norm_num) _ (by decide) (by decide) (by decide) (by decide +kernel) (by decide +kernel) (by decide +kernel)

/-- The set-up of a model with one lossy solid, and of the renamed one. -/
example {t : Mats ℝ} {d : ℝ} (h : setUp 1 1 1 (1 / 2) none 2 3 4 5 (fun i => (i : ℝ)) (fun i => 2 * i) (fun i => 3 * i) ⟨"pec", "pec", "pec", "pec", "pec", "pec"⟩ (.vals ⟨.fin 1, .fin 1, none⟩)
      (fun _ => some (.vals ⟨.fin 2, .fin 1, some 7⟩)) [("a", fun i j _ => i == 1 && j == 2)] = .ok (t, d)) :
    ∃ t', setUp 1 1 1 (1 / 2) none 2 4 5 3 (fun i => 2 * i) (fun i => 3 * i) (fun i => (i : ℝ)) ⟨"pec", "pec", "pec", "pec", "pec", "pec"⟩ (.vals ⟨.fin 1, .fin 1, none⟩)
      (fun _ => some (.vals ⟨.fin 2, .fin 1, some 7⟩)) [("a", fun j _ i => i == 1 && j == 2)] = .ok (t', d) ∧ Turned 3 4 5 t.sigma.array t'.sigma.array := by
  have hm1 : MeansMaterial (.vals (⟨.fin 1, .fin 1, none⟩ : Material ℝ)) ⟨.fin 1, .fin 1, none⟩ := rfl
  have hm2 : MeansMaterial (.vals (⟨.fin 2, .fin 1, some 7⟩ : Material ℝ)) ⟨.fin 2, .fin 1, some 7⟩ := rfl
  obtain ⟨t', e, -, -, -, hs⟩ := C119_setup_turn_partial (bc := ⟨"pec", "pec", "pec", "pec", "pec", "pec"⟩) (mb := ⟨.fin 1, .fin 1, none⟩) hm1 (fun s _ => ⟨_, ⟨.fin 2, .fin 1, some 7⟩, rfl, hm2⟩) (by decide) h
  exact ⟨t', e, hs⟩

end Sol
end Wakis
