import Verif.TimeStep

/-!
# C61: explicit zero conductivity
-/

namespace Wakis
namespace Sol

/-- A material with an explicit conductivity of zero, written without it. -/
def Material.dropZero {K : Type _} [Field K] [DecidableEq K] (m : Material K) : Material K :=
  if m.sigma = some 0 then ⟨m.eps, m.mu, none⟩ else m

/-- `(bg', dict')` are the materials `(bg, dict)` with explicit zero conductivities left out. -/
structure WithoutZeros {K : Type _} [Field K] [DecidableEq K] (bg bg' : MatSpec K) (dict dict' : String → Option (MatSpec K)) (solids : List Solid) (mb : Material K) : Prop where
  bg : MeansMaterial bg mb
  bg' : MeansMaterial bg' mb.dropZero
  solids : ∀ s ∈ solids, ∃ spec spec' m, dict s.1 = some spec ∧ MeansMaterial spec m ∧ dict' s.1 = some spec' ∧ MeansMaterial spec' m.dropZero

theorem dropZero_getD {K : Type _} [Field K] [DecidableEq K] (m : Material K) : m.dropZero.sigma.getD 0 = m.sigma.getD 0 := by
  unfold Material.dropZero
  split_ifs with h
  · rw [h]; rfl
  · rfl

theorem dropZero_eps {K : Type _} [Field K] [DecidableEq K] (m : Material K) : m.dropZero.eps = m.eps ∧ m.dropZero.mu = m.mu := by
  unfold Material.dropZero
  split_ifs <;> exact ⟨rfl, rfl⟩

theorem dropZero_isSome {K : Type _} [Field K] [DecidableEq K] (m : Material K) : m.dropZero.sigma.isSome = true ↔ m.sigma.isSome = true ∧ m.sigma.getD 0 ≠ 0 := by
  unfold Material.dropZero
  split_ifs with h
  · rw [h]; simp
  · cases hs : m.sigma with
    | none => simp
    | some v =>
      have : v ≠ 0 := by rintro rfl; exact h hs
      simp [this]

theorem matOf_eq {K : Type _} [Field K] {dict : String → Option (MatSpec K)} {key : String} {spec : MatSpec K} {m : Material K} (h1 : dict key = some spec) (h2 : MeansMaterial spec m) : matOf dict key = m := by
  obtain ⟨spec', q1, q2⟩ := matOf_spec (dict := dict) (key := key) ⟨spec, m, h1, h2⟩
  rw [h1] at q1
  cases q1
  exact means_unique q2 h2

section
variable {K : Type _} [Field K] [LinearOrder K] {Nx Ny Nz : ℕ} {eps0 mu0 : K} {use0 : Bool} {bg bg' : MatSpec K} {dict dict' : String → Option (MatSpec K)} {solids : List Solid} {mb : Material K}

/-- In a list of solids no two of which share a cell, the last solid containing the cell is any solid containing it. -/
theorem lastHit_disjoint (hdis : DisjointSolids Nx Ny Nz solids) {i j k : ℕ} (hi : i < Nx) (hj : j < Ny) (hk : k < Nz) {s : Solid} (hs : s ∈ solids) (hin : s.2 i j k = true)
    {P : Solid → Bool} (hP : ∀ s', P s' = true → s'.2 i j k = true) (h : P s = true) : lastHit P solids = some s := by
  cases hl : lastHit P solids with
  | none =>
    unfold lastHit at hl
    rw [List.find?_eq_none] at hl
    exact absurd h (hl s (List.mem_reverse.2 hs))
  | some s' =>
    obtain ⟨h1, h2⟩ := lastHit_some hl
    rw [hdis s hs s' h1 i hi j hj k hk hin (hP s' h2)]

/-- **C61 (tensors, partial).** For every grid and every set of solids no two of which share a cell, leaving out explicit zero conductivities changes no entry of the material tensors. -/
theorem C61_tensors_partial (hw : WithoutZeros bg bg' dict dict' solids mb) (hb0 : 0 ≤ mb.sigma.getD 0) (hdis : DisjointSolids Nx Ny Nz solids) :
    ∃ t t', materials Nx Ny Nz eps0 mu0 use0 bg dict solids = .ok t ∧ materials Nx Ny Nz eps0 mu0 use0 bg' dict' solids = .ok t' ∧
      t.Sized Nx Ny Nz ∧ t'.Sized Nx Ny Nz ∧ (t'.useCond = true → t.useCond = true) ∧
      ∀ c < 3, ∀ i < Nx, ∀ j < Ny, ∀ k < Nz, t'.ieps.at3 c i j k = t.ieps.at3 c i j k ∧ t'.imu.at3 c i j k = t.imu.at3 c i j k ∧ t'.sigma.at3 c i j k = t.sigma.at3 c i j k := by
  obtain ⟨t, ht, hs, hu, hc⟩ := materials_ok (Nx := Nx) (Ny := Ny) (Nz := Nz) (eps0 := eps0) (mu0 := mu0) (use0 := use0) (dict := dict) (solids := solids) hw.bg fun s hs => by
    obtain ⟨spec, spec', m, h1, h2, -, -⟩ := hw.solids s hs
    exact ⟨spec, m, h1, h2⟩
  obtain ⟨t', ht', hs', hu', hc'⟩ := materials_ok (Nx := Nx) (Ny := Ny) (Nz := Nz) (eps0 := eps0) (mu0 := mu0) (use0 := use0) (dict := dict') (solids := solids) hw.bg' fun s hs => by
    obtain ⟨spec, spec', m, -, -, h1, h2⟩ := hw.solids s hs
    exact ⟨spec', m.dropZero, h1, h2⟩
  have hmat : ∀ s ∈ solids, matOf dict' s.1 = (matOf dict s.1).dropZero := by
    intro s hs
    obtain ⟨spec, spec', m, h1, h2, h3, h4⟩ := hw.solids s hs
    rw [matOf_eq h1 h2, matOf_eq h3 h4]
  refine ⟨t, t', ht, ht', hs, hs', fun h => ?_, fun c hc3 i hi j hj k hk => ?_⟩
  · rw [hu'] at h
    rw [hu]
    simp only [Bool.or_eq_true, List.any_eq_true] at h ⊢
    rcases h with (h | h) | ⟨s, hs, h⟩
    · exact .inl (.inl h)
    · exact .inl (.inr ((dropZero_isSome mb).1 h).1)
    · rw [hmat s hs] at h
      exact .inr ⟨s, hs, ((dropZero_isSome _).1 h).1⟩
  · obtain ⟨a1, a2, a3⟩ := hc c hc3 i hi j hj k hk
    obtain ⟨b1, b2, b3⟩ := hc' c hc3 i hi j hj k hk
    rw [a1, a2, a3, b1, b2, b3]
    have hlast : ∀ {P : Solid → Bool} {f g : Solid → K} {d : K}, (∀ s ∈ solids, f s = g s) → ((lastHit P solids).map f).getD d = ((lastHit P solids).map g).getD d := by
      intro P f g d h
      cases hl : lastHit P solids with
      | none => rfl
      | some s => simp only [Option.map_some, Option.getD_some]; exact h s (lastHit_some hl).1
    refine ⟨?_, ?_, ?_⟩
    · rw [(dropZero_eps mb).1]
      exact hlast fun s hs => by rw [hmat s hs, (dropZero_eps _).1]
    · rw [(dropZero_eps mb).2]
      exact hlast fun s hs => by rw [hmat s hs, (dropZero_eps _).2]
    · rw [dropZero_getD]
      by_cases hin : ∃ s ∈ solids, s.2 i j k = true
      · obtain ⟨s, hs, hin⟩ := hin
        have key : ∀ (mat : String → Material K), ((lastHit (fun s => s.2 i j k && ((mat s.1).sigma.isSome || decide (0 < mb.sigma.getD 0))) solids).map fun s => (mat s.1).sigma.getD 0).getD (mb.sigma.getD 0) =
            (mat s.1).sigma.getD 0 := by
          intro mat
          by_cases hq : ((mat s.1).sigma.isSome || decide (0 < mb.sigma.getD 0)) = true
          · rw [lastHit_disjoint hdis hi hj hk hs hin (fun s' h => by simp only [Bool.and_eq_true] at h; exact h.1) (by rw [hin, hq]; rfl)]
            rfl
          · have : lastHit (fun s => s.2 i j k && ((mat s.1).sigma.isSome || decide (0 < mb.sigma.getD 0))) solids = none := by
              refine lastHit_none fun s' hs' => ?_
              by_contra hc
              simp only [Bool.not_eq_false, Bool.and_eq_true] at hc
              have := hdis s hs s' hs' i hi j hj k hk hin hc.1
              subst this
              exact hq hc.2
            rw [this]
            simp only [Bool.or_eq_true, decide_eq_true_eq, not_or, Option.isSome_iff_ne_none, not_not] at hq
            rw [hq.1]
            exact le_antisymm (not_lt.1 hq.2) hb0
        rw [key (matOf dict'), key (matOf dict), hmat s hs, dropZero_getD]
      · have hn : ∀ P : Solid → Bool, (∀ s', P s' = true → s'.2 i j k = true) → lastHit P solids = none := fun P hP =>
          lastHit_none fun s hs => by
            by_contra hc
            exact hin ⟨s, hs, hP s (by simpa using hc)⟩
        rw [hn _ fun s' h => by simp only [Bool.and_eq_true] at h; exact h.1, hn _ fun s' h => by simp only [Bool.and_eq_true] at h; exact h.1]
        rfl

end

/-- Flat entries agree where the cells do. -/
theorem arrays_eq {Nx Ny Nz : ℕ} {f g : Fld ℝ} (hf : f.Nx = Nx ∧ f.Ny = Ny ∧ f.Nz = Nz) (hg : g.Nx = Nx ∧ g.Ny = Ny ∧ g.Nz = Nz)
    (h : ∀ c < 3, ∀ i < Nx, ∀ j < Ny, ∀ k < Nz, f.at3 c i j k = g.at3 c i j k) : ∀ n < 3 * (Nx * Ny * Nz), f.array n = g.array n := by
  intro n hn
  refine entry_of_cell (P := fun a b => a = b) hf hg h n ?_
  unfold Fld.N
  rw [hf.1, hf.2.1, hf.2.2]
  exact hn

/-- **C61 (time step, partial).** If, without the explicit zeros, conductivity is still in use (some material conducts, or a face is PML), the solver is built with the same time step and the same tensors
as without them, or fails in the same way. Missing: everything non-conducting (`C61_refuted`), overlapping solids. -/
theorem C61_dt_partial {c cfln eps0 mu0 : ℝ} {dt : Option ℝ} {Nx Ny Nz : ℕ} {dx dy dz : List ℝ} {bg bg' : MatSpec ℝ} {dict dict' : String → Option (MatSpec ℝ)} {solids : List Solid} {mb : Material ℝ} {use0 : Bool}
    (hw : WithoutZeros bg bg' dict dict' solids mb) (hb0 : 0 ≤ mb.sigma.getD 0) (hdis : DisjointSolids Nx Ny Nz solids) {t' : Mats ℝ}
    (ht' : materials Nx Ny Nz eps0 mu0 use0 bg' dict' solids = .ok t') (hu : t'.useCond = true) :
    ∃ t, materials Nx Ny Nz eps0 mu0 use0 bg dict solids = .ok t ∧ t.useCond = true ∧ chooseDt c cfln dt dx dy dz t = chooseDt c cfln dt dx dy dz t' ∧
      ∀ n < 3 * (Nx * Ny * Nz), t.ieps.array n = t'.ieps.array n ∧ t.imu.array n = t'.imu.array n ∧ t.sigma.array n = t'.sigma.array n := by
  obtain ⟨t, t2, ht, ht2, hs, hs', hflag, hval⟩ := C61_tensors_partial (eps0 := eps0) (mu0 := mu0) (use0 := use0) hw hb0 hdis
  rw [ht'] at ht2
  cases ht2
  have e1 := arrays_eq hs.e hs'.e fun c hc i hi j hj k hk => (hval c hc i hi j hj k hk).1.symm
  have e2 := arrays_eq hs.m hs'.m fun c hc i hi j hj k hk => (hval c hc i hi j hj k hk).2.1.symm
  have e3 := arrays_eq hs.s hs'.s fun c hc i hi j hj k hk => (hval c hc i hi j hj k hk).2.2.symm
  have hN : t.ieps.N = Nx * Ny * Nz := by unfold Fld.N; rw [hs.e.1, hs.e.2.1, hs.e.2.2]
  have hN' : t'.ieps.N = Nx * Ny * Nz := by unfold Fld.N; rw [hs'.e.1, hs'.e.2.1, hs'.e.2.2]
  refine ⟨t, ht, hflag hu, ?_, fun n hn => ⟨e1 n hn, e2 n hn, e3 n hn⟩⟩
  have htau : taus t = taus t' := by
    unfold taus
    rw [hN, hN']
    have : (List.range (3 * (Nx * Ny * Nz))).filter (fun n => t.sigma.array n ≠ 0 ∧ t.ieps.array n ≠ 0) = (List.range (3 * (Nx * Ny * Nz))).filter (fun n => t'.sigma.array n ≠ 0 ∧ t'.ieps.array n ≠ 0) := by
      refine List.filter_congr fun n hn => ?_
      rw [e1 n (List.mem_range.1 hn), e3 n (List.mem_range.1 hn)]
    rw [this]
    refine List.map_congr_left fun n hn => ?_
    have hn' := List.mem_range.1 (List.mem_filter.1 hn).1
    rw [e1 n hn', e3 n hn']
  have hlim : limitDt t = limitDt t' := by
    funext d
    unfold limitDt
    rw [hflag hu, hu, htau]
  unfold chooseDt
  rw [hlim]

/-- **C61 (refuted).** If no material conducts but the background or a solid is given an explicit conductivity of zero, and no face is PML, the solver cannot be built (`ValueError`), for every grid, table of
materials and set of solids. -/
theorem C61_refuted {c cfln eps0 mu0 : ℝ} {dt : Option ℝ} {nPml Nx Ny Nz : ℕ} {x y z : ℕ → ℝ} {bc : Faces String} {bg : MatSpec ℝ} {dict : String → Option (MatSpec ℝ)} {solids : List Solid} {mb : Material ℝ} {d0 : ℝ}
    (hbc : anyFace isPml bc = false) (hb : MeansMaterial bg mb) (hb0 : mb.sigma = none ∨ mb.sigma = some 0)
    (hk : ∀ s ∈ solids, ∃ spec m, dict s.1 = some spec ∧ MeansMaterial spec m ∧ (m.sigma = none ∨ m.sigma = some 0))
    (hex : mb.sigma = some 0 ∨ ∃ s ∈ solids, ∃ spec m, dict s.1 = some spec ∧ MeansMaterial spec m ∧ m.sigma = some 0)
    (hdt : requestedDt c cfln dt (diffs x Nx) (diffs y Ny) (diffs z Nz) = .ok d0) :
    setUp c eps0 mu0 cfln dt nPml Nx Ny Nz x y z bc bg dict solids = .error .valueError := by
  obtain ⟨t, ht, hs, hu, hc⟩ := materials_ok (Nx := Nx) (Ny := Ny) (Nz := Nz) (eps0 := eps0) (mu0 := mu0) (use0 := anyFace isPml bc) (dict := dict) (solids := solids) hb fun s hs => by
    obtain ⟨spec, m, h1, h2, -⟩ := hk s hs
    exact ⟨spec, m, h1, h2⟩
  have hz : ∀ s ∈ solids, (matOf dict s.1).sigma.getD 0 = 0 := by
    intro s hs
    obtain ⟨spec, m, h1, h2, h3⟩ := hk s hs
    rw [matOf_eq h1 h2]
    rcases h3 with h | h <;> rw [h] <;> rfl
  have hb0' : mb.sigma.getD 0 = 0 := by rcases hb0 with h | h <;> rw [h] <;> rfl
  have hN : t.ieps.N = Nx * Ny * Nz := by unfold Fld.N; rw [hs.e.1, hs.e.2.1, hs.e.2.2]
  have hsig : ∀ n < 3 * t.ieps.N, t.sigma.array n = 0 := by
    intro n hn
    refine entry_of_cell (P := fun a _ => a = 0) hs.s hs.s (fun c hc3 i hi j hj k hk' => ?_) n (by unfold Fld.N; rw [hs.s.1, hs.s.2.1, hs.s.2.2, ← hN]; exact hn)
    rw [(hc c hc3 i hi j hj k hk').2.2, hb0']
    cases hl : lastHit (fun s => s.2 i j k && ((matOf dict s.1).sigma.isSome || decide ((0 : ℝ) < 0))) solids with
    | none => rfl
    | some s => exact hz s (lastHit_some hl).1
  have huse : t.useCond = true := by
    rw [hu]
    simp only [Bool.or_eq_true, List.any_eq_true]
    rcases hex with h | ⟨s, hs, spec, m, h1, h2, h3⟩
    · exact .inl (.inr (by rw [h]; rfl))
    · exact .inr ⟨s, hs, by rw [matOf_eq h1 h2, h3]; rfl⟩
  unfold setUp
  rw [ht]
  simp only [bind, Except.bind, pmlStage, hbc]
  have hch : chooseDt c cfln dt (diffs x Nx) (diffs y Ny) (diffs z Nz) t = (requestedDt c cfln dt (diffs x Nx) (diffs y Ny) (diffs z Nz)).bind (limitDt t) := by
    unfold chooseDt requestedDt; cases dt <;> rfl
  rw [if_neg (by simp)]
  simp only
  rw [hch, hdt]
  simp only [Except.bind]
  rw [C30_no_conducting_cell_fails huse (fun n hn => .inl (hsig n hn))]

/-- **C61 (contrast).** Without any conductivity the same solver is built, with the requested time step. -/
theorem C61_without {c cfln eps0 mu0 : ℝ} {dt : Option ℝ} {nPml Nx Ny Nz : ℕ} {x y z : ℕ → ℝ} {bc : Faces String} {bg : MatSpec ℝ} {dict : String → Option (MatSpec ℝ)} {solids : List Solid} {mb : Material ℝ} {d0 : ℝ}
    (hbc : anyFace isPml bc = false) (hb : MeansMaterial bg mb) (hb0 : mb.sigma = none)
    (hk : ∀ s ∈ solids, ∃ spec m, dict s.1 = some spec ∧ MeansMaterial spec m ∧ m.sigma = none)
    (hdt : requestedDt c cfln dt (diffs x Nx) (diffs y Ny) (diffs z Nz) = .ok d0) :
    ∃ t, setUp c eps0 mu0 cfln dt nPml Nx Ny Nz x y z bc bg dict solids = .ok (t, d0) := by
  obtain ⟨t, ht, hs, hu, hc⟩ := materials_ok (Nx := Nx) (Ny := Ny) (Nz := Nz) (eps0 := eps0) (mu0 := mu0) (use0 := anyFace isPml bc) (dict := dict) (solids := solids) hb fun s hs => by
    obtain ⟨spec, m, h1, h2, -⟩ := hk s hs
    exact ⟨spec, m, h1, h2⟩
  have huse : t.useCond = false := by
    rw [hu, hbc, hb0]
    simp only [Option.isSome_none, Bool.or_false, Bool.false_or, List.any_eq_false]
    intro s hs
    obtain ⟨spec, m, h1, h2, h3⟩ := hk s hs
    rw [matOf_eq h1 h2, h3]
    simp
  refine ⟨t, ?_⟩
  unfold setUp
  rw [ht]
  simp only [bind, Except.bind, pmlStage, hbc]
  have hch : chooseDt c cfln dt (diffs x Nx) (diffs y Ny) (diffs z Nz) t = (requestedDt c cfln dt (diffs x Nx) (diffs y Ny) (diffs z Nz)).bind (limitDt t) := by
    unfold chooseDt requestedDt; cases dt <;> rfl
  rw [if_neg (by simp)]
  simp only
  rw [hch, hdt]
  simp only [Except.bind, limitDt, huse]
  rfl

/-- The hypotheses are met: a vacuum background with a solid of explicit zero conductivity, and a second one that conducts. -/
def zeroDict : String → Option (MatSpec ℝ) := fun s => if s = "a" then some (.vals ⟨.fin 2, .fin 1, some 0⟩) else some (.vals ⟨.fin 3, .fin 1, some 5⟩)
def zeroDict' : String → Option (MatSpec ℝ) := fun s => if s = "a" then some (.vals ⟨.fin 2, .fin 1, none⟩) else some (.vals ⟨.fin 3, .fin 1, some 5⟩)
def zeroSolids : List Solid := [("a", fun i _ _ => i == 0), ("b", fun i _ _ => i == 1)]

theorem zeroDemo : WithoutZeros (.name "vacuum") (.name "vacuum") zeroDict zeroDict' zeroSolids ⟨.fin 1, .fin 1, none⟩ where
  bg := vacuum_means
  bg' := by
    have : (⟨.fin 1, .fin 1, none⟩ : Material ℝ).dropZero = ⟨.fin 1, .fin 1, none⟩ := by simp [Material.dropZero]
    rw [this]
    exact vacuum_means
  solids s hs := by
    rcases List.mem_cons.1 hs with rfl | hs
    · refine ⟨_, _, ⟨.fin 2, .fin 1, some 0⟩, rfl, rfl, rfl, ?_⟩
      simp [MeansMaterial, Material.dropZero]
    · obtain rfl := List.mem_singleton.1 hs
      refine ⟨_, _, ⟨.fin 3, .fin 1, some 5⟩, rfl, rfl, rfl, ?_⟩
      simp [MeansMaterial, Material.dropZero]

example : DisjointSolids 2 1 1 zeroSolids := by
  intro s hs s' hs' i hi j hj k hk h h'
  simp only [zeroSolids, List.mem_cons, List.not_mem_nil, or_false] at hs hs'
  rcases hs with rfl | rfl <;> rcases hs' with rfl | rfl <;> simp_all

example : setUp 1 1 1 1 (some 1) 0 1 1 1 (fun n => n) (fun n => n) (fun n => n) ⟨"pec", "pec", "pec", "pec", "pec", "pec"⟩ (.vals ⟨.fin 1, .fin 1, some 0⟩) (fun _ => none) [] = .error .valueError :=
  C61_refuted (mb := ⟨.fin 1, .fin 1, some 0⟩) (d0 := 1) (by decide) rfl (.inr rfl) (by simp) (.inl rfl) rfl

end Sol
end Wakis
