import Verif.MpiSerial
import Verif.MaterialProps
import Verif.TimeStep
import Verif.PmlProps
import Verif.SolverBC2

/-!
# C34: the distributed run equals the serial run — from the user's input

`Job` is what the user passes to `GridFIT3D` and `SolverFIT3D`.
-/

namespace Wakis
namespace Mpi
open Sol Sparse
variable {K : Type _} [Field K] [LinearOrder K] [IsStrictOrderedRing K]

/-- Input of a run: grid box and cell counts, boundary names, materials, time step.  `solids` carry their
cell masks on the whole grid (the STL import is an input, as in `MaterialModel`). -/
structure Job (K : Type _) where
  size : ℕ
  Nx : ℕ
  Ny : ℕ
  Nz : ℕ
  x : ℕ → K
  y : ℕ → K
  zmin : K
  zmax : K
  bc : Faces String
  eps0 : K
  mu0 : K
  bg : MatSpec K
  dict : String → Option (MatSpec K)
  solids : List Solid
  dt : K
  /-- number of PML layers, the spacing function `pml_func` (`np.geomspace`) and its two end values -/
  nPml : ℕ
  geom : K → K → ℕ → ℕ → K
  pmlLo : K
  pmlHi : K

namespace Job
variable (J : Job K)

/-- Global cell count of the distributed run (gridFIT3D.py:308-310): the largest multiple of `size`. -/
def NZ : ℕ := J.Nz - J.Nz % J.size

/-- solverFIT3D.py:246-256: PML filling if some face is PML. -/
def stage (bc : Faces String) (t : Mats K) : Py (Mats K) :=
  if anyFace isPml bc then fillPml J.geom J.pmlLo J.pmlHi J.nPml bc t else .ok t

/-- Construction of the solver of rank `r`: gridFIT3D.py:301-353, 257-299; solverFIT3D.py:727-733, 111-329.  The
step requested by the user may be reduced by the relaxation times of the rank's own cells. -/
def rank (r : ℕ) : Py (Solver K) := do
  let m ← Grid.mpiInitialize r J.size J.Nz J.zmin J.zmax
  let t ← materials J.Nx J.Ny m.Nz J.eps0 J.mu0 (anyFace isPml (mpiBC r J.size J.bc)) J.bg J.dict (localSolids r J.size m.NZ J.solids)
  let t ← J.stage (mpiBC r J.size J.bc) t
  let d ← limitDt t J.dt
  return build (rankGrid J.Nx J.Ny J.x J.y m) (mpiBC r J.size J.bc) t.ieps.array t.imu.array t.sigma.array d t.useCond

/-- Construction of the serial solver on the same global grid. -/
def serial : Py (Solver K) := do
  let t ← materials J.Nx J.Ny J.NZ J.eps0 J.mu0 (anyFace isPml J.bc) J.bg J.dict J.solids
  let t ← J.stage J.bc t
  let d ← limitDt t J.dt
  return build (Grid.computeGrid J.Nx J.Ny J.NZ J.x J.y (Grid.linspace J.zmin J.zmax J.NZ)) J.bc t.ieps.array t.imu.array t.sigma.array
    d t.useCond

end Job

/-! ### Specification -/

/-- Transverse faces PEC (or "electric"); the z faces are neither PMC nor a periodic pair.  They may be PEC, PML, ABC,
or any other name (an open end). -/
structure PlainBC (bc : Faces String) : Prop where
  pec : ∀ axis s, axis < 2 → isPec (faceName bc axis s) = true ∧ isPml (faceName bc axis s) = false
  pmc : ∀ s, isPmcAny (faceName bc 2 s) = false
  per : ¬ (isPeriodic bc.zlo = true ∧ isPeriodic bc.zhi = true)

/-! ### Materials -/

/-- The masks of a rank are those of the whole grid. -/
theorem lastHit_local (P : String → Bool) (rank size NZ : ℕ) (solids : List Solid) (i j k : ℕ) :
    (lastHit (fun s : Solid => s.2 i j k && P s.1) (localSolids rank size NZ solids)).map (fun s => s.1) =
    (lastHit (fun s : Solid => s.2 i j (rank * (NZ / size) + k - if 0 < rank then 1 else 0) && P s.1) solids).map (fun s => s.1) := by
  induction solids with
  | nil => rfl
  | cons s l ih =>
    have e : localSolids rank size NZ (s :: l) =
      (s.1, fun i j k => s.2 i j (rank * (NZ / size) + k - if 0 < rank then 1 else 0)) :: localSolids rank size NZ l := rfl
    rw [e, lastHit_cons, lastHit_cons]
    revert ih
    cases lastHit (fun s : Solid => s.2 i j k && P s.1) (localSolids rank size NZ l) <;>
      cases lastHit (fun s : Solid => s.2 i j (rank * (NZ / size) + k - if 0 < rank then 1 else 0) && P s.1) l <;>
        simp <;> split_ifs <;> simp

omit [IsStrictOrderedRing K] in
/-- **C34 (materials).** The material tensors of a rank (before PML filling) are the restriction of the serial ones
to its layers, and the materials contribute the same to the conductivity flag. -/
theorem C34_materials_restrict {Nx Ny NZ m : ℕ} {eps0 mu0 : K} {bg : MatSpec K} {dict : String → Option (MatSpec K)}
    {solids : List Solid} {rank size : ℕ} {tr tg : Mats K} {ur ug : Bool}
    (hr : materials Nx Ny m eps0 mu0 ur bg dict (localSolids rank size NZ solids) = .ok tr)
    (hg : materials Nx Ny NZ eps0 mu0 ug bg dict solids = .ok tg) :
    (∃ b : Bool, tr.useCond = (ur || b) ∧ tg.useCond = (ug || b)) ∧ ∀ c i j k, c < 3 → i < Nx → j < Ny → k < m →
      rank * (NZ / size) + k - (if 0 < rank then 1 else 0) < NZ →
      let K' := rank * (NZ / size) + k - (if 0 < rank then 1 else 0)
      tr.ieps.array (pos Nx Ny m c i j k) = tg.ieps.array (pos Nx Ny NZ c i j K') ∧
      tr.imu.array (pos Nx Ny m c i j k) = tg.imu.array (pos Nx Ny NZ c i j K') ∧
      tr.sigma.array (pos Nx Ny m c i j k) = tg.sigma.array (pos Nx Ny NZ c i j K') := by
  obtain ⟨⟨mb, hb⟩, hkn⟩ := materials_known hg
  have hkr : ∀ s ∈ localSolids rank size NZ solids, ∃ spec m, dict s.1 = some spec ∧ MeansMaterial spec m := by
    intro s hs
    obtain ⟨s', hs', rfl⟩ := List.mem_map.1 hs
    exact hkn s' hs'
  obtain ⟨tr', h1, hsr, hur, hcr⟩ := materials_ok (Nx := Nx) (Ny := Ny) (Nz := m) (eps0 := eps0) (mu0 := mu0) (use0 := ur) hb hkr
  obtain ⟨tg', h2, hsg, hug, hcg⟩ := materials_ok (Nx := Nx) (Ny := Ny) (Nz := NZ) (eps0 := eps0) (mu0 := mu0) (use0 := ug) hb hkn
  rw [hr] at h1; rw [hg] at h2
  obtain rfl : tr = tr' := by injection h1
  obtain rfl : tg = tg' := by injection h2
  refine ⟨?_, ?_⟩
  · refine ⟨mb.sigma.isSome || solids.any fun s => (matOf dict s.1).sigma.isSome, ?_, ?_⟩
    · rw [hur, Bool.or_assoc]
      congr 2
      unfold localSolids
      rw [List.any_map]; rfl
    · rw [hug, Bool.or_assoc]
  · intro c i j k hc hi hj hk hK K'
    have key : ∀ {f : Fld K} {N : ℕ}, (f.Nx = Nx ∧ f.Ny = Ny ∧ f.Nz = N) → ∀ q, f.at3 c i j q = f.array (pos Nx Ny N c i j q) := by
      rintro f N ⟨rfl, rfl, rfl⟩ q; rfl
    obtain ⟨a1, a2, a3⟩ := hcr c hc i hi j hj k hk
    obtain ⟨b1, b2, b3⟩ := hcg c hc i hi j hj K' hK
    rw [key hsr.e] at a1; rw [key hsr.m] at a2; rw [key hsr.s] at a3
    rw [key hsg.e] at b1; rw [key hsg.m] at b2; rw [key hsg.s] at b3
    rw [a1, a2, a3, b1, b2, b3]
    have hl := lastHit_local (fun _ => true) rank size NZ solids i j k
    simp only [Bool.and_true] at hl
    have hl2 := lastHit_local (fun s => (matOf dict s).sigma.isSome || decide (0 < mb.sigma.getD 0)) rank size NZ solids i j k
    have mm : ∀ {β : Type _} (f : String → β) (o : Option Solid), (o.map fun s => f s.1) = (o.map fun s => s.1).map f := by
      intro β f o; cases o <;> rfl
    refine ⟨?_, ?_, ?_⟩
    · rw [mm (fun s => (matOf dict s).eps.over 1 eps0), mm (fun s => (matOf dict s).eps.over 1 eps0), hl]
    · rw [mm (fun s => (matOf dict s).mu.over 1 mu0), mm (fun s => (matOf dict s).mu.over 1 mu0), hl]
    · rw [mm (fun s => (matOf dict s).sigma.getD 0), mm (fun s => (matOf dict s).sigma.getD 0), hl2]

/-! ### PML on the z faces -/

omit [Field K] [LinearOrder K] [IsStrictOrderedRing K] in
theorem anyFace_eq {bc : Faces String} {t : String → Bool} (h : ∀ axis s, axis < 2 → t (faceName bc axis s) = false) :
    anyFace t bc = (t bc.zlo || t bc.zhi) := by
  have a := h 0 .lo (by decide); have b := h 0 .hi (by decide)
  have c := h 1 .lo (by decide); have d := h 1 .hi (by decide)
  simp only [faceName, Faces.lo, Faces.hi, if_true, if_false, one_ne_zero] at a b c d
  simp [anyFace, a, b, c, d]

omit [IsStrictOrderedRing K] in
/-- PML filling when only z faces are PML, cell by cell. -/
theorem stage_z (J : Job K) {bc : Faces String} (hxy : ∀ axis s, axis < 2 → isPml (faceName bc axis s) = false) {Nz : ℕ}
    (hx : 0 < J.Nx) (hy : 0 < J.Ny) (hz : 0 < Nz) {t t' : Mats K} (ht : t.Sized J.Nx J.Ny Nz)
    (hsep : isPml bc.zlo = true → isPml bc.zhi = true → 2 * J.nPml + 1 ≤ Nz) (h : J.stage bc t = .ok t') :
    t'.Sized J.Nx J.Ny Nz ∧ t'.imu = t.imu ∧ t'.useCond = t.useCond ∧ (isPml bc.zlo = true → J.nPml + 1 < Nz) ∧
      (isPml bc.zhi = true → J.nPml < Nz ∧ 0 < J.nPml) ∧
      ∀ c < 3, ∀ i < J.Nx, ∀ j < J.Ny, ∀ k < Nz,
        t'.ieps.at3 c i j k = (if isPml bc.zhi = true ∧ Nz - 1 - k < J.nPml then t.ieps.at3 c (J.Nx / 2) (J.Ny / 2) (Nz - (J.nPml + 1))
          else if isPml bc.zlo = true ∧ k < J.nPml then t.ieps.at3 c (J.Nx / 2) (J.Ny / 2) (J.nPml + 1) else t.ieps.at3 c i j k) ∧
        t'.sigma.at3 c i j k = (if isPml bc.zhi = true ∧ Nz - 1 - k < J.nPml then
            pmlSigma (t.sigma.at3 c (J.Nx / 2) (J.Ny / 2) (Nz - (J.nPml + 1))) (profAt J.geom J.pmlLo J.pmlHi J.nPml .hi (Nz - 1 - k))
          else if isPml bc.zlo = true ∧ k < J.nPml then
            pmlSigma (t.sigma.at3 c (J.Nx / 2) (J.Ny / 2) (J.nPml + 1)) (profAt J.geom J.pmlLo J.pmlHi J.nPml .lo k)
          else t.sigma.at3 c i j k) := by
  have hc2 : ∀ a b c : ℕ, coord 2 a b c = c := fun _ _ _ => rfl
  have hr2 : ∀ ref, refCell J.Nx J.Ny Nz 2 ref = (J.Nx / 2, J.Ny / 2, ref) := fun _ => rfl
  have h0 := hxy 0 .lo (by decide); have h1 := hxy 1 .lo (by decide)
  have h2 := hxy 0 .hi (by decide); have h3 := hxy 1 .hi (by decide)
  have hz1 : faceName bc 2 .lo = bc.zlo := rfl
  have hz2 : faceName bc 2 .hi = bc.zhi := rfl
  unfold Job.stage at h
  rw [anyFace_eq hxy] at h
  by_cases hp : (isPml bc.zlo || isPml bc.zhi) = true
  · rw [if_pos hp, fillPml_eq] at h
    simp only [pmlOrder, fillFaces, h0, h1, h2, h3, hz1, hz2, bind, Except.bind, if_false, Bool.false_eq_true] at h
    -- the low face
    obtain ⟨t1, hok1, s1, i1, u1, hf1, hc1⟩ : ∃ t1, (if isPml bc.zlo = true then pmlSide J.geom J.pmlLo J.pmlHi J.nPml 2 .lo t else .ok t) = .ok t1 ∧
        t1.Sized J.Nx J.Ny Nz ∧ t1.imu = t.imu ∧ t1.useCond = t.useCond ∧ (isPml bc.zlo = true → J.nPml + 1 < Nz) ∧
        ∀ c < 3, ∀ i < J.Nx, ∀ j < J.Ny, ∀ k < Nz,
          t1.ieps.at3 c i j k = (if isPml bc.zlo = true ∧ k < J.nPml then t.ieps.at3 c (J.Nx / 2) (J.Ny / 2) (J.nPml + 1) else t.ieps.at3 c i j k) ∧
          t1.sigma.at3 c i j k = (if isPml bc.zlo = true ∧ k < J.nPml then
            pmlSigma (t.sigma.at3 c (J.Nx / 2) (J.Ny / 2) (J.nPml + 1)) (profAt J.geom J.pmlLo J.pmlHi J.nPml .lo k) else t.sigma.at3 c i j k) := by
      by_cases hl : isPml bc.zlo = true
      · rw [if_pos hl] at h ⊢
        cases hs : pmlSide J.geom J.pmlLo J.pmlHi J.nPml 2 .lo t with
        | error e => rw [hs] at h; simp at h
        | ok t1 =>
          have hfit := pmlSide_fits J.geom J.pmlLo J.pmlHi (n := J.nPml) .lo (by decide) hx hy ht hs
          obtain ⟨t1', hs', eff⟩ := pmlSide_ok J.geom J.pmlLo J.pmlHi (n := J.nPml) .lo (show 2 < 3 by decide) hx hy hz ht hfit
          obtain rfl : t1 = t1' := by rw [hs] at hs'; injection hs'
          refine ⟨t1, rfl, eff.sized, eff.imu, eff.cond, fun _ => hfit, fun c hc i hi j hj k hk => ?_⟩
          simp only [hl, true_and]
          by_cases hk1 : k < J.nPml
          · rw [if_pos hk1, if_pos hk1]; exact eff.inside c hc i hi j hj k hk hk1
          · rw [if_neg hk1, if_neg hk1]; exact eff.outside c hc i hi j hj k hk hk1
      · rw [if_neg hl]
        exact ⟨t, rfl, ht, rfl, rfl, fun hh => absurd hh hl, fun c hc i hi j hj k hk => by simp [hl]⟩
    replace h : (if isPml bc.zhi = true then pmlSide J.geom J.pmlLo J.pmlHi J.nPml 2 .hi t1 else .ok t1) = .ok t' := by
      by_cases hl : isPml bc.zlo = true
      · rw [if_pos hl] at hok1 h
        rw [hok1] at h
        rw [← h]
        simp only
        split_ifs
        · cases pmlSide J.geom J.pmlLo J.pmlHi J.nPml 2 .hi t1 <;> rfl
        · rfl
      · rw [if_neg hl] at hok1 h
        obtain rfl : t = t1 := by injection hok1
        rw [← h]
        split_ifs
        · cases pmlSide J.geom J.pmlLo J.pmlHi J.nPml 2 .hi t <;> rfl
        · rfl
    by_cases hh : isPml bc.zhi = true
    · rw [if_pos hh] at h
      cases hs : pmlSide J.geom J.pmlLo J.pmlHi J.nPml 2 .hi t1 with
      | error e => rw [hs] at h; simp at h
      | ok t2 =>
        rw [hs] at h
        obtain rfl : t2 = t' := by injection h
        have hfit := pmlSide_fits J.geom J.pmlLo J.pmlHi (n := J.nPml) .hi (by decide) hx hy s1 hs
        have hfit' : J.nPml < Nz ∧ 0 < J.nPml := hfit
        obtain ⟨t2', hs', eff⟩ := pmlSide_ok J.geom J.pmlLo J.pmlHi (n := J.nPml) .hi (show 2 < 3 by decide) hx hy hz s1 hfit
        obtain rfl : t2 = t2' := by rw [hs] at hs'; injection hs'
        refine ⟨eff.sized, eff.imu.trans i1, eff.cond.trans u1, hf1, fun _ => hfit, fun c hc i hi j hj k hk => ?_⟩
        have href := hc1 c hc (J.Nx / 2) (by omega) (J.Ny / 2) (by omega) (Nz - (J.nPml + 1)) (by omega)
        have hno : ¬ (isPml bc.zlo = true ∧ Nz - (J.nPml + 1) < J.nPml) := by
          rintro ⟨a, b⟩; have := hsep a hh; omega
        rw [if_neg hno, if_neg hno] at href
        simp only [hh, true_and]
        by_cases hk1 : Nz - 1 - k < J.nPml
        · rw [if_pos hk1, if_pos hk1]
          have := eff.inside c hc i hi j hj k hk hk1
          rw [← href.1, ← href.2]
          exact this
        · rw [if_neg hk1, if_neg hk1]
          have := eff.outside c hc i hi j hj k hk hk1
          rw [this.1, this.2]
          exact hc1 c hc i hi j hj k hk
    · rw [if_neg hh] at h
      obtain rfl : t1 = t' := by injection h
      exact ⟨s1, i1, u1, hf1, fun a => absurd a hh, fun c hc i hi j hj k hk => by simp only [hh, false_and, if_false]; exact hc1 c hc i hi j hj k hk⟩
  · rw [if_neg hp] at h
    obtain rfl : t = t' := by injection h
    have hp' : isPml bc.zlo = false ∧ isPml bc.zhi = false := by simpa using hp
    exact ⟨ht, rfl, rfl, by simp [hp'], by simp [hp'], fun c hc i hi j hj k hk => by simp [hp']⟩

/-! ### Layers of the ranks -/

theorem slab_facts {size n r : ℕ} (hs : 2 ≤ size) (hn : 0 < n) (hr : r < size) :
    off n r + (n + Grid.ghostLo r + Grid.ghostHi r size) ≤ size * n ∧ (r = 0 → off n r = 0) ∧ (0 < r → n ≤ off n r + 1) ∧
      (r + 1 = size → off n r + (n + Grid.ghostLo r + Grid.ghostHi r size) = size * n) ∧
      (r + 1 < size → off n r + (n + Grid.ghostLo r + Grid.ghostHi r size) + n ≤ size * n + 1) ∧
      n + 1 ≤ n + Grid.ghostLo r + Grid.ghostHi r size ∧ 2 * n ≤ size * n := by
  have h1 : (r + 1) * n ≤ size * n := Nat.mul_le_mul_right _ hr
  have h2 : (r + 1) * n = r * n + n := by ring
  have h4 : 2 * n ≤ size * n := Nat.mul_le_mul_right _ hs
  have h3 : r + 1 < size → (r + 1 + 1) * n ≤ size * n := fun hlt => Nat.mul_le_mul_right _ hlt
  have h5 : (r + 1 + 1) * n = r * n + n + n := by ring
  have h6 : r + 1 = size → r * n + n = size * n := fun he => by rw [← he]; ring
  have h7 : 0 < r → n ≤ r * n := fun h0 => Nat.le_mul_of_pos_left _ h0
  have h8 : r = 0 → r * n = 0 := fun h0 => by rw [h0, Nat.zero_mul]
  unfold off Grid.ghostLo Grid.ghostHi
  generalize r * n = a at *
  generalize size * n = b at *
  by_cases h0 : 0 < r
  · by_cases hlt : r + 1 < size
    · have := h3 hlt; have := h7 h0
      simp only [h0, hlt, true_or, if_true]
      omega
    · have := h7 h0
      have e : ¬ (r + 1 < size ∨ size = 1) := by omega
      simp only [h0, e, if_true, if_false]
      have := h6 (by omega)
      omega
  · have hlt : r + 1 < size := by omega
    have q1 := h3 hlt
    have q2 := h8 (by omega)
    rw [h5] at q1
    simp only [h0, hlt, true_or, if_true, if_false]
    refine ⟨?_, ?_, ?_, ?_, ?_, ?_, ?_⟩ <;> intros <;> first | omega | contradiction

theorem isPec_others {s : String} (h : isPec s = true) : isPmcAny s = false ∧ isPeriodic s = false ∧ isAbc s = false := by
  unfold isPec at h
  unfold isPmcAny isPeriodic isAbc
  simp only [Bool.or_eq_true, decide_eq_true_eq] at h
  rcases h with (h | h) | h <;> rw [h] <;> decide

theorem mpiBC_z (r size : ℕ) (bc : Faces String) :
    (mpiBC r size bc).zlo = (if 0 < r then "mpi" else bc.zlo) ∧ (mpiBC r size bc).zhi = (if r + 1 < size then "mpi" else bc.zhi) := by
  unfold mpiBC
  by_cases a : 0 < r <;> by_cases b : r + 1 < size <;> simp [a, b]

theorem mpiBC_xy {t : String → Bool} (ht : t "pec" = false) (r size : ℕ) (bc : Faces String)
    (h : ∀ axis s, axis < 2 → t (faceName bc axis s) = false) : ∀ axis s, axis < 2 → t (faceName (mpiBC r size bc) axis s) = false := by
  intro axis sd ha
  have h0 := h 0 .lo (by decide); have h1 := h 1 .lo (by decide)
  have h2 := h 0 .hi (by decide); have h3 := h 1 .hi (by decide)
  simp only [faceName, Faces.lo, Faces.hi, if_true, if_false, one_ne_zero] at h0 h1 h2 h3
  have : axis = 0 ∨ axis = 1 := by omega
  unfold mpiBC
  rcases this with rfl | rfl <;> cases sd <;> by_cases a : 0 < r <;> by_cases b : r + 1 < size <;>
    simp [faceName, Faces.lo, Faces.hi, a, b, ht, h0, h1, h2, h3]

omit [IsStrictOrderedRing K] in
/-- PML filling keeps the restriction. -/
theorem stage_restrict (J : Job K) {n r : ℕ} (hs : 2 ≤ J.size) (hn : 0 < n) (hr : r < J.size) (hx : 0 < J.Nx) (hy : 0 < J.Ny)
    (hbc : ∀ axis s, axis < 2 → isPml (faceName J.bc axis s) = false)
    (hpml : isPml J.bc.zlo = true ∨ isPml J.bc.zhi = true → J.nPml < n) {tr tg tr' tg' : Mats K}
    (str : tr.Sized J.Nx J.Ny (n + Grid.ghostLo r + Grid.ghostHi r J.size)) (stg : tg.Sized J.Nx J.Ny (J.size * n))
    (h : ∀ c < 3, ∀ i < J.Nx, ∀ j < J.Ny, ∀ k < n + Grid.ghostLo r + Grid.ghostHi r J.size,
      tr.ieps.at3 c i j k = tg.ieps.at3 c i j (off n r + k) ∧ tr.sigma.at3 c i j k = tg.sigma.at3 c i j (off n r + k))
    (h1 : J.stage (mpiBC r J.size J.bc) tr = .ok tr') (h2 : J.stage J.bc tg = .ok tg') :
    tr'.Sized J.Nx J.Ny (n + Grid.ghostLo r + Grid.ghostHi r J.size) ∧ tg'.Sized J.Nx J.Ny (J.size * n) ∧
    tr'.imu = tr.imu ∧ tg'.imu = tg.imu ∧ tr'.useCond = tr.useCond ∧ tg'.useCond = tg.useCond ∧
    ∀ c < 3, ∀ i < J.Nx, ∀ j < J.Ny, ∀ k < n + Grid.ghostLo r + Grid.ghostHi r J.size,
      tr'.ieps.at3 c i j k = tg'.ieps.at3 c i j (off n r + k) ∧ tr'.sigma.at3 c i j k = tg'.sigma.at3 c i j (off n r + k) := by
  obtain ⟨f1, f2, f3, f4, f5, f6, f7⟩ := slab_facts hs hn hr
  obtain ⟨z1, z2⟩ := mpiBC_z r J.size J.bc
  have np : isPml "mpi" = false := by decide
  generalize n + Grid.ghostLo r + Grid.ghostHi r J.size = m at *
  generalize J.size * n = NZ at *
  generalize off n r = o at *
  have hsr : isPml (mpiBC r J.size J.bc).zlo = true → isPml (mpiBC r J.size J.bc).zhi = true → 2 * J.nPml + 1 ≤ m := by
    rw [z1, z2]
    intro a b
    split_ifs at a b <;> first | omega | simp [np] at a b
  have hsg : isPml J.bc.zlo = true → isPml J.bc.zhi = true → 2 * J.nPml + 1 ≤ NZ := by
    intro a b; have := hpml (.inl a); omega
  obtain ⟨a1, a2, a3, a4, a5, a6⟩ := stage_z J (mpiBC_xy (by decide) r J.size J.bc hbc) hx hy (by omega) str hsr h1
  obtain ⟨b1, b2, b3, b4, b5, b6⟩ := stage_z J hbc hx hy (by omega) stg hsg h2
  refine ⟨a1, b1, a2, b2, a3, b3, fun c hc i hi j hj k hk => ?_⟩
  obtain ⟨e1, e2⟩ := a6 c hc i hi j hj k hk
  obtain ⟨g1, g2⟩ := b6 c hc i hi j hj (o + k) (by omega)
  rw [e1, e2, g1, g2]
  have cH : (isPml (mpiBC r J.size J.bc).zhi = true ∧ m - 1 - k < J.nPml) ↔ (isPml J.bc.zhi = true ∧ NZ - 1 - (o + k) < J.nPml) := by
    rw [z2]
    by_cases ht : r + 1 < J.size
    · rw [if_pos ht]
      have := f5 ht
      constructor
      · rintro ⟨a, -⟩; simp [np] at a
      · rintro ⟨a, b⟩; have := hpml (.inr a); omega
    · rw [if_neg ht]
      have := f4 (by omega)
      rw [show NZ - 1 - (o + k) = m - 1 - k by omega]
  have cL : (isPml (mpiBC r J.size J.bc).zlo = true ∧ k < J.nPml) ↔ (isPml J.bc.zlo = true ∧ o + k < J.nPml) := by
    rw [z1]
    by_cases h0 : 0 < r
    · rw [if_pos h0]
      have := f3 h0
      constructor
      · rintro ⟨a, -⟩; simp [np] at a
      · rintro ⟨a, b⟩; have := hpml (.inl a); omega
    · rw [if_neg h0, f2 (by omega), Nat.zero_add]
  simp only [cH, cL]
  have hX : J.Nx / 2 < J.Nx := Nat.div_lt_self hx (by decide)
  have hY : J.Ny / 2 < J.Ny := Nat.div_lt_self hy (by decide)
  by_cases dH : isPml J.bc.zhi = true ∧ NZ - 1 - (o + k) < J.nPml
  · have hp := hpml (.inr dH.1)
    have ht : r + 1 = J.size := by
      by_contra hne
      have := f5 (by omega); omega
    have hm := f4 ht
    obtain ⟨q1, q2⟩ := h c hc _ hX _ hY (m - (J.nPml + 1)) (by omega)
    rw [if_pos dH, if_pos dH, if_pos dH, if_pos dH, q1, q2, show o + (m - (J.nPml + 1)) = NZ - (J.nPml + 1) by omega,
      show NZ - 1 - (o + k) = m - 1 - k by omega]
    exact ⟨rfl, rfl⟩
  · rw [if_neg dH, if_neg dH, if_neg dH, if_neg dH]
    by_cases dL : isPml J.bc.zlo = true ∧ o + k < J.nPml
    · have hp := hpml (.inl dL.1)
      have h0 : r = 0 := by
        by_contra hne
        have := f3 (by omega); omega
      have ho := f2 h0
      obtain ⟨q1, q2⟩ := h c hc _ hX _ hY (J.nPml + 1) (by omega)
      rw [if_pos dL, if_pos dL, if_pos dL, if_pos dL, q1, q2, ho, Nat.zero_add, Nat.zero_add]
      exact ⟨rfl, rfl⟩
    · rw [if_neg dL, if_neg dL, if_neg dL, if_neg dL]
      exact h c hc i hi j hj k hk

/-! ### Metric -/

omit [IsStrictOrderedRing K] in
theorem linspace_lin (a b : K) {N : ℕ} [CharZero K] (hN : 0 < N) (l : ℕ) : Grid.linspace a b N l = a + l * ((b - a) / N) := by
  unfold Grid.linspace
  split_ifs with he
  · rw [he.1]
    have : (N : K) ≠ 0 := by exact_mod_cast hN.ne'
    field_simp
    ring
  · rfl

omit [LinearOrder K] [IsStrictOrderedRing K] in
/-- The dual metric in use when the transverse faces are PEC and z is not periodic. -/
theorem metric_z (g : Grid.Geom K) {bc : Faces String} (hxy : ∀ axis s, axis < 2 → isPeriodic (faceName bc axis s) = false ∧
    isAbc (faceName bc axis s) = false) (hper : ¬ (isPeriodic bc.zlo = true ∧ isPeriodic bc.zhi = true)) :
    abcMetric g bc (periodicMetric g bc) = if isAbc bc.zhi = true then wrapMetric g.L g.iA (g.tL, g.itA) 2 else (g.tL, g.itA) := by
  have h0 := hxy 0 .lo (by decide); have h1 := hxy 1 .lo (by decide)
  have h2 := hxy 0 .hi (by decide); have h3 := hxy 1 .hi (by decide)
  simp only [faceName, Faces.lo, Faces.hi, if_true, if_false, one_ne_zero] at h0 h1 h2 h3
  have hp : periodicMetric g bc = (g.tL, g.itA) := by
    unfold periodicMetric
    have e : (isPeriodic bc.zlo && isPeriodic bc.zhi) = false := by
      rw [Bool.and_eq_false_iff]
      by_contra hc
      push Not at hc
      exact hper ⟨by simpa using hc.1, by simpa using hc.2⟩
    simp [h0, h1, e]
  rw [hp]
  unfold abcMetric
  rw [anyFace_eq fun a s h => (hxy a s h).2]
  by_cases hz : isAbc bc.zhi = true
  · simp [hz, h2, h3]
  · simp [hz, h2, h3]

omit [LinearOrder K] [IsStrictOrderedRing K] in
/-- The dual metric of a slab of a grid with equal layers, ABC included. -/
theorem metric_restrict [DecidableEq K] {Nx Ny m NZ o r size : ℕ} {x y zl zg : ℕ → K} {bc : Faces String}
    (hxy : ∀ axis s, axis < 2 → isPeriodic (faceName bc axis s) = false ∧ isAbc (faceName bc axis s) = false)
    (hper : ¬ (isPeriodic bc.zlo = true ∧ isPeriodic bc.zhi = true)) (hz : SlabNodes m o zl zg) (hin : o + m ≤ NZ)
    (htop : r + 1 = size → o + m = NZ) (htop' : ¬ r + 1 < size → o + m = NZ) (heq : ∀ l < NZ, zg (l + 1) - zg l = zg 1 - zg 0)
    {c i j k : ℕ} (hc : c < 3) (hi : i < Nx) (hj : j < Ny) (hk : k < m) (ht : k + 1 < m ∨ r + 1 = size) :
    let gl := Grid.computeGrid Nx Ny m x y zl
    let gg := Grid.computeGrid Nx Ny NZ x y zg
    let ml := abcMetric gl (mpiBC r size bc) (periodicMetric gl (mpiBC r size bc))
    let mg := abcMetric gg bc (periodicMetric gg bc)
    ml.1.at3 c i j k = mg.1.at3 c i j (o + k) ∧ ml.2.at3 c i j k = mg.2.at3 c i j (o + k) := by
  intro gl gg ml mg
  obtain ⟨z1, z2⟩ := mpiBC_z r size bc
  have n1 : isAbc "mpi" = false := by decide
  have n2 : isPeriodic "mpi" = false := by decide
  have ht' : k + 1 < m ∨ o + m = NZ := ht.imp id htop
  have t1 : gl.tL.at3 c i j k = gg.tL.at3 c i j (o + k) := tL_agree hz hin hc hi hj hk ht'
  have t2 : gl.itA.at3 c i j k = gg.itA.at3 c i j (o + k) := itA_agree hz hin hc hi hj hk ht'
  have hxyr : ∀ axis s, axis < 2 → isPeriodic (faceName (mpiBC r size bc) axis s) = false ∧ isAbc (faceName (mpiBC r size bc) axis s) = false :=
    fun a s h => ⟨mpiBC_xy (by decide) r size bc (fun a s h => (hxy a s h).1) a s h, mpiBC_xy (by decide) r size bc (fun a s h => (hxy a s h).2) a s h⟩
  have hperr : ¬ (isPeriodic (mpiBC r size bc).zlo = true ∧ isPeriodic (mpiBC r size bc).zhi = true) := by
    rw [z1, z2]
    rintro ⟨a, b⟩
    split_ifs at a b <;> simp_all
  have e1 : ml = _ := metric_z gl hxyr hperr
  have e2 : mg = _ := metric_z gg hxy hper
  rw [e1, e2, z2]
  by_cases hl : r + 1 < size
  · rw [if_pos hl, n1, if_neg (by decide)]
    have hk1 : k + 1 < m := by omega
    by_cases ha : isAbc bc.zhi = true
    · rw [if_pos ha, wrapMetric_tL (hi := hi) (hj := hj) (hk := show o + k < NZ by omega),
        wrapMetric_itA (ha := by decide) (hc := hc) (hi := hi) (hj := hj) (hk := show o + k < NZ by omega)]
      have l1 : ¬ (coord 2 i j (o + k) = lastIdx gg.tL 2) := by
        show ¬ (o + k = NZ - 1); omega
      have l2 : ¬ (coord 2 i j (o + k) = lastIdx gg.itA 2) := by
        show ¬ (o + k = NZ - 1); omega
      rw [if_neg (fun h => l1 h.2), if_neg (fun h => l2 h.2)]
      exact ⟨t1, t2⟩
    · rw [if_neg ha]; exact ⟨t1, t2⟩
  · rw [if_neg hl]
    by_cases ha : isAbc bc.zhi = true
    · rw [if_pos ha, if_pos ha, wrapMetric_tL (hi := hi) (hj := hj) (hk := hk),
        wrapMetric_itA (ha := by decide) (hc := hc) (hi := hi) (hj := hj) (hk := hk),
        wrapMetric_tL (hi := hi) (hj := hj) (hk := show o + k < NZ by omega),
        wrapMetric_itA (ha := by decide) (hc := hc) (hi := hi) (hj := hj) (hk := show o + k < NZ by omega)]
      have hm : o + m ≤ NZ ∧ (k + 1 = m → o + m = NZ) := ⟨hin, fun _ => htop' hl⟩
      have q1 : (coord 2 i j k = lastIdx gl.tL 2) ↔ (coord 2 i j (o + k) = lastIdx gg.tL 2) := by
        show k = m - 1 ↔ o + k = NZ - 1; have := htop' hl; omega
      have q2 : (coord 2 i j k = lastIdx gl.itA 2) ↔ (coord 2 i j (o + k) = lastIdx gg.itA 2) := by
        show k = m - 1 ↔ o + k = NZ - 1; have := htop' hl; omega
      have hLz : ∀ c' < 3, gl.L.at3 c' i j 0 = gg.L.at3 c' i j 0 := by
        intro c' hc'
        rw [show gl.L.at3 c' i j 0 = gg.L.at3 c' i j (o + 0) from L_agree hz hin hc' hi hj (by omega)]
        show (Grid.diffField _ _ _ _ _ _).at3 _ _ _ _ = (Grid.diffField _ _ _ _ _ _).at3 _ _ _ _
        rw [Grid.diffField_at3 _ _ _ hc' hi hj (by omega), Grid.diffField_at3 _ _ _ hc' hi hj (by omega),
          show zg (o + 0 + 1) - zg (o + 0) = zg (0 + 1) - zg 0 from heq o (by omega)]
      have hA : gl.iA.at3 c i j 0 = gg.iA.at3 c i j 0 := by
        show (Grid.invArea _ _ _ _).at3 _ _ _ _ = (Grid.invArea _ _ _ _).at3 _ _ _ _
        rw [Grid.invArea_at3 (Nx := Nx) (Ny := Ny) (Grid.diffField Nx Ny m x y zl) rfl rfl hc hi hj (by omega),
          Grid.invArea_at3 (Nx := Nx) (Ny := Ny) (Grid.diffField Nx Ny NZ x y zg) rfl rfl hc hi hj (by omega)]
        rw [show (Grid.diffField Nx Ny m x y zl).at3 (Grid.others c).1 i j 0 = (Grid.diffField Nx Ny NZ x y zg).at3 (Grid.others c).1 i j 0
            from hLz _ (others_lt c).1,
          show (Grid.diffField Nx Ny m x y zl).at3 (Grid.others c).2 i j 0 = (Grid.diffField Nx Ny NZ x y zg).at3 (Grid.others c).2 i j 0
            from hLz _ (others_lt c).2]
      simp only [q1, q2]
      constructor
      · split_ifs
        · exact hLz 2 (by decide)
        · exact t1
      · split_ifs
        · exact hA
        · exact t2
    · rw [if_neg ha, if_neg ha]; exact ⟨t1, t2⟩

/-! ### The set-up satisfies the hypotheses of the simulation -/

omit [IsStrictOrderedRing K] in
/-- A step that no cell of the whole grid forces down is not forced down by a rank. -/
theorem limitDt_restrict {Nx Ny m NZ o : ℕ} {tr tg : Mats K} {dt d : K} (str : tr.Sized Nx Ny m) (stg : tg.Sized Nx Ny NZ) (hin : o + m ≤ NZ)
    (h : ∀ c < 3, ∀ i < Nx, ∀ j < Ny, ∀ k < m, tr.ieps.at3 c i j k = tg.ieps.at3 c i j (o + k) ∧ tr.sigma.at3 c i j k = tg.sigma.at3 c i j (o + k))
    (hu : tr.useCond = true → tg.useCond = true) (hr : limitDt tr dt = .ok d) (hg : limitDt tg dt = .ok dt) : d = dt := by
  unfold limitDt at hr hg
  by_cases hc : tr.useCond = true
  · rw [if_pos hc] at hr
    rw [if_pos (hu hc)] at hg
    cases hm : pyMin (taus tr) with
    | error e => rw [hm] at hr; simp [bind, Except.bind] at hr
    | ok tm =>
      cases hM : pyMin (taus tg) with
      | error e => rw [hM] at hg; simp [bind, Except.bind] at hg
      | ok tM =>
        rw [hm] at hr; rw [hM] at hg
        simp only [bind, Except.bind, pure, Except.pure, Except.ok.injEq] at hr hg
        obtain ⟨p1, -⟩ := pyMin_spec hm
        obtain ⟨-, q2⟩ := pyMin_spec hM
        have hle : dt ≤ tM := by
          by_contra hlt
          rw [if_pos (not_le.1 hlt)] at hg
          exact hlt hg.ge
        have hmem : tm ∈ taus tg := by
          unfold taus at p1 ⊢
          obtain ⟨q, hq, rfl⟩ := List.mem_map.1 p1
          rw [List.mem_filter, List.mem_range] at hq
          obtain ⟨hq1, hq2⟩ := hq
          have hN : tr.ieps.N = Nx * Ny * m := by unfold Fld.N; rw [str.e.1, str.e.2.1, str.e.2.2]
          rw [hN] at hq1
          have h0 : 0 < Nx * Ny * m := by omega
          obtain ⟨i, j, k, hi, hj, hk, he⟩ := pos_decode (show q % (Nx * Ny * m) < Nx * Ny * m from Nat.mod_lt _ h0)
          have hcl : q / (Nx * Ny * m) < 3 := Nat.div_lt_of_lt_mul (by rw [Nat.mul_comm]; exact hq1)
          have hqp : q = pos Nx Ny m (q / (Nx * Ny * m)) i j k := by
            unfold pos; rw [← he]; exact (Nat.div_add_mod' q _).symm
          obtain ⟨g1, g2⟩ := h _ hcl i hi j hj k hk
          have k1 : tr.ieps.at3 (q / (Nx * Ny * m)) i j k = tr.ieps.array q := by
            conv_rhs => rw [hqp]
            unfold Fld.at3 Fld.N; rw [str.e.1, str.e.2.1, str.e.2.2]; rfl
          have k2 : tr.sigma.at3 (q / (Nx * Ny * m)) i j k = tr.sigma.array q := by
            conv_rhs => rw [hqp]
            unfold Fld.at3 Fld.N; rw [str.s.1, str.s.2.1, str.s.2.2]; rfl
          have k3 : tg.ieps.at3 (q / (Nx * Ny * m)) i j (o + k) = tg.ieps.array (pos Nx Ny NZ (q / (Nx * Ny * m)) i j (o + k)) := by
            unfold Fld.at3 Fld.N; rw [stg.e.1, stg.e.2.1, stg.e.2.2]; rfl
          have k4 : tg.sigma.at3 (q / (Nx * Ny * m)) i j (o + k) = tg.sigma.array (pos Nx Ny NZ (q / (Nx * Ny * m)) i j (o + k)) := by
            unfold Fld.at3 Fld.N; rw [stg.s.1, stg.s.2.1, stg.s.2.2]; rfl
          rw [k1, k3] at g1; rw [k2, k4] at g2
          rw [g1, g2] at hq2
          rw [g1, g2]
          refine List.mem_map.2 ⟨_, List.mem_filter.2 ⟨List.mem_range.2 ?_, hq2⟩, rfl⟩
          have hN' : tg.ieps.N = Nx * Ny * NZ := by unfold Fld.N; rw [stg.e.1, stg.e.2.1, stg.e.2.2]
          rw [hN']
          exact pos_lt hcl hi hj (by omega)
        have hge : dt ≤ tm := hle.trans (q2 tm hmem)
        rw [if_neg (not_lt.2 hge)] at hr
        exact hr.symm
  · rw [if_neg hc] at hr
    simpa using hr.symm

/-- What the constructors of the ranks and of the serial solver must agree on: with PML on a z face the layers stay
inside one rank's own layers, all compute conduction currents or none does, and the requested time step is not
reduced by the serial solver. -/
structure Agrees (J : Job K) (s : ℕ → Solver K) (S : Solver K) : Prop where
  layers : isPml J.bc.zlo = true ∨ isPml J.bc.zhi = true → J.nPml < J.NZ / J.size
  cond : ∀ r < J.size, (s r).useConductivity = S.useConductivity
  step : S.dt = J.dt

/-- Everything the constructors produce, as a `Dist`. -/
theorem Job.dist (J : Job K) (hs : 2 ≤ J.size) (hx : 0 < J.Nx) (hy : 0 < J.Ny) (hbc : PlainBC J.bc) {s : ℕ → Solver K} {S : Solver K}
    (hr : ∀ r < J.size, J.rank r = .ok (s r)) (hS : J.serial = .ok S) (hag : Agrees J s S) :
    ∃ D : Dist K, D.Ok ∧ D.size = J.size ∧ D.n = J.NZ / J.size ∧ D.Nx = J.Nx ∧ D.Ny = J.Ny ∧ D.NZ = J.NZ ∧ D.bc = J.bc ∧ D.serial = S ∧
      ∀ r < J.size, D.rank r = s r := by
  have hNz : J.size ≤ J.Nz := by
    by_contra hc
    have := hr 0 (by omega)
    simp [Job.rank, Grid.C12_refused 0 J.size J.Nz J.zmin J.zmax (by omega), bind, Except.bind] at this
  have hdvd : J.size ∣ J.NZ := Nat.dvd_sub_mod J.Nz
  obtain ⟨n, hn⟩ : ∃ n, n = J.NZ / J.size := ⟨_, rfl⟩
  have hNZ : J.size * n = J.NZ := by rw [hn]; exact Nat.mul_div_cancel' hdvd
  -- the ranks
  have hex : ∀ r < J.size, ∃ (m : Grid.MpiZ K) (t t' : Mats K) (d : K), m.NZ = J.NZ ∧ m.Nz = n + Grid.ghostLo r + Grid.ghostHi r J.size ∧
      (∀ l ≤ m.Nz, m.z l = J.zmin + ((r * n + l : ℕ) - (Grid.ghostLo r : K)) * ((J.zmax - J.zmin) / J.NZ)) ∧
      materials J.Nx J.Ny m.Nz J.eps0 J.mu0 (anyFace isPml (mpiBC r J.size J.bc)) J.bg J.dict (localSolids r J.size J.NZ J.solids) = .ok t ∧ 0 < n ∧
      J.stage (mpiBC r J.size J.bc) t = .ok t' ∧ limitDt t' J.dt = .ok d ∧
      build (rankGrid J.Nx J.Ny J.x J.y m) (mpiBC r J.size J.bc) t'.ieps.array t'.imu.array t'.sigma.array d t'.useCond = s r := by
    intro r hlt
    obtain ⟨m, hm, h1, h2, h3, h4, h5, h6⟩ := Grid.C12_local_grid (rank := r) (size := J.size) (Nz := J.Nz) J.zmin J.zmax
      (by omega) hlt hNz
    have hmNZ : m.NZ = J.NZ := by
      have := hm
      unfold Grid.mpiInitialize at this
      rw [if_neg (by omega)] at this
      obtain rfl := Except.ok.inj this
      rfl
    have hh := hr r hlt
    rw [Job.rank, hm] at hh
    simp only [bind, Except.bind] at hh
    rw [hmNZ] at hh
    cases ht : materials J.Nx J.Ny m.Nz J.eps0 J.mu0 (anyFace isPml (mpiBC r J.size J.bc)) J.bg J.dict (localSolids r J.size J.NZ J.solids) with
    | error e => rw [ht] at hh; simp at hh
    | ok t =>
      rw [ht] at hh
      simp only at hh
      cases ht' : J.stage (mpiBC r J.size J.bc) t with
      | error e => rw [ht'] at hh; simp at hh
      | ok t' =>
        rw [ht'] at hh
        simp only at hh
        cases hd : limitDt t' J.dt with
        | error e => rw [hd] at hh; simp at hh
        | ok d =>
          rw [hd] at hh
          rw [hmNZ, ← hn] at h4 h5 h6
          exact ⟨m, t, t', d, hmNZ, h5, h6, ht, h4, ht', hd, by simpa [pure, Except.pure] using hh⟩
  have hne : ∀ r, ∃ (m : Grid.MpiZ K) (t t' : Mats K) (d : K), r < J.size → (m.NZ = J.NZ ∧ m.Nz = n + Grid.ghostLo r + Grid.ghostHi r J.size ∧
      (∀ l ≤ m.Nz, m.z l = J.zmin + ((r * n + l : ℕ) - (Grid.ghostLo r : K)) * ((J.zmax - J.zmin) / J.NZ)) ∧
      materials J.Nx J.Ny m.Nz J.eps0 J.mu0 (anyFace isPml (mpiBC r J.size J.bc)) J.bg J.dict (localSolids r J.size J.NZ J.solids) = .ok t ∧ 0 < n ∧
      J.stage (mpiBC r J.size J.bc) t = .ok t' ∧ limitDt t' J.dt = .ok d ∧
      build (rankGrid J.Nx J.Ny J.x J.y m) (mpiBC r J.size J.bc) t'.ieps.array t'.imu.array t'.sigma.array d t'.useCond = s r) := by
    intro r
    by_cases h : r < J.size
    · obtain ⟨m, t, t', d, hh⟩ := hex r h; exact ⟨m, t, t', d, fun _ => hh⟩
    · obtain ⟨m, t, t', d, _⟩ := hex 0 (by omega); exact ⟨m, t, t', d, fun h' => absurd h' h⟩
  choose m t t' d hmt using hne
  -- the serial solver
  have hS' := hS
  rw [Job.serial] at hS'
  obtain ⟨tg, htg⟩ : ∃ tg, materials J.Nx J.Ny J.NZ J.eps0 J.mu0 (anyFace isPml J.bc) J.bg J.dict J.solids = .ok tg := by
    cases hc : materials J.Nx J.Ny J.NZ J.eps0 J.mu0 (anyFace isPml J.bc) J.bg J.dict J.solids with
    | error e => rw [hc] at hS'; simp [bind, Except.bind] at hS'
    | ok tg => exact ⟨tg, rfl⟩
  rw [htg] at hS'
  simp only [bind, Except.bind] at hS'
  obtain ⟨tg', htg'⟩ : ∃ tg', J.stage J.bc tg = .ok tg' := by
    cases hc : J.stage J.bc tg with
    | error e => rw [hc] at hS'; simp at hS'
    | ok tg' => exact ⟨tg', rfl⟩
  rw [htg'] at hS'
  simp only at hS'
  obtain ⟨dg, hdg⟩ : ∃ dg, limitDt tg' J.dt = .ok dg := by
    cases hc : limitDt tg' J.dt with
    | error e => rw [hc] at hS'; simp at hS'
    | ok dg => exact ⟨dg, rfl⟩
  rw [hdg] at hS'
  have hS' : build (Grid.computeGrid J.Nx J.Ny J.NZ J.x J.y (Grid.linspace J.zmin J.zmax J.NZ)) J.bc tg'.ieps.array tg'.imu.array
      tg'.sigma.array dg tg'.useCond = S := by simpa [pure, Except.pure] using hS'
  obtain rfl : dg = J.dt := by rw [← hag.step, ← hS']; rfl
  have hn0 : 0 < n := (hmt 0 (by omega)).2.2.2.2.1
  have ho : ∀ r k, r < J.size → r * (J.NZ / J.size) + k - (if 0 < r then 1 else 0) = off n r + k := by
    intro r k _
    rw [← hn]
    show _ = r * n - (if 0 < r then 1 else 0) + k
    have : 0 < r → n ≤ r * n := fun h0 => Nat.le_mul_of_pos_left _ h0
    split_ifs with h0
    · have := this h0; omega
    · omega
  have hpmlxy : ∀ axis sd, axis < 2 → isPml (faceName J.bc axis sd) = false := fun a sd h => (hbc.pec a sd h).2
  have hsz : ∀ {Nz : ℕ} {u : Bool} {sol : List Solid} {q : Mats K}, materials J.Nx J.Ny Nz J.eps0 J.mu0 u J.bg J.dict sol = .ok q → q.Sized J.Nx J.Ny Nz := by
    intro Nz u sol q hq
    obtain ⟨⟨mb, hb⟩, hkn⟩ := materials_known hq
    obtain ⟨q', h1, h2, -⟩ := materials_ok (Nx := J.Nx) (Ny := J.Ny) (Nz := Nz) (eps0 := J.eps0) (mu0 := J.mu0) (use0 := u) hb hkn
    rw [hq] at h1
    obtain rfl : q = q' := by injection h1
    exact h2
  have hdt : ∀ r < J.size, d r = J.dt ∧ (∀ c < 3, ∀ i < J.Nx, ∀ j < J.Ny, ∀ k < n + Grid.ghostLo r + Grid.ghostHi r J.size,
      (t' r).ieps.at3 c i j k = tg'.ieps.at3 c i j (off n r + k) ∧ (t' r).sigma.at3 c i j k = tg'.sigma.at3 c i j (off n r + k) ∧
      (t' r).imu.at3 c i j k = tg'.imu.at3 c i j (off n r + k)) ∧ (t' r).Sized J.Nx J.Ny (n + Grid.ghostLo r + Grid.ghostHi r J.size) ∧
      tg'.Sized J.Nx J.Ny J.NZ := by
    intro r hlt
    obtain ⟨h1, h2, h3, h4, h5, h6, h7, h8⟩ := hmt r hlt
    rw [h2] at h4
    obtain ⟨f1, f2, f3, f4, f5, f6, f7⟩ := slab_facts hs hn0 hlt
    obtain ⟨⟨b, hb1, hb2⟩, hc⟩ := C34_materials_restrict h4 htg
    have s1 := hsz h4
    have s2 := hsz htg
    have hc' : ∀ c < 3, ∀ i < J.Nx, ∀ j < J.Ny, ∀ k < n + Grid.ghostLo r + Grid.ghostHi r J.size,
        ((t r).ieps.at3 c i j k = tg.ieps.at3 c i j (off n r + k) ∧ (t r).sigma.at3 c i j k = tg.sigma.at3 c i j (off n r + k)) ∧
        (t r).imu.at3 c i j k = tg.imu.at3 c i j (off n r + k) := by
      intro c hc3 i hi j hj k hk
      have := hc c i j k hc3 hi hj hk (by rw [ho r k hlt, ← hNZ]; omega)
      simp only [ho r k hlt] at this
      have key : ∀ {f : Fld K} {N : ℕ}, (f.Nx = J.Nx ∧ f.Ny = J.Ny ∧ f.Nz = N) → ∀ q, f.at3 c i j q = f.array (pos J.Nx J.Ny N c i j q) := by
        rintro f N ⟨e1, e2, e3⟩ q; rw [← e1, ← e2, ← e3]; rfl
      rw [key s1.e, key s1.m, key s1.s, key s2.e, key s2.m, key s2.s]
      exact ⟨⟨this.1, this.2.2⟩, this.2.1⟩
    rw [← hNZ] at s2
    obtain ⟨a1, a2, a3, a4, a5, a6, a7⟩ := stage_restrict J hs hn0 hlt hx hy hpmlxy (by rw [hn]; exact hag.layers) s1 s2
      (fun c h3 i hi j hj k hk => (hc' c h3 i hi j hj k hk).1) h6 htg'
    have hu : (t' r).useCond = true → tg'.useCond = true := by
      intro hu
      have hcond := hag.cond r hlt
      rw [← h8, ← hS'] at hcond
      have q1 : (anyFace isPml (mpiBC r J.size J.bc) || (t' r).useCond) = (anyFace isPml J.bc || tg'.useCond) := hcond
      rw [hu, Bool.or_true] at q1
      by_cases hg : anyFace isPml J.bc = true
      · rw [a6, hb2, hg, Bool.true_or]
      · rw [Bool.not_eq_true] at hg
        rw [hg, Bool.false_or] at q1
        exact q1.symm
    refine ⟨limitDt_restrict a1 a2 f1 a7 hu h7 hdg, fun c h3 i hi j hj k hk => ?_, a1, by rw [← hNZ]; exact a2⟩
    obtain ⟨p1, p2⟩ := a7 c h3 i hi j hj k hk
    refine ⟨p1, p2, ?_⟩
    rw [a3, a4]
    exact (hc' c h3 i hi j hj k hk).2
  let D : Dist K :=
    { size := J.size, n := n, Nx := J.Nx, Ny := J.Ny, x := J.x, y := J.y, z := Grid.linspace J.zmin J.zmax J.NZ, zr := fun r => (m r).z,
      bc := J.bc, ieps := tg'.ieps.array, imu := tg'.imu.array, sigma := tg'.sigma.array, iepsr := fun r => (t' r).ieps.array,
      imur := fun r => (t' r).imu.array, sigmar := fun r => (t' r).sigma.array, dt := J.dt, uc := tg'.useCond, ucr := fun r => (t' r).useCond }
  have hDNZ : D.NZ = J.NZ := hNZ
  have hser : D.serial = S := by
    rw [← hS']
    show build (Grid.computeGrid J.Nx J.Ny D.NZ J.x J.y (Grid.linspace J.zmin J.zmax J.NZ)) _ _ _ _ _ _ = _
    rw [hDNZ]
  have hrank : ∀ r < J.size, D.rank r = s r := by
    intro r hlt
    obtain ⟨h1, h2, h3, h4, h5, h6, h7, h8⟩ := hmt r hlt
    rw [← h8]
    show build (Grid.computeGrid J.Nx J.Ny (n + Grid.ghostLo r + Grid.ghostHi r J.size) J.x J.y (m r).z) _ _ _ _ J.dt _ = _
    rw [← h2, (hdt r hlt).1]; rfl
  refine ⟨D, ?_, rfl, hn, rfl, rfl, hDNZ, rfl, hser, hrank⟩
  have hNZ0 : 0 < J.NZ := by rw [← hNZ]; exact Nat.mul_pos (by omega) hn0
  have hres : ∀ r < J.size, D.Restricts r (t' r).ieps.array tg'.ieps.array ∧
      D.Restricts r (t' r).imu.array tg'.imu.array ∧ D.Restricts r (t' r).sigma.array tg'.sigma.array := by
    intro r hlt
    obtain ⟨-, q, s1, s2⟩ := hdt r hlt
    rw [← hDNZ] at s2
    have key : ∀ {f : Fld K} {N c i j : ℕ}, (f.Nx = J.Nx ∧ f.Ny = J.Ny ∧ f.Nz = N) → ∀ q, f.array (pos J.Nx J.Ny N c i j q) = f.at3 c i j q := by
      rintro f N c i j ⟨e1, e2, e3⟩ q; rw [← e1, ← e2, ← e3]; rfl
    refine ⟨fun c i j k a1 a2 a3 a4 => ?_, fun c i j k a1 a2 a3 a4 => ?_, fun c i j k a1 a2 a3 a4 => ?_⟩
    · exact (key s1.e k).trans ((q c a1 i a2 j a3 k a4).1.trans (key s2.e _).symm)
    · exact (key s1.m k).trans ((q c a1 i a2 j a3 k a4).2.2.trans (key s2.m _).symm)
    · exact (key s1.s k).trans ((q c a1 i a2 j a3 k a4).2.1.trans (key s2.s _).symm)
  have hnodes : ∀ r < J.size, SlabNodes (D.m r) (D.o r) (D.zr r) D.z := by
    intro r hlt l hl
    obtain ⟨h1, h2, h3, -⟩ := hmt r hlt
    show (m r).z l = Grid.linspace J.zmin J.zmax J.NZ (off n r + l)
    rw [h3 l (by rw [h2]; exact hl), linspace_lin _ _ hNZ0]
    congr 2
    have := ho r l hlt
    rw [← hn] at this
    rw [← this]
    have hge : (if 0 < r then 1 else 0) ≤ r * n + l := by
      have : 0 < r → n ≤ r * n := fun h0 => Nat.le_mul_of_pos_left _ h0
      split_ifs with h0
      · have := this h0; omega
      · omega
    rw [Nat.cast_sub hge]
    simp [Grid.ghostLo]
  have hmet : ∀ r < J.size, ∀ c i j k, c < 3 → i < J.Nx → j < J.Ny → k < D.m r → (k + 1 < D.m r ∨ r + 1 = J.size) →
      (D.metricr r).1.at3 c i j k = D.metric.1.at3 c i j (D.o r + k) ∧ (D.metricr r).2.at3 c i j k = D.metric.2.at3 c i j (D.o r + k) := by
    intro r hlt c i j k h3 hi hj hk ht
    obtain ⟨f1, f2, f3, f4, f5, f6, f7⟩ := slab_facts hs hn0 hlt
    refine metric_restrict (NZ := D.NZ) (fun a sd h => (isPec_others (hbc.pec a sd h).1).2) hbc.per (hnodes r hlt) f1 f4
      (fun h => f4 (by omega)) ?_ h3 hi hj hk ht
    intro l hl
    show Grid.linspace J.zmin J.zmax J.NZ (l + 1) - Grid.linspace J.zmin J.zmax J.NZ l =
      Grid.linspace J.zmin J.zmax J.NZ 1 - Grid.linspace J.zmin J.zmax J.NZ 0
    simp only [linspace_lin _ _ hNZ0]
    push_cast; ring
  have hmsize : ∀ (g : Grid.Geom K) (bc : Faces String), g.tL.Nx = g.Nx ∧ g.tL.Ny = g.Ny ∧ g.tL.Nz = g.Nz →
      g.itA.Nx = g.Nx ∧ g.itA.Ny = g.Ny ∧ g.itA.Nz = g.Nz →
      ((abcMetric g bc (periodicMetric g bc)).1.Nx = g.Nx ∧ (abcMetric g bc (periodicMetric g bc)).1.Ny = g.Ny ∧
        (abcMetric g bc (periodicMetric g bc)).1.Nz = g.Nz) ∧
      ((abcMetric g bc (periodicMetric g bc)).2.Nx = g.Nx ∧ (abcMetric g bc (periodicMetric g bc)).2.Ny = g.Ny ∧
        (abcMetric g bc (periodicMetric g bc)).2.Nz = g.Nz) := by
    intro g bc e1 e2
    let Good : Fld K × Fld K → Prop := fun m => (m.1.Nx = g.Nx ∧ m.1.Ny = g.Ny ∧ m.1.Nz = g.Nz) ∧ (m.2.Nx = g.Nx ∧ m.2.Ny = g.Ny ∧ m.2.Nz = g.Nz)
    have hw : ∀ (b : Bool) m axis, Good m → Good (if b = true then wrapMetric g.L g.iA m axis else m) := by
      intro b m axis hm
      cases b
      · exact hm
      · exact hm
    have hi : ∀ (b : Bool) m m', Good m → Good m' → Good (if b = true then m' else m) := by
      intro b m m' h h'; cases b
      · exact h
      · exact h'
    have h0 : Good (g.tL, g.itA) := ⟨e1, e2⟩
    have h1 : Good (periodicMetric g bc) := hi _ _ _ h0 (hw _ _ 2 (hw _ _ 1 (hw _ _ 0 h0)))
    exact hi _ _ _ h1 (hw _ _ 2 (hw _ _ 1 (hw _ _ 0 h1)))
  have hms1 := fun r => hmsize (D.gridr r) (mpiBC r J.size J.bc) ⟨rfl, rfl, rfl⟩ ⟨rfl, rfl, rfl⟩
  have hms2 := hmsize D.grid J.bc ⟨rfl, rfl, rfl⟩ ⟨rfl, rfl, rfl⟩
  have key : ∀ {f : Fld K} {Nx Ny N c i j : ℕ}, (f.Nx = Nx ∧ f.Ny = Ny ∧ f.Nz = N) → ∀ q, f.array (pos Nx Ny N c i j q) = f.at3 c i j q := by
    rintro f Nx Ny N c i j ⟨e1, e2, e3⟩ q; rw [← e1, ← e2, ← e3]; rfl
  refine ⟨hs, hn0, hnodes, (hbc.pec 0 .lo (by decide)).1, (hbc.pec 0 .hi (by decide)).1, (hbc.pec 1 .lo (by decide)).1,
    (hbc.pec 1 .hi (by decide)).1, ?_, ?_, ?_, fun r hlt => (hres r hlt).1, fun r hlt => (hres r hlt).2.1, fun r hlt => (hres r hlt).2.2, ?_⟩
  · show anyFace isPmcAny J.bc = false
    rw [anyFace_eq fun a sd h => (isPec_others (hbc.pec a sd h).1).1]
    have a := hbc.pmc .lo; have b := hbc.pmc .hi
    have a' : isPmcAny J.bc.zlo = false := a
    have b' : isPmcAny J.bc.zhi = false := b
    rw [a', b']; rfl
  · intro r hlt c i j k h3 hi hj hk ht
    exact (key (hms1 r).1 k).trans ((hmet r hlt c i j k h3 hi hj hk ht).1.trans (key hms2.1 _).symm)
  · intro r hlt c i j k h3 hi hj hk ht
    exact (key (hms1 r).2 k).trans ((hmet r hlt c i j k h3 hi hj hk ht).2.trans (key hms2.2 _).symm)
  · intro r hlt
    rw [hrank r hlt, hser]
    exact hag.cond r hlt

omit [LinearOrder K] [IsStrictOrderedRing K] in
theorem runProg_congr {s s' : ℕ → Solver K} {size : ℕ} (h : ∀ r < size, s r = s' r) (n : ℕ) (evs : List (DEv K)) :
    runProg s size n evs = runProg s' size n evs := by
  funext r
  unfold runProg
  congr 1
  funext e
  have hc : ∀ w, communicate s size w r = communicate s' size w r := by
    intro w
    unfold communicate loOps hiOps bufs
    by_cases hr : r < size
    · simp only [h r hr]
    · rw [if_neg (by omega), if_neg (by omega), if_neg (by omega), if_neg (by omega)]
  have hl : ∀ f : Solver K → ℕ → State K → State K, local1 size (fun r => f (s r) r) r = local1 size (fun r => f (s' r) r) r := by
    intro f
    unfold local1
    by_cases hr : r < size
    · simp only [h r hr]
    · rw [if_neg hr, if_neg hr]
  cases e with
  | step =>
    unfold evProg stepProg
    rw [hc, hc, hc, hl (fun s _ => hHalf s), hl (fun s _ => eHalf s), hl (fun s _ => jHalf s)]
  | write f c i j k v => exact hl (fun s r => localWrite s (off n r) f c i j k v)

/-! ### C34 -/

/-- **C34.** Let the ranks of a distributed run and a serial solver be constructed from the same input, with
PEC transverse faces and, on each z face, any of PEC, open, ABC, PML or periodic on one side only.  With PML the
layers lie in the end ranks' own layers; all ranks compute conduction currents or none does (see `Agrees.of_noPml`
and `Agrees.of_two`); the requested time step is one the serial solver keeps.  Then for every history of time steps
and field assignments (through which sources act) that leaves tangential E and J on PEC faces alone, every
buffering behaviour and every schedule of the messages: the run terminates, cannot deadlock, and when
all ranks are done, every rank's E, H and J equal the serial solver's in all its layers, ghost layers
included.  Missing for the full claim: PMC or a periodic pair on the z faces, where it is false
(`C34_pmc_refuted`, `C34_periodic_refuted`), and PML with a rank that does not touch it (`C34_pml_refuted`). -/
theorem C34_distributed_equals_serial_partial (J : Job K) (hs : 2 ≤ J.size) (hx : 0 < J.Nx) (hy : 0 < J.Ny) (hbc : PlainBC J.bc)
    {s : ℕ → Solver K} {S : Solver K} (hr : ∀ r < J.size, J.rank r = .ok (s r)) (hS : J.serial = .ok S) (hag : Agrees J s S) (evs : List (DEv K))
    (hev : ∀ e ∈ evs, e.Allowed J.Nx J.Ny J.NZ J.bc) (eager : ℕ → ℕ → Bool) :
    ∃ total : ℕ, ∀ (l : List Act) (net : Net (State K) (ℕ → ℕ → K)),
      run eager (start (runProg s J.size (J.NZ / J.size) evs) (fun _ => initState)) l = some net →
      l.length ≤ total ∧
      (∃ l' z, run eager net l' = some z ∧ z.Done) ∧
      (net.Done → ∀ r < J.size, ∀ w c i j k, c < 3 → i < J.Nx → j < J.Ny → k < (s r).Nz →
        cell (s r) w (net.proc r).loc c i j k =
          cell S w (runEv S initState (evs.map (DEv.serial S))) c i j (r * (J.NZ / J.size) - Grid.ghostLo r + k)) := by
  obtain ⟨D, hD, d1, d2, d3, d4, d5, d6, rfl, hrk⟩ := J.dist hs hx hy hbc hr hS hag
  have hprog : runProg s J.size (J.NZ / J.size) evs = runProg D.rank D.size D.n evs := by
    rw [d1, ← d2]
    exact runProg_congr (fun r h => (hrk r h).symm) _ _
  rw [hprog]
  obtain ⟨total, ht⟩ := every_schedule (fun r => runProg_ok hD.slabs D.n evs r)
    (run_reach (eager := eager) hD.slabs (by have := hD.ranks; omega) D.n evs (fun _ => initState))
  refine ⟨total, fun l net hl => ?_⟩
  obtain ⟨h1, ⟨l', h2, _⟩, h3⟩ := ht l net hl
  refine ⟨h1, ⟨l', _, h2, start_done _⟩, fun hd r hlt w c i j k hc hi hj hk => ?_⟩
  rw [h3 hd]
  have hadm : ∀ e ∈ evs, D.Admissible e := fun e he =>
    Dist.admissible_of_allowed (by rw [d3, d4, d5, d6]; exact hev e he)
  have hrel := hD.run evs (initState_rel D) hadm
  rw [← hrk r hlt] at hk ⊢
  rw [← d1] at hlt
  rw [← d3] at hi; rw [← d4] at hj
  have ho : r * (J.NZ / J.size) - Grid.ghostLo r = D.o r := by rw [← d2]; rfl
  rw [ho]
  cases w with
  | E => exact hrel.E r hlt c i j k hc hi hj hk
  | H => exact hrel.H r hlt c i j k hc hi hj hk
  | J => exact hrel.J r hlt c i j k hc hi hj hk

/-! ### When the flags agree -/

omit [IsStrictOrderedRing K] in
/-- A rank that sees a PML face exactly when the serial solver does computes conduction currents exactly when it
does. -/
theorem Job.flag (J : Job K) {r : ℕ} {s S : Solver K} (hr : J.rank r = .ok s) (hS : J.serial = .ok S)
    (h : anyFace isPml (mpiBC r J.size J.bc) = anyFace isPml J.bc) : s.useConductivity = S.useConductivity := by
  rw [Job.rank] at hr
  rw [Job.serial] at hS
  have hNZ : ∀ m, Grid.mpiInitialize r J.size J.Nz J.zmin J.zmax = .ok m → m.NZ = J.NZ := by
    intro m hm
    unfold Grid.mpiInitialize at hm
    split at hm
    · simp at hm
    · obtain rfl := Except.ok.inj hm; rfl
  cases hm : Grid.mpiInitialize r J.size J.Nz J.zmin J.zmax with
  | error e => rw [hm] at hr; simp [bind, Except.bind] at hr
  | ok m =>
    rw [hm] at hr
    simp only [bind, Except.bind] at hr hS
    rw [hNZ m hm] at hr
    cases ht : materials J.Nx J.Ny m.Nz J.eps0 J.mu0 (anyFace isPml (mpiBC r J.size J.bc)) J.bg J.dict (localSolids r J.size J.NZ J.solids) with
    | error e => rw [ht] at hr; simp at hr
    | ok t =>
      cases hg : materials J.Nx J.Ny J.NZ J.eps0 J.mu0 (anyFace isPml J.bc) J.bg J.dict J.solids with
      | error e => rw [hg] at hS; simp at hS
      | ok tg =>
        obtain ⟨⟨b, hb1, hb2⟩, -⟩ := C34_materials_restrict ht hg
        rw [ht] at hr
        rw [hg] at hS
        simp only at hr hS
        cases h1 : J.stage (mpiBC r J.size J.bc) t with
        | error e => rw [h1] at hr; simp at hr
        | ok t' =>
          cases h2 : J.stage J.bc tg with
          | error e => rw [h2] at hS; simp at hS
          | ok tg' =>
            rw [h1] at hr
            rw [h2] at hS
            simp only at hr hS
            cases d1 : limitDt t' J.dt with
            | error e => rw [d1] at hr; simp at hr
            | ok d =>
              cases d2 : limitDt tg' J.dt with
              | error e => rw [d2] at hS; simp at hS
              | ok dg =>
                rw [d1] at hr
                rw [d2] at hS
                simp only [pure, Except.pure, Except.ok.injEq] at hr hS
                rw [← hr, ← hS]
                show (anyFace isPml (mpiBC r J.size J.bc) || t'.useCond) = (anyFace isPml J.bc || tg'.useCond)
                unfold Job.stage at h1 h2
                rw [h] at h1 hb1 ⊢
                by_cases hp : anyFace isPml J.bc = true
                · rw [hp, Bool.true_or, Bool.true_or]
                · rw [if_neg hp, Except.ok.injEq] at h1 h2
                  rw [← h1, ← h2, hb1, hb2]

omit [IsStrictOrderedRing K] in
/-- Without PML the ranks agree with the serial solver as soon as its time step is the requested one. -/
theorem Agrees.of_noPml (J : Job K) {s : ℕ → Solver K} {S : Solver K} (hr : ∀ r < J.size, J.rank r = .ok (s r)) (hS : J.serial = .ok S)
    (hbc : PlainBC J.bc) (hl : isPml J.bc.zlo = false) (hh : isPml J.bc.zhi = false) (hdt : S.dt = J.dt) : Agrees J s S := by
  refine ⟨fun h => ?_, fun r h => J.flag (hr r h) hS ?_, hdt⟩
  · rcases h with h | h
    · rw [hl] at h; cases h
    · rw [hh] at h; cases h
  · have np : isPml "mpi" = false := by decide
    obtain ⟨z1, z2⟩ := mpiBC_z r J.size J.bc
    have hxy : ∀ axis sd, axis < 2 → isPml (faceName J.bc axis sd) = false := fun a sd h => (hbc.pec a sd h).2
    rw [anyFace_eq (mpiBC_xy (by decide) r J.size J.bc hxy), anyFace_eq hxy, z1, z2]
    split_ifs <;> simp [np, hl, hh]

omit [IsStrictOrderedRing K] in
/-- Two ranks and PML on both z faces: the ranks agree with the serial solver if the layers fit into a rank and the
serial time step is the requested one. -/
theorem Agrees.of_two (J : Job K) {s : ℕ → Solver K} {S : Solver K} (h2 : J.size = 2) (hr : ∀ r < J.size, J.rank r = .ok (s r)) (hS : J.serial = .ok S)
    (hbc : PlainBC J.bc) (hl : isPml J.bc.zlo = true) (hh : isPml J.bc.zhi = true) (hn : J.nPml < J.NZ / 2) (hdt : S.dt = J.dt) :
    Agrees J s S := by
  refine ⟨fun _ => by rw [h2]; exact hn, fun r h => J.flag (hr r h) hS ?_, hdt⟩
  have hxy : ∀ axis sd, axis < 2 → isPml (faceName J.bc axis sd) = false := fun a sd h => (hbc.pec a sd h).2
  obtain ⟨z1, z2⟩ := mpiBC_z r J.size J.bc
  rw [anyFace_eq (mpiBC_xy (by decide) r J.size J.bc hxy), anyFace_eq hxy, z1, z2, hl, hh, h2]
  rw [h2] at h
  have : r = 0 ∨ r = 1 := by omega
  rcases this with rfl | rfl <;> simp [hl, hh]

/-! ### The hypotheses are met -/

/-- Two ranks, a 3 x 3 x 5 box (4 layers are used), a conducting solid across the rank border, open at high z. -/
def demoJob : Job ℚ :=
  { size := 2, Nx := 3, Ny := 3, Nz := 5, x := fun n => n, y := fun n => n, zmin := 0, zmax := 4,
    bc := ⟨"pec", "PEC", "pec", "pec", "pec", "open"⟩, eps0 := 2, mu0 := 3, bg := .vals ⟨.fin 1, .fin 1, none⟩,
    dict := fun _ => some (.vals ⟨.fin 5, .fin 1, some 1⟩), solids := [("a", fun i _ k => i == 1 && (k == 1 || k == 2))], dt := 1 / 4,
    nPml := 1, geom := fun a _ _ _ => a, pmlLo := 1, pmlHi := 4 }

/-- The same with one PML layer at low z and an ABC at high z. -/
def demoPml : Job ℚ := { demoJob with bc := ⟨"pec", "PEC", "pec", "pec", "pml", "abc"⟩ }

/-- The constructor succeeds, with this time step and flag. -/
def okWith (s : Py (Solver ℚ)) (dt : ℚ) (u : Bool) : Bool :=
  match s with
  | .ok s => s.dt == dt && s.useConductivity == u
  | .error _ => false

theorem okWith_spec {s : Py (Solver ℚ)} {dt : ℚ} {u : Bool} (h : okWith s dt u = true) : ∃ v, s = .ok v ∧ v.dt = dt ∧ v.useConductivity = u := by
  cases s with
  | error e => simp [okWith] at h
  | ok v => simp only [okWith, Bool.and_eq_true, beq_iff_eq] at h; exact ⟨v, rfl, h⟩

theorem plain_of (b : Faces String) (h1 : isPec b.xlo && isPec b.xhi && isPec b.ylo && isPec b.yhi)
    (h2 : !(isPml b.xlo || isPml b.xhi || isPml b.ylo || isPml b.yhi)) (h3 : !(isPmcAny b.zlo || isPmcAny b.zhi))
    (h4 : !(isPeriodic b.zlo && isPeriodic b.zhi)) : PlainBC b := by
  simp only [Bool.and_eq_true, Bool.not_eq_true', Bool.or_eq_false_iff] at h1 h2 h3
  constructor
  · intro a sd ha
    have : a = 0 ∨ a = 1 := by omega
    rcases this with rfl | rfl <;> cases sd <;> simp [faceName, Faces.lo, Faces.hi, h1, h2]
  · intro sd
    cases sd <;> simp [faceName, Faces.lo, Faces.hi, h3]
  · rintro ⟨a, b⟩
    simp [a, b] at h4

theorem demo_ok (J : Job ℚ) (h2 : J.size = 2) (h0 : okWith (J.rank 0) J.dt true = true) (h1 : okWith (J.rank 1) J.dt true = true)
    (hS : okWith J.serial J.dt true = true) (hn : J.nPml < J.NZ / J.size) :
    ∃ (s : ℕ → Solver ℚ) (S : Solver ℚ), (∀ r < J.size, J.rank r = .ok (s r)) ∧ J.serial = .ok S ∧ Agrees J s S := by
  obtain ⟨v0, e0, -, c0⟩ := okWith_spec h0
  obtain ⟨v1, e1, -, c1⟩ := okWith_spec h1
  obtain ⟨S, eS, dS, cS⟩ := okWith_spec hS
  have hr : ∀ r < J.size, r = 0 ∨ r = 1 := by intro r h; rw [h2] at h; omega
  refine ⟨fun r => if r = 0 then v0 else v1, S, fun r h => ?_, eS, fun _ => hn, fun r h => ?_, dS⟩ <;>
    rcases hr r h with rfl | rfl <;> simp [e0, e1, c0, c1, cS]

/-- Non-vacuity of `C34_distributed_equals_serial_partial`, without PML and with PML and ABC: all constructors
succeed and agree, the boundary names and a history with a current source next to the rank border are allowed. -/
example : ∀ J ∈ [demoJob, demoPml], 2 ≤ J.size ∧ 0 < J.Nx ∧ 0 < J.Ny ∧ PlainBC J.bc ∧
    (∃ (s : ℕ → Solver ℚ) (S : Solver ℚ), (∀ r < J.size, J.rank r = .ok (s r)) ∧ J.serial = .ok S ∧ Agrees J s S) ∧
    ∀ e ∈ [DEv.write .J 2 1 1 2 (7 : ℚ), .step, .write .H 0 0 1 1 5, .step], e.Allowed J.Nx J.Ny J.NZ J.bc := by
  intro J hJ
  simp only [List.mem_cons, List.not_mem_nil, or_false] at hJ
  have hal : ∀ e ∈ [DEv.write .J 2 1 1 2 (7 : ℚ), .step, .write .H 0 0 1 1 5, .step], e.Allowed J.Nx J.Ny J.NZ J.bc := by
    intro e he
    simp only [List.mem_cons, List.not_mem_nil, or_false] at he
    rcases he with rfl | rfl | rfl | rfl
    · rcases hJ with rfl | rfl <;>
      · refine ⟨by decide, by decide, by decide, by decide, .inr ?_⟩
        intro axis sd ha hne hon
        have : axis = 0 ∨ axis = 1 := by omega
        rcases this with rfl | rfl <;> cases sd <;> exact absurd hon (by decide)
    · trivial
    · rcases hJ with rfl | rfl <;> exact ⟨by decide, by decide, by decide, by decide, .inl rfl⟩
    · trivial
  rcases hJ with rfl | rfl
  · exact ⟨by decide, by decide, by decide, plain_of _ (by decide) (by decide) (by decide) (by decide),
      demo_ok _ rfl (by decide +kernel) (by decide +kernel) (by decide +kernel) (by decide), hal⟩
  · exact ⟨by decide, by decide, by decide, plain_of _ (by decide) (by decide) (by decide) (by decide),
      demo_ok _ rfl (by decide +kernel) (by decide +kernel) (by decide +kernel) (by decide), hal⟩

end Mpi
end Wakis
