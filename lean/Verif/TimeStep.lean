import Verif.PmlProps2
import Verif.GridProps

/-!
# Time step: C30 (limits and damping), C32 (ranks)
-/

namespace Wakis
namespace Sol

theorem pyMin_spec {K : Type _} [LinearOrder K] {l : List K} {m : K} (h : pyMin l = .ok m) :
    m ∈ l ∧ ∀ a ∈ l, m ≤ a := by
  have key : ∀ (l : List K) (a : K), l.foldl min a ∈ a :: l ∧ ∀ b ∈ a :: l, l.foldl min a ≤ b := by
    intro l
    induction l with
    | nil => intro a; simp
    | cons c l ih =>
      intro a
      obtain ⟨h1, h2⟩ := ih (min a c)
      simp only [List.foldl_cons]
      constructor
      · rcases List.mem_cons.1 h1 with h | h
        · rw [h]
          rcases min_choice a c with h | h <;> rw [h] <;> simp
        · simp [h]
      · intro b hb
        have hm := h2 (min a c) (by simp)
        rcases List.mem_cons.1 hb with rfl | hb
        · exact hm.trans (min_le_left _ _)
        · rcases List.mem_cons.1 hb with rfl | hb
          · exact hm.trans (min_le_right _ _)
          · exact h2 b (by simp [hb])
  cases l with
  | nil => simp [pyMin] at h
  | cons a l =>
    simp only [pyMin, Except.ok.injEq] at h
    subst h
    exact key l a

/-- The time step asked for: the given one, or the CFL limit. -/
noncomputable def requestedDt (c cfln : ℝ) (dt : Option ℝ) (dx dy dz : List ℝ) : Py ℝ :=
  match dt with
  | some d => .ok d
  | none => cflDt c cfln dx dy dz

/-- **C30 (limits).** Whenever set-up chooses a time step, it does not exceed the requested one, and
with conductivity it does not exceed the relaxation time `eps / sigma` of any conducting cell; and it
is one of these (never smaller than needed). -/
theorem C30_limits {c cfln : ℝ} {dt : Option ℝ} {dx dy dz : List ℝ} {t : Mats ℝ} {d : ℝ}
    (h : chooseDt c cfln dt dx dy dz t = .ok d) :
    ∃ d0, requestedDt c cfln dt dx dy dz = .ok d0 ∧ d ≤ d0 ∧
      (t.useCond = true → ∀ n < 3 * t.ieps.N, t.sigma.array n ≠ 0 → t.ieps.array n ≠ 0 →
        d ≤ 1 / t.ieps.array n / t.sigma.array n) ∧
      (d = d0 ∨ t.useCond = true ∧ ∃ n < 3 * t.ieps.N, t.sigma.array n ≠ 0 ∧ t.ieps.array n ≠ 0 ∧
        d = 1 / t.ieps.array n / t.sigma.array n) := by
  have e : chooseDt c cfln dt dx dy dz t = (requestedDt c cfln dt dx dy dz).bind (limitDt t) := by
    unfold chooseDt requestedDt; cases dt <;> rfl
  rw [e] at h
  cases h0 : requestedDt c cfln dt dx dy dz with
  | error e => rw [h0] at h; simp [Except.bind] at h
  | ok d0 =>
    rw [h0] at h
    refine ⟨d0, rfl, ?_⟩
    simp only [Except.bind, limitDt] at h
    by_cases hu : t.useCond = true
    · rw [if_pos hu] at h
      cases hm : pyMin (taus t) with
      | error e => rw [hm] at h; simp [bind, Except.bind] at h
      | ok tm =>
        rw [hm] at h
        obtain ⟨h1, h2⟩ := pyMin_spec hm
        simp only [bind, Except.bind, pure, Except.pure, Except.ok.injEq] at h
        have hle : d ≤ tm ∧ d ≤ d0 := by
          split_ifs at h with hc
          · subst h; exact ⟨le_rfl, hc.le⟩
          · subst h; exact ⟨not_lt.1 hc, le_rfl⟩
        refine ⟨hle.2, fun _ n hn hs he => hle.1.trans (h2 _ ?_), ?_⟩
        · unfold taus
          rw [List.mem_map]
          exact ⟨n, List.mem_filter.2 ⟨List.mem_range.2 hn, by simp [hs, he]⟩, rfl⟩
        · split_ifs at h with hc
          · right
            refine ⟨hu, ?_⟩
            subst h
            unfold taus at h1
            rw [List.mem_map] at h1
            obtain ⟨n, hn, hq⟩ := h1
            rw [List.mem_filter, List.mem_range] at hn
            have hn2 := hn.2
            simp only [decide_eq_true_eq] at hn2
            exact ⟨n, hn.1, hn2.1, hn2.2, hq.symm⟩
          · left; exact h.symm
    · rw [if_neg hu] at h
      obtain rfl : d0 = d := by simpa using h
      exact ⟨le_rfl, fun h => absurd h hu, .inl rfl⟩

/-- **C30 (CFL).** The automatic time step satisfies the Courant condition with number `cfln` for every
combination of cell sizes of the grid, so in particular in every cell. -/
theorem C30_cfl {c cfln : ℝ} {dx dy dz : List ℝ} {d : ℝ} (hc : 0 < c) (h0 : 0 ≤ cfln)
    (hx : ∀ a ∈ dx, 0 < a) (hy : ∀ a ∈ dy, 0 < a) (hz : ∀ a ∈ dz, 0 < a)
    (h : cflDt c cfln dx dy dz = .ok d) :
    0 ≤ d ∧ ∀ a ∈ dx, ∀ b ∈ dy, ∀ e ∈ dz, c * d * Real.sqrt (1 / a ^ 2 + 1 / b ^ 2 + 1 / e ^ 2) ≤ cfln := by
  unfold cflDt at h
  cases hx' : pyMin dx with
  | error e => rw [hx'] at h; simp [bind, Except.bind] at h
  | ok mx =>
  cases hy' : pyMin dy with
  | error e => rw [hx', hy'] at h; simp [bind, Except.bind] at h
  | ok my =>
  cases hz' : pyMin dz with
  | error e => rw [hx', hy', hz'] at h; simp [bind, Except.bind] at h
  | ok mz =>
    rw [hx', hy', hz'] at h
    simp only [bind, Except.bind, pure, Except.pure, Except.ok.injEq] at h
    obtain ⟨px, qx⟩ := pyMin_spec hx'
    obtain ⟨py, qy⟩ := pyMin_spec hy'
    obtain ⟨pz, qz⟩ := pyMin_spec hz'
    have ex := hx _ px; have ey := hy _ py; have ez := hz _ pz
    have hS : 0 < Real.sqrt (1 / mx ^ 2 + 1 / my ^ 2 + 1 / mz ^ 2) := by
      apply Real.sqrt_pos.2; positivity
    constructor
    · rw [← h]; positivity
    · intro a ha b hb e he
      have hle : Real.sqrt (1 / a ^ 2 + 1 / b ^ 2 + 1 / e ^ 2) ≤ Real.sqrt (1 / mx ^ 2 + 1 / my ^ 2 + 1 / mz ^ 2) := by
        apply Real.sqrt_le_sqrt
        have := qx a ha; have := qy b hb; have := qz e he
        gcongr
      calc c * d * Real.sqrt (1 / a ^ 2 + 1 / b ^ 2 + 1 / e ^ 2)
          ≤ c * d * Real.sqrt (1 / mx ^ 2 + 1 / my ^ 2 + 1 / mz ^ 2) := by
            apply mul_le_mul_of_nonneg_left hle
            rw [← h]; positivity
        _ = cfln := by
            rw [← h]; field_simp

/-- **C30 (damping factor).** With non-negative inverse permittivity and conductivity, and a
non-negative time step, the damping factor `1 - dt * sigma / eps` of every entry lies in `[0, 1]`. -/
theorem C30_damping {c cfln : ℝ} {dt : Option ℝ} {dx dy dz : List ℝ} {t : Mats ℝ} {d : ℝ}
    (h : chooseDt c cfln dt dx dy dz t = .ok d) (hu : t.useCond = true) (hd : 0 ≤ d)
    {n : ℕ} (hn : n < 3 * t.ieps.N) (he : 0 ≤ t.ieps.array n) (hs : 0 ≤ t.sigma.array n) :
    0 ≤ 1 - d * t.sigma.array n * t.ieps.array n ∧ 1 - d * t.sigma.array n * t.ieps.array n ≤ 1 := by
  obtain ⟨d0, -, -, hlim, -⟩ := C30_limits h
  constructor
  · by_cases hs0 : t.sigma.array n = 0
    · rw [hs0]; simp
    by_cases he0 : t.ieps.array n = 0
    · rw [he0]; simp
    have := hlim hu n hn hs0 he0
    have hsp : 0 < t.sigma.array n := lt_of_le_of_ne hs (Ne.symm hs0)
    have hep : 0 < t.ieps.array n := lt_of_le_of_ne he (Ne.symm he0)
    have h2 : d * t.sigma.array n * t.ieps.array n ≤ 1 / t.ieps.array n / t.sigma.array n * t.sigma.array n * t.ieps.array n := by
      gcongr
    have h3 : 1 / t.ieps.array n / t.sigma.array n * t.sigma.array n * t.ieps.array n = 1 := by field_simp
    linarith
  · have := mul_nonneg (mul_nonneg hd hs) he
    linarith

/-- The damping factor is the one of the time step: with conductivity on, when the stored current is
`sigma * E` (as every previous step leaves it), one step multiplies `E` by `1 - dt * sigma / eps`
before adding the curl contribution. -/
theorem C30_step_damping (s : Solver ℝ) (st : State ℝ) (hJ : ∀ n, st.J n = s.sigma n * st.E n) (n : ℕ) :
    (advance s st).E n = (1 - s.dt * s.sigma n * s.ieps n) * st.E n +
      s.dt * Sparse.mulVec s.n3 s.M2 (advance s st).H n := by
  simp only [advance, hJ]
  ring

/-- ... and every step with conductivity on leaves the current in that state. -/
theorem C30_step_current (s : Solver ℝ) (st : State ℝ) (hu : s.useConductivity = true) (n : ℕ) :
    (advance s st).J n = s.sigma n * (advance s st).E n := by
  simp [advance, hu]

/-- **Construction can fail.** If conductivity is on but no entry has both conductivity and finite
permittivity, the minimum over an empty array raises `ValueError`: no solver is built.  This is
reached by the background `[eps, mu, 0]`, by any list of solids with an explicit conductivity of
zero, and on every rank of a distributed run that contains none of the conducting cells. -/
theorem C30_no_conducting_cell_fails {t : Mats ℝ} (hu : t.useCond = true)
    (h : ∀ n < 3 * t.ieps.N, t.sigma.array n = 0 ∨ t.ieps.array n = 0) (d : ℝ) :
    limitDt t d = .error .valueError := by
  have : taus t = [] := by
    unfold taus
    rw [List.map_eq_nil_iff, List.filter_eq_nil_iff]
    intro n hn
    have := h n (List.mem_range.1 hn)
    simp only [decide_eq_true_eq, not_and_or, not_not]
    exact this
  simp [limitDt, hu, this, pyMin, bind, Except.bind]

/-! ### C30 for a whole set-up -/

/-- Relative constants and conductivities a user may give: not negative. -/
def Material.Nonneg (m : Material ℝ) : Prop :=
  (match m.eps with | .fin v => 0 ≤ v | .inf => True) ∧ ∀ s, m.sigma = some s → 0 ≤ s

theorem over_nonneg {m : Material ℝ} (hm : m.Nonneg) {e0 : ℝ} (he : 0 < e0) : 0 ≤ m.eps.over 1 e0 := by
  have := hm.1
  unfold RelC.over
  split <;> simp_all

theorem sigma_nonneg {m : Material ℝ} (hm : m.Nonneg) : 0 ≤ m.sigma.getD 0 := by
  cases h : m.sigma with
  | none => simp
  | some s => simpa using hm.2 s h

/-- A flat entry is the entry of some cell. -/
theorem entry_of_cell {P : ℝ → ℝ → Prop} {Nx Ny Nz : ℕ} {f g : Fld ℝ} (hf : f.Nx = Nx ∧ f.Ny = Ny ∧ f.Nz = Nz)
    (hg : g.Nx = Nx ∧ g.Ny = Ny ∧ g.Nz = Nz)
    (h : ∀ c < 3, ∀ i < Nx, ∀ j < Ny, ∀ k < Nz, P (f.at3 c i j k) (g.at3 c i j k)) :
    ∀ n < 3 * f.N, P (f.array n) (g.array n) := by
  intro n hn
  obtain ⟨f1, f2, f3⟩ := hf
  obtain ⟨g1, g2, g3⟩ := hg
  have hN : 0 < f.N := by
    rcases Nat.eq_zero_or_pos f.N with h0 | h0
    · rw [h0] at hn; simp at hn
    · exact h0
  have hNg : g.N = f.N := by simp [Fld.N, f1, f2, f3, g1, g2, g3]
  have hp : n % f.N < f.Nx * f.Ny * f.Nz := Nat.mod_lt _ hN
  obtain ⟨h1, h2, h3⟩ := Fld.digits_lt hp
  have hc : n / f.N < 3 := Nat.div_lt_of_lt_mul (by rw [Nat.mul_comm]; exact hn)
  have := h (n / f.N) hc _ (f1 ▸ h1) _ (f2 ▸ h2) _ (f3 ▸ h3)
  unfold Fld.at3 at this
  rw [hNg, g1, g2, ← f1, ← f2] at this
  have e : n % f.N % f.Nx + f.Nx * (n % f.N / f.Nx % f.Ny + f.Ny * (n % f.N / f.Nx / f.Ny))
      = n % f.N := by
    rw [Nat.mod_add_div (n % f.N / f.Nx) f.Ny, Nat.mod_add_div (n % f.N) f.Nx]
  rw [e] at this
  have e2 : n / f.N * f.N + n % f.N = n := by
    rw [Nat.mul_comm]; exact Nat.div_add_mod n f.N
  rwa [e2] at this

/-- **C30 (whole set-up).** For every grid, boundary conditions, background, list of solids and choice
of time step: if the solver can be built, the damping factor of every entry lies in `[0, 1]`. -/
theorem C30_setUp_damping {c eps0 mu0 cfln : ℝ} {dt : Option ℝ} {nPml Nx Ny Nz : ℕ} {x y z : ℕ → ℝ}
    {bc : Faces String} {bg : MatSpec ℝ} {dict : String → Option (MatSpec ℝ)} {solids : List Solid}
    {t : Mats ℝ} {d : ℝ} (hx : 0 < Nx) (hy : 0 < Ny) (hz : 0 < Nz) (he : 0 < eps0)
    (hbg : ∀ m, MeansMaterial bg m → m.Nonneg)
    (hsol : ∀ s ∈ solids, ∀ spec m, dict s.1 = some spec → MeansMaterial spec m → m.Nonneg)
    (h : setUp c eps0 mu0 cfln dt nPml Nx Ny Nz x y z bc bg dict solids = .ok (t, d)) (hd : 0 ≤ d) :
    ∀ n < 3 * (Nx * Ny * Nz), 0 ≤ 1 - d * t.sigma.array n * t.ieps.array n ∧
      1 - d * t.sigma.array n * t.ieps.array n ≤ 1 := by
  unfold setUp at h
  cases h1 : materials Nx Ny Nz eps0 mu0 (anyFace isPml bc) bg dict solids with
  | error e => rw [h1] at h; simp [bind, Except.bind] at h
  | ok t0 =>
    rw [h1] at h
    obtain ⟨⟨mb, hb⟩, hkn⟩ := materials_known h1
    obtain ⟨t0', h1', hs0, hu0, hc0⟩ := materials_ok (Nx := Nx) (Ny := Ny) (Nz := Nz) (eps0 := eps0) (mu0 := mu0)
      (use0 := anyFace isPml bc) hb hkn
    rw [h1] at h1'
    obtain rfl : t0 = t0' := by simpa using h1'
    have hmat : ∀ s ∈ solids, (matOf dict s.1).Nonneg := by
      intro s hs
      obtain ⟨spec, q1, q2⟩ := matOf_spec (hkn s hs)
      exact hsol s hs spec _ q1 q2
    have n0 : ∀ cc < 3, ∀ i < Nx, ∀ j < Ny, ∀ k < Nz, 0 ≤ t0.ieps.at3 cc i j k ∧ 0 ≤ t0.sigma.at3 cc i j k := by
      intro cc hcc i hi j hj k hk
      obtain ⟨a1, -, a3⟩ := hc0 cc hcc i hi j hj k hk
      rw [a1, a3]
      constructor
      · cases hl : lastHit (fun s => s.2 i j k) solids with
        | none => exact over_nonneg (hbg mb hb) he
        | some s => exact over_nonneg (hmat s (lastHit_some hl).1) he
      · cases hl : lastHit (fun s => s.2 i j k && ((matOf dict s.1).sigma.isSome || decide (0 < mb.sigma.getD 0))) solids with
        | none => exact sigma_nonneg (hbg mb hb)
        | some s => exact sigma_nonneg (hmat s (lastHit_some hl).1)
    have main : ∀ t1 : Mats ℝ, t1.Sized Nx Ny Nz → t1.useCond = t0.useCond →
        (∀ cc < 3, ∀ i < Nx, ∀ j < Ny, ∀ k < Nz, 0 ≤ t1.ieps.at3 cc i j k ∧ 0 ≤ t1.sigma.at3 cc i j k) →
        (t0.useCond = false → ∀ cc < 3, ∀ i < Nx, ∀ j < Ny, ∀ k < Nz, t1.sigma.at3 cc i j k = 0) →
        (chooseDt c cfln dt (diffs x Nx) (diffs y Ny) (diffs z Nz) t1).bind (fun d => Except.ok (t1, d)) = .ok (t, d) →
        ∀ n < 3 * (Nx * Ny * Nz), 0 ≤ 1 - d * t.sigma.array n * t.ieps.array n ∧
          1 - d * t.sigma.array n * t.ieps.array n ≤ 1 := by
      intro t1 hs1 hu1 hnn hz1 hfin
      cases hch : chooseDt c cfln dt (diffs x Nx) (diffs y Ny) (diffs z Nz) t1 with
      | error e => rw [hch] at hfin; simp [Except.bind] at hfin
      | ok d' =>
        rw [hch] at hfin
        simp only [Except.bind, Except.ok.injEq, Prod.mk.injEq] at hfin
        obtain ⟨rfl, rfl⟩ := hfin
        have hNe : t1.ieps.N = Nx * Ny * Nz := by
          obtain ⟨e1, e2, e3⟩ := hs1.e; simp [Fld.N, e1, e2, e3]
        intro n hn
        by_cases hu : t1.useCond = true
        · obtain ⟨q1, q2⟩ := entry_of_cell (P := fun a b => 0 ≤ a ∧ 0 ≤ b) hs1.e hs1.s hnn n (by rw [hNe]; exact hn)
          exact C30_damping hch hu hd (by rw [hNe]; exact hn) q1 q2
        · have hz' := hz1 (by rw [← hu1]; simpa using hu)
          have : t1.sigma.array n = 0 := by
            refine entry_of_cell (P := fun a _ => a = 0) hs1.s hs1.s hz' n ?_
            obtain ⟨e1, e2, e3⟩ := hs1.s
            simpa [Fld.N, e1, e2, e3] using hn
          rw [this]; simp
    by_cases hp : anyFace isPml bc = true
    · simp only [bind, Except.bind, pmlStage, hp, if_true] at h
      cases h2 : fillPml geomspace (5 / 1000) 10 nPml bc t0 with
      | error e => rw [h2] at h; simp at h
      | ok t1 =>
        rw [h2] at h
        rw [fillPml_eq] at h2
        obtain ⟨g1, -, g3, -, g5, g6⟩ := fillFaces_ok geomspace (5 / 1000) 10 bc (fun s d _ => geom_pos s d) hx hy hz pmlOrder
          t0 t1 order_lt hs0 h2
        refine main t1 g1 g3 ?_ ?_ h
        · intro cc hcc i hi j hj k hk
          exact ⟨g6 (0 ≤ ·) (fun cc hcc i hi j hj k hk => (n0 cc hcc i hi j hj k hk).1) cc hcc i hi j hj k hk,
            (g5 (fun cc hcc i hi j hj k hk => (n0 cc hcc i hi j hj k hk).2) cc hcc i hi j hj k hk).1⟩
        · intro hf; rw [hu0, hp] at hf; simp at hf
    · simp only [bind, Except.bind, pmlStage, hp, Bool.false_eq_true, if_false] at h
      refine main t0 hs0 rfl n0 ?_ h
      intro hf cc hcc i hi j hj k hk
      obtain ⟨s1, s2, s3⟩ := hs0.s
      have hn : Fld.Names (.num cc) cc := by simp [Fld.Names, hcc]
      have := C29_flag_off h1 hf hi hj hk (.num cc) cc hn
      rw [Fld.get_at3 _ hn (by omega) (by omega) (by omega)] at this
      simpa using this

/-! ### C32: the time step on the ranks of a distributed run -/

theorem pyMin_const {l : List ℝ} {v : ℝ} (hne : l ≠ []) (h : ∀ a ∈ l, a = v) : pyMin l = .ok v := by
  cases hm : pyMin l with
  | error e =>
    cases l with
    | nil => exact absurd rfl hne
    | cons a l => simp [pyMin] at hm
  | ok m => rw [h m (pyMin_spec hm).1]

/-- No conductivity anywhere: no PML face, background and solids list none. -/
def NoConductivity (bc : Faces String) (bg : MatSpec ℝ) (dict : String → Option (MatSpec ℝ)) (solids : List Solid) : Prop :=
  (∀ axis side, isPml (faceName bc axis side) = false) ∧ (∀ m, MeansMaterial bg m → m.sigma = none) ∧
    ∀ s ∈ solids, ∀ spec m, dict s.1 = some spec → MeansMaterial spec m → m.sigma = none

theorem anyFace_pml_false {bc : Faces String} (h : ∀ axis side, isPml (faceName bc axis side) = false) (rank size : ℕ) :
    anyFace isPml (mpiBC rank size bc) = false := by
  have h0 : isPml bc.xlo = false := h 0 .lo
  have h1 : isPml bc.ylo = false := h 1 .lo
  have h2 : isPml bc.zlo = false := h 2 .lo
  have h3 : isPml bc.xhi = false := h 0 .hi
  have h4 : isPml bc.yhi = false := h 1 .hi
  have h5 : isPml bc.zhi = false := h 2 .hi
  have p1 : isPml "pec" = false := by decide
  have p2 : isPml "mpi" = false := by decide
  unfold anyFace mpiBC
  split_ifs <;> simp [h0, h1, h2, h3, h4, h5, p1, p2]

/-- **C32, partial.** Without conductivity every rank of every distributed run uses the requested time
step: the given one, or the CFL limit of the cell sizes of x, y and the (uniform) global z spacing.
In particular all ranks agree.  With conductivity the claim is false: `C32_refuted`. -/
theorem C32_same_dt_partial {rank size : ℕ} {c eps0 mu0 cfln : ℝ} {dt : Option ℝ} {nPml Nx Ny Nz : ℕ}
    {x y : ℕ → ℝ} {zmin zmax : ℝ} {bc : Faces String} {bg : MatSpec ℝ} {dict : String → Option (MatSpec ℝ)}
    {solids : List Solid} {t : Mats ℝ} {d : ℝ} (hr : rank < size) (hn : NoConductivity bc bg dict solids)
    (h : rankSetUp rank size c eps0 mu0 cfln dt nPml Nx Ny Nz x y zmin zmax bc bg dict solids = .ok (t, d)) :
    requestedDt c cfln dt (diffs x Nx) (diffs y Ny) [(zmax - zmin) / (Nz - Nz % size : ℕ)] = .ok d := by
  have hs : size ≤ Nz := by
    by_contra hc
    simp [rankSetUp, Grid.C12_refused rank size Nz zmin zmax (by omega), bind, Except.bind] at h
  obtain ⟨m, hm, h1, h2, h3, h4, h5, h6⟩ := Grid.C12_local_grid (rank := rank) (size := size) (Nz := Nz) zmin zmax
    (by omega) hr hs
  have hNZ : m.NZ = Nz - Nz % size := by
    obtain ⟨q, hq⟩ := h1
    have : Nz / size = q := by
      rw [hq] at h2 h3
      exact Nat.div_eq_of_lt_le (by rw [Nat.mul_comm]; exact h2) (by rw [Nat.add_mul, Nat.mul_comm]; omega)
    have := Nat.div_add_mod Nz size
    rw [hq]; subst q; omega
  simp only [rankSetUp, hm, bind, Except.bind, setUp] at h
  cases hmt : materials Nx Ny m.Nz eps0 mu0 (anyFace isPml (mpiBC rank size bc)) bg dict
      (localSolids rank size m.NZ solids) with
  | error e => rw [hmt] at h; simp at h
  | ok t0 =>
    rw [hmt] at h
    have hpml := anyFace_pml_false hn.1 rank size
    simp only [pmlStage, hpml, Bool.false_eq_true, if_false] at h
    rw [hpml] at hmt
    obtain ⟨⟨mb, hb⟩, hkn⟩ := materials_known hmt
    obtain ⟨t0', h1', -, hu0, -⟩ := materials_ok (Nx := Nx) (Ny := Ny) (Nz := m.Nz) (eps0 := eps0) (mu0 := mu0)
      (use0 := false) hb hkn
    rw [hmt] at h1'
    obtain rfl : t0 = t0' := by simpa using h1'
    have hu : t0.useCond = false := by
      rw [hu0, hn.2.1 mb hb]
      simp only [Option.isSome_none, Bool.false_or, List.any_eq_false, Bool.not_eq_true, Option.isSome_eq_false_iff,
        Option.isNone_iff_eq_none]
      intro s hs
      obtain ⟨spec, q1, q2⟩ := matOf_spec (hkn s hs)
      obtain ⟨s', hs', rfl⟩ := List.mem_map.1 hs
      exact hn.2.2 s' hs' spec _ q1 q2
    have e : chooseDt c cfln dt (diffs x Nx) (diffs y Ny) (diffs m.z m.Nz) t0 =
        requestedDt c cfln dt (diffs x Nx) (diffs y Ny) (diffs m.z m.Nz) := by
      unfold chooseDt requestedDt limitDt
      cases dt with
      | some d => simp [hu, bind, Except.bind]
      | none =>
        simp only [hu, Bool.false_eq_true, if_false, bind, Except.bind]
        cases cflDt c cfln (diffs x Nx) (diffs y Ny) (diffs m.z m.Nz) <;> rfl
    rw [e] at h
    have hz : pyMin (diffs m.z m.Nz) = pyMin [(zmax - zmin) / (Nz - Nz % size : ℕ)] := by
      rw [pyMin_const (v := (zmax - zmin) / (Nz - Nz % size : ℕ))]
      · rfl
      · unfold diffs
        rw [Ne, List.map_eq_nil_iff, List.range_eq_nil]
        omega
      · intro a ha
        obtain ⟨l, hl, rfl⟩ := List.mem_map.1 ha
        have := List.mem_range.1 hl
        rw [h6 (l + 1) (by omega), h6 l (by omega), hNZ]
        push_cast
        ring
    have e2 : requestedDt c cfln dt (diffs x Nx) (diffs y Ny) (diffs m.z m.Nz) =
        requestedDt c cfln dt (diffs x Nx) (diffs y Ny) [(zmax - zmin) / (Nz - Nz % size : ℕ)] := by
      unfold requestedDt cflDt
      rw [hz]
    rw [e2] at h
    cases hq : requestedDt c cfln dt (diffs x Nx) (diffs y Ny) [(zmax - zmin) / (Nz - Nz % size : ℕ)] with
    | error e => rw [hq] at h; simp at h
    | ok d' =>
      rw [hq] at h
      simp only [pure, Except.pure, Except.ok.injEq, Prod.mk.injEq] at h
      rw [h.2]

/-- The full claim: all ranks whose set-up succeeds have the same time step. -/
def SameDtOnRanks : Prop :=
  ∀ (size r r' : ℕ) (c eps0 mu0 cfln : ℝ) (dt : Option ℝ) (nPml Nx Ny Nz : ℕ) (x y : ℕ → ℝ) (zmin zmax : ℝ)
    (bc : Faces String) (bg : MatSpec ℝ) (dict : String → Option (MatSpec ℝ)) (solids : List Solid)
    (t t' : Mats ℝ) (d d' : ℝ), r < size → r' < size →
    rankSetUp r size c eps0 mu0 cfln dt nPml Nx Ny Nz x y zmin zmax bc bg dict solids = .ok (t, d) →
    rankSetUp r' size c eps0 mu0 cfln dt nPml Nx Ny Nz x y zmin zmax bc bg dict solids = .ok (t', d') → d = d'

/-- A conducting solid "b" in layer 3 of a grid of 4 layers. -/
def rankSolids : List Solid := [("b", fun _ _ k => k == 3)]

/-- Its material: conductivity 4. -/
noncomputable def rankDict : String → Option (MatSpec ℝ) := fun _ => some (.vals ⟨.fin 1, .fin 1, some 4⟩)

/-- All faces perfectly conducting. -/
def rankBC : Faces String := ⟨"pec", "pec", "pec", "pec", "pec", "pec"⟩

theorem rankMat (key : String) : matOf rankDict key = ⟨.fin 1, .fin 1, some 4⟩ := by
  obtain ⟨spec, q1, q2⟩ := matOf_spec (dict := rankDict) (key := key) ⟨_, ⟨.fin 1, .fin 1, some 4⟩, rfl, rfl⟩
  obtain rfl : MatSpec.vals ⟨.fin 1, .fin 1, some 4⟩ = spec := by simpa [rankDict] using q1
  exact q2.symm

/-- The set-up of a rank of the example, up to its time step. -/
theorem rankDemo (rank : ℕ) (hr : rank < 2) (sb : Option ℝ) :
    ∃ t, rankSetUp rank 2 1 1 1 1 (some 1) 0 1 1 4 (fun n => n) (fun n => n) 0 1 rankBC (.vals ⟨.fin 1, .fin 1, sb⟩)
        rankDict rankSolids = (limitDt t 1).bind (fun d => .ok (t, d)) ∧ t.useCond = true ∧ t.ieps.N = 3 ∧
      (∀ n < 3 * t.ieps.N, t.ieps.array n = 1) ∧
      (rank = 0 → ∀ n < 3 * t.ieps.N, t.sigma.array n = sb.getD 0) ∧
      (rank = 1 → ∃ n < 3 * t.ieps.N, t.sigma.array n = 4) := by
  obtain ⟨m, hm, h1, h2, h3, h4, h5, -⟩ := Grid.C12_local_grid (rank := rank) (size := 2) (Nz := 4) (0 : ℝ) 1
    (by omega) hr (by omega)
  have hNZ : m.NZ = 4 := by omega
  have hNz : m.Nz = 3 := by
    rw [h5, hNZ]; interval_cases rank <;> rfl
  have hpml : anyFace isPml (mpiBC rank 2 rankBC) = false := by
    interval_cases rank <;> decide
  obtain ⟨t, ht, hs, hu, hc⟩ := materials_ok (Nx := 1) (Ny := 1) (Nz := 3) (eps0 := (1 : ℝ)) (mu0 := 1) (use0 := false)
    (bg := .vals ⟨.fin 1, .fin 1, sb⟩) (dict := rankDict) (solids := localSolids rank 2 4 rankSolids)
    (mb := ⟨.fin 1, .fin 1, sb⟩) rfl (fun s _ => ⟨_, ⟨.fin 1, .fin 1, some 4⟩, rfl, rfl⟩)
  have hN : t.ieps.N = 3 := by simp [Fld.N, hs.e]
  refine ⟨t, ?_, ?_, hN, ?_, ?_, ?_⟩
  · simp only [rankSetUp, hm, bind, Except.bind, setUp, hNZ, hNz, hpml, ht, pmlStage, Bool.false_eq_true, if_false,
      chooseDt]
    cases limitDt t 1 <;> rfl
  · rw [hu]
    simp [localSolids, rankSolids, rankMat]
  · refine entry_of_cell (P := fun a _ => a = 1) hs.e hs.e fun c hc3 i hi j hj k hk => ?_
    rw [(hc c hc3 i hi j hj k hk).1]
    cases lastHit (fun s => s.2 i j k) (localSolids rank 2 4 rankSolids) <;> simp [RelC.over, rankMat]
  · rintro rfl
    refine entry_of_cell (P := fun _ a => a = sb.getD 0) hs.e hs.s fun c hc3 i hi j hj k hk => ?_
    rw [(hc c hc3 i hi j hj k hk).2.2, lastHit_none]
    · rfl
    · intro s hs
      simp only [localSolids, rankSolids, List.map_cons, List.map_nil, List.mem_singleton] at hs
      subst hs
      have : ¬ k = 3 := by omega
      simp [this]
  · rintro rfl
    refine ⟨2, by omega, ?_⟩
    have e := (hc 0 (by omega) 0 (by omega) 0 (by omega) 2 (by omega)).2.2
    simp only [Fld.at3] at e
    have : t.sigma.Nx = 1 ∧ t.sigma.Ny = 1 := ⟨hs.s.1, hs.s.2.1⟩
    simp only [this] at e
    simpa [lastHit, localSolids, rankSolids, rankMat] using e

/-- **C32 is false of the code.** A conducting background and a better conducting solid that only rank
1 contains: with a requested step of 1, rank 0 steps with 1 and rank 1 with 1/4. -/
theorem C32_refuted : ¬ SameDtOnRanks := by
  intro H
  obtain ⟨t0, e0, u0, N0, i0, s0, -⟩ := rankDemo 0 (by omega) (some 1)
  obtain ⟨t1, e1, u1, N1, i1, -, s1⟩ := rankDemo 1 (by omega) (some 1)
  have s0 := s0 rfl
  obtain ⟨n, hn, hs⟩ := s1 rfl
  have a0 : limitDt t0 1 = .ok 1 := by
    have : pyMin (taus t0) = .ok 1 := by
      refine pyMin_const ?_ ?_
      · unfold taus
        rw [Ne, List.map_eq_nil_iff, List.filter_eq_nil_iff]
        intro h
        have := h 0 (List.mem_range.2 (by omega))
        simp [s0 0 (by omega), i0 0 (by omega)] at this
      · intro a ha
        unfold taus at ha
        obtain ⟨m, hm, rfl⟩ := List.mem_map.1 ha
        have hm := List.mem_range.1 (List.mem_filter.1 hm).1
        rw [s0 m hm, i0 m hm]; norm_num
    simp [limitDt, u0, this, bind, Except.bind, pure, Except.pure]
  have a1 : ∃ d, limitDt t1 1 = .ok d ∧ d ≤ 1 / 4 := by
    have hmem : (1 / 4 : ℝ) ∈ taus t1 := by
      unfold taus
      refine List.mem_map.2 ⟨n, List.mem_filter.2 ⟨List.mem_range.2 hn, ?_⟩, ?_⟩
      · simp [hs, i1 n hn]
      · rw [hs, i1 n hn]; norm_num
    cases hq : pyMin (taus t1) with
    | error e =>
      cases hl : taus t1 with
      | nil => rw [hl] at hmem; simp at hmem
      | cons a l => rw [hl] at hq; simp [pyMin] at hq
    | ok q =>
      have := (pyMin_spec hq).2 _ hmem
      refine ⟨q, ?_, this⟩
      have h1 : q < 1 := by linarith
      simp [limitDt, u1, hq, bind, Except.bind, pure, Except.pure, h1]
  obtain ⟨d, hd, hd4⟩ := a1
  rw [a0] at e0
  rw [hd] at e1
  have := H 2 0 1 _ _ _ _ _ _ _ _ _ _ _ _ _ _ _ _ _ _ _ _ _ (by omega) (by omega) e0 e1
  linarith

/-- **A distributed run can fail where rank 1 alone succeeds.** With a non-conducting background and the
conducting solid only on rank 1, building the solver raises `ValueError` on rank 0. -/
theorem C32_rank_fails :
    rankSetUp 0 2 1 1 1 1 (some 1) 0 1 1 4 (fun n => n) (fun n => n) 0 1 rankBC (.vals ⟨.fin 1, .fin 1, none⟩)
        rankDict rankSolids = .error .valueError ∧
    ∃ r, rankSetUp 1 2 1 1 1 1 (some 1) 0 1 1 4 (fun n => n) (fun n => n) 0 1 rankBC (.vals ⟨.fin 1, .fin 1, none⟩)
        rankDict rankSolids = .ok r := by
  obtain ⟨t0, e0, u0, N0, i0, s0, -⟩ := rankDemo 0 (by omega) none
  obtain ⟨t1, e1, u1, N1, i1, -, s1⟩ := rankDemo 1 (by omega) none
  constructor
  · rw [e0, C30_no_conducting_cell_fails u0 (fun n hn => .inl (s0 rfl n hn))]
    rfl
  · obtain ⟨n, hn, hs⟩ := s1 rfl
    rw [e1]
    have hmem : (1 / 4 : ℝ) ∈ taus t1 := by
      unfold taus
      refine List.mem_map.2 ⟨n, List.mem_filter.2 ⟨List.mem_range.2 hn, ?_⟩, ?_⟩
      · simp [hs, i1 n hn]
      · rw [hs, i1 n hn]; norm_num
    cases hl : taus t1 with
    | nil => rw [hl] at hmem; simp at hmem
    | cons a l =>
      simp [limitDt, u1, hl, pyMin, bind, Except.bind, pure, Except.pure]

/-- Non-vacuity of `C30_limits`, `C30_damping`, `C30_setUp_damping` and (with no solids) of
`C32_same_dt_partial`: set-ups that succeed. -/
example : ∃ r, rankSetUp 1 2 1 1 1 1 (some 1) 0 1 1 4 (fun n => n) (fun n => n) 0 1 rankBC
    (.vals ⟨.fin 1, .fin 1, none⟩) rankDict rankSolids = .ok r := C32_rank_fails.2

example : NoConductivity rankBC (.name "vacuum") rankDict [] ∧
    ∃ t d, rankSetUp 1 2 1 1 1 1 none 0 1 1 4 (fun n => n) (fun n => n) 0 1 rankBC (.name "vacuum")
      rankDict [] = .ok (t, d) := by
  refine ⟨⟨?_, ?_, by simp⟩, ?_⟩
  · intro axis side
    cases side <;> rcases axis with _ | _ | axis <;> exact (by decide : isPml "pec" = false)
  · intro m hm
    obtain rfl := means_unique vacuum_means hm
    rfl
  · obtain ⟨m, hm, h1, h2, h3, h4, h5, h6⟩ := Grid.C12_local_grid (rank := 1) (size := 2) (Nz := 4) (0 : ℝ) 1
      (by omega) (by omega) (by omega)
    have hNZ : m.NZ = 4 := by omega
    have hNz : m.Nz = 3 := by rw [h5, hNZ]; rfl
    have hpml : anyFace isPml (mpiBC 1 2 rankBC) = false := by decide
    obtain ⟨t, ht, hs, hu, hc⟩ := materials_ok (Nx := 1) (Ny := 1) (Nz := 3) (eps0 := (1 : ℝ)) (mu0 := 1)
      (use0 := false) (bg := .name "vacuum") (dict := rankDict) (solids := []) vacuum_means (by simp)
    have hu : t.useCond = false := by rw [hu]; rfl
    refine ⟨t, ?d, ?h⟩
    case h =>
     simp only [rankSetUp, hm, bind, Except.bind, setUp, hNZ, hNz, hpml, localSolids, List.map_nil, ht, pmlStage,
      Bool.false_eq_true, if_false, chooseDt, limitDt, hu, cflDt, diffs, pyMin, List.range, List.range.loop,
      List.map_cons, pure, Except.pure]
     rfl

end Sol
end Wakis
