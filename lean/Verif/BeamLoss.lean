import Verif.BeamCharge
import Verif.Passive
import Verif.MpiSlab

/-!
# C144: a bunch gains no energy from a passive structure

The work of the bunch of a wake run against the recorded field on its axis is nonnegative at all times, and pays for the energy in the fields.
-/

namespace Wakis
namespace Wake
open Src Sol Sparse Fld
noncomputable section

/-! ### Specification -/

/-- The energy the bunch has lost in the first `n` steps: minus charge current times the z field on its axis, over the length of every cell and the duration of every step, with the mean of the fields at the
beginning and the end of the step. -/
def bunchLoss (b : Beam) (σ dt : ℝ) (Nz : ℕ) (z : ℕ → ℝ) (Ez : ℕ → ℕ → ℝ) (n : ℕ) : ℝ :=
  -∑ m ∈ Finset.range n, ∑ k ∈ Finset.range Nz, dt * bunchCurrent b σ (cellCentre z 0) (m * dt) (cellCentre z k) * ((z (k + 1) - z k) * ((Ez m k + Ez (m + 1) k) / 2))

/-- `Ez n k` is what a run recorded of the z field in cell `k` at step `n`; after the last step it is the z field of the final fields in column `(i,j)`. -/
def Records (s : Solver ℝ) (o : WakeOut) (Nz i j : ℕ) (Ez : ℕ → ℕ → ℝ) : Prop :=
  (∀ n < o.Nt, ∀ k < Nz, o.Nt ≤ 100000 → sample o.recording n k = some (Ez n k)) ∧
    ∀ k < Nz, (s.fld o.st.E).get (i : ℤ) (j : ℤ) (k : ℤ) (.str "z") = .ok (Ez o.Nt k)

/-! ### The run as a driven run -/

/-- The edges of column `(i,j)`. -/
def column (Nx Ny Nz i j : ℕ) : List ℕ := (List.range Nz).map fun k => pos Nx Ny Nz 2 i j k

theorem mem_column {Nx Ny Nz i j c i' j' k' : ℕ} (hi : i < Nx) (hj : j < Ny) (hi' : i' < Nx) (hj' : j' < Ny) (hk' : k' < Nz) :
    pos Nx Ny Nz c i' j' k' ∈ column Nx Ny Nz i j ↔ c = 2 ∧ i' = i ∧ j' = j := by
  unfold column
  rw [List.mem_map]
  constructor
  · rintro ⟨k, hk, h⟩
    obtain ⟨a, b, d, -⟩ := Mpi.pos_inj hi hj (List.mem_range.1 hk) hi' hj' hk' h
    exact ⟨a.symm, b.symm, d.symm⟩
  · rintro ⟨rfl, rfl, rfl⟩
    exact ⟨k', List.mem_range.2 hk', rfl⟩

/-- A wake run from zero fields has, cell by cell, the fields of the driven run whose currents `I` are written into the column. -/
theorem wake_drive {s : Solver ℝ} {g : Grd} {w : WakeArgs} (hf : Fitting s g) {zmin : ℝ} {N : ℕ} {S D : ℕ → State ℝ} (h0 : S 0 = initState)
    (hD : ∀ n < N, Driven s g w zmin (n * s.dt) (S n) (D n) ∧ S (n + 1) = oneStep s (D n)) {i j : ℕ} (hi : IsNearest g.Nx g.x w.xsource i) (hj : IsNearest g.Ny g.y w.ysource j)
    {I : ℕ → ℕ → ℝ} (hI : ∀ n < N, ∀ k < s.Nz, (D n).J (pos s.Nx s.Ny s.Nz 2 i j k) = I n (pos s.Nx s.Ny s.Nz 2 i j k)) :
    ∀ n ≤ N, SameCells s (S n) (drive s (column s.Nx s.Ny s.Nz i j) I n) ∧ (S n).step0 = (drive s (column s.Nx s.Ny s.Nz i j) I n).step0 := by
  have hi' : i < s.Nx := by rw [← hf.Nx]; exact hi.1
  have hj' : j < s.Ny := by rw [← hf.Ny]; exact hj.1
  intro n
  induction n with
  | zero => intro _; rw [h0]; exact ⟨fun _ _ => ⟨rfl, rfl, rfl⟩, rfl⟩
  | succ n ih =>
    intro hn
    obtain ⟨ih1, ih2⟩ := ih (by omega)
    obtain ⟨d, e⟩ := hD n (by omega)
    rw [e, drive_succ]
    refine ⟨oneStep_same s (fun q hq => ?_) (.inl ?_), ?_⟩
    · obtain ⟨e1, e2, e3⟩ := ih1 q hq
      refine ⟨by rw [d.E]; exact e1, by rw [d.H]; exact e2, ?_⟩
      obtain ⟨c, a, b, k, hc, ha, hb, hk, rfl⟩ := pos_surj hq
      show (D n).J _ = if _ then _ else _
      split_ifs with hm
      · obtain ⟨rfl, rfl, rfl⟩ := (mem_column hi' hj' ha hb hk).1 hm
        exact hI n (by omega) k hk
      · rw [driven_entry d hc ha hb hk fun h => hm ((mem_column hi' hj' ha hb hk).2 ⟨h.1, C44_unique h.2.1 hi, C44_unique h.2.2 hj⟩)]
        exact e3
    · rw [d.step0]; exact ih2
    · rw [oneStep_step0, oneStep_step0]

theorem energy_same {g0 : Grid.Geom ℝ} {bc : Faces String} {ieps imu : Vec ℝ} {s : Solver ℝ} (hN : s.n3 = 3 * (g0.Nx * g0.Ny * g0.Nz)) {a b : State ℝ} (h : SameCells s a b) :
    fieldEnergy g0 bc ieps imu a = fieldEnergy g0 bc ieps imu b := by
  unfold fieldEnergy
  congr 1 <;> refine Finset.sum_congr rfl fun r hr => ?_
  · rw [(h r (by rw [hN]; exact Finset.mem_range.1 hr)).1]
  · rw [(h r (by rw [hN]; exact Finset.mem_range.1 hr)).2.1]

/-- `C112_passive` for edges that may be in the last layer of z. -/
theorem passive_column {c eps0 mu0 cfln : ℝ} {nPml Nx Ny Nz : ℕ} {x y z : ℕ → ℝ}
    (hx : Grid.Increasing x Nx) (hy : Grid.Increasing y Ny) (hz : Grid.Increasing z Nz) {bc : Faces String} (hbc : Walls bc)
    {bg : MatSpec ℝ} {dict : String → Option (MatSpec ℝ)} {solids : List Solid} {t : Mats ℝ} {dt : ℝ}
    (he : 0 < eps0) (hu : 0 < mu0) (hc : 0 < c) (hcc : c ^ 2 * (eps0 * mu0) = 1) (h0 : 0 ≤ cfln)
    (hbg : ∀ m, MeansMaterial bg m → m.Passive)
    (hsol : ∀ s ∈ solids, ∀ spec m, dict s.1 = some spec → MeansMaterial spec m → m.Passive)
    (h : setUp c eps0 mu0 cfln none nPml Nx Ny Nz x y z bc bg dict solids = .ok (t, dt))
    (hq : cfln ^ 2 + (if t.useCond then 1 / 2 else 0) < 1) (S : List ℕ) (w : ℕ → ℕ → ℝ)
    (hS : ∀ r ∈ S, r < 3 * (Nx * Ny * Nz) ∧ (Grid.computeGrid Nx Ny Nz x y z).itA.array r ≠ 0) (n : ℕ) :
    let g := Grid.computeGrid Nx Ny Nz x y z
    let s := build g bc t.ieps.array t.imu.array t.sigma.array dt t.useCond
    let work := sourceWork g.L.array g.itA.array dt S w (fun m => (drive s S w m).E) n
    0 ≤ work ∧ fieldEnergy g bc t.ieps.array t.imu.array (drive s S w n) ≤ 6 / (1 - (cfln ^ 2 + if t.useCond then 1 / 2 else 0)) * work := by
  intro g s work
  have ne : 0 < Nx ∧ 0 < Ny ∧ 0 < Nz := setUp_nonempty h
  obtain ⟨hN, hpml, hm, hs, hch⟩ := setUp_tensors ne.1 ne.2.1 ne.2.2 he hu hbg hsol h
  obtain ⟨hd0, mx, my, mz, px, py, pz, lx, ly, lz, key⟩ := chooseDt_cfl hx hy hz he hu
    (fun r hr => by rw [hN] at hr; exact ⟨hm.ieps_nonneg r hr, hs r hr⟩) hc hcc h0 hch
  obtain ⟨habc, hper⟩ := hbc.names
  have da : dualInvArea g bc = g.itA.array := congrArg Fld.array (applyBC_metric g bc (C0 g.Nx g.Ny g.Nz) hper habc).2
  have huc : s.useConductivity = t.useCond := by
    show (anyFace isPml bc || t.useCond) = t.useCond
    cases hp : anyFace isPml bc with
    | false => rfl
    | true => rw [hpml hp]; rfl
  have e : (if t.useCond then 1 / 2 else 0 : ℝ) = (if t.useCond then 1 else 0 : ℝ) / 2 := by split_ifs <;> norm_num
  rw [e] at hq ⊢
  have main := C112_passive_walls (sigma := t.sigma.array) (uc := t.useCond) px py pz lx ly lz hbc hm key (α := if t.useCond then 1 else 0) (by split_ifs <;> norm_num) hq (by
    intro hu' r hr
    have hu2 : t.useCond = true := by rw [← huc]; exact hu'
    have := C30_damping hch hu2 hd0 (n := r) (by rw [hN]; exact hr) (hm.ieps_nonneg r hr) (hs r hr)
    rw [if_pos hu2]
    constructor <;> nlinarith) S w (by
    intro r hr
    refine ⟨(hS r hr).1, ?_⟩
    show dualInvArea g bc _ ≠ 0
    rw [da]
    exact (hS r hr).2) n
  have main' : (1 - (cfln ^ 2 + (if t.useCond then 1 else 0) / 2)) * fieldEnergy g bc t.ieps.array t.imu.array (drive s S w n) ≤
      6 * sourceWork g.L.array (dualInvArea g bc) dt S w (fun m => (drive s S w m).E) n := main
  rw [da] at main'
  have F0 := fieldEnergy_nonneg px py pz lx ly lz hbc hm (drive s S w n)
  have hk : 0 < 1 - (cfln ^ 2 + (if t.useCond then 1 else 0 : ℝ) / 2) := sub_pos.2 hq
  have hwork : (1 - (cfln ^ 2 + (if t.useCond then 1 else 0 : ℝ) / 2)) * fieldEnergy g bc t.ieps.array t.imu.array (drive s S w n) ≤ 6 * work := main'
  constructor
  · have : 0 ≤ (1 - (cfln ^ 2 + (if t.useCond then 1 else 0 : ℝ) / 2)) * fieldEnergy g bc t.ieps.array t.imu.array (drive s S w n) := mul_nonneg hk.le F0
    linarith
  · rw [div_mul_eq_mul_div, le_div_iff₀ hk]
    linarith

theorem first_centre {Nz : ℕ} {z : ℕ → ℝ} (hz : Grid.Increasing z Nz) (hN : 0 < Nz) : Smallest Nz (cellCentre z) (cellCentre z 0) := by
  refine ⟨⟨0, hN, rfl⟩, fun l hl => ?_⟩
  induction l with
  | zero => exact le_refl _
  | succ l ih =>
    refine (ih (by omega)).trans ?_
    have a1 := hz l (by omega)
    have a2 := hz (l + 1) hl
    unfold cellCentre
    linarith

/-- The automatic time step of a positive CFL number is positive. -/
theorem setUp_dt_pos {c eps0 mu0 cfln : ℝ} {nPml Nx Ny Nz : ℕ} {x y z : ℕ → ℝ} (hx : Grid.Increasing x Nx) (hy : Grid.Increasing y Ny) (hz : Grid.Increasing z Nz) {bc : Faces String}
    {bg : MatSpec ℝ} {dict : String → Option (MatSpec ℝ)} {solids : List Solid} {t : Mats ℝ} {dt : ℝ} (he : 0 < eps0) (hu : 0 < mu0) (hc : 0 < c) (h0 : 0 < cfln)
    (hbg : ∀ m, MeansMaterial bg m → m.Passive) (hsol : ∀ s ∈ solids, ∀ spec m, dict s.1 = some spec → MeansMaterial spec m → m.Passive)
    (h : setUp c eps0 mu0 cfln none nPml Nx Ny Nz x y z bc bg dict solids = .ok (t, dt)) : 0 < dt := by
  have ne : 0 < Nx ∧ 0 < Ny ∧ 0 < Nz := setUp_nonempty h
  obtain ⟨hN, -, hm, hs, hch⟩ := setUp_tensors ne.1 ne.2.1 ne.2.2 he hu hbg hsol h
  obtain ⟨d0, hcf, -, -, hor⟩ := C30_limits hch
  have posd : ∀ {x : ℕ → ℝ} {n : ℕ}, Grid.Increasing x n → ∀ a ∈ diffs x n, 0 < a := by
    intro x n h a ha
    obtain ⟨i, hi, rfl⟩ := List.mem_map.1 ha
    exact sub_pos.2 (h i (List.mem_range.1 hi))
  have hd0 : 0 < d0 := by
    have hcf' : cflDt c cfln (diffs x Nx) (diffs y Ny) (diffs z Nz) = .ok d0 := hcf
    unfold cflDt at hcf'
    cases hmx : pyMin (diffs x Nx) with
    | error e => rw [hmx] at hcf'; simp [bind, Except.bind] at hcf'
    | ok mx =>
    cases hmy : pyMin (diffs y Ny) with
    | error e => rw [hmx, hmy] at hcf'; simp [bind, Except.bind] at hcf'
    | ok my =>
    cases hmz : pyMin (diffs z Nz) with
    | error e => rw [hmx, hmy, hmz] at hcf'; simp [bind, Except.bind] at hcf'
    | ok mz =>
      rw [hmx, hmy, hmz] at hcf'
      simp only [bind, Except.bind, pure, Except.pure, Except.ok.injEq] at hcf'
      have ex := posd hx _ (pyMin_spec hmx).1
      have ey := posd hy _ (pyMin_spec hmy).1
      have ez := posd hz _ (pyMin_spec hmz).1
      have hS : 0 < Real.sqrt (1 / mx ^ 2 + 1 / my ^ 2 + 1 / mz ^ 2) := by
        apply Real.sqrt_pos.2; positivity
      rw [← hcf']
      positivity
  rcases hor with rfl | ⟨-, n, hn, hs0, hi0, rfl⟩
  · exact hd0
  · rw [hN] at hn
    have a1 := lt_of_le_of_ne (hm.ieps_nonneg n hn) (Ne.symm hi0)
    have a2 := lt_of_le_of_ne (hs n hn) (Ne.symm hs0)
    positivity

/-- **C144.** A wake run from zero fields with the test particle behind the bunch (same column), in any box with increasing axes, walls that are electric, magnetic or PML, passive materials, conducting or not, and
the automatic time step (`cfln² < 1`, `cfln² < 1/2` with conductivity).  At every step of the run the bunch has lost energy, or none, against the recorded field; and at the end the field energy is at most a constant
times what it has lost. -/
theorem C144_loss {c eps0 mu0 cfln : ℝ} {nPml Nx Ny Nz : ℕ} {x y z : ℕ → ℝ}
    (hx : Grid.Increasing x Nx) (hy : Grid.Increasing y Ny) (hz : Grid.Increasing z Nz) {bc : Faces String} (hbc : Walls bc)
    {bg : MatSpec ℝ} {dict : String → Option (MatSpec ℝ)} {solids : List Solid} {t : Mats ℝ} {dt : ℝ}
    (he : 0 < eps0) (hu : 0 < mu0) (hc : 0 < c) (hcc : c ^ 2 * (eps0 * mu0) = 1) (h0 : 0 < cfln)
    (hbg : ∀ m, MeansMaterial bg m → m.Passive)
    (hsol : ∀ s ∈ solids, ∀ spec m, dict s.1 = some spec → MeansMaterial spec m → m.Passive)
    (h : setUp c eps0 mu0 cfln none nPml Nx Ny Nz x y z bc bg dict solids = .ok (t, dt))
    (hq : cfln ^ 2 + (if t.useCond then 1 / 2 else 0) < 1)
    {w : WakeArgs} {b : Beam} (hb : w.beam = .ok b) {i j : ℕ} (hi : i + 1 < Nx) (hj : j + 1 < Ny)
    (hsx : IsNearest Nx (cellCentre x) w.xsource i) (hsy : IsNearest Ny (cellCentre y) w.ysource j)
    (htx : IsNearest Nx (cellCentre x) w.xtest i) (hty : IsNearest Ny (cellCentre y) w.ytest j)
    {wakelength : ℝ} {mon : Option Monitor} {md : ℕ → Dset ℝ} {o : WakeOut}
    (ho : wakesolve (build (Grid.computeGrid Nx Ny Nz x y z) bc t.ieps.array t.imu.array t.sigma.array dt t.useCond) (grdOf Nx Ny Nz x y z dt none) w wakelength true none mon md initState = .ok o) :
    ∃ Ez, Records (build (Grid.computeGrid Nx Ny Nz x y z) bc t.ieps.array t.imu.array t.sigma.array dt t.useCond) o Nz i j Ez ∧
      (∀ n ≤ o.Nt, 0 ≤ bunchLoss b w.sigmaz dt Nz z Ez n) ∧
      fieldEnergy (Grid.computeGrid Nx Ny Nz x y z) bc t.ieps.array t.imu.array o.st ≤
        6 / (1 - (cfln ^ 2 + if t.useCond then 1 / 2 else 0)) * (areaRatio x y i j * bunchLoss b w.sigmaz dt Nz z Ez o.Nt) := by
  set g0 := Grid.computeGrid Nx Ny Nz x y z with hg0
  set s := build g0 bc t.ieps.array t.imu.array t.sigma.array dt t.useCond with hs
  set g := grdOf Nx Ny Nz x y z dt none with hg
  have ne : 0 < Nx ∧ 0 < Ny ∧ 0 < Nz := setUp_nonempty h
  have hdt : 0 < dt := setUp_dt_pos hx hy hz he hu hc h0 hbg hsol h
  have hf : Fitting s g := ⟨rfl, rfl, rfl, ne.1, ne.2.1, ne.2.2, rfl⟩
  obtain ⟨o', S, D, zmin, zmax, ixt, iyt, Er, ho', hxt, hyt, hNt, hS0, hfin, hD, hrec, -, hzf, -, hEr, -⟩ := C65_records s g w hf hdt wakelength none mon md initState
  obtain rfl : o = o' := Except.ok.inj (ho.symm.trans ho')
  obtain rfl : i = ixt := C44_unique htx hxt
  obtain rfl : j = iyt := C44_unique hty hyt
  have hD' : ∀ n < o.Nt, Driven s g w zmin (n * s.dt) (S n) (D n) ∧ S (n + 1) = oneStep s (D n) := fun n hn => hD n hn
  have hzmin : zmin = cellCentre z 0 := by
    have h1 := hrec.least
    rw [hzf] at h1
    exact smallest_unique h1 (first_centre hz ne.2.2)
  have hx0 := hx i (by omega)
  have hx1 := hx (i + 1) hi
  have hy0 := hy j (by omega)
  have hy1 := hy (j + 1) hj
  have hcell : 0 < (x (i + 1) - x i) * (y (j + 1) - y j) := mul_pos (by linarith) (by linarith)
  have hdual : 0 < (x (i + 2) - x i) / 2 * ((y (j + 2) - y j) / 2) := mul_pos (by linarith) (by linarith)
  have hr : 0 < areaRatio x y i j := div_pos hdual hcell
  have hit : ∀ k < Nz, g0.itA.array (pos Nx Ny Nz 2 i j k) = 1 / ((x (i + 2) - x i) / 2 * ((y (j + 2) - y j) / 2)) := fun k hk => by
    rw [hg0, dual_column x y z hi hj hk]
    unfold Grid.guardedInv
    rw [if_pos hdual.ne']
  set I : ℕ → ℕ → ℝ := fun n r => (D n).J r with hI
  set L := column Nx Ny Nz i j with hL
  have same : ∀ n ≤ o.Nt, SameCells s (S n) (drive s L I n) := fun n hn => (wake_drive hf hS0 hD' hsx hsy (I := I) (fun n _ k _ => rfl) n hn).1
  have hcol : ∀ r ∈ L, r < 3 * (Nx * Ny * Nz) ∧ g0.itA.array r ≠ 0 := by
    intro r hr'
    obtain ⟨k, hk, rfl⟩ := List.mem_map.1 hr'
    have hk' := List.mem_range.1 hk
    refine ⟨pos_lt (by decide) (by omega) (by omega) hk', ?_⟩
    rw [hit k hk']
    exact (one_div_pos.2 hdual).ne'
  have pas := fun n => passive_column hx hy hz hbc he hu hc hcc h0.le hbg hsol h hq L I hcol n
  -- the recorded field
  set Ez : ℕ → ℕ → ℝ := fun n k => (S n).E (pos Nx Ny Nz 2 i j k) with hEz
  have hzn : Names (.str "z") 2 := names_iff.2 (by decide)
  have rd : ∀ n k, k < Nz → (s.fld (S n).E).get (i : ℤ) (j : ℤ) (k : ℤ) (.str "z") = .ok (Ez n k) := fun n k hk => by
    rw [get_at3 (f := s.fld (S n).E) _ hzn (show i < Nx by omega) (show j < Ny by omega) hk]
    rfl
  -- work and loss
  have inj : ∀ a ∈ Finset.range Nz, ∀ b ∈ Finset.range Nz, pos Nx Ny Nz 2 i j a = pos Nx Ny Nz 2 i j b → a = b := fun a ha b hb e =>
    (Mpi.pos_inj (show i < Nx by omega) (show j < Ny by omega) (Finset.mem_range.1 ha) (show i < Nx by omega) (show j < Ny by omega) (Finset.mem_range.1 hb) e).2.2.2
  have hLf : L.toFinset = (Finset.range Nz).image fun k => pos Nx Ny Nz 2 i j k := by
    ext r
    simp [hL, column]
  have hlen : ∀ k < Nz, g0.L.array (pos Nx Ny Nz 2 i j k) = z (k + 1) - z k := fun k hk => by
    refine (Grid.diffField_at3 x y z (c := 2) (by decide) (show i < Nx by omega) (show j < Ny by omega) hk).trans ?_
    rw [if_neg (by decide), if_neg (by decide)]
  have wk : ∀ n ≤ o.Nt, sourceWork g0.L.array g0.itA.array dt L I (fun m => (drive s L I m).E) n = areaRatio x y i j * bunchLoss b w.sigmaz dt Nz z Ez n := by
    intro n hn
    unfold sourceWork bunchLoss
    rw [mul_neg, Finset.mul_sum]
    congr 1
    refine Finset.sum_congr rfl fun m hm => ?_
    have hm' : m < n := Finset.mem_range.1 hm
    rw [hLf, Finset.sum_image inj, Finset.mul_sum]
    refine Finset.sum_congr rfl fun k hk => ?_
    have hk' : k < Nz := Finset.mem_range.1 hk
    have p := pos_lt (Nx := Nx) (Ny := Ny) (Nz := Nz) (c := 2) (by decide) (show i < Nx by omega) (show j < Ny by omega) hk'
    have b1 : I m (pos Nx Ny Nz 2 i j k) = bunchCurrent b w.sigmaz zmin (m * dt) (cellCentre z k) / ((x (i + 1) - x i) * (y (j + 1) - y j)) :=
      driven_beam hf (hD' m (by omega)).1 hb (k := k) hk' hsx hsy
    beta_reduce
    rw [← (same m (by omega) _ p).1, ← (same (m + 1) (by omega) _ p).1, b1, hit k hk', hlen k hk', hzmin]
    unfold areaRatio
    rw [div_div_eq_mul_div, div_one]
    simp only [hEz]
    ring
  refine ⟨Ez, ⟨fun n hn k hk hN => ?_, fun k hk => ?_⟩, fun n hn => ?_, ?_⟩
  · have e : Er n k = Ez n k := Except.ok.inj ((hEr n hn k hk).symm.trans (rd n k hk))
    unfold sample
    rw [hrec.file, C49_frames_partial md hN _ hn]
    rw [← e]
    exact if_pos hk
  · rw [hfin]
    exact rd _ k hk
  · have := (pas n).1
    rw [wk n hn] at this
    exact nonneg_of_mul_nonneg_right this hr
  · have := (pas o.Nt).2
    rw [wk _ le_rfl] at this
    rw [hfin, energy_same (s := s) rfl (same _ le_rfl)]
    exact this

/-- A 4 x 4 x 5 box with graded cells, PML faces and a conducting background: runs of every length exist, and the bunch loses energy in all of them. -/
example (wakelength : ℝ) (md : ℕ → Dset ℝ) : ∃ t dt o, setUp 1 1 1 (1 / 2) none 2 4 4 5 (fun i => (i : ℝ) ^ 2) (fun i => (i : ℝ) ^ 2) (fun i => (i : ℝ) ^ 2) wBc
      (.vals ⟨.fin 2, .fin 1, some 3⟩) (fun _ => none) [] = .ok (t, dt) ∧
    wakesolve (build (Grid.computeGrid 4 4 5 (fun i => (i : ℝ) ^ 2) (fun i => (i : ℝ) ^ 2) (fun i => (i : ℝ) ^ 2)) wBc t.ieps.array t.imu.array t.sigma.array dt t.useCond)
      (grdOf 4 4 5 (fun i => (i : ℝ) ^ 2) (fun i => (i : ℝ) ^ 2) (fun i => (i : ℝ) ^ 2) dt none) (aimed (fun i => (i : ℝ) ^ 2) (fun i => (i : ℝ) ^ 2) 1 2) wakelength true none none md initState = .ok o ∧
    ∃ b Ez, Records (build (Grid.computeGrid 4 4 5 (fun i => (i : ℝ) ^ 2) (fun i => (i : ℝ) ^ 2) (fun i => (i : ℝ) ^ 2)) wBc t.ieps.array t.imu.array t.sigma.array dt t.useCond) o 5 1 2 Ez ∧
      ∀ n ≤ o.Nt, 0 ≤ bunchLoss b 1 dt 5 (fun i => (i : ℝ) ^ 2) Ez n := by
  obtain ⟨t, dt, h, hpas, _⟩ := setUp_case
  have inc : ∀ n, Grid.Increasing (fun i => (i : ℝ) ^ 2) n := by
    intro n i _
    have : (0 : ℝ) ≤ i := Nat.cast_nonneg i
    show (i : ℝ) ^ 2 < ((i + 1 : ℕ) : ℝ) ^ 2
    push_cast
    nlinarith
  have hdt : 0 < dt := setUp_dt_pos (inc 4) (inc 4) (inc 5) one_pos one_pos one_pos (by norm_num) hpas (by simp) h
  obtain ⟨o, -, -, -, -, -, -, -, ho, -⟩ := C65_records (build (Grid.computeGrid 4 4 5 (fun i => (i : ℝ) ^ 2) (fun i => (i : ℝ) ^ 2) (fun i => (i : ℝ) ^ 2)) wBc t.ieps.array t.imu.array t.sigma.array dt t.useCond)
    (grdOf 4 4 5 (fun i => (i : ℝ) ^ 2) (fun i => (i : ℝ) ^ 2) (fun i => (i : ℝ) ^ 2) dt none) (aimed (fun i => (i : ℝ) ^ 2) (fun i => (i : ℝ) ^ 2) 1 2)
    ⟨rfl, rfl, rfl, show 0 < 4 by omega, show 0 < 4 by omega, show 0 < 5 by omega, rfl⟩ hdt wakelength none none md initState
  obtain ⟨Ez, h1, h2, -⟩ := C144_loss (inc 4) (inc 4) (inc 5) wBc_walls one_pos one_pos one_pos (by norm_num) (by norm_num) hpas (by simp) h (by split_ifs <;> norm_num) rfl
    (show 1 + 1 < 4 by omega) (show 2 + 1 < 4 by omega) (centre_nearest (inc 4) (by omega)) (centre_nearest (inc 4) (by omega)) (centre_nearest (inc 4) (by omega)) (centre_nearest (inc 4) (by omega)) ho
  exact ⟨t, dt, o, h, ho, _, Ez, h1, h2⟩

end
end Wake
end Wakis
