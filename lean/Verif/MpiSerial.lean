import Verif.MpiSlab

/-!
# C34: the distributed run equals the serial run
-/

namespace Wakis
namespace Mpi
open Sol Sparse
variable {K : Type _} [Field K] [DecidableEq K]

/-- A distributed set-up and its serial counterpart: `size` ranks owning `n` layers each. -/
structure Dist (K : Type _) where
  size : ℕ
  n : ℕ
  Nx : ℕ
  Ny : ℕ
  x : ℕ → K
  y : ℕ → K
  /-- nodes of the whole grid -/
  z : ℕ → K
  /-- nodes of the ranks' grids -/
  zr : ℕ → ℕ → K
  bc : Faces String
  /-- material tensors (`1/eps`, `1/mu`, `sigma`) of the serial solver -/
  ieps : Vec K
  imu : Vec K
  sigma : Vec K
  /-- material tensors of the ranks -/
  iepsr : ℕ → Vec K
  imur : ℕ → Vec K
  sigmar : ℕ → Vec K
  dt : K
  uc : Bool
  ucr : ℕ → Bool

namespace Dist
variable (D : Dist K)

/-- Layers of the whole grid. -/
def NZ : ℕ := D.size * D.n
/-- Local layers of a rank, ghosts included. -/
def m (r : ℕ) : ℕ := D.n + Grid.ghostLo r + Grid.ghostHi r D.size
/-- Global number of the rank's layer 0. -/
def o (r : ℕ) : ℕ := off D.n r
/-- The grid of the serial run. -/
def grid : Grid.Geom K := Grid.computeGrid D.Nx D.Ny D.NZ D.x D.y D.z
/-- The grid of a rank. -/
def gridr (r : ℕ) : Grid.Geom K := Grid.computeGrid D.Nx D.Ny (D.m r) D.x D.y (D.zr r)
/-- The serial solver. -/
def serial : Solver K := build D.grid D.bc D.ieps D.imu D.sigma D.dt D.uc
/-- The solver of a rank: own grid, names overridden at inner faces (solverFIT3D.py:727-733), own tensors. -/
def rank (r : ℕ) : Solver K := build (D.gridr r) (mpiBC r D.size D.bc) (D.iepsr r) (D.imur r) (D.sigmar r) D.dt (D.ucr r)

/-- Dual lengths and inverse dual areas after the boundary conditions, serial solver and rank (`applyBC`). -/
def metric : Fld K × Fld K := abcMetric D.grid D.bc (periodicMetric D.grid D.bc)
def metricr (r : ℕ) : Fld K × Fld K :=
  abcMetric (D.gridr r) (mpiBC r D.size D.bc) (periodicMetric (D.gridr r) (mpiBC r D.size D.bc))

/-- A tensor of rank `r` is the global one restricted to the rank's layers. -/
def Restricts (r : ℕ) (a : Vec K) (A : Vec K) : Prop :=
  ∀ c i j k, c < 3 → i < D.Nx → j < D.Ny → k < D.m r → a (pos D.Nx D.Ny (D.m r) c i j k) = A (pos D.Nx D.Ny D.NZ c i j (D.o r + k))

/-- The hypotheses of the comparison. -/
structure Ok : Prop where
  ranks : 2 ≤ D.size
  layers : 0 < D.n
  nodes : ∀ r < D.size, SlabNodes (D.m r) (D.o r) (D.zr r) D.z
  xlo : isPec D.bc.xlo = true
  xhi : isPec D.bc.xhi = true
  ylo : isPec D.bc.ylo = true
  yhi : isPec D.bc.yhi = true
  noPmc : anyFace isPmcAny D.bc = false
  /-- dual lengths and inverse dual areas in use: restricted to the rank's layers below its upper ghost layer -/
  tL : ∀ r < D.size, ∀ c i j k, c < 3 → i < D.Nx → j < D.Ny → k < D.m r → (k + 1 < D.m r ∨ r + 1 = D.size) →
    (D.metricr r).1.array (pos D.Nx D.Ny (D.m r) c i j k) = D.metric.1.array (pos D.Nx D.Ny D.NZ c i j (D.o r + k))
  itA : ∀ r < D.size, ∀ c i j k, c < 3 → i < D.Nx → j < D.Ny → k < D.m r → (k + 1 < D.m r ∨ r + 1 = D.size) →
    (D.metricr r).2.array (pos D.Nx D.Ny (D.m r) c i j k) = D.metric.2.array (pos D.Nx D.Ny D.NZ c i j (D.o r + k))
  ieps : ∀ r < D.size, D.Restricts r (D.iepsr r) D.ieps
  imu : ∀ r < D.size, D.Restricts r (D.imur r) D.imu
  sigma : ∀ r < D.size, D.Restricts r (D.sigmar r) D.sigma
  /-- the ranks and the serial solver agree on whether conduction currents are computed -/
  cond : ∀ r < D.size, (D.rank r).useConductivity = D.serial.useConductivity

variable {D}

/-! ### layers -/

theorem Ok.fit (h : D.Ok) {r : ℕ} (hr : r < D.size) : D.o r + D.m r ≤ D.NZ ∧ (r = 0 → D.o r = 0) ∧
    (r + 1 = D.size → D.o r + D.m r = D.NZ) ∧ 2 ≤ D.m r ∧ 2 ≤ D.NZ := by
  have h1 : (r + 1) * D.n ≤ D.size * D.n := Nat.mul_le_mul_right _ hr
  have h2 : (r + 1) * D.n = r * D.n + D.n := by ring
  have h4 : 2 * D.n ≤ D.size * D.n := Nat.mul_le_mul_right _ h.ranks
  have hn := h.layers
  have hs := h.ranks
  have h3 : r + 1 < D.size → (r + 1 + 1) * D.n ≤ D.size * D.n := fun hlt => Nat.mul_le_mul_right _ hlt
  have h5 : (r + 1 + 1) * D.n = r * D.n + D.n + D.n := by ring
  have h6 : r + 1 = D.size → r * D.n + D.n = D.size * D.n := fun he => by rw [← he]; ring
  have h7 : 0 < r → D.n ≤ r * D.n := fun h0 => Nat.le_mul_of_pos_left _ h0
  have h8 : r = 0 → r * D.n = 0 := fun h0 => by rw [h0, Nat.zero_mul]
  unfold o m NZ off Grid.ghostLo Grid.ghostHi
  generalize r * D.n = a at *
  generalize D.size * D.n = b at *
  by_cases h0 : 0 < r
  · by_cases hlt : r + 1 < D.size
    · have := h3 hlt; have := h7 h0
      simp only [h0, hlt, true_or, if_true]
      omega
    · have := h7 h0
      have e : ¬ (r + 1 < D.size ∨ D.size = 1) := by omega
      simp only [h0, e, if_true, if_false]
      have := h6 (by omega)
      omega
  · have hlt : r + 1 < D.size := by omega
    have := h3 hlt
    have := h8 (by omega)
    simp only [h0, hlt, true_or, if_true, if_false]
    omega

theorem Ok.next (h : D.Ok) {r : ℕ} (hr : r + 1 < D.size) : D.o (r + 1) + 1 = D.o r + (D.m r - 1) := by
  have h2 : (r + 1) * D.n = r * D.n + D.n := by ring
  have hn := h.layers
  have h7 : 0 < r → D.n ≤ r * D.n := fun h0 => Nat.le_mul_of_pos_left _ h0
  have h8 : r = 0 → r * D.n = 0 := fun h0 => by rw [h0, Nat.zero_mul]
  unfold o m off Grid.ghostLo Grid.ghostHi
  rw [h2]
  generalize r * D.n = a at *
  by_cases h0 : 0 < r
  · have := h7 h0
    simp only [h0, hr, true_or, if_true, Nat.succ_pos]
    omega
  · have := h8 (by omega)
    simp only [h0, hr, true_or, if_true, if_false, Nat.succ_pos]
    omega

theorem Ok.next_top (h : D.Ok) {r : ℕ} (hr : r + 1 < D.size) :
    1 + 1 < D.m (r + 1) ∨ r + 1 + 1 = D.size := by
  have hn := h.layers
  by_cases h1 : r + 1 + 1 < D.size
  · left
    unfold m Grid.ghostLo Grid.ghostHi
    simp only [h1, true_or, if_true, Nat.succ_pos]
    omega
  · right; omega

theorem Ok.prev_bot (h : D.Ok) {r : ℕ} (hr : r + 1 < D.size) : 0 < D.m r - 2 ∨ r = 0 := by
  have hn := h.layers
  by_cases h0 : 0 < r
  · left
    unfold m Grid.ghostLo Grid.ghostHi
    simp only [h0, hr, true_or, if_true]
    omega
  · right; omega

theorem Ok.slabs (h : D.Ok) : Slabs D.rank D.size where
  lo r _ hr := (h.fit hr).2.2.2.1
  hi r hr := (h.fit (show r < D.size by omega)).2.2.2.1
  mid r h0 hr := by
    show 3 ≤ D.m r
    have := h.prev_bot hr
    omega

theorem sameXY (D : Dist K) : SameXY D.rank D.size := fun _ _ => ⟨rfl, rfl⟩

/-! ### agreement of states -/

/-- The field `w` of rank memory `st` and of the serial state `sg` agree in slab cell `(c,i,j,k)`. -/
def Agree (D : Dist K) (w : Which) (r : ℕ) (st sg : State K) (c i j k : ℕ) : Prop :=
  cell (D.rank r) w st c i j k = cell D.serial w sg c i j (D.o r + k)

/-- Layer `k` of rank `r` is one of its own. -/
def Own (D : Dist K) (r k : ℕ) : Prop := (0 < k ∨ r = 0) ∧ (k + 1 < D.m r ∨ r + 1 = D.size)

/-- All ranks agree with the serial state on all their layers. -/
def Full (D : Dist K) (w : Which) (locs : ℕ → State K) (sg : State K) : Prop :=
  ∀ r < D.size, ∀ c i j k, c < 3 → i < D.Nx → j < D.Ny → k < D.m r → D.Agree w r (locs r) sg c i j k

/-- All ranks agree with the serial state on the layers they own. -/
def Owned (D : Dist K) (w : Which) (locs : ℕ → State K) (sg : State K) : Prop :=
  ∀ r < D.size, ∀ c i j k, c < 3 → i < D.Nx → j < D.Ny → k < D.m r → D.Own r k → D.Agree w r (locs r) sg c i j k

theorem Full.owned {w : Which} {locs : ℕ → State K} {sg : State K} (h : D.Full w locs sg) : D.Owned w locs sg :=
  fun r hr c i j k h1 h2 h3 h4 _ => h r hr c i j k h1 h2 h3 h4

/-- The exchange spreads agreement from owned layers to ghost layers. -/
theorem Ok.exchange (hD : D.Ok) {w : Which} {locs : ℕ → State K} {sg : State K} (h : D.Owned w locs sg) :
    D.Full w (afterHalo (bufs D.rank w) D.size locs) sg := by
  intro r hr c i j k hc hi hj hk
  have hz := hD.fit hr
  unfold Agree
  rw [afterHalo_cell hD.slabs D.sameXY w locs hr hc hi hj hk]
  by_cases h1 : r + 1 < D.size ∧ k = (D.rank r).Nz - 1
  · have hk' : k = D.m r - 1 := h1.2
    rw [if_pos h1, hk', ← hD.next h1.1]
    have h2 := (hD.fit h1.1).2.2.2.1
    exact h (r + 1) h1.1 c i j 1 hc hi hj (by omega) ⟨.inl (by decide), hD.next_top h1.1⟩
  · rw [if_neg h1]
    by_cases h0 : 0 < r ∧ k = 0
    · rw [if_pos h0]
      obtain ⟨r, rfl⟩ : ∃ r', r = r' + 1 := ⟨r - 1, by omega⟩
      obtain ⟨_, rfl⟩ := h0
      simp only [Nat.add_sub_cancel]
      have hn := hD.next (r := r) hr
      have h2 := (hD.fit (show r < D.size by omega)).2.2.2.1
      have := h r (by omega) c i j (D.m r - 2) hc hi hj (by omega) ⟨hD.prev_bot hr, .inl (by omega)⟩
      refine Eq.trans this ?_
      congr 1
      omega
    · rw [if_neg h0]
      have e1 : (D.rank r).Nz = D.m r := rfl
      rw [e1] at h1
      exact h r hr c i j k hc hi hj hk ⟨by omega, by omega⟩

/-! ### masks -/

omit [DecidableEq K] in
theorem edge01 {lo hi v : K} {n m : ℕ} (h1 : lo = 0 ∨ lo = 1) (h2 : hi = 0 ∨ hi = 1) (h3 : v = 0 ∨ v = 1) :
    edge lo hi n m v = 0 ∨ edge lo hi n m v = 1 := by
  unfold edge; split_ifs <;> assumption

omit [DecidableEq K] in
theorem pecFaces01 (bc : Faces String) (a : ℕ) : ((pecFaces bc : Faces K).lo a = 0 ∨ (pecFaces bc : Faces K).lo a = 1) ∧
    ((pecFaces bc : Faces K).hi a = 0 ∨ (pecFaces bc : Faces K).hi a = 1) := by
  rw [pecFaces_lo, pecFaces_hi]
  constructor <;> split_ifs <;> simp

omit [DecidableEq K] in
theorem maskVal01 (Nx Ny Nz : ℕ) (bc : Faces String) (c i j k : ℕ) :
    maskVal Nx Ny Nz (pecFaces bc : Faces K) c i j k = 0 ∨ maskVal Nx Ny Nz (pecFaces bc : Faces K) c i j k = 1 := by
  have h0 := pecFaces01 (K := K) bc 0
  have h1 := pecFaces01 (K := K) bc 1
  have h2 := pecFaces01 (K := K) bc 2
  simp only [Faces.lo, Faces.hi, if_true, if_false, one_ne_zero, OfNat.ofNat_ne_zero, OfNat.ofNat_ne_one] at h0 h1 h2
  unfold maskVal
  split_ifs
  · exact edge01 h2.1 h2.2 (edge01 h1.1 h1.2 (.inr rfl))
  · exact edge01 h2.1 h2.2 (edge01 h0.1 h0.2 (.inr rfl))
  · exact edge01 h1.1 h1.2 (edge01 h0.1 h0.2 (.inr rfl))

theorem isPec_pec : isPec "pec" = true := by decide
theorem isPec_mpi : isPec "mpi" = false := by decide

/-- Face values of a rank's electric mask: x and y as in the serial run, z open at inner faces. -/
theorem Ok.faces (h : D.Ok) (r : ℕ) :
    let wl := (pecFaces (mpiBC r D.size D.bc) : Faces K)
    let wg := (pecFaces D.bc : Faces K)
    wl.xlo = 0 ∧ wl.xhi = 0 ∧ wl.ylo = 0 ∧ wl.yhi = 0 ∧ wg.xlo = 0 ∧ wg.xhi = 0 ∧ wg.ylo = 0 ∧ wg.yhi = 0 ∧
      wl.zlo = (if 0 < r then 1 else wg.zlo) ∧ wl.zhi = (if r + 1 < D.size then 1 else wg.zhi) := by
  intro wl wg
  have l0 := pecFaces_lo (K := K) (mpiBC r D.size D.bc) 0
  have l1 := pecFaces_lo (K := K) (mpiBC r D.size D.bc) 1
  have l2 := pecFaces_lo (K := K) (mpiBC r D.size D.bc) 2
  have u0 := pecFaces_hi (K := K) (mpiBC r D.size D.bc) 0
  have u1 := pecFaces_hi (K := K) (mpiBC r D.size D.bc) 1
  have u2 := pecFaces_hi (K := K) (mpiBC r D.size D.bc) 2
  have L0 := pecFaces_lo (K := K) D.bc 0
  have L1 := pecFaces_lo (K := K) D.bc 1
  have L2 := pecFaces_lo (K := K) D.bc 2
  have U0 := pecFaces_hi (K := K) D.bc 0
  have U1 := pecFaces_hi (K := K) D.bc 1
  have U2 := pecFaces_hi (K := K) D.bc 2
  simp only [Faces.lo, Faces.hi, if_true, if_false, one_ne_zero, OfNat.ofNat_ne_zero, OfNat.ofNat_ne_one] at l0 l1 l2 u0 u1 u2 L0 L1 L2 U0 U1 U2
  rw [h.xlo, if_pos rfl] at L0
  rw [h.xhi, if_pos rfl] at U0
  rw [h.ylo, if_pos rfl] at L1
  rw [h.yhi, if_pos rfl] at U1
  refine ⟨?_, ?_, ?_, ?_, L0, U0, L1, U1, ?_, ?_⟩
  · refine l0.trans (if_pos ?_)
    unfold mpiBC; by_cases a : 0 < r <;> by_cases b : r + 1 < D.size <;> simp [a, b, h.xlo, isPec_pec]
  · refine u0.trans (if_pos ?_)
    unfold mpiBC; by_cases a : 0 < r <;> by_cases b : r + 1 < D.size <;> simp [a, b, h.xhi, isPec_pec]
  · refine l1.trans (if_pos ?_)
    unfold mpiBC; by_cases a : 0 < r <;> by_cases b : r + 1 < D.size <;> simp [a, b, h.ylo, isPec_pec]
  · refine u1.trans (if_pos ?_)
    unfold mpiBC; by_cases a : 0 < r <;> by_cases b : r + 1 < D.size <;> simp [a, b, h.yhi, isPec_pec]
  · refine l2.trans ?_
    unfold mpiBC; by_cases a : 0 < r <;> by_cases b : r + 1 < D.size <;> simp [a, b, isPec_mpi, wg, L2]
  · refine u2.trans ?_
    unfold mpiBC; by_cases a : 0 < r <;> by_cases b : r + 1 < D.size <;> simp [a, b, isPec_mpi, wg, U2]

/-- Electric masks of a rank and of the serial solver in corresponding cells. -/
def maskr (D : Dist K) (r c i j k : ℕ) : K := maskVal D.Nx D.Ny (D.m r) (pecFaces (mpiBC r D.size D.bc)) c i j k
def maskg (D : Dist K) (c i j k : ℕ) : K := maskVal D.Nx D.Ny D.NZ (pecFaces D.bc) c i j k

theorem Ok.mask_own (h : D.Ok) {r : ℕ} (hr : r < D.size) {c i j k : ℕ} (hk : k < D.m r) (ho : D.Own r k) :
    D.maskr r c i j k = D.maskg c i j (D.o r + k) := by
  obtain ⟨f1, f2, f3, f4, f5⟩ := h.fit hr
  obtain ⟨a1, a2, a3, a4, b1, b2, b3, b4, z1, z2⟩ := h.faces r
  unfold maskr maskg maskVal
  rw [a1, a2, a3, a4, b1, b2, b3, b4, z1, z2]
  have key : ∀ v : K, edge (if 0 < r then 1 else (pecFaces D.bc : Faces K).zlo) (if r + 1 < D.size then 1 else (pecFaces D.bc : Faces K).zhi)
      (D.m r) k v = edge (pecFaces D.bc : Faces K).zlo (pecFaces D.bc : Faces K).zhi D.NZ (D.o r + k) v := by
    intro v
    obtain ⟨o1, o2⟩ := ho
    unfold edge
    by_cases e1 : k = D.m r - 1
    · have ht : r + 1 = D.size := by omega
      have := f3 ht
      rw [if_pos e1, if_pos (show D.o r + k = D.NZ - 1 by omega), if_neg (show ¬ r + 1 < D.size by omega)]
    · rw [if_neg e1, if_neg (show ¬ D.o r + k = D.NZ - 1 by omega)]
      by_cases e0 : k = 0
      · have h0 : r = 0 := by omega
        have := f2 h0
        rw [if_pos e0, if_pos (show D.o r + k = 0 by omega), if_neg (show ¬ 0 < r by omega)]
      · rw [if_neg e0, if_neg (show ¬ D.o r + k = 0 by omega)]
  simp only [key]

theorem Ok.mask_z (h : D.Ok) {r i j k K' : ℕ} : D.maskr r 2 i j k = D.maskg 2 i j K' := by
  obtain ⟨a1, a2, a3, a4, b1, b2, b3, b4, z1, z2⟩ := h.faces r
  unfold maskr maskg maskVal
  simp only [OfNat.ofNat_ne_zero, OfNat.ofNat_ne_one, if_false]
  rw [a1, a2, a3, a4, b1, b2, b3, b4]

theorem Ok.mask_z_face (h : D.Ok) {r i j k : ℕ} (hf : i = 0 ∨ j = 0) : D.maskr r 2 i j k = 0 := by
  obtain ⟨a1, a2, a3, a4, b1, b2, b3, b4, z1, z2⟩ := h.faces r
  unfold maskr maskVal
  simp only [OfNat.ofNat_ne_zero, OfNat.ofNat_ne_one, if_false]
  rw [a1, a2, a3, a4]
  unfold edge
  rcases hf with hf | hf
  · simp only [hf]; split_ifs <;> rfl
  · simp only [hf]; split_ifs <;> first | rfl | omega

theorem Ok.mask_ghost (h : D.Ok) {r : ℕ} (hr : r < D.size) {c i j k : ℕ} (hc : c < 2) (hk : k < D.m r) (ho : ¬ D.Own r k) :
    D.maskr r c i j k = 1 := by
  obtain ⟨f1, f2, f3, f4, f5⟩ := h.fit hr
  obtain ⟨a1, a2, a3, a4, b1, b2, b3, b4, z1, z2⟩ := h.faces r
  have key : ∀ v : K, edge (if 0 < r then 1 else (pecFaces D.bc : Faces K).zlo) (if r + 1 < D.size then 1 else (pecFaces D.bc : Faces K).zhi)
      (D.m r) k v = 1 := by
    intro v
    unfold Own at ho
    unfold edge
    by_cases e1 : k = D.m r - 1
    · rw [if_pos e1, if_pos (show r + 1 < D.size by omega)]
    · rw [if_neg e1, if_pos (show k = 0 by omega), if_pos (show 0 < r by omega)]
  unfold maskr maskVal
  rw [z1, z2]
  have : c = 0 ∨ c = 1 := by omega
  rcases this with rfl | rfl
  · rw [if_pos rfl, key]
  · rw [if_neg (by decide), if_pos rfl, key]

/-- Where the serial solver masks E, E and J are zero. -/
def Clean (D : Dist K) (sg : State K) : Prop := ∀ c i j k, c < 3 → i < D.Nx → j < D.Ny → k < D.NZ →
  D.maskg c i j k = 0 → sg.E (pos D.Nx D.Ny D.NZ c i j k) = 0 ∧ sg.J (pos D.Nx D.Ny D.NZ c i j k) = 0

/-- Masked edge voltages agree where E agrees. -/
theorem Ok.volt (h : D.Ok) {r : ℕ} (hr : r < D.size) {st sg : State K} (hcl : D.Clean sg) {c i j k : ℕ} (hc : c < 3)
    (hi : i < D.Nx) (hj : j < D.Ny) (hk : k < D.m r) (hE : D.Agree .E r st sg c i j k ∨ (c = 2 ∧ (i = 0 ∨ j = 0))) :
    At D.Nx D.Ny (D.m r) D.NZ (D.o r) (fun q => colMask (D.gridr r) (mpiBC r D.size D.bc) q * ((D.gridr r).L.array q * st.E q))
      (fun q => colMask D.grid D.bc q * (D.grid.L.array q * sg.E q)) c i j k := by
  obtain ⟨f1, f2, f3, f4, f5⟩ := h.fit hr
  have hK : D.o r + k < D.NZ := by omega
  unfold At
  have m1 : colMask (D.gridr r) (mpiBC r D.size D.bc) (pos D.Nx D.Ny (D.m r) c i j k) = D.maskr r c i j k :=
    colMask_pos (D.gridr r) (mpiBC r D.size D.bc) hc hi hj hk
  have m2 : colMask D.grid D.bc (pos D.Nx D.Ny D.NZ c i j (D.o r + k)) = D.maskg c i j (D.o r + k) :=
    colMask_pos D.grid D.bc hc hi hj hK
  have l1 : (D.gridr r).L.array (pos D.Nx D.Ny (D.m r) c i j k) = D.grid.L.array (pos D.Nx D.Ny D.NZ c i j (D.o r + k)) :=
    L_agree (h.nodes r hr) f1 hc hi hj hk
  simp only
  rw [m1, m2, l1]
  rcases hE with hE | ⟨rfl, hf⟩
  · have e : st.E (pos D.Nx D.Ny (D.m r) c i j k) = sg.E (pos D.Nx D.Ny D.NZ c i j (D.o r + k)) := hE
    rw [e]
    by_cases ho : D.Own r k
    · rw [h.mask_own hr hk ho]
    · by_cases h2 : c = 2
      · subst h2; rw [h.mask_z]
      · rw [h.mask_ghost hr (by omega) hk ho]
        rcases maskVal01 (K := K) D.Nx D.Ny D.NZ D.bc c i j (D.o r + k) with h0 | h1
        · have := (hcl c i j (D.o r + k) hc hi hj hK h0).1
          rw [this]; ring
        · rw [show D.maskg c i j (D.o r + k) = 1 from h1]
  · have e : D.maskg 2 i j (D.o r + k) = 0 := by rw [← h.mask_z (r := r) (k := k), h.mask_z_face hf]
    rw [h.mask_z_face hf, e]; ring

/-! ### names and metric of a rank -/

theorem mpiBC_any (t : String → Bool) (ht : t "pec" = false) (ht' : t "mpi" = false) (r size : ℕ) (bc : Faces String)
    (h : anyFace t bc = false) : anyFace t (mpiBC r size bc) = false := by
  simp only [anyFace, Bool.or_eq_false_iff] at h ⊢
  unfold mpiBC
  by_cases a : 0 < r <;> by_cases b : r + 1 < size <;> simp [a, b, ht, ht', h]

theorem Ok.rank_noPmc (h : D.Ok) (r : ℕ) : anyFace isPmcAny (mpiBC r D.size D.bc) = false :=
  mpiBC_any _ (by decide) (by decide) r _ _ h.noPmc

/-! ### the three parts of a step -/

/-- First-step branch. -/
def pre (s : Solver K) (st : State K) : State K := if st.step0 then { setGhostsTo0 s st with step0 := false } else st

theorem pre_E (h : D.Ok) {r : ℕ} (hr : r < D.size) {st sg : State K} (h0 : st.step0 = sg.step0) {c i j k : ℕ} (hc : c < 3)
    (hi : i < D.Nx) (hj : j < D.Ny) (hk : k < D.m r) (hz : ¬ (c = 2 ∧ k + 1 = D.m r ∧ r + 1 < D.size))
    (hE : D.Agree .E r st sg c i j k) : D.Agree .E r (pre (D.rank r) st) (pre D.serial sg) c i j k := by
  obtain ⟨f1, f2, f3, f4, f5⟩ := h.fit hr
  unfold pre
  rw [← h0]
  by_cases hs : st.step0 = true
  · rw [if_pos hs, if_pos hs]
    show (ghostE ((D.rank r).fld st.E)).at3 c i j k = (ghostE (D.serial.fld sg.E)).at3 c i j (D.o r + k)
    rw [ghostE_at3 (f := (D.rank r).fld st.E) hi hj hk hc,
      ghostE_at3 (f := D.serial.fld sg.E) hi hj (show D.o r + k < D.NZ by omega) hc]
    have e1 : ((D.rank r).fld st.E).Nz = D.m r := rfl
    have e2 : (D.serial.fld sg.E).Nz = D.NZ := rfl
    have e3 : ((D.rank r).fld st.E).Nx = (D.serial.fld sg.E).Nx := rfl
    have e4 : ((D.rank r).fld st.E).Ny = (D.serial.fld sg.E).Ny := rfl
    have hiff : (c = 2 ∧ k = D.m r - 1) ↔ (c = 2 ∧ D.o r + k = D.NZ - 1) := by
      constructor
      · rintro ⟨a, b⟩; refine ⟨a, ?_⟩; have : r + 1 = D.size := by omega
        have := f3 this; omega
      · rintro ⟨a, b⟩; refine ⟨a, ?_⟩; by_contra hne; omega
    rw [e1, e2, e3, e4]
    simp only [hiff]
    have : ((D.rank r).fld st.E).at3 c i j k = (D.serial.fld sg.E).at3 c i j (D.o r + k) := hE
    rw [this]
  · rw [if_neg hs, if_neg hs]; exact hE

theorem pre_H (h : D.Ok) {r : ℕ} (hr : r < D.size) {st sg : State K} (h0 : st.step0 = sg.step0) {c i j k : ℕ} (hc : c < 3)
    (hi : i < D.Nx) (hj : j < D.Ny) (hk : k < D.m r) (ht : k + 1 < D.m r ∨ r + 1 = D.size)
    (hH : D.Agree .H r st sg c i j k) : D.Agree .H r (pre (D.rank r) st) (pre D.serial sg) c i j k := by
  obtain ⟨f1, f2, f3, f4, f5⟩ := h.fit hr
  unfold pre
  rw [← h0]
  by_cases hs : st.step0 = true
  · rw [if_pos hs, if_pos hs]
    show (ghostH ((D.rank r).fld st.H)).at3 c i j k = (ghostH (D.serial.fld sg.H)).at3 c i j (D.o r + k)
    rw [ghostH_at3 (f := (D.rank r).fld st.H) hi hj hk hc,
      ghostH_at3 (f := D.serial.fld sg.H) hi hj (show D.o r + k < D.NZ by omega) hc]
    have e1 : ((D.rank r).fld st.H).Nz = D.m r := rfl
    have e2 : (D.serial.fld sg.H).Nz = D.NZ := rfl
    have e3 : ((D.rank r).fld st.H).Nx = (D.serial.fld sg.H).Nx := rfl
    have e4 : ((D.rank r).fld st.H).Ny = (D.serial.fld sg.H).Ny := rfl
    have hiff : k = D.m r - 1 ↔ D.o r + k = D.NZ - 1 := by
      rcases ht with ht | ht
      · constructor <;> intro <;> omega
      · have := f3 ht; omega
    rw [e1, e2, e3, e4]
    simp only [hiff]
    have : ((D.rank r).fld st.H).at3 c i j k = (D.serial.fld sg.H).at3 c i j (D.o r + k) := hH
    rw [this]
  · rw [if_neg hs, if_neg hs]; exact hH

theorem clean_pre (s : Solver K) {sg : State K} (h : D.Clean sg) : D.Clean (pre s sg) := by
  intro c i j k h1 h2 h3 h4 h5
  obtain ⟨a, b⟩ := h c i j k h1 h2 h3 h4 h5
  unfold pre
  split_ifs
  · exact ⟨ghosts_E_zero _ _ a, b⟩
  · exact ⟨a, b⟩

theorem pre_step0 (s : Solver K) (sg : State K) : (pre s sg).step0 = false := by
  unfold pre; split_ifs with h
  · rfl
  · simpa using h

theorem pre_J (s : Solver K) (sg : State K) : (pre s sg).J = sg.J := by
  unfold pre; split_ifs <;> rfl

theorem hHalf_H (s : Solver K) (st : State K) : (hHalf s st).H = (advance s (pre s st)).H := rfl
theorem hHalf_E (s : Solver K) (st : State K) : (hHalf s st).E = (pre s st).E := rfl
theorem hHalf_J (s : Solver K) (st : State K) : (hHalf s st).J = st.J := pre_J s st
theorem hHalf_step0 (s : Solver K) (st : State K) : (hHalf s st).step0 = false := pre_step0 s st

/-- All that is needed of the states before a step. -/
structure Rel (D : Dist K) (locs : ℕ → State K) (sg : State K) : Prop where
  E : D.Full .E locs sg
  H : D.Full .H locs sg
  J : D.Full .J locs sg
  step0 : ∀ r < D.size, (locs r).step0 = sg.step0
  clean : D.Clean sg

theorem Ok.hHalf (h : D.Ok) {locs : ℕ → State K} {sg : State K} (hR : D.Rel locs sg) :
    D.Owned .H (syncLocal D.size (fun r => hHalf (D.rank r)) locs) (Mpi.hHalf D.serial sg) := by
  intro r hr c i j k hc hi hj hk ho
  obtain ⟨f1, f2, f3, f4, f5⟩ := h.fit hr
  have ht : k + 1 < D.m r ∨ D.o r + D.m r = D.NZ := ho.2.imp id f3
  have h0 := hR.step0 r hr
  unfold Agree syncLocal
  rw [if_pos hr]
  have hp : pos D.Nx D.Ny (D.m r) c i j k < 3 * (D.Nx * D.Ny * D.m r) := pos_lt hc hi hj hk
  have hP : pos D.Nx D.Ny D.NZ c i j (D.o r + k) < 3 * (D.Nx * D.Ny * D.NZ) := pos_lt hc hi hj (by omega)
  have e1 := advance_H (D.gridr r) (mpiBC r D.size D.bc) (D.iepsr r) (D.imur r) (D.sigmar r) D.dt (D.ucr r) (pre (D.rank r) (locs r))
    (r := pos D.Nx D.Ny (D.m r) c i j k) hp
  have e2 := advance_H D.grid D.bc D.ieps D.imu D.sigma D.dt D.uc (pre D.serial sg) (r := pos D.Nx D.Ny D.NZ c i j (D.o r + k)) hP
  show (advance (D.rank r) (pre (D.rank r) (locs r))).H (pos D.Nx D.Ny (D.m r) c i j k) =
    (advance D.serial (pre D.serial sg)).H (pos D.Nx D.Ny D.NZ c i j (D.o r + k))
  refine e1.trans (Eq.trans ?_ e2.symm)
  rw [rowMask_one _ _ (h.rank_noPmc r), rowMask_one _ _ h.noPmc]
  have a1 : (pre (D.rank r) (locs r)).H (pos D.Nx D.Ny (D.m r) c i j k) = (pre D.serial sg).H (pos D.Nx D.Ny D.NZ c i j (D.o r + k)) :=
    pre_H h hr h0 hc hi hj hk ho.2 (hR.H r hr c i j k hc hi hj hk)
  have a2 : (D.gridr r).iA.array (pos D.Nx D.Ny (D.m r) c i j k) = D.grid.iA.array (pos D.Nx D.Ny D.NZ c i j (D.o r + k)) :=
    iA_agree (h.nodes r hr) f1 hc hi hj hk
  have a3 := h.imu r hr c i j k hc hi hj hk
  have hcl := clean_pre (D := D) D.serial hR.clean
  have a4 := curl_agree (K := K) (Nx := D.Nx) (Ny := D.Ny) (m := D.m r) (NZ := D.NZ) (o := D.o r)
    (fun q => colMask (D.gridr r) (mpiBC r D.size D.bc) q * ((D.gridr r).L.array q * (pre (D.rank r) (locs r)).E q))
    (fun q => colMask D.grid D.bc q * (D.grid.L.array q * (pre D.serial sg).E q)) hc f1 hi hj hk ht
    (by
      intro c' i' j' hc' hi' hj'
      refine h.volt hr hcl hc' hi' hj' hk (.inl ?_)
      refine pre_E h hr h0 hc' hi' hj' hk (fun hh => by have := ho.2; omega) (hR.E r hr c' i' j' k hc' hi' hj' hk))
    (by
      intro c' i' j' hc' hi' hj' hk1 hcase
      refine h.volt hr hcl hc' hi' hj' hk1 ?_
      by_cases h2 : c' = 2
      · exact .inr ⟨h2, hcase.resolve_left (fun hn => hn h2)⟩
      · exact .inl (pre_E h hr h0 hc' hi' hj' hk1 (fun hh => h2 hh.1) (hR.E r hr c' i' j' (k + 1) hc' hi' hj' hk1)))
  have g1 : (D.gridr r).Nx = D.Nx ∧ (D.gridr r).Ny = D.Ny ∧ (D.gridr r).Nz = D.m r := ⟨rfl, rfl, rfl⟩
  have g2 : D.grid.Nx = D.Nx ∧ D.grid.Ny = D.Ny ∧ D.grid.Nz = D.NZ := ⟨rfl, rfl, rfl⟩
  rw [g1.1, g1.2.1, g1.2.2, g2.1, g2.2.1, g2.2.2, a1, a2, a3, a4]

/-- The curl in the E update of a built solver. -/
theorem M2_apply (g : Grid.Geom K) (bc : Faces String) (ieps imu sigma : Vec K) (dt : K) (uc : Bool) (hpmc : anyFace isPmcAny bc = false)
    (Hv : Vec K) {q : ℕ} (hq : q < 3 * (g.Nx * g.Ny * g.Nz)) :
    mulVec (build g bc ieps imu sigma dt uc).n3 (build g bc ieps imu sigma dt uc).M2 Hv q =
      ieps q * (applyBC g bc (C0 g.Nx g.Ny g.Nz)).itA.array q * (colMask g bc q *
        mulVec (3 * (g.Nx * g.Ny * g.Nz)) (transpose (C0 g.Nx g.Ny g.Nz))
          (fun q => (applyBC g bc (C0 g.Nx g.Ny g.Nz)).tL.array q * Hv q) q) := by
  show mulVec _ (opE _ ieps _ _ _) _ q = _
  rw [build_n3, opE_mulVec _ _ _ _ _ hq, applyBC_transpose_mulVec _ _ _ _ hq]
  simp only [rowMask_one _ _ hpmc, one_mul]
  rfl

theorem Ok.eHalf (h : D.Ok) {locs : ℕ → State K} {sg : State K} (hE : D.Owned .E locs sg) (hH : D.Full .H locs sg)
    (hJ : D.Full .J locs sg) :
    D.Owned .E (syncLocal D.size (fun r => Mpi.eHalf (D.rank r)) locs) (Mpi.eHalf D.serial sg) := by
  intro r hr c i j k hc hi hj hk ho
  obtain ⟨f1, f2, f3, f4, f5⟩ := h.fit hr
  have ht : k + 1 < D.m r ∨ D.o r + D.m r = D.NZ := ho.2.imp id f3
  have hl : 0 < k ∨ D.o r = 0 := ho.1.imp id f2
  unfold Agree syncLocal
  rw [if_pos hr]
  have hp : pos D.Nx D.Ny (D.m r) c i j k < 3 * (D.Nx * D.Ny * D.m r) := pos_lt hc hi hj hk
  have hP : pos D.Nx D.Ny D.NZ c i j (D.o r + k) < 3 * (D.Nx * D.Ny * D.NZ) := pos_lt hc hi hj (by omega)
  have e1 : mulVec (D.rank r).n3 (D.rank r).M2 (locs r).H (pos D.Nx D.Ny (D.m r) c i j k) =
      D.iepsr r (pos D.Nx D.Ny (D.m r) c i j k) * (D.metricr r).2.array (pos D.Nx D.Ny (D.m r) c i j k) *
        (colMask (D.gridr r) (mpiBC r D.size D.bc) (pos D.Nx D.Ny (D.m r) c i j k) *
          mulVec (3 * (D.Nx * D.Ny * D.m r)) (transpose (C0 D.Nx D.Ny (D.m r))) (fun q => (D.metricr r).1.array q * (locs r).H q)
            (pos D.Nx D.Ny (D.m r) c i j k)) :=
    M2_apply (D.gridr r) (mpiBC r D.size D.bc) (D.iepsr r) (D.imur r) (D.sigmar r) D.dt (D.ucr r) (h.rank_noPmc r) (locs r).H hp
  have e2 : mulVec D.serial.n3 D.serial.M2 sg.H (pos D.Nx D.Ny D.NZ c i j (D.o r + k)) =
      D.ieps (pos D.Nx D.Ny D.NZ c i j (D.o r + k)) * D.metric.2.array (pos D.Nx D.Ny D.NZ c i j (D.o r + k)) *
        (colMask D.grid D.bc (pos D.Nx D.Ny D.NZ c i j (D.o r + k)) *
          mulVec (3 * (D.Nx * D.Ny * D.NZ)) (transpose (C0 D.Nx D.Ny D.NZ)) (fun q => D.metric.1.array q * sg.H q)
            (pos D.Nx D.Ny D.NZ c i j (D.o r + k))) :=
    M2_apply D.grid D.bc D.ieps D.imu D.sigma D.dt D.uc h.noPmc sg.H hP
  show (locs r).E (pos D.Nx D.Ny (D.m r) c i j k) + D.dt * (mulVec (D.rank r).n3 (D.rank r).M2 (locs r).H (pos D.Nx D.Ny (D.m r) c i j k) -
      D.iepsr r (pos D.Nx D.Ny (D.m r) c i j k) * (locs r).J (pos D.Nx D.Ny (D.m r) c i j k)) =
    sg.E (pos D.Nx D.Ny D.NZ c i j (D.o r + k)) + D.dt * (mulVec D.serial.n3 D.serial.M2 sg.H (pos D.Nx D.Ny D.NZ c i j (D.o r + k)) -
      D.ieps (pos D.Nx D.Ny D.NZ c i j (D.o r + k)) * sg.J (pos D.Nx D.Ny D.NZ c i j (D.o r + k)))
  rw [e1, e2]
  have a1 : (locs r).E (pos D.Nx D.Ny (D.m r) c i j k) = sg.E (pos D.Nx D.Ny D.NZ c i j (D.o r + k)) := hE r hr c i j k hc hi hj hk ho
  have a2 : (locs r).J (pos D.Nx D.Ny (D.m r) c i j k) = sg.J (pos D.Nx D.Ny D.NZ c i j (D.o r + k)) := hJ r hr c i j k hc hi hj hk
  have a3 := h.ieps r hr c i j k hc hi hj hk
  have a4 := h.itA r hr c i j k hc hi hj hk ho.2
  have m1 : colMask (D.gridr r) (mpiBC r D.size D.bc) (pos D.Nx D.Ny (D.m r) c i j k) = D.maskr r c i j k :=
    colMask_pos (D.gridr r) (mpiBC r D.size D.bc) hc hi hj hk
  have m2 : colMask D.grid D.bc (pos D.Nx D.Ny D.NZ c i j (D.o r + k)) = D.maskg c i j (D.o r + k) :=
    colMask_pos D.grid D.bc hc hi hj (show D.o r + k < D.NZ by omega)
  have a5 := cocurl_agree (K := K) (Nx := D.Nx) (Ny := D.Ny) (m := D.m r) (NZ := D.NZ) (o := D.o r)
    (fun q => (D.metricr r).1.array q * (locs r).H q) (fun q => D.metric.1.array q * sg.H q) hc f1 hi hj hk hl
    (by
      intro c' i' j' k' hc' hi' hj' hk'
      have t := h.tL r hr c' i' j' k' hc' hi' hj' (by omega) (by have := ho.2; omega)
      have u : (locs r).H (pos D.Nx D.Ny (D.m r) c' i' j' k') = sg.H (pos D.Nx D.Ny D.NZ c' i' j' (D.o r + k')) :=
        hH r hr c' i' j' k' hc' hi' hj' (by omega)
      unfold At
      simp only
      rw [t, u])
  rw [a1, a2, a3, a4, m1, m2, h.mask_own hr hk ho, a5]

theorem Ok.jHalf (h : D.Ok) {locs : ℕ → State K} {sg : State K} (hE : D.Full .E locs sg) (hJ : D.Full .J locs sg) :
    D.Full .J (syncLocal D.size (fun r => Mpi.jHalf (D.rank r)) locs) (Mpi.jHalf D.serial sg) := by
  intro r hr c i j k hc hi hj hk
  unfold Agree syncLocal
  rw [if_pos hr]
  have hcd := h.cond r hr
  have a1 : (locs r).E (pos D.Nx D.Ny (D.m r) c i j k) = sg.E (pos D.Nx D.Ny D.NZ c i j (D.o r + k)) := hE r hr c i j k hc hi hj hk
  have a2 : (locs r).J (pos D.Nx D.Ny (D.m r) c i j k) = sg.J (pos D.Nx D.Ny D.NZ c i j (D.o r + k)) := hJ r hr c i j k hc hi hj hk
  have a3 := h.sigma r hr c i j k hc hi hj hk
  show (if (D.rank r).useConductivity = true then fun i => D.sigmar r i * (locs r).E i else (locs r).J) (pos D.Nx D.Ny (D.m r) c i j k) =
    (if D.serial.useConductivity = true then fun i => D.sigma i * sg.E i else sg.J) (pos D.Nx D.Ny D.NZ c i j (D.o r + k))
  rw [hcd]
  by_cases hu : D.serial.useConductivity = true
  · rw [if_pos hu, if_pos hu, a1, a3]
  · rw [if_neg hu, if_neg hu, a2]

theorem full_congr {w : Which} {locs locs' : ℕ → State K} {sg sg' : State K} (h : D.Full w locs sg)
    (h1 : ∀ r, getW w (locs' r) = getW w (locs r)) (h2 : getW w sg' = getW w sg) : D.Full w locs' sg' := by
  intro r hr c i j k hc hi hj hk
  have := h r hr c i j k hc hi hj hk
  unfold Agree cell at this ⊢
  rw [h1, h2]; exact this

theorem owned_congr {w : Which} {locs locs' : ℕ → State K} {sg sg' : State K} (h : D.Owned w locs sg)
    (h1 : ∀ r, getW w (locs' r) = getW w (locs r)) (h2 : getW w sg' = getW w sg) : D.Owned w locs' sg' := by
  intro r hr c i j k hc hi hj hk ho
  have := h r hr c i j k hc hi hj hk ho
  unfold Agree cell at this ⊢
  rw [h1, h2]; exact this

theorem Ok.clean_events (h : D.Ok) {sg : State K} (hcl : D.Clean sg) (e : Ev K)
    (he : ∀ c i j k, c < 3 → i < D.Nx → j < D.Ny → k < D.NZ → D.maskg c i j k = 0 → e.NotEJAt (pos D.Nx D.Ny D.NZ c i j k)) :
    D.Clean (event D.serial sg e) := by
  intro c i j k hc hi hj hk hm
  have hP : pos D.Nx D.Ny D.NZ c i j k < 3 * (D.Nx * D.Ny * D.NZ) := pos_lt hc hi hj hk
  have m2 : colMask D.grid D.bc (pos D.Nx D.Ny D.NZ c i j k) = 0 :=
    (colMask_pos D.grid D.bc hc hi hj hk).trans hm
  exact masked_E_zero D.grid D.bc D.ieps D.imu D.sigma D.dt D.uc hP m2 sg (hcl c i j k hc hi hj hk hm) [e]
    (fun e' h' => by rw [List.mem_singleton.1 h']; exact he c i j k hc hi hj hk hm)

/-- **A distributed step refines a serial step.** -/
theorem Ok.step (h : D.Ok) {locs : ℕ → State K} {sg : State K} (hR : D.Rel locs sg) :
    D.Rel (syncEv D.rank D.size D.n locs .step) (oneStep D.serial sg) := by
  have hclean : D.Clean (oneStep D.serial sg) := h.clean_events hR.clean .step (fun _ _ _ _ _ _ _ _ _ => trivial)
  rw [oneStep_halves] at hclean ⊢
  set l1 := syncLocal D.size (fun r => Mpi.hHalf (D.rank r)) locs with hl1
  set g1 := Mpi.hHalf D.serial sg with hg1
  have H1 : D.Owned .H l1 g1 := h.hHalf hR
  have E1 : D.Owned .E l1 g1 := by
    intro r hr c i j k hc hi hj hk ho
    have := pre_E h hr (hR.step0 r hr) hc hi hj hk (fun hh => by have := ho.2; omega) (hR.E r hr c i j k hc hi hj hk)
    unfold Agree at this ⊢
    rw [hl1, syncLocal, if_pos hr]
    exact this
  have J1 : D.Full .J l1 g1 := by
    refine full_congr hR.J (fun r => ?_) (hHalf_J _ _)
    rw [hl1, syncLocal]
    split_ifs
    · exact hHalf_J _ _
    · rfl
  set l2 := afterHalo (bufs D.rank .H) D.size l1 with hl2
  have H2 : D.Full .H l2 g1 := h.exchange H1
  have E2 : D.Owned .E l2 g1 := owned_congr E1 (fun r => (afterHalo_other D.rank D.size (by decide) l1 r).1) rfl
  have J2 : D.Full .J l2 g1 := full_congr J1 (fun r => (afterHalo_other D.rank D.size (by decide) l1 r).1) rfl
  set l3 := afterHalo (bufs D.rank .J) D.size l2 with hl3
  have H3 : D.Full .H l3 g1 := full_congr H2 (fun r => (afterHalo_other D.rank D.size (by decide) l2 r).1) rfl
  have E3 : D.Owned .E l3 g1 := owned_congr E2 (fun r => (afterHalo_other D.rank D.size (by decide) l2 r).1) rfl
  have J3 : D.Full .J l3 g1 := h.exchange J2.owned
  set l4 := syncLocal D.size (fun r => Mpi.eHalf (D.rank r)) l3 with hl4
  set g2 := Mpi.eHalf D.serial g1 with hg2
  have E4 : D.Owned .E l4 g2 := h.eHalf E3 H3 J3
  have H4 : D.Full .H l4 g2 := by
    refine full_congr H3 (fun r => ?_) rfl
    rw [hl4, syncLocal]; split_ifs <;> rfl
  have J4 : D.Full .J l4 g2 := by
    refine full_congr J3 (fun r => ?_) rfl
    rw [hl4, syncLocal]; split_ifs <;> rfl
  set l5 := afterHalo (bufs D.rank .E) D.size l4 with hl5
  have E5 : D.Full .E l5 g2 := h.exchange E4
  have H5 : D.Full .H l5 g2 := full_congr H4 (fun r => (afterHalo_other D.rank D.size (by decide) l4 r).1) rfl
  have J5 : D.Full .J l5 g2 := full_congr J4 (fun r => (afterHalo_other D.rank D.size (by decide) l4 r).1) rfl
  refine ⟨?_, ?_, h.jHalf E5 J5, ?_, hclean⟩
  · refine full_congr E5 (fun r => ?_) rfl
    show getW .E (syncLocal D.size (fun r => Mpi.jHalf (D.rank r)) l5 r) = _
    rw [syncLocal]; split_ifs <;> rfl
  · refine full_congr H5 (fun r => ?_) rfl
    show getW .H (syncLocal D.size (fun r => Mpi.jHalf (D.rank r)) l5 r) = _
    rw [syncLocal]; split_ifs <;> rfl
  · intro r hr
    show (syncLocal D.size (fun r => Mpi.jHalf (D.rank r)) l5 r).step0 = g1.step0
    have e5 : (l5 r).step0 = (l4 r).step0 := afterHalo_step0 _ _ _ _ _
    have e3 : (l3 r).step0 = (l2 r).step0 := afterHalo_step0 _ _ _ _ _
    have e2 : (l2 r).step0 = (l1 r).step0 := afterHalo_step0 _ _ _ _ _
    have e4 : (l4 r).step0 = (l3 r).step0 := by rw [hl4, syncLocal]; split_ifs <;> rfl
    have e1 : (l1 r).step0 = false := by rw [hl1, syncLocal, if_pos hr]; exact hHalf_step0 _ _
    rw [syncLocal, if_pos hr]
    show (l5 r).step0 = _
    rw [e5, e4, e3, e2, e1]
    exact (hHalf_step0 _ _).symm

/-- The event assigns only cells of the grid and no E or J entry masked by the serial solver. -/
def Admissible (D : Dist K) : DEv K → Prop
  | .step => True
  | .write .H c i j k _ => c < 3 ∧ i < D.Nx ∧ j < D.Ny ∧ k < D.NZ
  | .write _ c i j k _ => c < 3 ∧ i < D.Nx ∧ j < D.Ny ∧ k < D.NZ ∧ D.maskg c i j k ≠ 0

theorem admissible_range {f : Which} {c i j k : ℕ} {v : K} (h : D.Admissible (.write f c i j k v)) :
    c < 3 ∧ i < D.Nx ∧ j < D.Ny ∧ k < D.NZ := by
  cases f
  · exact ⟨h.1, h.2.1, h.2.2.1, h.2.2.2.1⟩
  · exact h
  · exact ⟨h.1, h.2.1, h.2.2.1, h.2.2.2.1⟩

theorem event_write (s : Solver K) (st : State K) (f : Which) (n : ℕ) (v : K) :
    event s st (.write f n v) = setW f st (Function.update (getW f st) n v) := by cases f <;> rfl

theorem write_full {w f : Which} {locs : ℕ → State K} {sg : State K} (h : D.Full w locs sg) {c i j k : ℕ} {v : K}
    (hc : c < 3) (hi : i < D.Nx) (hj : j < D.Ny) (hk : k < D.NZ) (hD : D.Ok) :
    D.Full w (syncEv D.rank D.size D.n locs (.write f c i j k v)) (event D.serial sg (.write f (pos D.Nx D.Ny D.NZ c i j k) v)) := by
  intro r hr c' i' j' k' hc' hi' hj' hk'
  obtain ⟨f1, -⟩ := hD.fit hr
  have hag := h r hr c' i' j' k' hc' hi' hj' hk'
  unfold Agree cell at hag ⊢
  show getW w (syncLocal D.size (fun r => localWrite (D.rank r) (off D.n r) f c i j k v) locs r) _ = _
  rw [syncLocal, if_pos hr, localWrite, event_write D.serial]
  have hz : (D.rank r).Nz = D.m r := rfl
  have ho : off D.n r = D.o r := rfl
  have hx : (D.rank r).Nx = D.Nx := rfl
  have hy : (D.rank r).Ny = D.Ny := rfl
  have hx' : D.serial.Nx = D.Nx := rfl
  have hy' : D.serial.Ny = D.Ny := rfl
  have hz' : D.serial.Nz = D.NZ := rfl
  rw [hz, ho, hx, hy, hx', hy', hz'] at *
  by_cases hwf : w = f
  · subst hwf
    rw [getW_setW]
    by_cases hin : D.o r ≤ k ∧ k < D.o r + D.m r
    · rw [if_pos hin, event_write, getW_setW]
      by_cases heq : c' = c ∧ i' = i ∧ j' = j ∧ k' = k - D.o r
      · obtain ⟨rfl, rfl, rfl, rfl⟩ := heq
        have e : D.o r + (k - D.o r) = k := by omega
        rw [e, Function.update_self, Function.update_self]
      · rw [Function.update_of_ne, Function.update_of_ne]
        · exact hag
        · intro he
          obtain ⟨a, b, e, d⟩ := pos_inj hi' hj' (show D.o r + k' < D.NZ by omega) hi hj hk he
          exact heq ⟨a, b, e, by omega⟩
        · intro he
          obtain ⟨a, b, e, d⟩ := pos_inj hi' hj' hk' hi hj (show k - D.o r < D.m r by omega) he
          exact heq ⟨a, b, e, d⟩
    · rw [if_neg hin, Function.update_of_ne]
      · exact hag
      · intro he
        obtain ⟨a, b, e, d⟩ := pos_inj hi' hj' (show D.o r + k' < D.NZ by omega) hi hj hk he
        omega
  · have key : ∀ (st : State K) a, getW w (setW f st a) = getW w st := by
      intro st a; cases w <;> cases f <;> first | rfl | exact absurd rfl hwf
    rw [key]
    split_ifs
    · rw [event_write, key]; exact hag
    · exact hag

theorem setW_step0 (f : Which) (st : State K) (a : Vec K) : (setW f st a).step0 = st.step0 := by cases f <;> rfl

theorem Ok.event (h : D.Ok) {locs : ℕ → State K} {sg : State K} (hR : D.Rel locs sg) (e : DEv K) (he : D.Admissible e) :
    D.Rel (syncEv D.rank D.size D.n locs e) (event D.serial sg (e.serial D.serial)) := by
  cases e with
  | step => exact h.step hR
  | write f c i j k v =>
    obtain ⟨h1, h2, h3, h4⟩ := admissible_range he
    refine ⟨write_full hR.E h1 h2 h3 h4 h, write_full hR.H h1 h2 h3 h4 h, write_full hR.J h1 h2 h3 h4 h, ?_, ?_⟩
    · intro r hr
      show (syncLocal D.size _ locs r).step0 = (Sol.event D.serial sg _).step0
      rw [syncLocal, if_pos hr, localWrite]
      have e2 : (Sol.event D.serial sg ((DEv.write f c i j k v).serial D.serial)).step0 = sg.step0 := by
        rw [DEv.serial, event_write, setW_step0]
      rw [e2]
      split_ifs
      · rw [event_write, setW_step0]; exact hR.step0 r hr
      · exact hR.step0 r hr
    · refine h.clean_events hR.clean _ ?_
      intro c' i' j' k' hc' hi' hj' hk' hm
      have hne : D.maskg c i j k ≠ 0 → pos D.Nx D.Ny D.NZ c i j k ≠ pos D.Nx D.Ny D.NZ c' i' j' k' := by
        intro hmm hp
        obtain ⟨rfl, rfl, rfl, rfl⟩ := pos_inj h2 h3 h4 hi' hj' hk' hp
        exact hmm hm
      cases f with
      | H => trivial
      | E => exact hne he.2.2.2.2
      | J => exact hne he.2.2.2.2

theorem Ok.run (h : D.Ok) (evs : List (DEv K)) : ∀ {locs : ℕ → State K} {sg : State K}, D.Rel locs sg →
    (∀ e ∈ evs, D.Admissible e) →
    D.Rel (syncRun D.rank D.size D.n locs evs) (runEv D.serial sg (evs.map (DEv.serial D.serial))) := by
  induction evs with
  | nil => intro locs sg hR _; exact hR
  | cons e es ih =>
    intro locs sg hR hev
    exact ih (h.event hR e (hev e (List.mem_cons_self ..))) (fun e' h' => hev e' (List.mem_cons_of_mem _ h'))

end Dist

/-- The event assigns only cells of the grid, and no E or J entry tangential to a PEC face. -/
def DEv.Allowed (Nx Ny NZ : ℕ) (bc : Faces String) : DEv K → Prop
  | .step => True
  | .write f c i j k _ => c < 3 ∧ i < Nx ∧ j < Ny ∧ k < NZ ∧
      (f = .H ∨ ∀ axis s, axis < 3 → axis ≠ c → OnFace Nx Ny NZ axis s i j k → isPec (faceName bc axis s) = false)

theorem Dist.admissible_of_allowed {D : Dist K} {e : DEv K} (h : e.Allowed D.Nx D.Ny D.NZ D.bc) : D.Admissible e := by
  cases e with
  | step => trivial
  | write f c i j k v =>
    obtain ⟨a1, a2, a3, a4, a5⟩ := h
    have hm : f = .H ∨ D.maskg c i j k ≠ 0 := by
      rcases a5 with hf | hf
      · exact .inl hf
      · right
        rcases maskVal_cases (K := K) D.grid D.bc (i := i) (j := j) (k := k) a1 with h | ⟨a, sd, b1, b2, b3, b4⟩
        · have : D.maskg c i j k = 1 := h
          rw [this]; exact one_ne_zero
        · rw [hf a sd b1 b2 b3] at b4; exact absurd b4 (by decide)
    cases f with
    | H => exact ⟨a1, a2, a3, a4⟩
    | E => exact ⟨a1, a2, a3, a4, hm.resolve_left (by simp)⟩
    | J => exact ⟨a1, a2, a3, a4, hm.resolve_left (by simp)⟩

theorem initState_clean (D : Dist K) : D.Clean initState := fun _ _ _ _ _ _ _ _ _ => ⟨rfl, rfl⟩

theorem initState_rel (D : Dist K) : D.Rel (fun _ => initState) initState :=
  ⟨fun _ _ _ _ _ _ _ _ _ _ => rfl, fun _ _ _ _ _ _ _ _ _ _ => rfl, fun _ _ _ _ _ _ _ _ _ _ => rfl, fun _ _ => rfl, initState_clean D⟩

end Mpi
end Wakis
