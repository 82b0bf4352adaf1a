import Verif.SourceProps2
import Verif.GridProps

/-!
# C82: sources in a run distributed over MPI ranks

Each rank calls `source.update(solver, t)` with its own slab of the grid.  The property compares, cell by cell, what the update does on
the slab of rank `r` with what the same update does in a serial run on the whole grid.
-/

namespace Wakis
namespace Src
open Fld
noncomputable section

/-! ### Model -/

/-- What a source reads from the solver of a grid with the given nodes (solverFIT3D.py:136-146, 426-435): cell centres and cell sizes. -/
def grdOf (Nx Ny Nz : ℕ) (x y z : ℕ → ℝ) (dt : ℝ) (ZMIN : Option ℝ) : Grd :=
  { Nx, Ny, Nz, dt, ZMIN
    x := fun i => x i + (x (i + 1) - x i) / 2, y := fun i => y i + (y (i + 1) - y i) / 2, z := fun i => z i + (z (i + 1) - z i) / 2
    dx := fun i => x (i + 1) - x i, dy := fun i => y (i + 1) - y i, dz := fun i => z (i + 1) - z i }

/-- The user's input that matters to a source: the transverse nodes, the extent and the number of layers along z, the time step. -/
structure Box where
  Nx : ℕ
  Ny : ℕ
  Nz : ℕ
  x : ℕ → ℝ
  y : ℕ → ℝ
  zmin : ℝ
  zmax : ℝ
  dt : ℝ

/-- gridFIT3D.py:319: layers of the distributed grid, the largest multiple of the number of ranks. -/
def Box.NZ (B : Box) (size : ℕ) : ℕ := B.Nz - B.Nz % size

/-- Serial run on the same global layers (gridFIT3D.py:157-166). -/
def Box.serial (B : Box) (size : ℕ) : Grd :=
  grdOf B.Nx B.Ny (B.NZ size) B.x B.y (Grid.linspace B.zmin B.zmax (B.NZ size)) B.dt none

/-- The solver of rank `r` (gridFIT3D.py:301-353; solverFIT3D.py:426-435 sets `ZMIN`). -/
def Box.rank (B : Box) (size r : ℕ) : Py Grd := do
  let m ← Grid.mpiInitialize r size B.Nz B.zmin B.zmax
  return grdOf B.Nx B.Ny m.Nz B.x B.y m.z B.dt (some B.zmin)

/-! ### Specification -/

/-- Global layer of local layer `k` of rank `r`: each rank owns `n` layers and, but for the first, has one ghost layer below them. -/
def globalLayer (n r k : ℕ) : ℕ := if r = 0 then k else r * n + k - 1

/-- The fields of the slab of rank `r` have the values of the global fields, in every layer but the ghost layer at the low end. -/
def SlabAgrees (n r : ℕ) (f F : Fld ℝ) : Prop :=
  ∀ key c i j k, Names key c → i < F.Nx → j < F.Ny → k < f.Nz → (0 < r → 0 < k) →
    f.get (i : ℤ) (j : ℤ) (k : ℤ) key = F.get (i : ℤ) (j : ℤ) ((globalLayer n r k : ℕ) : ℤ) key

/-- The same including the ghost layer. -/
def SlabAgreesAll (n r : ℕ) (f F : Fld ℝ) : Prop :=
  ∀ key c i j k, Names key c → i < F.Nx → j < F.Ny → k < f.Nz →
    f.get (i : ℤ) (j : ℤ) (k : ℤ) key = F.get (i : ℤ) (j : ℤ) ((globalLayer n r k : ℕ) : ℤ) key

/-- The arrays have the sizes of the grid. -/
def Flds.Fit (F : Flds) (g : Grd) : Prop :=
  ∀ f ∈ [F.E, F.H, F.J], f.Nx = g.Nx ∧ f.Ny = g.Ny ∧ f.Nz = g.Nz

/-! ### The rank grids -/

theorem rank_grid {B : Box} {size r : ℕ} (hs : 2 ≤ size) (hr : r < size) {g : Grd} (h : B.rank size r = .ok g) :
    0 < B.NZ size / size ∧ size ∣ B.NZ size ∧ g.Nx = B.Nx ∧ g.Ny = B.Ny ∧ g.Nz = B.NZ size / size + Grid.ghostLo r + Grid.ghostHi r size ∧
    g.ZMIN = some B.zmin ∧ g.dt = B.dt ∧ g.x = (B.serial size).x ∧ g.y = (B.serial size).y ∧ g.dx = (B.serial size).dx ∧ g.dy = (B.serial size).dy ∧
    (∀ k < g.Nz, globalLayer (B.NZ size / size) r k < B.NZ size) ∧
    (∀ k < g.Nz, g.dz k = (B.zmax - B.zmin) / (B.NZ size)) ∧
    (∀ k < g.Nz, g.z k = (B.serial size).z (globalLayer (B.NZ size / size) r k)) ∧
    (∀ k < B.NZ size, (B.serial size).z k = B.zmin + (k + 1 / 2) * ((B.zmax - B.zmin) / (B.NZ size))) := by
  unfold Box.rank at h
  by_cases hN : B.Nz < size
  · rw [Grid.C12_refused _ _ _ _ _ hN] at h
    simp [bind, Except.bind] at h
  obtain ⟨m, hm, h1, h2, h3, h4, h5, h6⟩ := Grid.C12_local_grid (rank := r) (size := size) (Nz := B.Nz) B.zmin B.zmax (by omega) hr (by omega)
  have hNZ : m.NZ = B.NZ size := by
    have hm' := hm
    unfold Grid.mpiInitialize at hm'
    rw [if_neg hN] at hm'
    cases hm'
    rfl
  rw [hm] at h
  simp only [bind, Except.bind, pure, Except.pure, Except.ok.injEq] at h
  subst h
  rw [hNZ] at h1 h4 h5 h6
  have hpos : 0 < B.NZ size := by
    rcases Nat.eq_zero_or_pos (B.NZ size) with h | h
    · rw [h] at h4; simp at h4
    · exact h
  have hgl : ∀ k < m.Nz, globalLayer (B.NZ size / size) r k = r * (B.NZ size / size) + k - Grid.ghostLo r := by
    intro k _
    unfold globalLayer Grid.ghostLo
    rcases Nat.eq_zero_or_pos r with h0 | h0
    · simp [h0]
    · rw [if_neg (by omega), if_pos h0]
  have hin : ∀ k < m.Nz, Grid.ghostLo r ≤ r * (B.NZ size / size) + k ∧ r * (B.NZ size / size) + k - Grid.ghostLo r < B.NZ size := by
    intro k hk
    exact Grid.C12_ghosts_inside hs hr h1 hpos (by rw [← h5]; exact hk)
  have hD : (B.NZ size : ℝ) ≠ 0 := by exact_mod_cast hpos.ne'
  have hlin : ∀ k ≤ B.NZ size, Grid.linspace B.zmin B.zmax (B.NZ size) k = B.zmin + k * ((B.zmax - B.zmin) / (B.NZ size)) := by
    intro k hk
    unfold Grid.linspace
    split_ifs with hh
    · rw [hh.1]; field_simp; ring
    · rfl
  have hser : ∀ k < B.NZ size, (B.serial size).z k = B.zmin + (k + 1 / 2) * ((B.zmax - B.zmin) / (B.NZ size)) := by
    intro k hk
    show Grid.linspace _ _ _ k + (Grid.linspace _ _ _ (k + 1) - Grid.linspace _ _ _ k) / 2 = _
    rw [hlin k hk.le, hlin (k + 1) hk]
    push_cast
    ring
  refine ⟨h4, h1, rfl, rfl, h5, rfl, rfl, rfl, rfl, rfl, rfl, fun k hk => ?_, fun k hk => ?_, fun k hk => ?_, hser⟩
  · rw [hgl k hk]; exact (hin k hk).2
  · show m.z (k + 1) - m.z k = _
    have hk' : k < m.Nz := hk
    rw [h6 k hk'.le, h6 (k + 1) hk']
    push_cast
    ring
  · have hk' : k < m.Nz := hk
    show m.z k + (m.z (k + 1) - m.z k) / 2 = _
    rw [hgl k hk', hser _ (hin k hk').2, h6 k hk'.le, h6 (k + 1) hk', Nat.cast_sub (hin k hk').1]
    push_cast
    ring

/-! ### Beam -/

/-- **C82 (beam).** Two or more ranks, any number of layers, any beam: an update on the slab of any rank gives every cell of the slab, ghosts included, the value which
the serial update gives the same cell of the whole grid.  `Fits` holds for a new beam and is kept by updates, so this holds along a whole run. -/
theorem C82_beam {B : Box} {size r : ℕ} (hs : 2 ≤ size) (hr : r < size) (hz : B.zmin < B.zmax) {g : Grd} (hg : B.rank size r = .ok g)
    {b₁ b₂ b₁' b₂' : Beam} (hb : b₁.xsource = b₂.xsource ∧ b₁.ysource = b₂.ysource ∧ b₁.beta = b₂.beta ∧ b₁.q = b₂.q ∧ b₁.sigmaz = b₂.sigmaz ∧ b₁.ti = b₂.ti)
    (f₁ : b₁.Fits g) (f₂ : b₂.Fits (B.serial size)) {F₁ F₂ F₁' F₂' : Flds} (d₁ : F₁.Fit g) (d₂ : F₂.Fit (B.serial size)) {t : ℝ}
    (ha : SlabAgreesAll (B.NZ size / size) r F₁.J F₂.J)
    (u₁ : b₁.update g F₁ t = .ok (b₁', F₁')) (u₂ : b₂.update (B.serial size) F₂ t = .ok (b₂', F₂')) :
    SlabAgreesAll (B.NZ size / size) r F₁'.J F₂'.J ∧ F₁'.E = F₁.E ∧ F₁'.H = F₁.H ∧ F₂'.E = F₂.E ∧ F₂'.H = F₂.H ∧ b₁'.Fits g ∧ b₂'.Fits (B.serial size) := by
  obtain ⟨hn, -, gx, gy, gz, gM, -, ex, ey, edx, edy, hin, hdz, hzz, hser⟩ := rank_grid hs hr hg
  obtain ⟨e1, e2, e3, e4, e5, e6⟩ := hb
  have hJ₁ := d₁ F₁.J (by simp)
  have hJ₂ := d₂ F₂.J (by simp)
  obtain ⟨a1, a2, a3, -⟩ := C41_beam f₁ hJ₁.1 hJ₁.2.1 u₁
  obtain ⟨a1', a2', a3', -⟩ := C41_beam f₂ hJ₂.1 hJ₂.2.1 u₂
  refine ⟨?_, a1, a2, a1', a2', a3, a3'⟩
  obtain ⟨c₁, sg₁, J₁, l₁, s₁, rfl, rfl, w₁⟩ := Beam.update_inv u₁
  obtain ⟨c₂, sg₂, J₂, l₂, s₂, rfl, rfl, w₂⟩ := Beam.update_inv u₂
  have hsg : sg₁ = sg₂ := by rw [e5, s₂] at s₁; cases s₁; rfl
  subst hsg
  have hz₁ := C42_mpi f₁ gM hdz l₁
  have p₁ : b₁.At g c₁.1 c₁.2.1 := by
    obtain ⟨b0, h0, q1, q2, hl0⟩ := Beam.fits_locate f₁ l₁
    have := Beam.locate_at h0 hl0
    unfold Beam.At at this ⊢
    rwa [q1, q2] at this
  have p₂ : b₂.At (B.serial size) c₂.1 c₂.2.1 ∧ c₂.2.2 = B.zmin + (B.zmax - B.zmin) / (B.NZ size) / 2 := by
    obtain ⟨b0, h0, q1, q2, hl0⟩ := Beam.fits_locate f₂ l₂
    have := Beam.locate_at h0 hl0
    refine ⟨?_, ?_⟩
    · unfold Beam.At at this ⊢
      rwa [q1, q2] at this
    · unfold Beam.locate at hl0
      rw [h0, show (B.serial size).ZMIN = none from rfl] at hl0
      simp only [bind, Except.bind] at hl0
      split at hl0
      · cases hl0
      split at hl0
      · cases hl0
      split at hl0
      · cases hl0
      rename_i zm hzm
      cases hl0
      obtain ⟨a, ha, rfl, hmin⟩ := minOf_spec hzm
      have hD : 0 < (B.zmax - B.zmin) / (B.NZ size) := by
        apply div_pos (by linarith)
        have : 0 < B.NZ size := by
          have : a < B.NZ size := ha
          omega
        exact_mod_cast this
      have h0 : 0 < B.NZ size := by
        have : a < B.NZ size := ha
        omega
      have := hmin 0 h0
      rw [hser a ha, hser 0 h0] at this
      have ha0 : (a : ℝ) ≤ 0 := by
        by_contra hc
        push Not at hc
        have := mul_pos hc hD
        push_cast at *
        nlinarith
      have : a = 0 := by exact_mod_cast le_antisymm ha0 (Nat.cast_nonneg a)
      show (B.serial size).z a = _
      rw [hser a ha, this]
      push_cast
      ring
  have hc1 : c₁.1 = c₂.1 := by
    have h1 := p₁.1; have h2 := p₂.1.1
    rw [e1, gx, ex] at h1
    exact C44_unique h1 h2
  have hc2 : c₁.2.1 = c₂.2.1 := by
    have h1 := p₁.2; have h2 := p₂.1.2
    rw [e2, gy, ey] at h1
    exact C44_unique h1 h2
  have hc3 : c₁.2.2 = c₂.2.2 := by rw [hz₁, p₂.2]
  have l1x : c₁.1 < F₁.J.Nx := by rw [hJ₁.1]; exact p₁.1.1
  have l1y : c₁.2.1 < F₁.J.Ny := by rw [hJ₁.2.1]; exact p₁.2.1
  have l2x : c₂.1 < F₂.J.Nx := by rw [hJ₂.1]; exact p₂.1.1.1
  have l2y : c₂.2.1 < F₂.J.Ny := by rw [hJ₂.2.1]; exact p₂.1.2.1
  have rs : ∀ {a n : ℕ}, a < n → (Sel.int (a : ℤ)).resolve n = .ok [a] := fun h => by simp [Sel.resolve, pyIndex_natCast h, Except.map]
  obtain ⟨m1, m2, m3⟩ := set_dims w₁
  obtain ⟨m1', m2', m3'⟩ := set_dims w₂
  intro key c i j k hk hi hj hkz
  simp only at hi hj hkz ⊢
  rw [m1'] at hi; rw [m2'] at hj; rw [m3] at hkz
  have hi₁ : i < F₁.J.Nx := by rw [hJ₁.1, gx]; rw [hJ₂.1] at hi; exact hi
  have hj₁ : j < F₁.J.Ny := by rw [hJ₁.2.1, gy]; rw [hJ₂.2.1] at hj; exact hj
  have hkg : k < g.Nz := by rw [hJ₁.2.2] at hkz; exact hkz
  have hK : globalLayer (B.NZ size / size) r k < F₂.J.Nz := by rw [hJ₂.2.2]; exact hin k hkg
  rw [C01_block_write F₁.J J₁ (names_iff.2 (show compOf (.str "z") = some 2 by decide)) (rs l1x) (rs l1y) (Sel.resolve_all _) w₁ hk hi₁ hj₁ hkz,
    C01_block_write F₂.J J₂ (names_iff.2 (show compOf (.str "z") = some 2 by decide)) (rs l2x) (rs l2y) (Sel.resolve_all _) w₂ hk hi hj hK]
  rw [ha key c i j k hk hi hj hkz]
  by_cases hh : c = 2 ∧ i = c₂.1 ∧ j = c₂.2.1
  · rw [if_pos ⟨hh.1, by simp [hh.2.1, hc1], by simp [hh.2.2, hc2], List.mem_range.2 hkz⟩, if_pos ⟨hh.1, by simp [hh.2.1], by simp [hh.2.2], List.mem_range.2 hK⟩]
    simp only [Except.ok.injEq]
    rw [idxOf_range hkz, idxOf_range hK, hzz k hkg, edx, edy]
    have hv : b₁.v = b₂.v := by unfold Beam.v; rw [e3]
    unfold Beam.profile
    rw [hv, e4, e6, hc3, hc1, hc2]
  · rw [if_neg (fun q => hh ⟨q.1, by simpa [hc1] using q.2.1, by simpa [hc2] using q.2.2.1⟩), if_neg (fun q => hh ⟨q.1, by simpa using q.2.1, by simpa using q.2.2.1⟩)]

/-! ### Sources at a given layer -/

theorem resolve_zero {n : ℕ} (h : 0 < n) : (Sel.int 0).resolve n = .ok [0] := by
  have := pyIndex_natCast (n := n) (a := 0) h
  simp only [Nat.cast_zero] at this
  simp [Sel.resolve, this, Except.map]

/-- The same block written to the first local layer of a slab and to the first layer of the whole grid keeps them in agreement outside the low ghost layer. -/
theorem layer0_agrees {n r : ℕ} (hn : 0 < n) {f f' F F' : Fld ℝ} (hx : f.Nx = F.Nx) (hy : f.Ny = F.Ny) (hf : 0 < f.Nz)
    (hF : ∀ k < f.Nz, globalLayer n r k < F.Nz) {kx ky : Sel} {key : CKey} {v : Rhs ℝ} (h : f.setitem (.tup kx ky (.int 0) key) v = .ok f')
    (H : F.setitem (.tup kx ky (.int 0) key) v = .ok F') (ha : SlabAgrees n r f F) : SlabAgrees n r f' F' := by
  obtain ⟨d1, d2, d3⟩ := set_dims h
  obtain ⟨D1, D2, D3⟩ := set_dims H
  obtain ⟨c, xs, ys, zs, hc, rx, ry, -⟩ := setitem_inv h
  have hF0 : 0 < F.Nz := lt_of_le_of_lt (Nat.zero_le _) (hF 0 hf)
  intro key' c' i j k hk hi hj hkz hr
  rw [D1] at hi; rw [D2] at hj; rw [d3] at hkz
  rw [C01_block_write f f' hc rx ry (resolve_zero hf) h hk (by rw [hx]; exact hi) (by rw [hy]; exact hj) hkz,
    C01_block_write F F' hc (by rw [← hx]; exact rx) (by rw [← hy]; exact ry) (resolve_zero hF0) H hk hi hj (hF k hkz), ha key' c' i j k hk hi hj hkz hr]
  have e : k ∈ [0] ↔ globalLayer n r k ∈ [0] := by
    simp only [List.mem_singleton, globalLayer]
    split_ifs with h0
    · rfl
    · have := hr (by omega)
      have : n ≤ r * n := Nat.le_mul_of_pos_left n (by omega)
      omega
  by_cases hq : c' = c ∧ i ∈ xs ∧ j ∈ ys ∧ k ∈ [0]
  · rw [if_pos hq, if_pos ⟨hq.1, hq.2.1, hq.2.2.1, e.1 hq.2.2.2⟩]
    have k0 : k = 0 := by simpa using hq.2.2.2
    have g0 : globalLayer n r k = 0 := by simpa using e.1 hq.2.2.2
    rw [g0, k0]
    cases v <;> rfl
  · rw [if_neg hq, if_neg fun q => hq ⟨q.1, q.2.1, q.2.2.1, e.2 q.2.2.2⟩]

/-- Agreement of all three fields. -/
def SlabsAgree (n r : ℕ) (F₁ F₂ : Flds) : Prop := SlabAgrees n r F₁.E F₂.E ∧ SlabAgrees n r F₁.H F₂.H ∧ SlabAgrees n r F₁.J F₂.J

/-- **C82 (plane wave at the first layer).** A plane wave injected at `zs = 0`, the default, does the same to every cell of every slab but the low ghost layers (which the exchange overwrites)
as to the whole grid of a serial run. -/
theorem C82_planeWave_first_layer_partial {B : Box} {size r : ℕ} (hs : 2 ≤ size) (hr : r < size) {g : Grd} (hg : B.rank size r = .ok g) {p p₁ p₂ : PlaneWave} (hz : p.zs = .int 0)
    {F₁ F₂ F₁' F₂' : Flds} (d₁ : F₁.Fit g) (d₂ : F₂.Fit (B.serial size)) {t : ℝ} (ha : SlabsAgree (B.NZ size / size) r F₁ F₂)
    (u₁ : p.update g F₁ t = .ok (p₁, F₁')) (u₂ : p.update (B.serial size) F₂ t = .ok (p₂, F₂')) :
    SlabsAgree (B.NZ size / size) r F₁' F₂' ∧ p₁ = p₂ ∧ p₁.zs = .int 0 := by
  obtain ⟨hn, -, gx, gy, gz, -, -, -, -, -, -, hin, -, -, -⟩ := rank_grid hs hr hg
  have hE₁ := d₁ F₁.E (by simp); have hH₁ := d₁ F₁.H (by simp)
  have hE₂ := d₂ F₂.E (by simp); have hH₂ := d₂ F₂.H (by simp)
  have hpos : 0 < g.Nz := by omega
  unfold PlaneWave.update at u₁ u₂
  rw [hz] at u₁ u₂
  rw [gx, gy] at u₁
  rw [show (B.serial size).Nx = B.Nx from rfl, show (B.serial size).Ny = B.Ny from rfl] at u₂
  simp only [bind, Except.bind] at u₁ u₂
  split at u₁
  · cases u₁
  rename_i H₁ w₁
  split at u₁
  · cases u₁
  rename_i E₁ v₁
  cases u₁
  split at u₂
  · cases u₂
  rename_i H₂ w₂
  split at u₂
  · cases u₂
  rename_i E₂ v₂
  cases u₂
  refine ⟨⟨?_, ?_, ha.2.2⟩, rfl, rfl⟩
  · exact layer0_agrees hn (by rw [hE₁.1, hE₂.1, gx]; rfl) (by rw [hE₁.2.1, hE₂.2.1, gy]; rfl) (by rw [hE₁.2.2]; exact hpos)
      (fun k hk => by rw [hE₂.2.2]; exact hin k (by rw [hE₁.2.2] at hk; exact hk)) v₁ v₂ ha.1
  · exact layer0_agrees hn (by rw [hH₁.1, hH₂.1, gx]; rfl) (by rw [hH₁.2.1, hH₂.2.1, gy]; rfl) (by rw [hH₁.2.2]; exact hpos)
      (fun k hk => by rw [hH₂.2.2]; exact hin k (by rw [hH₁.2.2] at hk; exact hk)) w₁ w₂ ha.2.1

/-- **C82 (dipole at the first layer).** The same for a dipole with a given frequency at layer 0. -/
theorem C82_dipole_first_layer_partial {B : Box} {size r : ℕ} (hs : 2 ≤ size) (hr : r < size) {g : Grd} (hg : B.rank size r = .ok g) {p p₁ p₂ : Dipole} (hz : p.zs = some (.int 0))
    (hf : p.f.isSome) {F₁ F₂ F₁' F₂' : Flds} (d₁ : F₁.Fit g) (d₂ : F₂.Fit (B.serial size)) {t : ℝ} (ha : SlabsAgree (B.NZ size / size) r F₁ F₂)
    (u₁ : p.update g F₁ t = .ok (p₁, F₁')) (u₂ : p.update (B.serial size) F₂ t = .ok (p₂, F₂')) :
    SlabsAgree (B.NZ size / size) r F₁' F₂' ∧ p₁ = p₂ ∧ p₁.zs = some (.int 0) ∧ p₁.f.isSome := by
  obtain ⟨hn, -, gx, gy, gz, -, -, -, -, -, -, hin, -, -, -⟩ := rank_grid hs hr hg
  obtain ⟨f, hf⟩ := Option.isSome_iff_exists.1 hf
  have hpos : 0 < g.Nz := by omega
  have key : ∀ {f f' F F' : Fld ℝ}, f.Nx = g.Nx ∧ f.Ny = g.Ny ∧ f.Nz = g.Nz → F.Nx = (B.serial size).Nx ∧ F.Ny = (B.serial size).Ny ∧ F.Nz = (B.serial size).Nz → ∀ {kx ky : Sel} {key : CKey} {v : Rhs ℝ},
      f.setitem (.tup kx ky (.int 0) key) v = .ok f' → F.setitem (.tup kx ky (.int 0) key) v = .ok F' → SlabAgrees (B.NZ size / size) r f F → SlabAgrees (B.NZ size / size) r f' F' := by
    intro f f' F F' q q' kx ky key v h H ha
    exact layer0_agrees hn (by rw [q.1, q'.1, gx]; rfl) (by rw [q.2.1, q'.2.1, gy]; rfl) (by rw [q.2.2]; exact hpos)
      (fun k hk => by rw [q'.2.2]; exact hin k (by rw [q.2.2] at hk; exact hk)) h H ha
  have hE₁ := d₁ F₁.E (by simp); have hH₁ := d₁ F₁.H (by simp); have hJ₁ := d₁ F₁.J (by simp)
  have hE₂ := d₂ F₂.E (by simp); have hH₂ := d₂ F₂.H (by simp); have hJ₂ := d₂ F₂.J (by simp)
  unfold Dipole.update Dipole.freq at u₁ u₂
  rw [hz, hf] at u₁ u₂
  rw [gx, gy] at u₁
  rw [show (B.serial size).Nx = B.Nx from rfl, show (B.serial size).Ny = B.Ny from rfl] at u₂
  simp only [bind, Except.bind, Option.getD_some] at u₁ u₂
  split at u₁
  · cases u₁
  rename_i G₁ w₁
  cases u₁
  split at u₂
  · cases u₂
  rename_i G₂ w₂
  cases u₂
  refine ⟨?_, rfl, rfl, rfl⟩
  unfold writeTo at w₁ w₂
  simp only [bind, Except.bind] at w₁ w₂
  split_ifs at w₁ w₂ with h1 h2 h3
  · split at w₁
    · cases w₁
    split at w₂
    · cases w₂
    rename_i a _ _ b
    cases w₁; cases w₂
    exact ⟨key hE₁ hE₂ a b ha.1, ha.2.1, ha.2.2⟩
  · split at w₁
    · cases w₁
    split at w₂
    · cases w₂
    rename_i a _ _ b
    cases w₁; cases w₂
    exact ⟨ha.1, key hH₁ hH₂ a b ha.2.1, ha.2.2⟩
  · split at w₁
    · cases w₁
    split at w₂
    · cases w₂
    rename_i a _ _ b
    cases w₁; cases w₂
    exact ⟨ha.1, ha.2.1, key hJ₁ hJ₂ a b ha.2.2⟩
  · cases w₁; cases w₂; exact ha

/-- **C82 (refutation).** A dipole driving a component of E at layer `k ≥ 1`: every rank whose slab has a layer `k` drives its own layer `k`, which on rank `r ≥ 1` is layer `r*n + k - 1` of the whole
grid, another layer than the one the serial run drives; the serial run leaves that layer alone. -/
theorem C82_dipole_refuted {B : Box} {size r : ℕ} (hs : 2 ≤ size) (hr : r < size) (hr0 : 0 < r) (hn : 2 ≤ B.NZ size / size) {g : Grd} (hg : B.rank size r = .ok g) {p p₁ p₂ : Dipole} {a b k : ℕ} (hxs : p.xs = some (.int (a : ℕ))) (hys : p.ys = some (.int (b : ℕ)))
    (hz : p.zs = some (.int (k : ℕ))) (hk : 1 ≤ k) (hkn : k < g.Nz) (ha : a < B.Nx) (hb : b < B.Ny) (hfield : p.field = "E") {f : ℝ} (hf : p.f = some f) {c : ℕ} (hc : Names p.component c)
    {F₁ F₂ F₁' F₂' : Flds} (d₁ : F₁.Fit g) (d₂ : F₂.Fit (B.serial size)) {t : ℝ}
    (u₁ : p.update g F₁ t = .ok (p₁, F₁')) (u₂ : p.update (B.serial size) F₂ t = .ok (p₂, F₂')) :
    let K := globalLayer (B.NZ size / size) r k
    K ≠ k ∧ K < B.NZ size ∧
    F₁'.E.get (a : ℤ) (b : ℤ) (k : ℤ) p.component = .ok (p.amplitude * Real.sin (2 * Real.pi * f * t + p.phase)) ∧
    F₂'.E.get (a : ℤ) (b : ℤ) (K : ℤ) p.component = F₂.E.get (a : ℤ) (b : ℤ) (K : ℤ) p.component := by
  obtain ⟨-, -, gx, gy, gz, -, -, -, -, -, -, hin, -, -, -⟩ := rank_grid hs hr hg
  have hE₁ := d₁ F₁.E (by simp); have hE₂ := d₂ F₂.E (by simp)
  have hK : globalLayer (B.NZ size / size) r k ≠ k := by
    unfold globalLayer
    rw [if_neg (by omega)]
    have : B.NZ size / size ≤ r * (B.NZ size / size) := Nat.le_mul_of_pos_left _ hr0
    omega
  obtain ⟨w₁, ⟨⟨-, s₁⟩, -, -⟩, q₁⟩ := C41_dipole u₁
  obtain ⟨w₂, ⟨⟨s₂, -⟩, -, -⟩, q₂⟩ := C41_dipole u₂
  rw [q₁ f hf] at s₁
  rw [hxs, hys, hz] at s₁ s₂
  simp only [Option.getD_some] at s₁ s₂
  have sel : ∀ {a n : ℕ}, a < n → Selects (.int (a : ℤ)) n a := fun {a n} h => ⟨[a], by simp [Sel.resolve, pyIndex_natCast h, Except.map], by simp⟩
  have ha₁ : a < F₁.E.Nx := by rw [hE₁.1, gx]; exact ha
  have hb₁ : b < F₁.E.Ny := by rw [hE₁.2.1, gy]; exact hb
  have hk₁ : k < F₁.E.Nz := by rw [hE₁.2.2]; exact hkn
  refine ⟨hK, hin k hkn, s₁ hfield c a b k hc (sel ha₁) (sel hb₁) (sel hk₁) ha₁ hb₁ hk₁, ?_⟩
  refine s₂.2.2.2 p.component c a b _ hc (by rw [hE₂.1]; exact ha) (by rw [hE₂.2.1]; exact hb) (by rw [hE₂.2.2]; exact hin k hkn) ?_
  rintro ⟨-, -, -, -, l, hl, hm⟩
  by_cases hkN : k < F₂.E.Nz
  · simp only [Sel.resolve, pyIndex_natCast hkN, Except.map] at hl
    cases hl
    exact hK (by simpa using hm)
  · have hK' : globalLayer (B.NZ size / size) r k < F₂.E.Nz := by rw [hE₂.2.2]; exact hin k hkn
    have : k < globalLayer (B.NZ size / size) r k := by
      unfold globalLayer
      rw [if_neg (by omega)]
      have : B.NZ size / size ≤ r * (B.NZ size / size) := Nat.le_mul_of_pos_left _ hr0
      omega
    omega

/-- **C82 (refutation, index out of the slab).** A dipole (a pulse) at a layer of the whole grid that is not below the number of layers of the slab raises IndexError on that rank, although the
serial run accepts it. -/
theorem C82_dipole_out_of_slab {B : Box} {size r : ℕ} (hs : 2 ≤ size) (hr : r < size) {g : Grd} (hg : B.rank size r = .ok g) {p : Dipole} {a b k : ℕ} (hxs : p.xs = some (.int (a : ℕ))) (hys : p.ys = some (.int (b : ℕ)))
    (hz : p.zs = some (.int (k : ℕ))) (hk : g.Nz ≤ k) (ha : a < B.Nx) (hb : b < B.Ny) (hfield : p.field = "E") {f : ℝ} (hf : p.f = some f) {c : ℕ} (hc : Names p.component c)
    {F₁ : Flds} (d₁ : F₁.Fit g) (t : ℝ) : p.update g F₁ t = .error .indexError := by
  obtain ⟨-, -, gx, gy, -, -, -, -, -, -, -, -, -, -, -⟩ := rank_grid hs hr hg
  have hE₁ := d₁ F₁.E (by simp)
  have ha₁ : a < F₁.E.Nx := by rw [hE₁.1, gx]; exact ha
  have hb₁ : b < F₁.E.Ny := by rw [hE₁.2.1, gy]; exact hb
  have hp : pyIndex F₁.E.Nz (k : ℤ) = .error .indexError := by
    unfold pyIndex
    rw [hE₁.2.2]
    split_ifs <;> first | rfl | omega
  have hk₁ : (Sel.int (k : ℤ)).resolve F₁.E.Nz = .error .indexError := by
    simp [Sel.resolve, hp, Except.map]
  unfold Dipole.update Dipole.freq writeTo
  rw [hxs, hys, hz, hf, hfield]
  simp only [bind, Except.bind, Option.getD_some, if_true, setitem, toMatrix, names_iff.1 hc, Option.map, assign3, resolve3, Sel.resolve,
    pyIndex_natCast ha₁, pyIndex_natCast hb₁, hp, Except.map]

/-- **C82 (refutation, default frequency).** Without a frequency a dipole takes it from the extent of the z axis it sees: on a rank it is higher than in the serial run unless the slab is the whole grid. -/
theorem C82_dipole_frequency_refuted {B : Box} {size r : ℕ} (hs : 2 ≤ size) (hr : r < size) (hz : B.zmin < B.zmax) {g : Grd} (hg : B.rank size r = .ok g) (h1 : 1 < g.Nz) (h2 : g.Nz < B.NZ size)
    {p : Dipole} (hf : p.f = none) (hn : 0 < p.nodes) {f₁ f₂ : ℝ} (u₁ : p.freq g = .ok f₁) (u₂ : p.freq (B.serial size) = .ok f₂) : f₂ < f₁ := by
  obtain ⟨-, -, -, -, -, -, -, -, -, -, -, hin, -, hzz, hser⟩ := rank_grid hs hr hg
  have hN : (0 : ℝ) < B.NZ size := by
    have : 0 < B.NZ size := by omega
    exact_mod_cast this
  have hD : 0 < (B.zmax - B.zmin) / (B.NZ size) := div_pos (by linarith) hN
  set D := (B.zmax - B.zmin) / (B.NZ size) with hDd
  have key : ∀ (n : ℕ) (z : ℕ → ℝ) (o : ℝ), (∀ k < n, z k = o + k * D) → 1 < n → ∀ {f}, (do let hi ← maxOf n z; let lo ← minOf n z; return p.nodes / ((hi - lo) / cLight) : Py ℝ) = .ok f →
      f = p.nodes * cLight / ((n - 1 : ℕ) * D) := by
    intro n z o ho hn1 f hfe
    simp only [bind, Except.bind] at hfe
    split at hfe
    · cases hfe
    rename_i hi hhi
    split at hfe
    · cases hfe
    rename_i lo hlo
    cases hfe
    obtain ⟨a, ha, rfl, hmin⟩ := minOf_spec hlo
    unfold maxOf at hhi
    cases hm : minOf n fun i => -z i with
    | error e => rw [hm] at hhi; cases hhi
    | ok m =>
      rw [hm] at hhi
      cases hhi
      obtain ⟨b, hb, rfl, hmax⟩ := minOf_spec hm
      have ha0 : z a = o := by
        have := hmin 0 (by omega)
        rw [ho a ha, ho 0 (by omega)] at this
        have : (a : ℝ) * D ≤ 0 := by push_cast at this; linarith
        have : (a : ℝ) * D = 0 := le_antisymm this (by positivity)
        rw [ho a ha, this, add_zero]
      have hb0 : z b = o + (n - 1 : ℕ) * D := by
        have := hmax (n - 1) (by omega)
        rw [ho b hb, ho (n - 1) (by omega)] at this
        have hle : (b : ℝ) ≤ (n - 1 : ℕ) := by exact_mod_cast (by omega : b ≤ n - 1)
        have := mul_le_mul_of_nonneg_right hle hD.le
        rw [ho b hb]
        linarith
      beta_reduce
      rw [neg_neg, ha0, hb0, add_sub_cancel_left, div_div_eq_mul_div]
  have e : ∀ g : Grd, p.freq g = (do let hi ← maxOf g.Nz g.z; let lo ← minOf g.Nz g.z; return p.nodes / ((hi - lo) / cLight)) := fun g => by unfold Dipole.freq; rw [hf]
  rw [e] at u₁ u₂
  have v₂ := key _ _ (B.zmin + D / 2) (fun k hk => by rw [hser k hk]; ring) (show 1 < (B.serial size).Nz from (by show 1 < B.NZ size; omega)) u₂
  obtain ⟨off, hoff⟩ : ∃ off : ℝ, ∀ k < g.Nz, g.z k = off + k * D := by
    refine ⟨g.z 0, fun k hk => ?_⟩
    rw [hzz k hk, hzz 0 (by omega), hser _ (hin k hk), hser _ (hin 0 (by omega))]
    have : ((globalLayer (B.NZ size / size) r k : ℕ) : ℝ) = (globalLayer (B.NZ size / size) r 0 : ℕ) + k := by
      have : globalLayer (B.NZ size / size) r k = globalLayer (B.NZ size / size) r 0 + k := by
        unfold globalLayer
        split_ifs with h0
        · omega
        · have : B.NZ size / size ≤ r * (B.NZ size / size) := Nat.le_mul_of_pos_left _ (by omega)
          obtain ⟨hq, -⟩ := rank_grid hs hr hg
          omega
      rw [this]; push_cast; ring
    rw [this]; ring
  have v₁ := key _ _ off hoff h1 u₁
  rw [v₁, v₂]
  have hc : 0 < cLight := by unfold cLight; norm_num
  have hlt : ((g.Nz - 1 : ℕ) : ℝ) < ((B.serial size).Nz - 1 : ℕ) := by
    have : g.Nz - 1 < (B.serial size).Nz - 1 := by show g.Nz - 1 < B.NZ size - 1; omega
    exact_mod_cast this
  have hp : (0 : ℝ) < (g.Nz - 1 : ℕ) := by exact_mod_cast (by omega : 0 < g.Nz - 1)
  apply div_lt_div_of_pos_left (mul_pos hn hc) (mul_pos hp hD)
  exact mul_lt_mul_of_pos_right hlt hD

/-! ### The hypotheses are met -/

/-- Every box with at least as many layers as ranks has a grid on every rank. -/
theorem rank_exists {B : Box} {size r : ℕ} (hs : 2 ≤ size) (hr : r < size) (hN : size ≤ B.Nz) : ∃ g, B.rank size r = .ok g := by
  obtain ⟨m, hm, -⟩ := Grid.C12_local_grid (rank := r) (size := size) (Nz := B.Nz) B.zmin B.zmax (by omega) hr hN
  exact ⟨_, by unfold Box.rank; rw [hm]; rfl⟩

/-- Twelve layers on three ranks; a beam off axis; both updates succeed and the theorem applies to the initial (zero) fields. -/
example : ∃ (B : Box) (g : Grd) (b b₁ b₂ : Beam) (F₁ F₂ F₁' F₂' : Flds), B.rank 3 1 = .ok g ∧ g.Nz = 6 ∧ b.update g F₁ 0 = .ok (b₁, F₁') ∧ b.update (B.serial 3) F₂ 0 = .ok (b₂, F₂') ∧
    SlabAgreesAll 4 1 F₁'.J F₂'.J := by
  let B : Box := ⟨3, 4, 13, fun i => i, fun i => 2 * i, -1, 5, 1⟩
  obtain ⟨g, hg⟩ := rank_exists (B := B) (size := 3) (r := 1) (by norm_num) (by norm_num) (by decide)
  obtain ⟨-, -, gx, gy, gz, -⟩ := rank_grid (by norm_num) (by norm_num) hg
  have hNZ : B.NZ 3 = 12 := by decide
  have gz6 : g.Nz = 6 := by rw [gz, hNZ]; decide
  let b : Beam := ⟨1, 3, 1, 1, some 1, 0, none⟩
  let zero : ℕ → ℕ → ℕ → Fld ℝ := fun a b c => ⟨a, b, c, fun _ => 0⟩
  let F₁ : Flds := ⟨zero g.Nx g.Ny g.Nz, zero g.Nx g.Ny g.Nz, zero g.Nx g.Ny g.Nz⟩
  let F₂ : Flds := ⟨zero 3 4 12, zero 3 4 12, zero 3 4 12⟩
  have fit₁ : F₁.Fit g := by intro f hf; simp [F₁] at hf; subst hf; exact ⟨rfl, rfl, rfl⟩
  have fit₂ : F₂.Fit (B.serial 3) := by intro f hf; simp [F₂] at hf; subst hf; exact ⟨rfl, rfl, hNZ.symm⟩
  obtain ⟨b₁, F₁', u₁⟩ := C42_updates b (g := g) (F := F₁) 0 (sg := 1) rfl ⟨by rw [gx]; decide, by rw [gy]; decide, by omega⟩ (.inl rfl) rfl rfl rfl
  obtain ⟨b₂, F₂', u₂⟩ := C42_updates b (g := B.serial 3) (F := F₂) 0 (sg := 1) rfl ⟨by decide, by decide, by decide⟩ (.inl rfl) rfl rfl hNZ.symm
  refine ⟨B, g, b, b₁, b₂, F₁, F₂, F₁', F₂', hg, gz6, u₁, u₂, ?_⟩
  have e4 : B.NZ 3 / 3 = 4 := by rw [hNZ]
  rw [← e4]
  refine (C82_beam (B := B) (by norm_num) (by norm_num) (by norm_num [B]) hg ⟨rfl, rfl, rfl, rfl, rfl, rfl⟩ (.inl rfl) (.inl rfl) fit₁ fit₂ ?_ u₁ u₂).1
  rw [e4]
  intro key c i j k hk hi hj hkz
  have hi₁ : i < g.Nx := by rw [gx]; exact hi
  have hj₁ : j < g.Ny := by rw [gy]; exact hj
  have hkz' : k < g.Nz := hkz
  have hK : globalLayer 4 1 k < 12 := by unfold globalLayer; rw [if_neg (by norm_num)]; omega
  show (zero g.Nx g.Ny g.Nz).get _ _ _ _ = (zero 3 4 12).get _ _ ((globalLayer 4 1 k : ℕ) : ℤ) _
  have hz0 : ∀ a b c i j k : ℕ, i < a → j < b → k < c → (zero a b c).get (i : ℤ) (j : ℤ) (k : ℤ) key = .ok 0 := by
    intro a b c i j k h1 h2 h3
    simp [zero, Fld.get, reshapeF, part, toMatrix, names_iff.1 hk, index3, resolve3, Sel.resolve, pyIndex_natCast h1, pyIndex_natCast h2, pyIndex_natCast h3, Except.map, bind, Except.bind, pure, Except.pure]
  rw [hz0 _ _ _ _ _ _ hi₁ hj₁ hkz', hz0 _ _ _ _ _ _ hi hj hK]

/-- A dipole with a frequency at a cell of the grid can always be updated: the hypotheses of the dipole theorems above are met on every slab and on the whole grid. -/
theorem dipole_ok {p : Dipole} {g : Grd} {F : Flds} (hF : F.Fit g) {a b k : ℕ} (hxs : p.xs = some (.int (a : ℕ))) (hys : p.ys = some (.int (b : ℕ))) (hz : p.zs = some (.int (k : ℕ)))
    (ha : a < g.Nx) (hb : b < g.Ny) (hk : k < g.Nz) (hfield : p.field = "E") {f : ℝ} (hf : p.f = some f) {c : ℕ} (hc : Names p.component c) (t : ℝ) : ∃ p' F', p.update g F t = .ok (p', F') := by
  have hE := hF F.E (by simp)
  rw [← hE.1] at ha; rw [← hE.2.1] at hb; rw [← hE.2.2] at hk
  unfold Dipole.update Dipole.freq writeTo
  rw [hxs, hys, hz, hf, hfield]
  simp only [bind, Except.bind, Option.getD_some, if_true, setitem, toMatrix, names_iff.1 hc, Option.map, assign3, resolve3, Sel.resolve,
    pyIndex_natCast ha, pyIndex_natCast hb, pyIndex_natCast hk, Except.map, pure, Except.pure, fromMatrix]
  exact ⟨_, _, rfl⟩

/-- Twelve layers on three ranks, a dipole at layer 2: rank 1 drives layer 5 of the whole grid. -/
example : ∃ (B : Box) (g : Grd) (p p₁ p₂ : Dipole) (F₁ F₂ F₁' F₂' : Flds), B.rank 3 1 = .ok g ∧ p.update g F₁ 1 = .ok (p₁, F₁') ∧ p.update (B.serial 3) F₂ 1 = .ok (p₂, F₂') ∧
    globalLayer 4 1 2 = 5 ∧ F₁'.E.get 1 1 2 p.component = .ok (p.amplitude * Real.sin (2 * Real.pi * 1 * 1 + p.phase)) ∧ F₂'.E.get 1 1 5 p.component = F₂.E.get 1 1 5 p.component := by
  let B : Box := ⟨3, 4, 13, fun i => i, fun i => 2 * i, -1, 5, 1⟩
  obtain ⟨g, hg⟩ := rank_exists (B := B) (size := 3) (r := 1) (by norm_num) (by norm_num) (by decide)
  obtain ⟨-, -, gx, gy, gz, -⟩ := rank_grid (by norm_num) (by norm_num) hg
  have hNZ : B.NZ 3 = 12 := by decide
  have e4 : B.NZ 3 / 3 = 4 := by rw [hNZ]
  have gz6 : g.Nz = 6 := by rw [gz, hNZ]; decide
  let p : Dipole := ⟨"E", .str "z", some (.int (1 : ℕ)), some (.int (1 : ℕ)), some (.int (2 : ℕ)), 1, some 1, 1, 1⟩
  let zero : ℕ → ℕ → ℕ → Fld ℝ := fun a b c => ⟨a, b, c, fun _ => 0⟩
  let F₁ : Flds := ⟨zero g.Nx g.Ny g.Nz, zero g.Nx g.Ny g.Nz, zero g.Nx g.Ny g.Nz⟩
  let F₂ : Flds := ⟨zero 3 4 12, zero 3 4 12, zero 3 4 12⟩
  have fit₁ : F₁.Fit g := by intro f hf; simp [F₁] at hf; subst hf; exact ⟨rfl, rfl, rfl⟩
  have fit₂ : F₂.Fit (B.serial 3) := by intro f hf; simp [F₂] at hf; subst hf; exact ⟨rfl, rfl, hNZ.symm⟩
  have hc : Names p.component 2 := names_iff.2 (by decide)
  obtain ⟨p₁, F₁', u₁⟩ := dipole_ok (p := p) fit₁ rfl rfl rfl (by rw [gx]; decide) (by rw [gy]; decide) (by omega) rfl (f := 1) rfl hc 1
  obtain ⟨p₂, F₂', u₂⟩ := dipole_ok (p := p) fit₂ rfl rfl rfl (by decide) (by decide) (by decide) rfl (f := 1) rfl hc 1
  obtain ⟨-, -, q1, q2⟩ := C82_dipole_refuted (B := B) (by norm_num) (by norm_num) (by norm_num) (by rw [e4]; norm_num) hg (p := p) rfl rfl rfl (by norm_num) (by omega) (by decide) (by decide) rfl (f := 1) rfl hc fit₁ fit₂ u₁ u₂
  rw [e4] at q2
  exact ⟨B, g, p, p₁, p₂, F₁, F₂, F₁', F₂', hg, u₁, u₂, by decide, q1, q2⟩

end

end Src
end Wakis
