import Verif.MpiSources

/-!
# C82 continued: pulses and wave packets under MPI, and waves that are not at the first layer
-/

namespace Wakis
namespace Src
open Fld
noncomputable section

theorem layers_agree {B : Box} {size r : ℕ} (hs : 2 ≤ size) (hr : r < size) {g : Grd} (hg : B.rank size r = .ok g) {f f' F F' : Fld ℝ} (q : f.Nx = g.Nx ∧ f.Ny = g.Ny ∧ f.Nz = g.Nz)
    (q' : F.Nx = (B.serial size).Nx ∧ F.Ny = (B.serial size).Ny ∧ F.Nz = (B.serial size).Nz) {kx ky : Sel} {key : CKey} {v : Rhs ℝ}
    (h : f.setitem (.tup kx ky (.int 0) key) v = .ok f') (H : F.setitem (.tup kx ky (.int 0) key) v = .ok F') (ha : SlabAgrees (B.NZ size / size) r f F) :
    SlabAgrees (B.NZ size / size) r f' F' := by
  obtain ⟨hn, -, gx, gy, gz, -, -, -, -, -, -, hin, -, -, -⟩ := rank_grid hs hr hg
  have hpos : 0 < g.Nz := by omega
  exact layer0_agrees hn (by rw [q.1, q'.1, gx]; rfl) (by rw [q.2.1, q'.2.1, gy]; rfl) (by rw [q.2.2]; exact hpos)
    (fun k hk => by rw [q'.2.2]; exact hin k (by rw [q.2.2] at hk; exact hk)) h H ha

theorem writeTo_agrees {B : Box} {size r : ℕ} (hs : 2 ≤ size) (hr : r < size) {g : Grd} (hg : B.rank size r = .ok g) {F₁ F₂ F₁' F₂' : Flds} (d₁ : F₁.Fit g) (d₂ : F₂.Fit (B.serial size))
    (ha : SlabsAgree (B.NZ size / size) r F₁ F₂) {field : String} {kx ky : Sel} {key : CKey} {v : ℝ} (w₁ : writeTo field kx ky (.int 0) key v F₁ = .ok F₁')
    (w₂ : writeTo field kx ky (.int 0) key v F₂ = .ok F₂') : SlabsAgree (B.NZ size / size) r F₁' F₂' := by
  have hE₁ := d₁ F₁.E (by simp); have hH₁ := d₁ F₁.H (by simp); have hJ₁ := d₁ F₁.J (by simp)
  have hE₂ := d₂ F₂.E (by simp); have hH₂ := d₂ F₂.H (by simp); have hJ₂ := d₂ F₂.J (by simp)
  unfold writeTo at w₁ w₂
  simp only [bind, Except.bind] at w₁ w₂
  split_ifs at w₁ w₂ with h1 h2 h3
  · split at w₁
    · cases w₁
    split at w₂
    · cases w₂
    rename_i a _ _ b
    cases w₁; cases w₂
    exact ⟨layers_agree hs hr hg hE₁ hE₂ a b ha.1, ha.2.1, ha.2.2⟩
  · split at w₁
    · cases w₁
    split at w₂
    · cases w₂
    rename_i a _ _ b
    cases w₁; cases w₂
    exact ⟨ha.1, layers_agree hs hr hg hH₁ hH₂ a b ha.2.1, ha.2.2⟩
  · split at w₁
    · cases w₁
    split at w₂
    · cases w₂
    rename_i a _ _ b
    cases w₁; cases w₂
    exact ⟨ha.1, ha.2.1, layers_agree hs hr hg hJ₁ hJ₂ a b ha.2.2⟩
  · cases w₁; cases w₂; exact ha

/-- **C82 (pulse at the first layer).** A pulse of any shape and length (also the default length, which comes from the time step) at layer 0 does the same to every cell of every slab but the low ghost layers as to the
whole grid of a serial run. -/
theorem C82_pulse_first_layer_partial {B : Box} {size r : ℕ} (hs : 2 ≤ size) (hr : r < size) {g : Grd} (hg : B.rank size r = .ok g) {p p₁ p₂ : Pulse} (hz : p.zs = some (.int 0))
    {F₁ F₂ F₁' F₂' : Flds} (d₁ : F₁.Fit g) (d₂ : F₂.Fit (B.serial size)) {t : ℝ} (ha : SlabsAgree (B.NZ size / size) r F₁ F₂)
    (u₁ : p.update g F₁ t = .ok (p₁, F₁')) (u₂ : p.update (B.serial size) F₂ t = .ok (p₂, F₂')) :
    SlabsAgree (B.NZ size / size) r F₁' F₂' ∧ p₁ = p₂ ∧ p₁.zs = some (.int 0) := by
  obtain ⟨-, -, gx, gy, -, -, gdt, -⟩ := rank_grid hs hr hg
  unfold Pulse.update at u₁ u₂
  rw [hz] at u₁ u₂
  rw [gx, gy, gdt] at u₁
  rw [show (B.serial size).Nx = B.Nx from rfl, show (B.serial size).Ny = B.Ny from rfl, show (B.serial size).dt = B.dt from rfl] at u₂
  simp only [bind, Except.bind, Option.getD_some] at u₁ u₂
  split at u₁
  · rename_i hsh
    simp only [hsh] at u₂
    split_ifs at u₁ u₂ with hf
    · cases u₁; cases u₂
      exact ⟨ha, by rw [hsh], rfl⟩
  · rename_i sh hsh
    simp only [hsh] at u₂
    split at u₁
    · cases u₁
    rename_i G₁ w₁
    cases u₁
    split at u₂
    · cases u₂
    rename_i G₂ w₂
    cases u₂
    exact ⟨writeTo_agrees hs hr hg d₁ d₂ ha w₁ w₂, by rw [hsh], rfl⟩

theorem serial_dz {B : Box} {size : ℕ} (k : ℕ) (hk : k < B.NZ size) : (B.serial size).dz k = (B.zmax - B.zmin) / (B.NZ size) := by
  have hD : (B.NZ size : ℝ) ≠ 0 := by exact_mod_cast (by omega : B.NZ size ≠ 0)
  have hlin : ∀ k ≤ B.NZ size, Grid.linspace B.zmin B.zmax (B.NZ size) k = B.zmin + k * ((B.zmax - B.zmin) / (B.NZ size)) := by
    intro k hk
    unfold Grid.linspace
    split_ifs with hh
    · rw [hh.1]; field_simp; ring
    · rfl
  show Grid.linspace _ _ _ (k + 1) - Grid.linspace _ _ _ k = _
  rw [hlin k hk.le, hlin (k + 1) hk]
  push_cast; ring

theorem mean_const {n : ℕ} (hn : 0 < n) {x : ℕ → ℝ} {c : ℝ} (h : ∀ k < n, x k = c) : meanOf n x = c := by
  unfold meanOf
  rw [Finset.sum_congr rfl fun i hi => h i (Finset.mem_range.1 hi), Finset.sum_const, Finset.card_range, nsmul_eq_mul]
  have : (n : ℝ) ≠ 0 := by exact_mod_cast hn.ne'
  field_simp

/-- **C82 (wave packet at the first layer).** The same for a wave packet at layer 0, the default, also with default widths (the mean cell size along z is that of the whole grid); each rank measures the time from the end
of its own slab, but only a difference enters. -/
theorem C82_wavePacket_first_layer_partial {B : Box} {size r : ℕ} (hs : 2 ≤ size) (hr : r < size) {g : Grd} (hg : B.rank size r = .ok g) {p p₁ p₂ : WavePacket} (hz : p.zs = 0)
    {F₁ F₂ F₁' F₂' : Flds} (d₁ : F₁.Fit g) (d₂ : F₂.Fit (B.serial size)) {t : ℝ} (ha : SlabsAgree (B.NZ size / size) r F₁ F₂)
    (u₁ : p.update g F₁ t = .ok (p₁, F₁')) (u₂ : p.update (B.serial size) F₂ t = .ok (p₂, F₂')) :
    SlabsAgree (B.NZ size / size) r F₁' F₂' ∧ p₁ = p₂ ∧ p₁.zs = 0 := by
  obtain ⟨hn, -, gx, gy, gz, -, -, hx, hy, hdx, hdy, hin, hdz, -, -⟩ := rank_grid hs hr hg
  have hpos : 0 < g.Nz := by omega
  have hN : 0 < B.NZ size := by have := hin 0 hpos; omega
  have hE₁ := d₁ F₁.E (by simp); have hH₁ := d₁ F₁.H (by simp)
  have hE₂ := d₂ F₂.E (by simp); have hH₂ := d₂ F₂.H (by simp)
  have m₁ : meanOf g.Nz g.dz = (B.zmax - B.zmin) / (B.NZ size) := mean_const hpos hdz
  have m₂ : meanOf (B.serial size).Nz (B.serial size).dz = (B.zmax - B.zmin) / (B.NZ size) := mean_const hN fun k hk => serial_dz k hk
  unfold WavePacket.update at u₁ u₂
  rw [hz] at u₁ u₂
  rw [m₁, gx, gy, hx, hy, hdx, hdy] at u₁
  rw [m₂, show (B.serial size).Nx = B.Nx from rfl, show (B.serial size).Ny = B.Ny from rfl] at u₂
  simp only [bind, Except.bind, sub_sub_sub_cancel_left] at u₁ u₂
  split at u₁
  · cases u₁
  split at u₁
  · cases u₁
  rename_i X₁ hX₁
  split at u₁
  · cases u₁
  rename_i Y₁ hY₁
  split at u₁
  · cases u₁
  rename_i H₁ w₁
  split at u₁
  · cases u₁
  rename_i E₁ v₁
  cases u₁
  split at u₂
  · cases u₂
  split at u₂
  · cases u₂
  rename_i X₂ hX₂
  split at u₂
  · cases u₂
  rename_i Y₂ hY₂
  split at u₂
  · cases u₂
  rename_i H₂ w₂
  split at u₂
  · cases u₂
  rename_i E₂ v₂
  cases u₂
  rw [hX₁] at hX₂
  rw [hY₁] at hY₂
  cases hX₂
  cases hY₂
  exact ⟨⟨layers_agree hs hr hg hE₁ hE₂ v₁ v₂ ha.1, layers_agree hs hr hg hH₁ hH₂ w₁ w₂ ha.2.1, ha.2.2⟩, rfl, rfl⟩

/-! ### Other layers -/

theorem globalLayer_ne {B : Box} {size r k : ℕ} (hr0 : 0 < r) (hn : 2 ≤ B.NZ size / size) : k < globalLayer (B.NZ size / size) r k := by
  unfold globalLayer
  rw [if_neg (by omega)]
  have : B.NZ size / size ≤ r * (B.NZ size / size) := Nat.le_mul_of_pos_left _ hr0
  omega

theorem not_selects {k K n : ℕ} (hK : k < K) (hn : K < n) : ¬ Selects (.int (k : ℕ)) n K := by
  rintro ⟨l, hl, hm⟩
  simp only [Sel.resolve, pyIndex_natCast (hK.trans hn), Except.map] at hl
  cases hl
  simp at hm
  omega

/-- **C82 (refutation, plane wave).** A plane wave at layer `k ≥ 1`: every later rank that has a layer `k` drives its own, which is another layer of the whole grid than the one the serial run drives; the serial run leaves
that layer alone. -/
theorem C82_planeWave_refuted {B : Box} {size r : ℕ} (hs : 2 ≤ size) (hr : r < size) (hr0 : 0 < r) (hn : 2 ≤ B.NZ size / size) {g : Grd} (hg : B.rank size r = .ok g) {p p₁ p₂ : PlaneWave} {a b k : ℕ}
    (hxs : p.xs = none) (hys : p.ys = none) (hz : p.zs = .int (k : ℕ)) (hk : 1 ≤ k) (hkn : k < g.Nz) (ha : a < B.Nx) (hb : b < B.Ny) (hf : p.f ≠ 0)
    {F₁ F₂ F₁' F₂' : Flds} (d₁ : F₁.Fit g) (d₂ : F₂.Fit (B.serial size)) {t : ℝ} (hon : ∀ T, p.tmax = some T → t ≤ T)
    (u₁ : p.update g F₁ t = .ok (p₁, F₁')) (u₂ : p.update (B.serial size) F₂ t = .ok (p₂, F₂')) :
    let K := globalLayer (B.NZ size / size) r k
    K ≠ k ∧ K < B.NZ size ∧ F₁'.H.get (a : ℤ) (b : ℤ) (k : ℤ) (.str "y") = .ok (-p.amplitude * Real.cos (2 * Real.pi * p.f * t + p.phase)) ∧
      F₂'.H.get (a : ℤ) (b : ℤ) (K : ℤ) (.str "y") = F₂.H.get (a : ℤ) (b : ℤ) (K : ℤ) (.str "y") := by
  obtain ⟨-, -, gx, gy, gz, -, -, -, -, -, -, hin, -, -, -⟩ := rank_grid hs hr hg
  have hE₁ := d₁ F₁.E (by simp); have hH₁ := d₁ F₁.H (by simp); have hH₂ := d₂ F₂.H (by simp)
  have hK := globalLayer_ne (B := B) (size := size) (k := k) hr0 hn
  obtain ⟨e, m, -, h1, -, h2⟩ := C64_planeWave_actual hf hxs hys ⟨hE₁.1, hE₁.2.1⟩ ⟨hH₁.1, hH₁.2.1⟩ hz (by rw [hE₁.2.2]; exact hkn) (by rw [hH₁.2.2]; exact hkn) u₁ (i := a) (j := b) (by rw [gx]; exact ha) (by rw [gy]; exact hb)
  obtain ⟨-, s₂, -⟩ := C41_planeWave u₂
  refine ⟨hK.ne', hin k hkn, by rw [h1, h2 hon], ?_⟩
  refine s₂.2.2.2 (.str "y") 1 a b _ (names_iff.2 (by decide)) (by rw [hH₂.1]; exact ha) (by rw [hH₂.2.1]; exact hb) (by rw [hH₂.2.2]; exact hin k hkn) ?_
  rintro ⟨-, -, -, hsel⟩
  rw [hz] at hsel
  exact not_selects hK (by rw [hH₂.2.2]; exact hin k hkn) hsel

/-- **C82 (refutation, wave packet).** The same for a wave packet over a square cross-section. -/
theorem C82_wavePacket_refuted {B : Box} {size r : ℕ} (hs : 2 ≤ size) (hr : r < size) (hr0 : 0 < r) (hn : 2 ≤ B.NZ size / size) {g : Grd} (hg : B.rank size r = .ok g) {p p₁ p₂ : WavePacket} {a b k : ℕ}
    (hxs : p.xs = none) (hys : p.ys = none) (hsq : B.Nx = B.Ny) (hz : p.zs = (k : ℕ)) (hk : 1 ≤ k) (hkn : k < g.Nz) (ha : a < B.Nx) (hb : b < B.Ny)
    {F₁ F₂ F₁' F₂' : Flds} (d₁ : F₁.Fit g) (d₂ : F₂.Fit (B.serial size)) {t : ℝ} (u₁ : p.update g F₁ t = .ok (p₁, F₁')) (u₂ : p.update (B.serial size) F₂ t = .ok (p₂, F₂')) :
    let K := globalLayer (B.NZ size / size) r k
    K ≠ k ∧ K < B.NZ size ∧
      F₁'.H.get (a : ℤ) (b : ℤ) (k : ℤ) (.str "y") = .ok (-packetAt p.amplitude p.f p.phase p.beta p.tinj (p.widths g).1 (p.widths g).2 t (g.x b) (g.y a)) ∧
      F₂'.H.get (a : ℤ) (b : ℤ) (K : ℤ) (.str "y") = F₂.H.get (a : ℤ) (b : ℤ) (K : ℤ) (.str "y") := by
  obtain ⟨-, -, gx, gy, gz, -, -, -, -, -, -, hin, -, -, -⟩ := rank_grid hs hr hg
  have hE₁ := d₁ F₁.E (by simp); have hH₁ := d₁ F₁.H (by simp); have hH₂ := d₂ F₂.H (by simp)
  have hK := globalLayer_ne (B := B) (size := size) (k := k) hr0 hn
  have h1 := (C62_actual hxs hys (by rw [gx, gy, hsq]) ⟨hE₁.1, hE₁.2.1⟩ ⟨hH₁.1, hH₁.2.1⟩ hz (by rw [hE₁.2.2]; exact hkn) (by rw [hH₁.2.2]; exact hkn) u₁ a (by rw [gx]; exact ha) b (by rw [gy]; exact hb)).1
  obtain ⟨-, xs, ys, -, -, s₂, -⟩ := C41_wavePacket u₂
  refine ⟨hK.ne', hin k hkn, h1, ?_⟩
  refine s₂.2.2.2 (.str "y") 1 a b _ (names_iff.2 (by decide)) (by rw [hH₂.1]; exact ha) (by rw [hH₂.2.1]; exact hb) (by rw [hH₂.2.2]; exact hin k hkn) ?_
  rintro ⟨-, -, -, hsel⟩
  rw [hz] at hsel
  exact not_selects hK (by rw [hH₂.2.2]; exact hin k hkn) hsel

/-- **C82 (refutation, pulse).** The same for a pulse driving a component of E at one cell. -/
theorem C82_pulse_refuted {B : Box} {size r : ℕ} (hs : 2 ≤ size) (hr : r < size) (hr0 : 0 < r) (hn : 2 ≤ B.NZ size / size) {g : Grd} (hg : B.rank size r = .ok g) {p p₁ p₂ : Pulse} {a b k : ℕ}
    (hxs : p.xs = some (.int (a : ℕ))) (hys : p.ys = some (.int (b : ℕ))) (hz : p.zs = some (.int (k : ℕ))) (hk : 1 ≤ k) (hkn : k < g.Nz) (ha : a < B.Nx) (hb : b < B.Ny) (hfield : p.field = "E")
    {sh : Shape} (hsh : p.shape = some sh) {c : ℕ} (hc : Names p.component c) {F₁ F₂ F₁' F₂' : Flds} (d₁ : F₁.Fit g) (d₂ : F₂.Fit (B.serial size)) {t : ℝ}
    (u₁ : p.update g F₁ t = .ok (p₁, F₁')) (u₂ : p.update (B.serial size) F₂ t = .ok (p₂, F₂')) :
    let K := globalLayer (B.NZ size / size) r k
    K ≠ k ∧ K < B.NZ size ∧ F₁'.E.get (a : ℤ) (b : ℤ) (k : ℤ) p.component = .ok (p.amplitude * sh.profile (p.L.getD (50 * B.dt)) p.delay t) ∧
      F₂'.E.get (a : ℤ) (b : ℤ) (K : ℤ) p.component = F₂.E.get (a : ℤ) (b : ℤ) (K : ℤ) p.component := by
  obtain ⟨-, -, gx, gy, gz, -, gdt, -, -, -, -, hin, -, -, -⟩ := rank_grid hs hr hg
  have hE₁ := d₁ F₁.E (by simp); have hE₂ := d₂ F₂.E (by simp)
  have hK := globalLayer_ne (B := B) (size := size) (k := k) hr0 hn
  obtain ⟨w₁, ⟨⟨-, s₁⟩, -, -⟩, q₁⟩ := C41_pulse u₁
  obtain ⟨w₂, ⟨⟨s₂, -⟩, -, -⟩, q₂⟩ := C41_pulse u₂
  rw [q₁ sh hsh, gdt] at s₁
  rw [hxs, hys, hz] at s₁ s₂
  simp only [Option.getD_some] at s₁ s₂
  have sel : ∀ {a n : ℕ}, a < n → Selects (.int (a : ℤ)) n a := fun {a n} h => ⟨[a], by simp [Sel.resolve, pyIndex_natCast h, Except.map], by simp⟩
  have ha₁ : a < F₁.E.Nx := by rw [hE₁.1, gx]; exact ha
  have hb₁ : b < F₁.E.Ny := by rw [hE₁.2.1, gy]; exact hb
  have hk₁ : k < F₁.E.Nz := by rw [hE₁.2.2]; exact hkn
  refine ⟨hK.ne', hin k hkn, s₁ hfield c a b k hc (sel ha₁) (sel hb₁) (sel hk₁) ha₁ hb₁ hk₁, ?_⟩
  refine s₂.2.2.2 p.component c a b _ hc (by rw [hE₂.1]; exact ha) (by rw [hE₂.2.1]; exact hb) (by rw [hE₂.2.2]; exact hin k hkn) ?_
  rintro ⟨-, -, -, -, hsel⟩
  exact not_selects hK (by rw [hE₂.2.2]; exact hin k hkn) hsel

/-! ### The hypotheses are met -/

/-- Twelve layers of 3 x 3 cells on three ranks. -/
def demoBox : Box := ⟨3, 3, 13, fun i => i, fun i => 2 * i, -1, 5, 1⟩

def zeros (Nx Ny Nz : ℕ) : Flds := ⟨⟨Nx, Ny, Nz, fun _ => 0⟩, ⟨Nx, Ny, Nz, fun _ => 0⟩, ⟨Nx, Ny, Nz, fun _ => 0⟩⟩

/-- A pulse, a wave packet and a plane wave at layers 0 and 2: the updates succeed on rank 1 and in the serial run. -/
example (k : ℕ) (hk : k = 0 ∨ k = 2) (t : ℝ) :
    ∃ g, demoBox.rank 3 1 = .ok g ∧ g.Nz = 6 ∧ 2 ≤ demoBox.NZ 3 / 3 ∧
      (∃ p p₁ p₂ F₁ F₂, p = Pulse.init "Ez" (.str "z") (some (.int (1 : ℕ))) (some (.int (1 : ℕ))) (some (.int k)) "harris" none 1 0 ∧ p.update g (zeros 3 3 6) t = .ok (p₁, F₁) ∧
        p.update (demoBox.serial 3) (zeros 3 3 12) t = .ok (p₂, F₂)) ∧
      (∃ p p₁ p₂ F₁ F₂, WavePacket.init none none k (some 1) none none (some 1) none 1 1 0 = .ok p ∧ p.update g (zeros 3 3 6) t = .ok (p₁, F₁) ∧ p.update (demoBox.serial 3) (zeros 3 3 12) t = .ok (p₂, F₂)) ∧
      (∃ p p₁ p₂ F₁ F₂, PlaneWave.init none none (.int k) none (some 1) 1 1 0 = .ok p ∧ p.update g (zeros 3 3 6) t = .ok (p₁, F₁) ∧ p.update (demoBox.serial 3) (zeros 3 3 12) t = .ok (p₂, F₂)) := by
  rcases hk with rfl | rfl
  · exact ⟨_, rfl, rfl, by decide, ⟨_, _, _, _, _, rfl, rfl, rfl⟩, ⟨_, _, _, _, _, rfl, rfl, rfl⟩, ⟨_, _, _, _, _, rfl, rfl, rfl⟩⟩
  · exact ⟨_, rfl, rfl, by decide, ⟨_, _, _, _, _, rfl, rfl, rfl⟩, ⟨_, _, _, _, _, rfl, rfl, rfl⟩, ⟨_, _, _, _, _, rfl, rfl, rfl⟩⟩

end
end Src
end Wakis
