import Verif.Converge5
import Mathlib.Analysis.SpecialFunctions.Trigonometric.Bounds

/-!
# C106: where the electric walls stand

C105 measures the error against solutions in the box that ends at the low corner of the last cell.  The box given to the grid ends at its high corner.  Against a
solution in that box the error is of first order: the plane of nodes one cell before the end is held fixed.
-/

namespace Wakis
namespace Conv
open Finset Sol Sparse Grid CurlBound

namespace Box
variable (G : Box) {bc : Faces String}

theorem wall_mask (hbc : AllPec bc) {c i j k a : ℕ} (hc : c < 3) (hi : i ≤ G.nx) (hj : j ≤ G.ny) (hk : k ≤ G.nz) (ha : a < 3) (hne : a ≠ c)
    (h : coord a i j k = 0 ∨ coord a i j k = coord a G.nx G.ny G.nz) : colMask G.geom bc (G.at' c i j k) = 0 := by
  rcases h with h | h
  · exact colMask_closed G.geom hbc.like hc (show i < G.nx + 1 by omega) (show j < G.ny + 1 by omega) (show k < G.nz + 1 by omega) ha hne .lo h
  · refine colMask_closed G.geom hbc.like hc (show i < G.nx + 1 by omega) (show j < G.ny + 1 by omega) (show k < G.nz + 1 by omega) ha hne .hi ?_
    show coord a i j k = coord a (G.nx + 1) (G.ny + 1) (G.nz + 1) - 1
    rw [h]; unfold coord; split_ifs <;> omega

/-- E tangential to a wall is frozen when no current is written there. -/
theorem frozen (hbc : AllPec bc) {c i j k a : ℕ} (hc : c < 3) (hi : i ≤ G.nx) (hj : j ≤ G.ny) (hk : k ≤ G.nz) (ha : a < 3) (hne : a ≠ c)
    (h : coord a i j k = 0 ∨ coord a i j k = coord a G.nx G.ny G.nz) {Jd : ℕ → ℕ → ℝ} (hJ : ∀ n, Jd n (G.at' c i j k) = 0) (st : State ℝ) (h0 : st.step0 = false) (n : ℕ) :
    (G.run bc Jd st n).E (G.at' c i j k) = st.E (G.at' c i j k) := by
  induction n with
  | zero => rfl
  | succ n ih =>
    have hr : G.at' c i j k < 3 * (G.geom.Nx * G.geom.Ny * G.geom.Nz) := pos_lt hc (by show i < G.nx + 1; omega) (by show j < G.ny + 1; omega) (by show k < G.nz + 1; omega)
    have e := advance_E G.geom bc (fun _ => 1 / G.eps) (fun _ => 1 / G.mu) (fun _ => 0) G.dt false { G.run bc Jd st n with J := Jd n } hr
    have hrun : G.run bc Jd st (n + 1) = advance (G.solver bc) { G.run bc Jd st n with J := Jd n } :=
      oneStep_started _ _ (show ({ G.run bc Jd st n with J := Jd n } : State ℝ).step0 = false from G.run_step0 Jd st h0 n)
    rw [hrun]
    have e' : (advance (G.solver bc) { G.run bc Jd st n with J := Jd n }).E (G.at' c i j k) = (G.run bc Jd st n).E (G.at' c i j k) +
        G.dt * (1 / G.eps * (applyBC G.geom bc (C0 G.geom.Nx G.geom.Ny G.geom.Nz)).itA.array (G.at' c i j k) * (colMask G.geom bc (G.at' c i j k) * _) - 1 / G.eps * Jd n (G.at' c i j k)) := e
    rw [e', G.wall_mask hbc hc hi hj hk ha hne h, hJ, ih]
    ring

/-- **C106 (low walls).** With six electric walls, E tangential to a low wall of the requested box keeps the value it starts from, in every run that writes no current there. -/
theorem C106_low_walls (hbc : AllPec bc) {c i j k a : ℕ} (hc : c < 3) (hi : i ≤ G.nx) (hj : j ≤ G.ny) (hk : k ≤ G.nz) (ha : a < 3) (hne : a ≠ c)
    (h : cor a (G.ePt c i j k) = cor a G.lo) {Jd : ℕ → ℕ → ℝ} (hJ : ∀ n, Jd n (G.at' c i j k) = 0) (st : State ℝ) (h0 : st.step0 = false) (n : ℕ) :
    (G.run bc Jd st n).E (G.at' c i j k) = st.E (G.at' c i j k) := by
  refine G.frozen hbc hc hi hj hk ha hne (.inl ?_) hJ st h0 n
  have hdx := G.hdx.ne'; have hdy := G.hdy.ne'; have hdz := G.hdz.ne'
  have ha3 : a = 0 ∨ a = 1 ∨ a = 2 := by omega
  rcases ha3 with rfl | rfl | rfl
  · have : (i : ℝ) * G.dx = 0 := by simpa [cor, ePt, edgePoint, lo, hne.symm, ax] using h
    simpa [hdx, coord] using this
  · have : (j : ℝ) * G.dy = 0 := by simpa [cor, ePt, edgePoint, lo, hne.symm, ay] using h
    simpa [hdy, coord] using this
  · have : (k : ℝ) * G.dz = 0 := by simpa [cor, ePt, edgePoint, lo, hne.symm, az] using h
    simpa [hdz, coord] using this

end Box

/-- The unit cube divided into `N³` cells, with a stable time step. -/
noncomputable def unitCube (N : ℕ) (hN : 0 < N) : Box where
  nx := N - 1
  ny := N - 1
  nz := N - 1
  x0 := 0
  y0 := 0
  z0 := 0
  dx := 1 / N
  dy := 1 / N
  dz := 1 / N
  eps := 1
  mu := 1
  dt := 1 / (4 * N)
  hdx := by positivity
  hdy := by positivity
  hdz := by positivity
  heps := one_pos
  hmu := one_pos
  hdt := by positivity

/-- The axes of this grid run from zero to one. -/
example (N : ℕ) (hN : 0 < N) : (unitCube N hN).ax 0 = 0 ∧ (unitCube N hN).ax ((unitCube N hN).nx + 1) = 1 := by
  have h : (N : ℝ) ≠ 0 := by positivity
  constructor
  · simp [Box.ax, unitCube]
  · have : N - 1 + 1 = N := by omega
    simp only [Box.ax, unitCube, this]
    field_simp; ring

/-- **C106 refuted (high walls).** The unit cube with `N³` cells, `N` even, and six electric walls.  The solver starts from the samples of the mode of the unit cube and no
current flows.  At the middle of the plane of nodes one cell before the end, the error of `E_z` after `n` steps is `sin(π/N) (1 - cos ω n dt)`, at least `2/N` times
`1 - cos ω n dt`: the walls are not at the end of the requested box and the error is of first order. -/
theorem C106_high_walls_refuted (m : ℕ) (hm : 0 < m) (n k : ℕ) (hk : k < 2 * m - 1) {bc : Faces String} (hbc : AllPec bc) (st : State ℝ) (h0 : st.step0 = true)
    (hst : ∀ c < 3, ∀ i < 2 * m, ∀ j < 2 * m, ∀ l < 2 * m, st.E ((unitCube (2 * m) (by omega)).at' c i j l) = (cavity 0 1).E c 0 ((unitCube (2 * m) (by omega)).ePt c i j l)) :
    let G := unitCube (2 * m) (by omega)
    let err := |(G.run bc (fun _ _ => 0) st n).E (G.at' 2 (2 * m - 1) m k) - (cavity 0 1).E 2 (n * G.dt) (G.ePt 2 (2 * m - 1) m k)|
    err = Real.sin (Real.pi / (2 * m : ℕ)) * (1 - Real.cos (om * (n * G.dt))) ∧ 2 / (2 * m : ℕ) * (1 - Real.cos (om * (n * G.dt))) ≤ err := by
  intro G err
  have hm0 : (m : ℝ) ≠ 0 := by positivity
  have hN : ((2 * m : ℕ) : ℝ) ≠ 0 := by push_cast; positivity
  have hnx : G.nx = 2 * m - 1 := rfl
  have hny : G.ny = 2 * m - 1 := rfl
  have hnz : G.nz = 2 * m - 1 := rfl
  have q := hst 2 (by omega) (2 * m - 1) (by omega) m (by omega) k (by omega)
  -- the computed field is frozen
  have fr : (G.run bc (fun _ _ => 0) st n).E (G.at' 2 (2 * m - 1) m k) = (cavity 0 1).E 2 0 (G.ePt 2 (2 * m - 1) m k) := by
    rw [← q]
    cases n with
    | zero => rfl
    | succ n =>
      rw [G.run_start _ st h0, G.frozen hbc (a := 0) (by omega) (by omega) (by omega) (by omega) (by omega) (by omega) (.inr hnx.symm) (fun _ => rfl) _ rfl,
        G.start_E st (by omega) (by omega) (by omega) (by omega), if_neg (by omega)]
  -- the mode there
  have px : Real.pi * (G.ePt 2 (2 * m - 1) m k).1 = Real.pi - Real.pi / (2 * m : ℕ) := by
    show Real.pi * (0 + ((2 * m - 1 : ℕ) : ℝ) * (1 / (2 * m : ℕ))) = _
    rw [Nat.cast_sub (by omega)]
    field_simp
    push_cast; ring
  have py : Real.pi * (G.ePt 2 (2 * m - 1) m k).2.1 = Real.pi / 2 := by
    show Real.pi * (0 + (m : ℝ) * (1 / (2 * m : ℕ))) = _
    push_cast
    field_simp; ring
  have md : ∀ t, (cavity 0 1).E 2 t (G.ePt 2 (2 * m - 1) m k) = Real.sin (Real.pi / (2 * m : ℕ)) * Real.cos (om * t) := by
    intro t
    show Real.sin (Real.pi * (G.ePt 2 (2 * m - 1) m k).1) * Real.sin (Real.pi * (G.ePt 2 (2 * m - 1) m k).2.1) * Real.cos (om * t) = _
    rw [px, py, Real.sin_pi_sub, Real.sin_pi_div_two, mul_one]
  have hpi := Real.pi_pos
  have hN2 : (2 : ℝ) ≤ (2 * m : ℕ) := by exact_mod_cast (by omega : 2 ≤ 2 * m)
  have jordan : 2 / (2 * m : ℕ) ≤ Real.sin (Real.pi / (2 * m : ℕ)) := by
    have := Real.mul_le_sin (x := Real.pi / (2 * m : ℕ)) (by positivity) (div_le_div_of_nonneg_left hpi.le (by norm_num) hN2)
    refine le_trans (le_of_eq ?_) this
    field_simp
  have s0 : 0 ≤ Real.sin (Real.pi / (2 * m : ℕ)) := le_trans (by positivity) jordan
  have c0 : 0 ≤ 1 - Real.cos (om * (n * G.dt)) := by linarith [Real.cos_le_one (om * (n * G.dt))]
  have e : err = Real.sin (Real.pi / (2 * m : ℕ)) * (1 - Real.cos (om * (n * G.dt))) := by
    show |_ - _| = _
    rw [fr, md, md, mul_zero, Real.cos_zero, ← mul_sub, abs_of_nonneg (mul_nonneg s0 c0)]
  exact ⟨e, e ▸ mul_le_mul_of_nonneg_right jordan c0⟩

/-- A fresh state with given entries. -/
theorem exists_state (G : Box) (f g : ℕ → ℕ → ℕ → ℕ → ℝ) : ∃ st : State ℝ, st.step0 = true ∧
    ∀ c, ∀ i ≤ G.nx, ∀ j ≤ G.ny, ∀ k ≤ G.nz, st.E (G.at' c i j k) = f c i j k ∧ st.H (G.at' c i j k) = g c i j k :=
  ⟨⟨G.flat f, G.flat g, fun _ => 0, true⟩, rfl, fun _ _ hi _ hj _ hk => ⟨G.flat_at f hi hj hk, G.flat_at g hi hj hk⟩⟩

/-- The start of C106 exists. -/
example (m : ℕ) (hm : 0 < m) : ∃ st : State ℝ, st.step0 = true ∧ ∀ c < 3, ∀ i < 2 * m, ∀ j < 2 * m, ∀ l < 2 * m,
    st.E ((unitCube (2 * m) (by omega)).at' c i j l) = (cavity 0 1).E c 0 ((unitCube (2 * m) (by omega)).ePt c i j l) := by
  obtain ⟨st, h0, h⟩ := exists_state (unitCube (2 * m) (by omega)) (fun c i j l => (cavity 0 1).E c 0 ((unitCube (2 * m) (by omega)).ePt c i j l)) (fun _ _ _ _ => 0)
  exact ⟨st, h0, fun c _ i hi j hj l hl => (h c i (show i ≤ 2 * m - 1 by omega) j (show j ≤ 2 * m - 1 by omega) l (show l ≤ 2 * m - 1 by omega)).1⟩

/-- The start of C105's example exists too. -/
example (N : ℕ) (hN : 0 < N) (T : ℝ) : ∃ st : State ℝ, st.step0 = true ∧
    ∀ c < 3, ∀ i < N, ∀ j < N, ∀ k < N, st.E ((cube N hN).at' c i j k) = (cavity (-1) (T + 1)).E c 0 ((cube N hN).ePt c i j k) ∧
      st.H ((cube N hN).at' c i j k) = (cavity (-1) (T + 1)).H c (-((cube N hN).dt / 2)) ((cube N hN).hPt c i j k) := by
  obtain ⟨st, h0, h⟩ := exists_state (cube N hN) (fun c i j l => (cavity (-1) (T + 1)).E c 0 ((cube N hN).ePt c i j l))
    (fun c i j k => (cavity (-1) (T + 1)).H c (-((cube N hN).dt / 2)) ((cube N hN).hPt c i j k))
  exact ⟨st, h0, fun c _ i hi j hj l hl => h c i hi.le j hj.le l hl.le⟩

end Conv
end Wakis
