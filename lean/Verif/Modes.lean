import Verif.Converge5
import Verif.Speed

/-!
# C110: the modes of a closed box

Fields that solve the difference equations of the scheme are reproduced exactly by the solver; the modes of a closed box are such fields.
-/

namespace Wakis
namespace Conv
open Finset Sol Sparse Grid

/-! ### Specification -/

/-- Central difference along axis `d` over the length `h`. -/
noncomputable def cdiff (f : ℝ × ℝ × ℝ → ℝ) (d : ℕ) (h : ℝ) (p : ℝ × ℝ × ℝ) : ℝ := (f (put d (cor d p + h / 2) p) - f (put d (cor d p - h / 2) p)) / h

/-- Cosine along the component's own axis, sine along the others, or the other way round. -/
noncomputable def trig (own : Bool) (x : ℝ) : ℝ := if own then Real.cos x else Real.sin x

/-- The electric field of a cavity mode with wave numbers `κ`, amplitudes `A` and angular frequency `ω`: component `c` is a cosine along axis `c` and a sine along the others. -/
noncomputable def modeE (κ A : ℕ → ℝ) (ω : ℝ) (lo : ℝ × ℝ × ℝ) (c : ℕ) (t : ℝ) (p : ℝ × ℝ × ℝ) : ℝ :=
  A c * (trig (c == 0) (κ 0 * (p.1 - lo.1)) * trig (c == 1) (κ 1 * (p.2.1 - lo.2.1)) * trig (c == 2) (κ 2 * (p.2.2 - lo.2.2))) * Real.cos (ω * t)

/-- Its magnetic field: component `c` is a sine along axis `c` and a cosine along the others, a quarter of a period later. -/
noncomputable def modeH (κ B : ℕ → ℝ) (ω : ℝ) (lo : ℝ × ℝ × ℝ) (c : ℕ) (t : ℝ) (p : ℝ × ℝ × ℝ) : ℝ :=
  B c * (trig (c != 0) (κ 0 * (p.1 - lo.1)) * trig (c != 1) (κ 1 * (p.2.1 - lo.2.1)) * trig (c != 2) (κ 2 * (p.2.2 - lo.2.2))) * Real.sin (ω * t)

namespace Box
variable (G : Box)

/-- Cell length and number of cells between the walls, by axis. -/
def len (d : ℕ) : ℝ := if d = 0 then G.dx else if d = 1 then G.dy else G.dz
def num (d : ℕ) : ℕ := if d = 0 then G.nx else if d = 1 then G.ny else G.nz

/-- Fields that solve the difference equations of the scheme and vanish tangentially on the walls. -/
structure Discrete (E H : ℕ → ℝ → ℝ × ℝ × ℝ → ℝ) : Prop where
  faraday : ∀ c < 3, ∀ t p, G.mu * (H c (t + G.dt / 2) p - H c (t - G.dt / 2) p) = -(G.dt * curlOf (fun c d => cdiff (E c t) d (G.len d) p) c)
  ampere : ∀ c < 3, ∀ t p, G.eps * (E c (t + G.dt) p - E c t p) = G.dt * curlOf (fun c d => cdiff (H c (t + G.dt / 2)) d (G.len d) p) c
  wall : ∀ c < 3, ∀ d < 3, d ≠ c → ∀ t p, cor d p = cor d G.lo ∨ cor d p = cor d G.hi → E c t p = 0

/-! ### the solver reproduces such fields -/

/-- The state holds the fields, E at time `tE` and H at time `tH`, in the cells of the box. -/
def Holds (E H : ℕ → ℝ → ℝ × ℝ × ℝ → ℝ) (tE tH : ℝ) (st : State ℝ) : Prop :=
  ∀ c < 3, ∀ i < G.nx, ∀ j < G.ny, ∀ k < G.nz, st.E (G.at' c i j k) = E c tE (G.ePt c i j k) ∧ st.H (G.at' c i j k) = H c tH (G.hPt c i j k)

variable {E H : ℕ → ℝ → ℝ × ℝ × ℝ → ℝ} {bc : Faces String}

theorem lenL {c i j k : ℕ} (hc : c < 3) (hi : i ≤ G.nx) (hj : j ≤ G.ny) (hk : k ≤ G.nz) : G.geom.L.array (G.at' c i j k) = G.len c := G.L_at hc hi hj hk

theorem wall_zero (D : G.Discrete E H) (t : ℝ) {c i j k : ℕ} (hc : c < 3)
    (h : (c ≠ 0 ∧ (i = 0 ∨ i = G.nx)) ∨ (c ≠ 1 ∧ (j = 0 ∨ j = G.ny)) ∨ (c ≠ 2 ∧ (k = 0 ∨ k = G.nz))) : E c t (G.ePt c i j k) = 0 := by
  rcases h with ⟨h, h'⟩ | ⟨h, h'⟩ | ⟨h, h'⟩
  · refine D.wall c hc 0 (by omega) (Ne.symm h) t _ ?_
    rcases h' with rfl | rfl
    · left; simp [cor, ePt, edgePoint, lo, h]
    · right; simp [cor, ePt, edgePoint, Box.hi, h]
  · refine D.wall c hc 1 (by omega) (Ne.symm h) t _ ?_
    rcases h' with rfl | rfl
    · left; simp [cor, ePt, edgePoint, lo, h]
    · right; simp [cor, ePt, edgePoint, Box.hi, h]
  · refine D.wall c hc 2 (by omega) (Ne.symm h) t _ ?_
    rcases h' with rfl | rfl
    · left; simp [cor, ePt, edgePoint, lo, h]
    · right; simp [cor, ePt, edgePoint, Box.hi, h]

theorem mask_wall (hbc : AllPec bc) {c i j k : ℕ} (hc : c < 3) (hi : i ≤ G.nx) (hj : j ≤ G.ny) (hk : k ≤ G.nz)
    (h : (c ≠ 0 ∧ (i = 0 ∨ i = G.nx)) ∨ (c ≠ 1 ∧ (j = 0 ∨ j = G.ny)) ∨ (c ≠ 2 ∧ (k = 0 ∨ k = G.nz))) : colMask G.geom bc (G.at' c i j k) = 0 := by
  have key : ∀ axis < 3, axis ≠ c → coord axis i j k = 0 ∨ coord axis i j k = coord axis G.nx G.ny G.nz → colMask G.geom bc (G.at' c i j k) = 0 := by
    intro axis ha hne h
    rcases h with h | h
    · exact colMask_closed G.geom hbc.like hc (show i < G.nx + 1 by omega) (show j < G.ny + 1 by omega) (show k < G.nz + 1 by omega) ha hne .lo h
    · refine colMask_closed G.geom hbc.like hc (show i < G.nx + 1 by omega) (show j < G.ny + 1 by omega) (show k < G.nz + 1 by omega) ha hne .hi ?_
      show coord axis i j k = coord axis (G.nx + 1) (G.ny + 1) (G.nz + 1) - 1
      rw [h]; unfold coord; split_ifs <;> omega
  rcases h with ⟨h, h'⟩ | ⟨h, h'⟩ | ⟨h, h'⟩
  · exact key 0 (by omega) (Ne.symm h) (by simpa [coord] using h')
  · exact key 1 (by omega) (Ne.symm h) (by simpa [coord] using h')
  · exact key 2 (by omega) (Ne.symm h) (by simpa [coord] using h')

theorem mask_inner {c i j k : ℕ} (hc : c < 3) (hi : i ≤ G.nx) (hj : j ≤ G.ny) (hk : k ≤ G.nz)
    (h : ¬((c ≠ 0 ∧ (i = 0 ∨ i = G.nx)) ∨ (c ≠ 1 ∧ (j = 0 ∨ j = G.ny)) ∨ (c ≠ 2 ∧ (k = 0 ∨ k = G.nz)))) : colMask G.geom bc (G.at' c i j k) = 1 := by
  have e : colMask G.geom bc (G.at' c i j k) = _ := colMask_pos G.geom bc hc (show i < G.nx + 1 by omega) (show j < G.ny + 1 by omega) (show k < G.nz + 1 by omega)
  rw [e]
  rcases maskVal_cases (K := ℝ) G.geom bc (i := i) (j := j) (k := k) hc with h1 | ⟨a, s, ha, hac, hon, _⟩
  · exact h1
  · exfalso
    apply h
    have hon' : coord a i j k = 0 ∨ coord a i j k = coord a (G.nx + 1) (G.ny + 1) (G.nz + 1) - 1 := by
      cases s
      · exact .inl hon
      · exact .inr hon
    have : a = 0 ∨ a = 1 ∨ a = 2 := by omega
    rcases this with rfl | rfl | rfl
    · left; exact ⟨fun h => hac h.symm, by simpa [coord] using hon'⟩
    · right; left; exact ⟨fun h => hac h.symm, by simpa [coord] using hon'⟩
    · right; right; exact ⟨fun h => hac h.symm, by simpa [coord] using hon'⟩

/-- The voltages that drive H, from the fields. -/
theorem volt (D : G.Discrete E H) (hbc : AllPec bc) {tE tH : ℝ} {st : State ℝ} (h : G.Holds E H tE tH st) {c i j k : ℕ} (hc : c < 3) (hi : i ≤ G.nx) (hj : j ≤ G.ny) (hk : k ≤ G.nz)
    (h0 : c = 0 → i < G.nx) (h1 : c = 1 → j < G.ny) (h2 : c = 2 → k < G.nz) :
    view0 (G.nx + 1) (G.ny + 1) (G.nz + 1) (fun q => colMask G.geom bc q * (G.geom.L.array q * st.E q)) c i j k = G.len c * E c tE (G.ePt c i j k) := by
  rw [view0, if_pos ⟨by omega, by omega, by omega⟩]
  show colMask G.geom bc (G.at' c i j k) * (G.geom.L.array (G.at' c i j k) * st.E (G.at' c i j k)) = _
  by_cases hw : (c ≠ 0 ∧ (i = 0 ∨ i = G.nx)) ∨ (c ≠ 1 ∧ (j = 0 ∨ j = G.ny)) ∨ (c ≠ 2 ∧ (k = 0 ∨ k = G.nz))
  · rw [G.mask_wall hbc hc hi hj hk hw, G.wall_zero D _ hc hw, zero_mul, mul_zero]
  · rw [G.mask_inner hc hi hj hk hw, G.lenL hc hi hj hk, (h c hc i (by omega) j (by omega) k (by omega)).1, one_mul]

set_option linter.unusedSimpArgs false
set_option maxHeartbeats 1600000 in
theorem next_H (D : G.Discrete E H) (hbc : AllPec bc) {t : ℝ} {st : State ℝ} (h : G.Holds E H t (t - G.dt / 2) st) {c i j k : ℕ} (hc : c < 3) (hi : i < G.nx) (hj : j < G.ny) (hk : k < G.nz) :
    (advance (G.solver bc) st).H (G.at' c i j k) = H c (t + G.dt / 2) (G.hPt c i j k) := by
  have hi' := hi.le
  have hj' := hj.le
  have hk' := hk.le
  have e := closed_H G.geom (fun _ => 1 / G.eps) (fun _ => 1 / G.mu) (fun _ => 0) G.dt false hbc.like st hc (i := i) (j := j) (k := k) (show i < G.nx + 1 by omega) (show j < G.ny + 1 by omega) (show k < G.nz + 1 by omega)
  have e' : (advance (G.solver bc) st).H (G.at' c i j k) = st.H (G.at' c i j k) - G.dt * (G.geom.iA.array (G.at' c i j k) * (1 / G.mu) *
      circ (view0 (G.nx + 1) (G.ny + 1) (G.nz + 1) fun q => colMask G.geom bc q * (G.geom.L.array q * st.E q)) c i j k) := e
  have hf := D.faraday c hc t (G.hPt c i j k)
  have hx := G.hdx.ne'; have hy := G.hdy.ne'; have hz := G.hdz.ne'; have hmu := G.hmu.ne'
  rw [e', G.iA_at hc hi' hj' hk', (h c hc i hi j hj k hk).2]
  have hc3 : c = 0 ∨ c = 1 ∨ c = 2 := by omega
  rcases hc3 with rfl | rfl | rfl
  · have p1 : put 1 (cor 1 (G.hPt 0 i j k) + G.dy / 2) (G.hPt 0 i j k) = G.ePt 2 i (j + 1) k := by
      simp [put, cor, hPt, ePt, facePoint, edgePoint, G.mid_y, G.ay_succ]; ring
    have p2 : put 1 (cor 1 (G.hPt 0 i j k) - G.dy / 2) (G.hPt 0 i j k) = G.ePt 2 i j k := by
      simp [put, cor, hPt, ePt, facePoint, edgePoint, G.mid_y]
    have p3 : put 2 (cor 2 (G.hPt 0 i j k) + G.dz / 2) (G.hPt 0 i j k) = G.ePt 1 i j (k + 1) := by
      simp [put, cor, hPt, ePt, facePoint, edgePoint, G.mid_z, G.az_succ]; ring
    have p4 : put 2 (cor 2 (G.hPt 0 i j k) - G.dz / 2) (G.hPt 0 i j k) = G.ePt 1 i j k := by
      simp [put, cor, hPt, ePt, facePoint, edgePoint, G.mid_z]
    have l1 : G.len 1 = G.dy := by simp [len]
    have l2 : G.len 2 = G.dz := by simp [len]
    unfold circ
    rw [if_pos rfl]
    rw [if_pos rfl]
    rw [G.volt D hbc h (by omega) hi' (by omega) hk' (by omega) (by omega) (by omega), G.volt D hbc h (by omega) hi' hj' hk' (by omega) (by omega) (by omega),
      G.volt D hbc h (by omega) hi' hj' (by omega) (by omega) (by omega) (by omega), G.volt D hbc h (by omega) hi' hj' hk' (by omega) (by omega) (by omega)]
    simp only [curlOf, if_true, OfNat.ofNat_ne_zero, OfNat.ofNat_ne_one, if_false, one_ne_zero, cdiff, l1, l2, p1, p2, p3, p4] at hf ⊢
    field_simp at hf ⊢
    linear_combination (-1) * hf
  · have p1 : put 2 (cor 2 (G.hPt 1 i j k) + G.dz / 2) (G.hPt 1 i j k) = G.ePt 0 i j (k + 1) := by
      simp [put, cor, hPt, ePt, facePoint, edgePoint, G.mid_z, G.az_succ]; ring
    have p2 : put 2 (cor 2 (G.hPt 1 i j k) - G.dz / 2) (G.hPt 1 i j k) = G.ePt 0 i j k := by
      simp [put, cor, hPt, ePt, facePoint, edgePoint, G.mid_z]
    have p3 : put 0 (cor 0 (G.hPt 1 i j k) + G.dx / 2) (G.hPt 1 i j k) = G.ePt 2 (i + 1) j k := by
      simp [put, cor, hPt, ePt, facePoint, edgePoint, G.mid_x, G.ax_succ]; ring
    have p4 : put 0 (cor 0 (G.hPt 1 i j k) - G.dx / 2) (G.hPt 1 i j k) = G.ePt 2 i j k := by
      simp [put, cor, hPt, ePt, facePoint, edgePoint, G.mid_x]
    have l1 : G.len 2 = G.dz := by simp [len]
    have l2 : G.len 0 = G.dx := by simp [len]
    unfold circ
    rw [if_neg (by decide), if_pos rfl]
    rw [if_neg (by decide), if_pos rfl]
    rw [G.volt D hbc h (by omega) hi' hj' (by omega) (by omega) (by omega) (by omega), G.volt D hbc h (by omega) hi' hj' hk' (by omega) (by omega) (by omega),
      G.volt D hbc h (by omega) (by omega) hj' hk' (by omega) (by omega) (by omega), G.volt D hbc h (by omega) hi' hj' hk' (by omega) (by omega) (by omega)]
    simp only [curlOf, if_true, OfNat.ofNat_ne_zero, OfNat.ofNat_ne_one, if_false, one_ne_zero, cdiff, l1, l2, p1, p2, p3, p4] at hf ⊢
    field_simp at hf ⊢
    linear_combination (-1) * hf
  · have p1 : put 0 (cor 0 (G.hPt 2 i j k) + G.dx / 2) (G.hPt 2 i j k) = G.ePt 1 (i + 1) j k := by
      simp [put, cor, hPt, ePt, facePoint, edgePoint, G.mid_x, G.ax_succ]; ring
    have p2 : put 0 (cor 0 (G.hPt 2 i j k) - G.dx / 2) (G.hPt 2 i j k) = G.ePt 1 i j k := by
      simp [put, cor, hPt, ePt, facePoint, edgePoint, G.mid_x]
    have p3 : put 1 (cor 1 (G.hPt 2 i j k) + G.dy / 2) (G.hPt 2 i j k) = G.ePt 0 i (j + 1) k := by
      simp [put, cor, hPt, ePt, facePoint, edgePoint, G.mid_y, G.ay_succ]; ring
    have p4 : put 1 (cor 1 (G.hPt 2 i j k) - G.dy / 2) (G.hPt 2 i j k) = G.ePt 0 i j k := by
      simp [put, cor, hPt, ePt, facePoint, edgePoint, G.mid_y]
    have l1 : G.len 0 = G.dx := by simp [len]
    have l2 : G.len 1 = G.dy := by simp [len]
    unfold circ
    rw [if_neg (by decide), if_neg (by decide)]
    rw [if_neg (by decide), if_neg (by decide)]
    rw [G.volt D hbc h (by omega) (by omega) hj' hk' (by omega) (by omega) (by omega), G.volt D hbc h (by omega) hi' hj' hk' (by omega) (by omega) (by omega),
      G.volt D hbc h (by omega) hi' (by omega) hk' (by omega) (by omega) (by omega), G.volt D hbc h (by omega) hi' hj' hk' (by omega) (by omega) (by omega)]
    simp only [curlOf, if_true, OfNat.ofNat_ne_zero, OfNat.ofNat_ne_one, if_false, one_ne_zero, cdiff, l1, l2, p1, p2, p3, p4] at hf ⊢
    field_simp at hf ⊢
    linear_combination (-1) * hf

set_option maxHeartbeats 1600000 in
theorem next_E (D : G.Discrete E H) (hbc : AllPec bc) {t : ℝ} {st : State ℝ} (hJ : ∀ q, st.J q = 0) (h : G.Holds E H t (t - G.dt / 2) st) {c i j k : ℕ} (hc : c < 3) (hi : i < G.nx) (hj : j < G.ny)
    (hk : k < G.nz) : (advance (G.solver bc) st).E (G.at' c i j k) = E c (t + G.dt) (G.ePt c i j k) := by
  have hi' := hi.le
  have hj' := hj.le
  have hk' := hk.le
  obtain ⟨-, -, habc, -, hper⟩ := hbc.names
  have am := applyBC_metric G.geom bc (C0 G.geom.Nx G.geom.Ny G.geom.Nz) hper habc
  have e := closed_E G.geom (fun _ => 1 / G.eps) (fun _ => 1 / G.mu) (fun _ => 0) G.dt false hbc.like st hc (i := i) (j := j) (k := k) (show i < G.nx + 1 by omega) (show j < G.ny + 1 by omega) (show k < G.nz + 1 by omega)
  rw [am.1, am.2] at e
  have e' : (advance (G.solver bc) st).E (G.at' c i j k) = st.E (G.at' c i j k) + G.dt * (1 / G.eps * G.geom.itA.array (G.at' c i j k) * (colMask G.geom bc (G.at' c i j k) *
      cocirc (view3 (G.nx + 1) (G.ny + 1) (G.nz + 1) fun q => G.geom.tL.array q * (advance (G.solver bc) st).H q) c i j k) - 1 / G.eps * st.J (G.at' c i j k)) := e
  rw [e', hJ, (h c hc i hi j hj k hk).1]
  by_cases hw : (c ≠ 0 ∧ (i = 0 ∨ i = G.nx)) ∨ (c ≠ 1 ∧ (j = 0 ∨ j = G.ny)) ∨ (c ≠ 2 ∧ (k = 0 ∨ k = G.nz))
  · rw [G.mask_wall hbc hc hi' hj' hk' hw, G.wall_zero D _ hc hw, G.wall_zero D _ hc hw]; ring
  have hv : ∀ c' i' j' k', c' < 3 → i' < G.nx → j' < G.ny → k' < G.nz → view3 (G.nx + 1) (G.ny + 1) (G.nz + 1) (fun q => G.geom.tL.array q * (advance (G.solver bc) st).H q) c' i' j' k' =
      G.len c' * H c' (t + G.dt / 2) (G.hPt c' i' j' k') := by
    intro c' i' j' k' h1 h2 h3 h4
    show G.geom.tL.array (G.at' c' i' j' k') * (advance (G.solver bc) st).H (G.at' c' i' j' k') = _
    rw [G.next_H D hbc h h1 h2 h3 h4, G.tL_at h1 h2.le h3.le h4.le, if_pos h2, if_pos h3, if_pos h4]
    rfl
  have hf := D.ampere c hc t (G.ePt c i j k)
  have hx := G.hdx.ne'; have hy := G.hdy.ne'; have hz := G.hdz.ne'; have heps := G.heps.ne'
  rw [G.mask_inner hc hi' hj' hk' hw, G.itA_at hc hi' hj' hk', if_pos ⟨.inr hi, .inr hj, .inr hk⟩]
  have hc3 : c = 0 ∨ c = 1 ∨ c = 2 := by omega
  rcases hc3 with rfl | rfl | rfl
  · have s1 : G.ay j = G.ay (j - 1) + G.dy := by
      have := G.ay_succ (j - 1)
      rwa [show j - 1 + 1 = j by omega] at this
    have s2 : G.az k = G.az (k - 1) + G.dz := by
      have := G.az_succ (k - 1)
      rwa [show k - 1 + 1 = k by omega] at this
    have m1 : G.ay j - G.dy / 2 = G.ay (j - 1) + G.dy / 2 := by rw [s1]; ring
    have m2 : G.az k - G.dz / 2 = G.az (k - 1) + G.dz / 2 := by rw [s2]; ring
    have p1 : put 1 (cor 1 (G.ePt 0 i j k) + G.dy / 2) (G.ePt 0 i j k) = G.hPt 2 i j k := by
      simp [put, cor, hPt, ePt, facePoint, edgePoint, G.mid_y]
    have p2 : put 1 (cor 1 (G.ePt 0 i j k) - G.dy / 2) (G.ePt 0 i j k) = G.hPt 2 i (j - 1) k := by
      simp [put, cor, hPt, ePt, facePoint, edgePoint, G.mid_y, m1]
    have p3 : put 2 (cor 2 (G.ePt 0 i j k) + G.dz / 2) (G.ePt 0 i j k) = G.hPt 1 i j k := by
      simp [put, cor, hPt, ePt, facePoint, edgePoint, G.mid_z]
    have p4 : put 2 (cor 2 (G.ePt 0 i j k) - G.dz / 2) (G.ePt 0 i j k) = G.hPt 1 i j (k - 1) := by
      simp [put, cor, hPt, ePt, facePoint, edgePoint, G.mid_z, m2]
    have l1 : G.len 1 = G.dy := by simp [len]
    have l2 : G.len 2 = G.dz := by simp [len]
    unfold cocirc
    rw [if_pos rfl]
    rw [if_pos rfl]
    rw [hv _ _ _ _ (by omega) hi hj hk, hv _ _ _ _ (by omega) hi (by omega) hk, hv _ _ _ _ (by omega) hi hj hk, hv _ _ _ _ (by omega) hi hj (by omega)]
    simp only [curlOf, if_true, OfNat.ofNat_ne_zero, OfNat.ofNat_ne_one, if_false, one_ne_zero, cdiff, l1, l2, p1, p2, p3, p4] at hf ⊢
    field_simp at hf ⊢
    linear_combination (-1) * hf
  · have s1 : G.az k = G.az (k - 1) + G.dz := by
      have := G.az_succ (k - 1)
      rwa [show k - 1 + 1 = k by omega] at this
    have s2 : G.ax i = G.ax (i - 1) + G.dx := by
      have := G.ax_succ (i - 1)
      rwa [show i - 1 + 1 = i by omega] at this
    have m1 : G.az k - G.dz / 2 = G.az (k - 1) + G.dz / 2 := by rw [s1]; ring
    have m2 : G.ax i - G.dx / 2 = G.ax (i - 1) + G.dx / 2 := by rw [s2]; ring
    have p1 : put 2 (cor 2 (G.ePt 1 i j k) + G.dz / 2) (G.ePt 1 i j k) = G.hPt 0 i j k := by
      simp [put, cor, hPt, ePt, facePoint, edgePoint, G.mid_z]
    have p2 : put 2 (cor 2 (G.ePt 1 i j k) - G.dz / 2) (G.ePt 1 i j k) = G.hPt 0 i j (k - 1) := by
      simp [put, cor, hPt, ePt, facePoint, edgePoint, G.mid_z, m1]
    have p3 : put 0 (cor 0 (G.ePt 1 i j k) + G.dx / 2) (G.ePt 1 i j k) = G.hPt 2 i j k := by
      simp [put, cor, hPt, ePt, facePoint, edgePoint, G.mid_x]
    have p4 : put 0 (cor 0 (G.ePt 1 i j k) - G.dx / 2) (G.ePt 1 i j k) = G.hPt 2 (i - 1) j k := by
      simp [put, cor, hPt, ePt, facePoint, edgePoint, G.mid_x, m2]
    have l1 : G.len 2 = G.dz := by simp [len]
    have l2 : G.len 0 = G.dx := by simp [len]
    unfold cocirc
    rw [if_neg (by decide), if_pos rfl]
    rw [if_neg (by decide), if_pos rfl]
    rw [hv _ _ _ _ (by omega) hi hj hk, hv _ _ _ _ (by omega) hi hj (by omega), hv _ _ _ _ (by omega) hi hj hk, hv _ _ _ _ (by omega) (by omega) hj hk]
    simp only [curlOf, if_true, OfNat.ofNat_ne_zero, OfNat.ofNat_ne_one, if_false, one_ne_zero, cdiff, l1, l2, p1, p2, p3, p4] at hf ⊢
    field_simp at hf ⊢
    linear_combination (-1) * hf
  · have s1 : G.ax i = G.ax (i - 1) + G.dx := by
      have := G.ax_succ (i - 1)
      rwa [show i - 1 + 1 = i by omega] at this
    have s2 : G.ay j = G.ay (j - 1) + G.dy := by
      have := G.ay_succ (j - 1)
      rwa [show j - 1 + 1 = j by omega] at this
    have m1 : G.ax i - G.dx / 2 = G.ax (i - 1) + G.dx / 2 := by rw [s1]; ring
    have m2 : G.ay j - G.dy / 2 = G.ay (j - 1) + G.dy / 2 := by rw [s2]; ring
    have p1 : put 0 (cor 0 (G.ePt 2 i j k) + G.dx / 2) (G.ePt 2 i j k) = G.hPt 1 i j k := by
      simp [put, cor, hPt, ePt, facePoint, edgePoint, G.mid_x]
    have p2 : put 0 (cor 0 (G.ePt 2 i j k) - G.dx / 2) (G.ePt 2 i j k) = G.hPt 1 (i - 1) j k := by
      simp [put, cor, hPt, ePt, facePoint, edgePoint, G.mid_x, m1]
    have p3 : put 1 (cor 1 (G.ePt 2 i j k) + G.dy / 2) (G.ePt 2 i j k) = G.hPt 0 i j k := by
      simp [put, cor, hPt, ePt, facePoint, edgePoint, G.mid_y]
    have p4 : put 1 (cor 1 (G.ePt 2 i j k) - G.dy / 2) (G.ePt 2 i j k) = G.hPt 0 i (j - 1) k := by
      simp [put, cor, hPt, ePt, facePoint, edgePoint, G.mid_y, m2]
    have l1 : G.len 0 = G.dx := by simp [len]
    have l2 : G.len 1 = G.dy := by simp [len]
    unfold cocirc
    rw [if_neg (by decide), if_neg (by decide)]
    rw [if_neg (by decide), if_neg (by decide)]
    rw [hv _ _ _ _ (by omega) hi hj hk, hv _ _ _ _ (by omega) (by omega) hj hk, hv _ _ _ _ (by omega) hi hj hk, hv _ _ _ _ (by omega) hi (by omega) hk]
    simp only [curlOf, if_true, OfNat.ofNat_ne_zero, OfNat.ofNat_ne_one, if_false, one_ne_zero, cdiff, l1, l2, p1, p2, p3, p4] at hf ⊢
    field_simp at hf ⊢
    linear_combination (-1) * hf

theorem holds_start (st : State ℝ) {tE tH : ℝ} (h : G.Holds E H tE tH st) : G.Holds E H tE tH (G.start bc st) := by
  intro c hc i hi j hj k hk
  rw [G.start_E st hc hi.le hj.le hk.le, G.start_H st hc hi.le hj.le hk.le, if_neg (by omega), if_neg (by omega)]
  exact h c hc i hi j hj k hk

/-- **C110 (exact fields).** With six electric walls, fields that solve the difference equations in the box between the walls are reproduced exactly: a run without current that starts with them
holds them after every number of steps. -/
theorem C110_exact (D : G.Discrete E H) (hbc : AllPec bc) {t0 : ℝ} (st : State ℝ) (hst : G.Holds E H t0 (t0 - G.dt / 2) st) (n : ℕ) :
    G.Holds E H (t0 + n * G.dt) (t0 + (n - 1 / 2) * G.dt) (G.run bc (fun _ _ => 0) st n) := by
  have main : ∀ st : State ℝ, st.step0 = false → G.Holds E H t0 (t0 - G.dt / 2) st → ∀ n : ℕ,
      (G.run bc (fun _ _ => 0) st n).step0 = false ∧ G.Holds E H (t0 + n * G.dt) (t0 + (n - 1 / 2) * G.dt) (G.run bc (fun _ _ => 0) st n) := by
    intro st h0 hst n
    induction n with
    | zero =>
      refine ⟨h0, ?_⟩
      rw [Nat.cast_zero, zero_mul, add_zero, show t0 + (0 - 1 / 2) * G.dt = t0 - G.dt / 2 by ring]
      exact hst
    | succ n ih =>
      obtain ⟨f, ih⟩ := ih
      have hrun : G.run bc (fun _ _ => 0) st (n + 1) = advance (G.solver bc) { G.run bc (fun _ _ => 0) st n with J := fun _ => 0 } := oneStep_started _ _ f
      have hh : G.Holds E H (t0 + n * G.dt) (t0 + n * G.dt - G.dt / 2) { G.run bc (fun _ _ => 0) st n with J := fun _ => 0 } := by
        rw [show t0 + n * G.dt - G.dt / 2 = t0 + (n - 1 / 2) * G.dt by ring]
        exact ih
      rw [hrun]
      refine ⟨f, fun c hc i hi j hj k hk => ⟨?_, ?_⟩⟩
      · rw [G.next_E D hbc (fun _ => rfl) hh hc hi hj hk]
        congr 1; push_cast; ring
      · rw [G.next_H D hbc hh hc hi hj hk]
        congr 1; push_cast; ring
  by_cases h0 : st.step0 = true
  · cases n with
    | zero =>
      rw [Nat.cast_zero, zero_mul, add_zero, show t0 + (0 - 1 / 2) * G.dt = t0 - G.dt / 2 by ring]
      exact hst
    | succ n => rw [G.run_start _ st h0]; exact (main _ rfl (G.holds_start st hst) _).2
  · exact (main st (by simpa using h0) hst n).2

/-! ### modes -/

/-- Wave numbers of the mode with the given numbers of half waves between the walls. -/
noncomputable def kappa (m : ℕ → ℕ) (d : ℕ) : ℝ := m d * Real.pi / (G.num d * G.len d)

/-- What the central difference makes of them. -/
noncomputable def kgrid (m : ℕ → ℕ) (d : ℕ) : ℝ := 2 * Real.sin (G.kappa m d * G.len d / 2) / G.len d

/-- The frequency with which the mode oscillates: the dispersion relation of the scheme. -/
def Dispersion (m : ℕ → ℕ) (ω : ℝ) : Prop := G.eps * G.mu * (2 * Real.sin (ω * G.dt / 2) / G.dt) ^ 2 = G.kgrid m 0 ^ 2 + G.kgrid m 1 ^ 2 + G.kgrid m 2 ^ 2

/-- The magnetic amplitudes. -/
noncomputable def magn (m : ℕ → ℕ) (A : ℕ → ℝ) (ω : ℝ) (c : ℕ) : ℝ := -(G.dt * curlOf (fun c d => G.kgrid m d * A c) c) / (G.mu * (2 * Real.sin (ω * G.dt / 2)))

theorem sin_diff (k x h : ℝ) : Real.sin (k * (x + h / 2)) - Real.sin (k * (x - h / 2)) = 2 * Real.sin (k * h / 2) * Real.cos (k * x) := by
  rw [show k * (x + h / 2) = k * x + k * h / 2 by ring, show k * (x - h / 2) = k * x - k * h / 2 by ring, Real.sin_add, Real.sin_sub]; ring

theorem cos_diff (k x h : ℝ) : Real.cos (k * (x + h / 2)) - Real.cos (k * (x - h / 2)) = -(2 * Real.sin (k * h / 2) * Real.sin (k * x)) := by
  rw [show k * (x + h / 2) = k * x + k * h / 2 by ring, show k * (x - h / 2) = k * x - k * h / 2 by ring, Real.cos_add, Real.cos_sub]; ring

theorem dE01 (κ A : ℕ → ℝ) (ω t h : ℝ) (lo p : ℝ × ℝ × ℝ) : cdiff (modeE κ A ω lo 0 t) 1 h p =
    (A 0 * (Real.cos (κ 0 * (p.1 - lo.1)) * Real.cos (κ 1 * (p.2.1 - lo.2.1)) * Real.sin (κ 2 * (p.2.2 - lo.2.2))) * Real.cos (ω * t) * (2 * Real.sin (κ 1 * h / 2) / h)) := by
  have e := sin_diff (κ 1) (p.2.1 - lo.2.1) h
  simp only [cdiff, modeE, put, cor, trig]
  simp
  rw [show p.2.1 - lo.2.1 + h / 2 = p.2.1 + h / 2 - lo.2.1 by ring, show p.2.1 - lo.2.1 - h / 2 = p.2.1 - h / 2 - lo.2.1 by ring] at e
  linear_combination (A 0 * (Real.cos (κ 0 * (p.1 - lo.1)) * Real.sin (κ 2 * (p.2.2 - lo.2.2))) * Real.cos (ω * t) * h⁻¹) * e

theorem dE02 (κ A : ℕ → ℝ) (ω t h : ℝ) (lo p : ℝ × ℝ × ℝ) : cdiff (modeE κ A ω lo 0 t) 2 h p =
    (A 0 * (Real.cos (κ 0 * (p.1 - lo.1)) * Real.sin (κ 1 * (p.2.1 - lo.2.1)) * Real.cos (κ 2 * (p.2.2 - lo.2.2))) * Real.cos (ω * t) * (2 * Real.sin (κ 2 * h / 2) / h)) := by
  have e := sin_diff (κ 2) (p.2.2 - lo.2.2) h
  simp only [cdiff, modeE, put, cor, trig]
  simp
  rw [show p.2.2 - lo.2.2 + h / 2 = p.2.2 + h / 2 - lo.2.2 by ring, show p.2.2 - lo.2.2 - h / 2 = p.2.2 - h / 2 - lo.2.2 by ring] at e
  linear_combination (A 0 * (Real.cos (κ 0 * (p.1 - lo.1)) * Real.sin (κ 1 * (p.2.1 - lo.2.1))) * Real.cos (ω * t) * h⁻¹) * e

theorem dE10 (κ A : ℕ → ℝ) (ω t h : ℝ) (lo p : ℝ × ℝ × ℝ) : cdiff (modeE κ A ω lo 1 t) 0 h p =
    (A 1 * (Real.cos (κ 0 * (p.1 - lo.1)) * Real.cos (κ 1 * (p.2.1 - lo.2.1)) * Real.sin (κ 2 * (p.2.2 - lo.2.2))) * Real.cos (ω * t) * (2 * Real.sin (κ 0 * h / 2) / h)) := by
  have e := sin_diff (κ 0) (p.1 - lo.1) h
  simp only [cdiff, modeE, put, cor, trig]
  simp
  rw [show p.1 - lo.1 + h / 2 = p.1 + h / 2 - lo.1 by ring, show p.1 - lo.1 - h / 2 = p.1 - h / 2 - lo.1 by ring] at e
  linear_combination (A 1 * (Real.cos (κ 1 * (p.2.1 - lo.2.1)) * Real.sin (κ 2 * (p.2.2 - lo.2.2))) * Real.cos (ω * t) * h⁻¹) * e

theorem dE12 (κ A : ℕ → ℝ) (ω t h : ℝ) (lo p : ℝ × ℝ × ℝ) : cdiff (modeE κ A ω lo 1 t) 2 h p =
    (A 1 * (Real.sin (κ 0 * (p.1 - lo.1)) * Real.cos (κ 1 * (p.2.1 - lo.2.1)) * Real.cos (κ 2 * (p.2.2 - lo.2.2))) * Real.cos (ω * t) * (2 * Real.sin (κ 2 * h / 2) / h)) := by
  have e := sin_diff (κ 2) (p.2.2 - lo.2.2) h
  simp only [cdiff, modeE, put, cor, trig]
  simp
  rw [show p.2.2 - lo.2.2 + h / 2 = p.2.2 + h / 2 - lo.2.2 by ring, show p.2.2 - lo.2.2 - h / 2 = p.2.2 - h / 2 - lo.2.2 by ring] at e
  linear_combination (A 1 * (Real.sin (κ 0 * (p.1 - lo.1)) * Real.cos (κ 1 * (p.2.1 - lo.2.1))) * Real.cos (ω * t) * h⁻¹) * e

theorem dE20 (κ A : ℕ → ℝ) (ω t h : ℝ) (lo p : ℝ × ℝ × ℝ) : cdiff (modeE κ A ω lo 2 t) 0 h p =
    (A 2 * (Real.cos (κ 0 * (p.1 - lo.1)) * Real.sin (κ 1 * (p.2.1 - lo.2.1)) * Real.cos (κ 2 * (p.2.2 - lo.2.2))) * Real.cos (ω * t) * (2 * Real.sin (κ 0 * h / 2) / h)) := by
  have e := sin_diff (κ 0) (p.1 - lo.1) h
  simp only [cdiff, modeE, put, cor, trig]
  simp
  rw [show p.1 - lo.1 + h / 2 = p.1 + h / 2 - lo.1 by ring, show p.1 - lo.1 - h / 2 = p.1 - h / 2 - lo.1 by ring] at e
  linear_combination (A 2 * (Real.sin (κ 1 * (p.2.1 - lo.2.1)) * Real.cos (κ 2 * (p.2.2 - lo.2.2))) * Real.cos (ω * t) * h⁻¹) * e

theorem dE21 (κ A : ℕ → ℝ) (ω t h : ℝ) (lo p : ℝ × ℝ × ℝ) : cdiff (modeE κ A ω lo 2 t) 1 h p =
    (A 2 * (Real.sin (κ 0 * (p.1 - lo.1)) * Real.cos (κ 1 * (p.2.1 - lo.2.1)) * Real.cos (κ 2 * (p.2.2 - lo.2.2))) * Real.cos (ω * t) * (2 * Real.sin (κ 1 * h / 2) / h)) := by
  have e := sin_diff (κ 1) (p.2.1 - lo.2.1) h
  simp only [cdiff, modeE, put, cor, trig]
  simp
  rw [show p.2.1 - lo.2.1 + h / 2 = p.2.1 + h / 2 - lo.2.1 by ring, show p.2.1 - lo.2.1 - h / 2 = p.2.1 - h / 2 - lo.2.1 by ring] at e
  linear_combination (A 2 * (Real.sin (κ 0 * (p.1 - lo.1)) * Real.cos (κ 2 * (p.2.2 - lo.2.2))) * Real.cos (ω * t) * h⁻¹) * e

theorem dH01 (κ B : ℕ → ℝ) (ω t h : ℝ) (lo p : ℝ × ℝ × ℝ) : cdiff (modeH κ B ω lo 0 t) 1 h p =
    -(B 0 * (Real.sin (κ 0 * (p.1 - lo.1)) * Real.sin (κ 1 * (p.2.1 - lo.2.1)) * Real.cos (κ 2 * (p.2.2 - lo.2.2))) * Real.sin (ω * t) * (2 * Real.sin (κ 1 * h / 2) / h)) := by
  have e := cos_diff (κ 1) (p.2.1 - lo.2.1) h
  simp only [cdiff, modeH, put, cor, trig]
  simp
  rw [show p.2.1 - lo.2.1 + h / 2 = p.2.1 + h / 2 - lo.2.1 by ring, show p.2.1 - lo.2.1 - h / 2 = p.2.1 - h / 2 - lo.2.1 by ring] at e
  linear_combination (B 0 * (Real.sin (κ 0 * (p.1 - lo.1)) * Real.cos (κ 2 * (p.2.2 - lo.2.2))) * Real.sin (ω * t) * h⁻¹) * e

theorem dH02 (κ B : ℕ → ℝ) (ω t h : ℝ) (lo p : ℝ × ℝ × ℝ) : cdiff (modeH κ B ω lo 0 t) 2 h p =
    -(B 0 * (Real.sin (κ 0 * (p.1 - lo.1)) * Real.cos (κ 1 * (p.2.1 - lo.2.1)) * Real.sin (κ 2 * (p.2.2 - lo.2.2))) * Real.sin (ω * t) * (2 * Real.sin (κ 2 * h / 2) / h)) := by
  have e := cos_diff (κ 2) (p.2.2 - lo.2.2) h
  simp only [cdiff, modeH, put, cor, trig]
  simp
  rw [show p.2.2 - lo.2.2 + h / 2 = p.2.2 + h / 2 - lo.2.2 by ring, show p.2.2 - lo.2.2 - h / 2 = p.2.2 - h / 2 - lo.2.2 by ring] at e
  linear_combination (B 0 * (Real.sin (κ 0 * (p.1 - lo.1)) * Real.cos (κ 1 * (p.2.1 - lo.2.1))) * Real.sin (ω * t) * h⁻¹) * e

theorem dH10 (κ B : ℕ → ℝ) (ω t h : ℝ) (lo p : ℝ × ℝ × ℝ) : cdiff (modeH κ B ω lo 1 t) 0 h p =
    -(B 1 * (Real.sin (κ 0 * (p.1 - lo.1)) * Real.sin (κ 1 * (p.2.1 - lo.2.1)) * Real.cos (κ 2 * (p.2.2 - lo.2.2))) * Real.sin (ω * t) * (2 * Real.sin (κ 0 * h / 2) / h)) := by
  have e := cos_diff (κ 0) (p.1 - lo.1) h
  simp only [cdiff, modeH, put, cor, trig]
  simp
  rw [show p.1 - lo.1 + h / 2 = p.1 + h / 2 - lo.1 by ring, show p.1 - lo.1 - h / 2 = p.1 - h / 2 - lo.1 by ring] at e
  linear_combination (B 1 * (Real.sin (κ 1 * (p.2.1 - lo.2.1)) * Real.cos (κ 2 * (p.2.2 - lo.2.2))) * Real.sin (ω * t) * h⁻¹) * e

theorem dH12 (κ B : ℕ → ℝ) (ω t h : ℝ) (lo p : ℝ × ℝ × ℝ) : cdiff (modeH κ B ω lo 1 t) 2 h p =
    -(B 1 * (Real.cos (κ 0 * (p.1 - lo.1)) * Real.sin (κ 1 * (p.2.1 - lo.2.1)) * Real.sin (κ 2 * (p.2.2 - lo.2.2))) * Real.sin (ω * t) * (2 * Real.sin (κ 2 * h / 2) / h)) := by
  have e := cos_diff (κ 2) (p.2.2 - lo.2.2) h
  simp only [cdiff, modeH, put, cor, trig]
  simp
  rw [show p.2.2 - lo.2.2 + h / 2 = p.2.2 + h / 2 - lo.2.2 by ring, show p.2.2 - lo.2.2 - h / 2 = p.2.2 - h / 2 - lo.2.2 by ring] at e
  linear_combination (B 1 * (Real.cos (κ 0 * (p.1 - lo.1)) * Real.sin (κ 1 * (p.2.1 - lo.2.1))) * Real.sin (ω * t) * h⁻¹) * e

theorem dH20 (κ B : ℕ → ℝ) (ω t h : ℝ) (lo p : ℝ × ℝ × ℝ) : cdiff (modeH κ B ω lo 2 t) 0 h p =
    -(B 2 * (Real.sin (κ 0 * (p.1 - lo.1)) * Real.cos (κ 1 * (p.2.1 - lo.2.1)) * Real.sin (κ 2 * (p.2.2 - lo.2.2))) * Real.sin (ω * t) * (2 * Real.sin (κ 0 * h / 2) / h)) := by
  have e := cos_diff (κ 0) (p.1 - lo.1) h
  simp only [cdiff, modeH, put, cor, trig]
  simp
  rw [show p.1 - lo.1 + h / 2 = p.1 + h / 2 - lo.1 by ring, show p.1 - lo.1 - h / 2 = p.1 - h / 2 - lo.1 by ring] at e
  linear_combination (B 2 * (Real.cos (κ 1 * (p.2.1 - lo.2.1)) * Real.sin (κ 2 * (p.2.2 - lo.2.2))) * Real.sin (ω * t) * h⁻¹) * e

theorem dH21 (κ B : ℕ → ℝ) (ω t h : ℝ) (lo p : ℝ × ℝ × ℝ) : cdiff (modeH κ B ω lo 2 t) 1 h p =
    -(B 2 * (Real.cos (κ 0 * (p.1 - lo.1)) * Real.sin (κ 1 * (p.2.1 - lo.2.1)) * Real.sin (κ 2 * (p.2.2 - lo.2.2))) * Real.sin (ω * t) * (2 * Real.sin (κ 1 * h / 2) / h)) := by
  have e := cos_diff (κ 1) (p.2.1 - lo.2.1) h
  simp only [cdiff, modeH, put, cor, trig]
  simp
  rw [show p.2.1 - lo.2.1 + h / 2 = p.2.1 + h / 2 - lo.2.1 by ring, show p.2.1 - lo.2.1 - h / 2 = p.2.1 - h / 2 - lo.2.1 by ring] at e
  linear_combination (B 2 * (Real.cos (κ 0 * (p.1 - lo.1)) * Real.sin (κ 2 * (p.2.2 - lo.2.2))) * Real.sin (ω * t) * h⁻¹) * e

theorem len_ne {d : ℕ} : G.len d ≠ 0 := by
  have := G.hdx.ne'; have := G.hdy.ne'; have := G.hdz.ne'
  unfold len; split_ifs <;> assumption

/-- The mode vanishes tangentially on the walls. -/
theorem mode_wall (hnx : 0 < G.nx) (hny : 0 < G.ny) (hnz : 0 < G.nz) (m : ℕ → ℕ) (A : ℕ → ℝ) (ω : ℝ) {c d : ℕ} (hc : c < 3) (hd : d < 3) (hne : d ≠ c) (t : ℝ) (p : ℝ × ℝ × ℝ)
    (h : cor d p = cor d G.lo ∨ cor d p = cor d G.hi) : modeE (G.kappa m) A ω G.lo c t p = 0 := by
  have hn : (G.num d : ℝ) ≠ 0 := by
    have : 0 < G.num d := by unfold num; split_ifs <;> assumption
    positivity
  have hl := G.len_ne (d := d)
  have gap : cor d G.hi - cor d G.lo = G.num d * G.len d := by
    have : d = 0 ∨ d = 1 ∨ d = 2 := by omega
    rcases this with rfl | rfl | rfl <;> simp [cor, Box.hi, lo, ax, ay, az, num, len]
  have key : Real.sin (G.kappa m d * (cor d p - cor d G.lo)) = 0 := by
    rcases h with h | h
    · rw [h, sub_self, mul_zero, Real.sin_zero]
    · rw [h, gap, show G.kappa m d * (G.num d * G.len d) = m d * Real.pi by unfold kappa; field_simp]
      exact Real.sin_nat_mul_pi _
  have hd3 : d = 0 ∨ d = 1 ∨ d = 2 := by omega
  unfold modeE
  rcases hd3 with rfl | rfl | rfl
  · have e : trig (c == 0) (G.kappa m 0 * (p.1 - G.lo.1)) = 0 := by
      have : (c == 0) = false := by simpa using Ne.symm hne
      rw [trig, this]; exact key
    rw [e]; ring
  · have e : trig (c == 1) (G.kappa m 1 * (p.2.1 - G.lo.2.1)) = 0 := by
      have : (c == 1) = false := by simpa using Ne.symm hne
      rw [trig, this]; exact key
    rw [e]; ring
  · have e : trig (c == 2) (G.kappa m 2 * (p.2.2 - G.lo.2.2)) = 0 := by
      have : (c == 2) = false := by simpa using Ne.symm hne
      rw [trig, this]; exact key
    rw [e]; ring

set_option maxHeartbeats 1600000 in
/-- A mode solves the difference equations. -/
theorem mode_discrete (hnx : 0 < G.nx) (hny : 0 < G.ny) (hnz : 0 < G.nz) (m : ℕ → ℕ) (A : ℕ → ℝ) {ω : ℝ} (hdt : 0 < G.dt) (hω : Real.sin (ω * G.dt / 2) ≠ 0)
    (hdiv : G.kgrid m 0 * A 0 + G.kgrid m 1 * A 1 + G.kgrid m 2 * A 2 = 0) (hdisp : G.Dispersion m ω) :
    G.Discrete (modeE (G.kappa m) A ω G.lo) (modeH (G.kappa m) (G.magn m A ω) ω G.lo) := by
  have hmu := G.hmu.ne'; have heps := G.heps.ne'
  have kg : ∀ d, 2 * Real.sin (G.kappa m d * G.len d / 2) / G.len d = G.kgrid m d := fun _ => rfl
  have hB : ∀ c, G.mu * G.magn m A ω c * (2 * Real.sin (ω * G.dt / 2)) = -(G.dt * curlOf (fun c d => G.kgrid m d * A c) c) := by
    intro c; unfold magn; generalize Real.sin (ω * G.dt / 2) = S at hω ⊢; field_simp
  have hA : ∀ c < 3, G.eps * A c * (2 * Real.sin (ω * G.dt / 2)) = G.dt * curlOf (fun c d => G.kgrid m d * G.magn m A ω c) c := by
    intro c hc
    have b0 := hB 0; have b1 := hB 1; have b2 := hB 2
    have hd : G.eps * G.mu * (2 * Real.sin (ω * G.dt / 2)) ^ 2 = G.dt ^ 2 * (G.kgrid m 0 ^ 2 + G.kgrid m 1 ^ 2 + G.kgrid m 2 ^ 2) := by
      rw [← (show _ = _ from hdisp)]
      field_simp
    have h0 : G.mu * (2 * Real.sin (ω * G.dt / 2)) ≠ 0 := mul_ne_zero hmu (mul_ne_zero two_ne_zero hω)
    apply mul_left_cancel₀ h0
    simp only [curlOf, if_true, OfNat.ofNat_ne_zero, OfNat.ofNat_ne_one, if_false, one_ne_zero] at b0 b1 b2 ⊢
    have hc3 : c = 0 ∨ c = 1 ∨ c = 2 := by omega
    rcases hc3 with rfl | rfl | rfl
    · rw [if_pos rfl]
      linear_combination A 0 * hd - G.dt * G.kgrid m 1 * b2 + G.dt * G.kgrid m 2 * b1 + G.dt ^ 2 * G.kgrid m 0 * hdiv
    · rw [if_neg (by decide), if_pos rfl]
      linear_combination A 1 * hd - G.dt * G.kgrid m 2 * b0 + G.dt * G.kgrid m 0 * b2 + G.dt ^ 2 * G.kgrid m 1 * hdiv
    · rw [if_neg (by decide), if_neg (by decide)]
      linear_combination A 2 * hd - G.dt * G.kgrid m 0 * b1 + G.dt * G.kgrid m 1 * b0 + G.dt ^ 2 * G.kgrid m 2 * hdiv
  refine ⟨fun c hc t p => ?_, fun c hc t p => ?_, fun c hc d hd hne t p h => G.mode_wall hnx hny hnz m A ω hc hd hne t p h⟩
  · have hb := hB c
    have hs := sin_diff ω t G.dt
    have hc3 : c = 0 ∨ c = 1 ∨ c = 2 := by omega
    rcases hc3 with rfl | rfl | rfl
    · simp only [curlOf, if_true, dE21, dE12, kg] at hb ⊢
      simp only [modeH, trig]
      simp
      linear_combination (Real.sin (G.kappa m 0 * (p.1 - G.lo.1)) * Real.cos (G.kappa m 1 * (p.2.1 - G.lo.2.1)) * Real.cos (G.kappa m 2 * (p.2.2 - G.lo.2.2))) *
        (G.mu * G.magn m A ω 0 * hs + Real.cos (ω * t) * hb)
    · simp only [curlOf, if_true, one_ne_zero, if_false, dE02, dE20, kg] at hb ⊢
      simp only [modeH, trig]
      simp
      linear_combination (Real.cos (G.kappa m 0 * (p.1 - G.lo.1)) * Real.sin (G.kappa m 1 * (p.2.1 - G.lo.2.1)) * Real.cos (G.kappa m 2 * (p.2.2 - G.lo.2.2))) *
        (G.mu * G.magn m A ω 1 * hs + Real.cos (ω * t) * hb)
    · simp only [curlOf, OfNat.ofNat_ne_zero, OfNat.ofNat_ne_one, if_false, dE10, dE01, kg] at hb ⊢
      simp only [modeH, trig]
      simp
      linear_combination (Real.cos (G.kappa m 0 * (p.1 - G.lo.1)) * Real.cos (G.kappa m 1 * (p.2.1 - G.lo.2.1)) * Real.sin (G.kappa m 2 * (p.2.2 - G.lo.2.2))) *
        (G.mu * G.magn m A ω 2 * hs + Real.cos (ω * t) * hb)
  · have hb := hA c hc
    have hs := cos_diff ω (t + G.dt / 2) G.dt
    rw [show t + G.dt / 2 + G.dt / 2 = t + G.dt by ring, show t + G.dt / 2 - G.dt / 2 = t by ring] at hs
    have hc3 : c = 0 ∨ c = 1 ∨ c = 2 := by omega
    rcases hc3 with rfl | rfl | rfl
    · simp only [curlOf, if_true, dH21, dH12, kg] at hb ⊢
      simp only [modeE, trig]
      simp
      linear_combination (Real.cos (G.kappa m 0 * (p.1 - G.lo.1)) * Real.sin (G.kappa m 1 * (p.2.1 - G.lo.2.1)) * Real.sin (G.kappa m 2 * (p.2.2 - G.lo.2.2))) *
        (G.eps * A 0 * hs - Real.sin (ω * (t + G.dt / 2)) * hb)
    · simp only [curlOf, if_true, one_ne_zero, if_false, dH02, dH20, kg] at hb ⊢
      simp only [modeE, trig]
      simp
      linear_combination (Real.sin (G.kappa m 0 * (p.1 - G.lo.1)) * Real.cos (G.kappa m 1 * (p.2.1 - G.lo.2.1)) * Real.sin (G.kappa m 2 * (p.2.2 - G.lo.2.2))) *
        (G.eps * A 1 * hs - Real.sin (ω * (t + G.dt / 2)) * hb)
    · simp only [curlOf, OfNat.ofNat_ne_zero, OfNat.ofNat_ne_one, if_false, dH10, dH01, kg] at hb ⊢
      simp only [modeE, trig]
      simp
      linear_combination (Real.sin (G.kappa m 0 * (p.1 - G.lo.1)) * Real.sin (G.kappa m 1 * (p.2.1 - G.lo.2.1)) * Real.cos (G.kappa m 2 * (p.2.2 - G.lo.2.2))) *
        (G.eps * A 2 * hs - Real.sin (ω * (t + G.dt / 2)) * hb)

/-- **C110 (modes).** With six electric walls, the mode with any numbers of half waves between the walls and amplitudes without divergence keeps its shape for ever: started from it, the run holds
it after every number of steps, and it oscillates with the frequency of the dispersion relation. -/
theorem C110_mode (hbc : AllPec bc) (hnx : 0 < G.nx) (hny : 0 < G.ny) (hnz : 0 < G.nz) (m : ℕ → ℕ) (A : ℕ → ℝ) {ω : ℝ} (hdt : 0 < G.dt) (hω : Real.sin (ω * G.dt / 2) ≠ 0)
    (hdiv : G.kgrid m 0 * A 0 + G.kgrid m 1 * A 1 + G.kgrid m 2 * A 2 = 0) (hdisp : G.Dispersion m ω) {t0 : ℝ} (st : State ℝ)
    (hst : G.Holds (modeE (G.kappa m) A ω G.lo) (modeH (G.kappa m) (G.magn m A ω) ω G.lo) t0 (t0 - G.dt / 2) st) (n : ℕ) :
    G.Holds (modeE (G.kappa m) A ω G.lo) (modeH (G.kappa m) (G.magn m A ω) ω G.lo) (t0 + n * G.dt) (t0 + (n - 1 / 2) * G.dt) (G.run bc (fun _ _ => 0) st n) :=
  G.C110_exact (G.mode_discrete hnx hny hnz m A hdt hω hdiv hdisp) hbc st hst n

end Box
end Conv
end Wakis
