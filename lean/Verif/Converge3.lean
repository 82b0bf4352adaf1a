import Verif.Converge2

/-!
# C105: the local error of the E update
-/

namespace Wakis
namespace Conv
open Finset Sol Sparse Grid

namespace Box
variable (G : Box) {ta tb mE mH nE nH : ℝ} (S : Maxwell G.eps G.mu G.lo G.hi ta tb mE mH nE nH) {bc : Faces String}

/-- Magnetic voltages of the samples, on dual edges of full length. -/
theorem view_H (t : ℝ) {c i j k : ℕ} (hc : c < 3) (hi : i ≤ G.nx) (hj : j ≤ G.ny) (hk : k ≤ G.nz) (h : (c = 0 → i < G.nx) ∧ (c = 1 → j < G.ny) ∧ (c = 2 → k < G.nz)) :
    view3 (G.nx + 1) (G.ny + 1) (G.nz + 1) (fun q => G.geom.tL.array q * G.sH S.H t q) c i j k =
      (if c = 0 then G.dx else if c = 1 then G.dy else G.dz) * G.sH S.H t (G.at' c i j k) := by
  show G.geom.tL.array (G.at' c i j k) * _ = _
  rw [G.tL_at hc hi hj hk]
  have hc3 : c = 0 ∨ c = 1 ∨ c = 2 := by omega
  rcases hc3 with rfl | rfl | rfl
  · simp [h.1, at']
  · simp [h.2.1, at']
  · simp [h.2.2, at']

/-- The state whose H update lands on the samples. -/
noncomputable def pre (bc : Faces String) (t : ℝ) (J : ℕ → ℝ) : State ℝ :=
  ⟨G.sE S.E t, fun r => G.sH S.H (t + G.dt / 2) r + G.dt * mulVec (G.solver bc).n3 (G.solver bc).M1 (G.sE S.E t) r, J, false⟩

theorem pre_H (t : ℝ) (J : ℕ → ℝ) : (advance (G.solver bc) (G.pre S bc t J)).H = G.sH S.H (t + G.dt / 2) := by
  funext r
  show G.sH S.H (t + G.dt / 2) r + G.dt * mulVec (G.solver bc).n3 (G.solver bc).M1 (G.sE S.E t) r - G.dt * mulVec (G.solver bc).n3 (G.solver bc).M1 (G.sE S.E t) r = _
  ring

set_option linter.unusedSimpArgs false
set_option maxHeartbeats 1600000 in
/-- The local error of the E update. -/
theorem res_E (hbc : AllPec bc) (hmH : 0 ≤ mH) (hnE : 0 ≤ nE) {t : ℝ} (h1 : ta ≤ t) (h2 : t + G.dt ≤ tb) {J : ℕ → ℝ}
    (hJ : ∀ c < 3, ∀ i ≤ G.nx, ∀ j ≤ G.ny, ∀ k ≤ G.nz,
      J (G.at' c i j k) = if (c = 0 ∨ 0 < i) ∧ (c = 1 ∨ 0 < j) ∧ (c = 2 ∨ 0 < k) ∧ i < G.nx ∧ j < G.ny ∧ k < G.nz then S.J c (t + G.dt / 2) (G.ePt c i j k) else 0)
    {r : ℕ} (hr : r < 3 * ((G.nx + 1) * (G.ny + 1) * (G.nz + 1))) :
    |(advance (G.solver bc) (G.pre S bc t J)).E r - G.sE S.E (t + G.dt) r| ≤
      G.dt * (nE / 24 * G.dt ^ 2 + mH / (24 * G.eps) * G.h2) := by
  obtain ⟨c, i, j, k, hc, hi, hj, hk, rfl⟩ := pos_surj hr
  have hdt := G.hdt
  have ht : t ∈ Set.Icc ta tb := ⟨by linarith, by linarith⟩
  have ht' : t + G.dt ∈ Set.Icc ta tb := ⟨by linarith, by linarith⟩
  have hth : t + G.dt / 2 ∈ Set.Icc ta tb := ⟨by linarith, by linarith⟩
  obtain ⟨hpec, hpmc, habc, -, hper⟩ := hbc.names
  have hi' : i ≤ G.nx := by omega
  have hj' : j ≤ G.ny := by omega
  have hk' : k ≤ G.nz := by omega
  have hh2 : 0 ≤ G.h2 := by unfold Box.h2; positivity
  have B0 : 0 ≤ G.dt * (nE / 24 * G.dt ^ 2 + mH / (24 * G.eps) * G.h2) := by have := G.heps; positivity
  have fin : ∀ {p q : ℝ}, p ^ 2 + q ^ 2 ≤ G.h2 → G.dt * (nE / 24 * G.dt ^ 2 + mH / (24 * G.eps) * (p ^ 2 + q ^ 2)) ≤ G.dt * (nE / 24 * G.dt ^ 2 + mH / (24 * G.eps) * G.h2) := by
    intro p q h
    have := G.heps
    have : mH / (24 * G.eps) * (p ^ 2 + q ^ 2) ≤ mH / (24 * G.eps) * G.h2 := mul_le_mul_of_nonneg_left h (by positivity)
    exact mul_le_mul_of_nonneg_left (by linarith) hdt
  have tm : ∀ p, InBox G.lo G.hi p → |S.E c (t + G.dt) p - S.E c t p - G.dt * S.tE c (t + G.dt / 2) p| ≤ nE / 24 * G.dt ^ 3 := by
    intro p hp
    exact diff_tE S hc hp hdt h1 h2
  show |(advance (G.solver bc) (G.pre S bc t J)).E (G.at' c i j k) - G.sE S.E (t + G.dt) (G.at' c i j k)| ≤ _
  by_cases hw : (c ≠ 0 ∧ (i = 0 ∨ i = G.nx)) ∨ (c ≠ 1 ∧ (j = 0 ∨ j = G.ny)) ∨ (c ≠ 2 ∧ (k = 0 ∨ k = G.nz))
  · have hm : colMask G.geom bc (G.at' c i j k) = 0 := by
      have gN : G.geom.Nx = G.nx + 1 ∧ G.geom.Ny = G.ny + 1 ∧ G.geom.Nz = G.nz + 1 := ⟨rfl, rfl, rfl⟩
      have key : ∀ axis < 3, axis ≠ c → coord axis i j k = 0 ∨ coord axis i j k = coord axis G.nx G.ny G.nz → colMask G.geom bc (G.at' c i j k) = 0 := by
        intro axis ha hne h
        rcases h with h | h
        · exact colMask_closed G.geom hbc.like hc hi hj hk ha hne .lo h
        · refine colMask_closed G.geom hbc.like hc hi hj hk ha hne .hi ?_
          show coord axis i j k = coord axis (G.nx + 1) (G.ny + 1) (G.nz + 1) - 1
          rw [h]; unfold coord; split_ifs <;> omega
      rcases hw with ⟨h, h'⟩ | ⟨h, h'⟩ | ⟨h, h'⟩
      · exact key 0 (by omega) (Ne.symm h) (by simpa [coord] using h')
      · exact key 1 (by omega) (Ne.symm h) (by simpa [coord] using h')
      · exact key 2 (by omega) (Ne.symm h) (by simpa [coord] using h')
    have e := advance_E G.geom bc (fun _ => 1 / G.eps) (fun _ => 1 / G.mu) (fun _ => 0) G.dt false (G.pre S bc t J) hr
    have e' : (advance (G.solver bc) (G.pre S bc t J)).E (G.at' c i j k) = G.sE S.E t (G.at' c i j k) +
        G.dt * (1 / G.eps * (applyBC G.geom bc (C0 G.geom.Nx G.geom.Ny G.geom.Nz)).itA.array (G.at' c i j k) * (colMask G.geom bc (G.at' c i j k) * _) - 1 / G.eps * J (G.at' c i j k)) := e
    rw [e', hm, G.sE_wall S ht hc hi' hj' hk' hw, G.sE_wall S ht' hc hi' hj' hk' hw, hJ c hc i hi' j hj' k hk', if_neg (by omega)]
    simpa using B0
  have e := C25_E_update G.geom bc (fun _ => 1 / G.eps) (fun _ => 1 / G.mu) (fun _ => 0) G.dt false (hpec 0 .lo (by decide)) (hpec 1 .lo (by decide)) (hpec 2 .lo (by decide)) hpmc
    (G.pre S bc t J) rfl hc (i := i) (j := j) (k := k) hi hj hk (by
      intro a s ha hac hon
      exfalso
      apply hw
      have hon' : coord a i j k = 0 ∨ coord a i j k = coord a (G.nx + 1) (G.ny + 1) (G.nz + 1) - 1 := by
        cases s
        · exact .inl hon
        · exact .inr hon
      have : a = 0 ∨ a = 1 ∨ a = 2 := by omega
      rcases this with rfl | rfl | rfl
      · left; exact ⟨fun h => hac h.symm, by simpa [coord] using hon'⟩
      · right; left; exact ⟨fun h => hac h.symm, by simpa [coord] using hon'⟩
      · right; right; exact ⟨fun h => hac h.symm, by simpa [coord] using hon'⟩)
  simp only at e
  have am := applyBC_metric G.geom bc (C0 G.geom.Nx G.geom.Ny G.geom.Nz) hper habc
  rw [oneStep_started _ _ rfl, am.1, am.2] at e
  have e' : (advance (G.solver bc) (G.pre S bc t J)).E (G.at' c i j k) = G.sE S.E t (G.at' c i j k) + G.dt * (1 / G.eps * G.geom.itA.array (G.at' c i j k) *
      cocirc (view3 (G.nx + 1) (G.ny + 1) (G.nz + 1) fun q => G.geom.tL.array q * (advance (G.solver bc) (G.pre S bc t J)).H q) c i j k - 1 / G.eps * J (G.at' c i j k)) := e
  rw [e', G.pre_H, G.itA_at hc hi' hj' hk', hJ c hc i hi' j hj' k hk']
  have hc3 : c = 0 ∨ c = 1 ∨ c = 2 := by omega
  rcases hc3 with rfl | rfl | rfl
  · by_cases hl : i < G.nx
    · rw [if_pos (show (0 = 0 ∨ i < G.nx) ∧ (0 = 1 ∨ j < G.ny) ∧ (0 = 2 ∨ k < G.nz) by omega),
        if_pos (show (0 = 0 ∨ 0 < i) ∧ (0 = 1 ∨ 0 < j) ∧ (0 = 2 ∨ 0 < k) ∧ i < G.nx ∧ j < G.ny ∧ k < G.nz by omega), G.sE_live _ _ hi' hj' hk' (by omega), G.sE_live _ _ hi' hj' hk' (by omega)]
      rw [if_pos rfl]
      set p := G.ePt 0 i j k with hp
      have hpin : InBox G.lo G.hi p := G.ePt_in hi' hj' hk' (by omega) (by omega) (by omega)
      have s1 : mid G.ay (j - 1) = G.ay j - G.dy / 2 := by
        have := G.ay_succ (j - 1)
        rw [show j - 1 + 1 = j by omega] at this
        rw [G.mid_y, this]; ring
      have s2 : mid G.az (k - 1) = G.az k - G.dz / 2 := by
        have := G.az_succ (k - 1)
        rw [show k - 1 + 1 = k by omega] at this
        rw [G.mid_z, this]; ring
      have q1 := diff_H S (c := 2) (d := 1) (by omega) (by omega) (by omega) hth hpin (s := mid G.ay (j - 1)) (h := G.dy) G.hdy.le
        (between_mid (fun _ _ => G.ay_mono) (show j - 1 < G.ny by omega)).1
        (by rw [show mid G.ay (j - 1) + G.dy = mid G.ay j by rw [s1, G.mid_y]; ring]; exact (between_mid (fun _ _ => G.ay_mono) (show j < G.ny by omega)).2)
      have q2 := diff_H S (c := 1) (d := 2) (by omega) (by omega) (by omega) hth hpin (s := mid G.az (k - 1)) (h := G.dz) G.hdz.le
        (between_mid (fun _ _ => G.az_mono) (show k - 1 < G.nz by omega)).1
        (by rw [show mid G.az (k - 1) + G.dz = mid G.az k by rw [s2, G.mid_z]; ring]; exact (between_mid (fun _ _ => G.az_mono) (show k < G.nz by omega)).2)
      rw [show mid G.ay (j - 1) + G.dy = mid G.ay j by rw [s1, G.mid_y]; ring, show mid G.ay (j - 1) + G.dy / 2 = G.ay j by rw [s1]; ring] at q1
      rw [show mid G.az (k - 1) + G.dz = mid G.az k by rw [s2, G.mid_z]; ring, show mid G.az (k - 1) + G.dz / 2 = G.az k by rw [s2]; ring] at q2
      have p1 : put 1 (G.ay j) p = p := by simp [put, hp, ePt, edgePoint]
      have p2 : put 2 (G.az k) p = p := by simp [put, hp, ePt, edgePoint]
      have p3 : ∀ n', put 1 (mid G.ay n') p = G.hPt 2 i n' k := fun n' => by simp [put, hp, hPt, ePt, facePoint, edgePoint]
      have p4 : ∀ n', put 2 (mid G.az n') p = G.hPt 1 i j n' := fun n' => by simp [put, hp, hPt, ePt, facePoint, edgePoint]
      rw [p1, p3, p3] at q1
      rw [p2, p4, p4] at q2
      unfold cocirc
      rw [if_pos rfl]
      rw [G.view_H S _ (by omega) hi' hj' hk' (by omega), G.view_H S _ (by omega) hi' (by omega) hk' (by omega), G.view_H S _ (by omega) hi' hj' hk' (by omega), G.view_H S _ (by omega) hi' hj' (by omega) (by omega),
        G.sH_live _ _ hi' hj' hk' (by omega), G.sH_live _ _ hi' (by omega) hk' (by omega), G.sH_live _ _ hi' hj' hk' (by omega), G.sH_live _ _ hi' hj' (by omega) (by omega)]
      simp only [OfNat.ofNat_ne_zero, OfNat.ofNat_ne_one, if_false, one_ne_zero, if_true]
      have fr := S.ampere 0 (by omega) _ hth p hpin
      simp only [curlOf, if_true, OfNat.ofNat_ne_zero, OfNat.ofNat_ne_one, if_false, one_ne_zero] at fr
      have := res_alg (X := S.E 0 t p) (X' := S.E 0 (t + G.dt) p) (τ := S.tE 0 (t + G.dt / 2) p) (m := G.eps) (N := nE) (M := mH) (J := S.J 0 (t + G.dt / 2) p) (p := G.dy) (q := G.dz)
        (D1 := S.H 2 (t + G.dt / 2) (G.hPt 2 i j k) - S.H 2 (t + G.dt / 2) (G.hPt 2 i (j - 1) k)) (a := S.dH 2 1 (t + G.dt / 2) p)
        (D2 := S.H 1 (t + G.dt / 2) (G.hPt 1 i j k) - S.H 1 (t + G.dt / 2) (G.hPt 1 i j (k - 1))) (b := S.dH 1 2 (t + G.dt / 2) p)
        G.hdy G.hdz G.heps hdt (tm p hpin) (by linarith) q1 q2
      refine le_trans (le_of_eq ?_) (this.trans (fin (by unfold Box.h2; nlinarith [sq_nonneg G.dx])))
      congr 1
      ring
    · rw [if_neg (show ¬((0 = 0 ∨ 0 < i) ∧ (0 = 1 ∨ 0 < j) ∧ (0 = 2 ∨ 0 < k) ∧ i < G.nx ∧ j < G.ny ∧ k < G.nz) by omega), G.sE_dead _ _ hi' hj' hk' (by omega), G.sE_dead _ _ hi' hj' hk' (by omega)]
      have z : cocirc (view3 (G.nx + 1) (G.ny + 1) (G.nz + 1) fun q => G.geom.tL.array q * G.sH S.H (t + G.dt / 2) q) 0 i j k = 0 := by
        unfold cocirc
        rw [if_pos rfl]
        rw [G.view_H S _ (by omega) hi' hj' hk' (by omega), G.view_H S _ (by omega) hi' (by omega) hk' (by omega), G.view_H S _ (by omega) hi' hj' hk' (by omega), G.view_H S _ (by omega) hi' hj' (by omega) (by omega),
          G.sH_dead _ _ hi' hj' hk' (by omega), G.sH_dead _ _ hi' (by omega) hk' (by omega), G.sH_dead _ _ hi' hj' hk' (by omega), G.sH_dead _ _ hi' hj' (by omega) (by omega)]
        ring
      rw [z]
      simpa using B0
  · by_cases hl : j < G.ny
    · rw [if_pos (show (1 = 0 ∨ i < G.nx) ∧ (1 = 1 ∨ j < G.ny) ∧ (1 = 2 ∨ k < G.nz) by omega),
        if_pos (show (1 = 0 ∨ 0 < i) ∧ (1 = 1 ∨ 0 < j) ∧ (1 = 2 ∨ 0 < k) ∧ i < G.nx ∧ j < G.ny ∧ k < G.nz by omega), G.sE_live _ _ hi' hj' hk' (by omega), G.sE_live _ _ hi' hj' hk' (by omega)]
      rw [if_neg (by decide), if_pos rfl]
      set p := G.ePt 1 i j k with hp
      have hpin : InBox G.lo G.hi p := G.ePt_in hi' hj' hk' (by omega) (by omega) (by omega)
      have s1 : mid G.az (k - 1) = G.az k - G.dz / 2 := by
        have := G.az_succ (k - 1)
        rw [show k - 1 + 1 = k by omega] at this
        rw [G.mid_z, this]; ring
      have s2 : mid G.ax (i - 1) = G.ax i - G.dx / 2 := by
        have := G.ax_succ (i - 1)
        rw [show i - 1 + 1 = i by omega] at this
        rw [G.mid_x, this]; ring
      have q1 := diff_H S (c := 0) (d := 2) (by omega) (by omega) (by omega) hth hpin (s := mid G.az (k - 1)) (h := G.dz) G.hdz.le
        (between_mid (fun _ _ => G.az_mono) (show k - 1 < G.nz by omega)).1
        (by rw [show mid G.az (k - 1) + G.dz = mid G.az k by rw [s1, G.mid_z]; ring]; exact (between_mid (fun _ _ => G.az_mono) (show k < G.nz by omega)).2)
      have q2 := diff_H S (c := 2) (d := 0) (by omega) (by omega) (by omega) hth hpin (s := mid G.ax (i - 1)) (h := G.dx) G.hdx.le
        (between_mid (fun _ _ => G.ax_mono) (show i - 1 < G.nx by omega)).1
        (by rw [show mid G.ax (i - 1) + G.dx = mid G.ax i by rw [s2, G.mid_x]; ring]; exact (between_mid (fun _ _ => G.ax_mono) (show i < G.nx by omega)).2)
      rw [show mid G.az (k - 1) + G.dz = mid G.az k by rw [s1, G.mid_z]; ring, show mid G.az (k - 1) + G.dz / 2 = G.az k by rw [s1]; ring] at q1
      rw [show mid G.ax (i - 1) + G.dx = mid G.ax i by rw [s2, G.mid_x]; ring, show mid G.ax (i - 1) + G.dx / 2 = G.ax i by rw [s2]; ring] at q2
      have p1 : put 2 (G.az k) p = p := by simp [put, hp, ePt, edgePoint]
      have p2 : put 0 (G.ax i) p = p := by simp [put, hp, ePt, edgePoint]
      have p3 : ∀ n', put 2 (mid G.az n') p = G.hPt 0 i j n' := fun n' => by simp [put, hp, hPt, ePt, facePoint, edgePoint]
      have p4 : ∀ n', put 0 (mid G.ax n') p = G.hPt 2 n' j k := fun n' => by simp [put, hp, hPt, ePt, facePoint, edgePoint]
      rw [p1, p3, p3] at q1
      rw [p2, p4, p4] at q2
      unfold cocirc
      rw [if_neg (by decide), if_pos rfl]
      rw [G.view_H S _ (by omega) hi' hj' hk' (by omega), G.view_H S _ (by omega) hi' hj' (by omega) (by omega), G.view_H S _ (by omega) hi' hj' hk' (by omega), G.view_H S _ (by omega) (by omega) hj' hk' (by omega),
        G.sH_live _ _ hi' hj' hk' (by omega), G.sH_live _ _ hi' hj' (by omega) (by omega), G.sH_live _ _ hi' hj' hk' (by omega), G.sH_live _ _ (by omega) hj' hk' (by omega)]
      simp only [OfNat.ofNat_ne_zero, OfNat.ofNat_ne_one, if_false, one_ne_zero, if_true]
      have fr := S.ampere 1 (by omega) _ hth p hpin
      simp only [curlOf, if_true, OfNat.ofNat_ne_zero, OfNat.ofNat_ne_one, if_false, one_ne_zero] at fr
      have := res_alg (X := S.E 1 t p) (X' := S.E 1 (t + G.dt) p) (τ := S.tE 1 (t + G.dt / 2) p) (m := G.eps) (N := nE) (M := mH) (J := S.J 1 (t + G.dt / 2) p) (p := G.dz) (q := G.dx)
        (D1 := S.H 0 (t + G.dt / 2) (G.hPt 0 i j k) - S.H 0 (t + G.dt / 2) (G.hPt 0 i j (k - 1))) (a := S.dH 0 2 (t + G.dt / 2) p)
        (D2 := S.H 2 (t + G.dt / 2) (G.hPt 2 i j k) - S.H 2 (t + G.dt / 2) (G.hPt 2 (i - 1) j k)) (b := S.dH 2 0 (t + G.dt / 2) p)
        G.hdz G.hdx G.heps hdt (tm p hpin) (by linarith) q1 q2
      refine le_trans (le_of_eq ?_) (this.trans (fin (by unfold Box.h2; nlinarith [sq_nonneg G.dy])))
      congr 1
      ring
    · rw [if_neg (show ¬((1 = 0 ∨ 0 < i) ∧ (1 = 1 ∨ 0 < j) ∧ (1 = 2 ∨ 0 < k) ∧ i < G.nx ∧ j < G.ny ∧ k < G.nz) by omega), G.sE_dead _ _ hi' hj' hk' (by omega), G.sE_dead _ _ hi' hj' hk' (by omega)]
      have z : cocirc (view3 (G.nx + 1) (G.ny + 1) (G.nz + 1) fun q => G.geom.tL.array q * G.sH S.H (t + G.dt / 2) q) 1 i j k = 0 := by
        unfold cocirc
        rw [if_neg (by decide), if_pos rfl]
        rw [G.view_H S _ (by omega) hi' hj' hk' (by omega), G.view_H S _ (by omega) hi' hj' (by omega) (by omega), G.view_H S _ (by omega) hi' hj' hk' (by omega), G.view_H S _ (by omega) (by omega) hj' hk' (by omega),
          G.sH_dead _ _ hi' hj' hk' (by omega), G.sH_dead _ _ hi' hj' (by omega) (by omega), G.sH_dead _ _ hi' hj' hk' (by omega), G.sH_dead _ _ (by omega) hj' hk' (by omega)]
        ring
      rw [z]
      simpa using B0
  · by_cases hl : k < G.nz
    · rw [if_pos (show (2 = 0 ∨ i < G.nx) ∧ (2 = 1 ∨ j < G.ny) ∧ (2 = 2 ∨ k < G.nz) by omega),
        if_pos (show (2 = 0 ∨ 0 < i) ∧ (2 = 1 ∨ 0 < j) ∧ (2 = 2 ∨ 0 < k) ∧ i < G.nx ∧ j < G.ny ∧ k < G.nz by omega), G.sE_live _ _ hi' hj' hk' (by omega), G.sE_live _ _ hi' hj' hk' (by omega)]
      rw [if_neg (by decide), if_neg (by decide)]
      set p := G.ePt 2 i j k with hp
      have hpin : InBox G.lo G.hi p := G.ePt_in hi' hj' hk' (by omega) (by omega) (by omega)
      have s1 : mid G.ax (i - 1) = G.ax i - G.dx / 2 := by
        have := G.ax_succ (i - 1)
        rw [show i - 1 + 1 = i by omega] at this
        rw [G.mid_x, this]; ring
      have s2 : mid G.ay (j - 1) = G.ay j - G.dy / 2 := by
        have := G.ay_succ (j - 1)
        rw [show j - 1 + 1 = j by omega] at this
        rw [G.mid_y, this]; ring
      have q1 := diff_H S (c := 1) (d := 0) (by omega) (by omega) (by omega) hth hpin (s := mid G.ax (i - 1)) (h := G.dx) G.hdx.le
        (between_mid (fun _ _ => G.ax_mono) (show i - 1 < G.nx by omega)).1
        (by rw [show mid G.ax (i - 1) + G.dx = mid G.ax i by rw [s1, G.mid_x]; ring]; exact (between_mid (fun _ _ => G.ax_mono) (show i < G.nx by omega)).2)
      have q2 := diff_H S (c := 0) (d := 1) (by omega) (by omega) (by omega) hth hpin (s := mid G.ay (j - 1)) (h := G.dy) G.hdy.le
        (between_mid (fun _ _ => G.ay_mono) (show j - 1 < G.ny by omega)).1
        (by rw [show mid G.ay (j - 1) + G.dy = mid G.ay j by rw [s2, G.mid_y]; ring]; exact (between_mid (fun _ _ => G.ay_mono) (show j < G.ny by omega)).2)
      rw [show mid G.ax (i - 1) + G.dx = mid G.ax i by rw [s1, G.mid_x]; ring, show mid G.ax (i - 1) + G.dx / 2 = G.ax i by rw [s1]; ring] at q1
      rw [show mid G.ay (j - 1) + G.dy = mid G.ay j by rw [s2, G.mid_y]; ring, show mid G.ay (j - 1) + G.dy / 2 = G.ay j by rw [s2]; ring] at q2
      have p1 : put 0 (G.ax i) p = p := by simp [put, hp, ePt, edgePoint]
      have p2 : put 1 (G.ay j) p = p := by simp [put, hp, ePt, edgePoint]
      have p3 : ∀ n', put 0 (mid G.ax n') p = G.hPt 1 n' j k := fun n' => by simp [put, hp, hPt, ePt, facePoint, edgePoint]
      have p4 : ∀ n', put 1 (mid G.ay n') p = G.hPt 0 i n' k := fun n' => by simp [put, hp, hPt, ePt, facePoint, edgePoint]
      rw [p1, p3, p3] at q1
      rw [p2, p4, p4] at q2
      unfold cocirc
      rw [if_neg (by decide), if_neg (by decide)]
      rw [G.view_H S _ (by omega) hi' hj' hk' (by omega), G.view_H S _ (by omega) (by omega) hj' hk' (by omega), G.view_H S _ (by omega) hi' hj' hk' (by omega), G.view_H S _ (by omega) hi' (by omega) hk' (by omega),
        G.sH_live _ _ hi' hj' hk' (by omega), G.sH_live _ _ (by omega) hj' hk' (by omega), G.sH_live _ _ hi' hj' hk' (by omega), G.sH_live _ _ hi' (by omega) hk' (by omega)]
      simp only [OfNat.ofNat_ne_zero, OfNat.ofNat_ne_one, if_false, one_ne_zero, if_true]
      have fr := S.ampere 2 (by omega) _ hth p hpin
      simp only [curlOf, if_true, OfNat.ofNat_ne_zero, OfNat.ofNat_ne_one, if_false, one_ne_zero] at fr
      have := res_alg (X := S.E 2 t p) (X' := S.E 2 (t + G.dt) p) (τ := S.tE 2 (t + G.dt / 2) p) (m := G.eps) (N := nE) (M := mH) (J := S.J 2 (t + G.dt / 2) p) (p := G.dx) (q := G.dy)
        (D1 := S.H 1 (t + G.dt / 2) (G.hPt 1 i j k) - S.H 1 (t + G.dt / 2) (G.hPt 1 (i - 1) j k)) (a := S.dH 1 0 (t + G.dt / 2) p)
        (D2 := S.H 0 (t + G.dt / 2) (G.hPt 0 i j k) - S.H 0 (t + G.dt / 2) (G.hPt 0 i (j - 1) k)) (b := S.dH 0 1 (t + G.dt / 2) p)
        G.hdx G.hdy G.heps hdt (tm p hpin) (by linarith) q1 q2
      refine le_trans (le_of_eq ?_) (this.trans (fin (by unfold Box.h2; nlinarith [sq_nonneg G.dz])))
      congr 1
      ring
    · rw [if_neg (show ¬((2 = 0 ∨ 0 < i) ∧ (2 = 1 ∨ 0 < j) ∧ (2 = 2 ∨ 0 < k) ∧ i < G.nx ∧ j < G.ny ∧ k < G.nz) by omega), G.sE_dead _ _ hi' hj' hk' (by omega), G.sE_dead _ _ hi' hj' hk' (by omega)]
      have z : cocirc (view3 (G.nx + 1) (G.ny + 1) (G.nz + 1) fun q => G.geom.tL.array q * G.sH S.H (t + G.dt / 2) q) 2 i j k = 0 := by
        unfold cocirc
        rw [if_neg (by decide), if_neg (by decide)]
        rw [G.view_H S _ (by omega) hi' hj' hk' (by omega), G.view_H S _ (by omega) (by omega) hj' hk' (by omega), G.view_H S _ (by omega) hi' hj' hk' (by omega), G.view_H S _ (by omega) hi' (by omega) hk' (by omega),
          G.sH_dead _ _ hi' hj' hk' (by omega), G.sH_dead _ _ (by omega) hj' hk' (by omega), G.sH_dead _ _ hi' hj' hk' (by omega), G.sH_dead _ _ hi' (by omega) hk' (by omega)]
        ring
      rw [z]
      simpa using B0

end Box
end Conv
end Wakis
