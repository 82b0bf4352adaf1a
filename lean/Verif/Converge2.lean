import Verif.Converge

/-!
# C105: the local errors
-/

namespace Wakis
namespace Conv
open Finset Sol Sparse Grid

namespace Box
variable (G : Box)

theorem ax_mono {i j : ℕ} (h : i ≤ j) : G.ax i ≤ G.ax j := by
  unfold ax
  have : (i : ℝ) ≤ j := by exact_mod_cast h
  nlinarith [G.hdx]
theorem ay_mono {i j : ℕ} (h : i ≤ j) : G.ay i ≤ G.ay j := by
  unfold ay
  have : (i : ℝ) ≤ j := by exact_mod_cast h
  nlinarith [G.hdy]
theorem az_mono {i j : ℕ} (h : i ≤ j) : G.az i ≤ G.az j := by
  unfold az
  have : (i : ℝ) ≤ j := by exact_mod_cast h
  nlinarith [G.hdz]

theorem mid_x (i : ℕ) : mid G.ax i = G.ax i + G.dx / 2 := by unfold mid ax; push_cast; ring
theorem mid_y (i : ℕ) : mid G.ay i = G.ay i + G.dy / 2 := by unfold mid ay; push_cast; ring
theorem mid_z (i : ℕ) : mid G.az i = G.az i + G.dz / 2 := by unfold mid az; push_cast; ring
theorem ax_succ (i : ℕ) : G.ax (i + 1) = G.ax i + G.dx := by unfold ax; push_cast; ring
theorem ay_succ (i : ℕ) : G.ay (i + 1) = G.ay i + G.dy := by unfold ay; push_cast; ring
theorem az_succ (i : ℕ) : G.az (i + 1) = G.az i + G.dz := by unfold az; push_cast; ring

/-- A node or a cell middle lies between the ends. -/
theorem between {w : ℕ → ℝ} {n i : ℕ} (hm : ∀ i j, i ≤ j → w i ≤ w j) (hi : i ≤ n) : w 0 ≤ w i ∧ w i ≤ w n := ⟨hm _ _ (by omega), hm _ _ hi⟩
theorem between_mid {w : ℕ → ℝ} {n i : ℕ} (hm : ∀ i j, i ≤ j → w i ≤ w j) (hi : i < n) : w 0 ≤ mid w i ∧ mid w i ≤ w n := by
  have h1 := hm 0 i (by omega)
  have h2 := hm i (i + 1) (by omega)
  have h3 := hm (i + 1) n (by omega)
  unfold mid
  constructor <;> linarith

theorem inBox_of {a b c : ℝ} (h1 : G.ax 0 ≤ a ∧ a ≤ G.ax G.nx) (h2 : G.ay 0 ≤ b ∧ b ≤ G.ay G.ny) (h3 : G.az 0 ≤ c ∧ c ≤ G.az G.nz) : InBox G.lo G.hi (a, b, c) := by
  intro d hd
  have : d = 0 ∨ d = 1 ∨ d = 2 := by omega
  rcases this with rfl | rfl | rfl
  · exact h1
  · exact h2
  · exact h3

theorem ePt_in {c i j k : ℕ} (hi : i ≤ G.nx) (hj : j ≤ G.ny) (hk : k ≤ G.nz) (h0 : c ≠ 0 ∨ i < G.nx) (h1 : c ≠ 1 ∨ j < G.ny) (h2 : c ≠ 2 ∨ k < G.nz) :
    InBox G.lo G.hi (G.ePt c i j k) := by
  refine G.inBox_of ?_ ?_ ?_
  · by_cases h : c = 0
    · rw [if_pos h]; exact between_mid (fun _ _ => G.ax_mono) (by tauto)
    · rw [if_neg h]; exact between (fun _ _ => G.ax_mono) hi
  · by_cases h : c = 1
    · rw [if_pos h]; exact between_mid (fun _ _ => G.ay_mono) (by tauto)
    · rw [if_neg h]; exact between (fun _ _ => G.ay_mono) hj
  · by_cases h : c = 2
    · rw [if_pos h]; exact between_mid (fun _ _ => G.az_mono) (by tauto)
    · rw [if_neg h]; exact between (fun _ _ => G.az_mono) hk

theorem hPt_in {c i j k : ℕ} (hi : i ≤ G.nx) (hj : j ≤ G.ny) (hk : k ≤ G.nz) (h0 : c = 0 ∨ i < G.nx) (h1 : c = 1 ∨ j < G.ny) (h2 : c = 2 ∨ k < G.nz) :
    InBox G.lo G.hi (G.hPt c i j k) := by
  refine G.inBox_of ?_ ?_ ?_
  · by_cases h : c = 0
    · rw [if_pos h]; exact between (fun _ _ => G.ax_mono) hi
    · rw [if_neg h]; exact between_mid (fun _ _ => G.ax_mono) (by tauto)
  · by_cases h : c = 1
    · rw [if_pos h]; exact between (fun _ _ => G.ay_mono) hj
    · rw [if_neg h]; exact between_mid (fun _ _ => G.ay_mono) (by tauto)
  · by_cases h : c = 2
    · rw [if_pos h]; exact between (fun _ _ => G.az_mono) hk
    · rw [if_neg h]; exact between_mid (fun _ _ => G.az_mono) (by tauto)

end Box

section
variable {eps mu : ℝ} {lo hi : ℝ × ℝ × ℝ} {ta tb mE mH nE nH : ℝ} (S : Maxwell eps mu lo hi ta tb mE mH nE nH)
include S

theorem diff_E {c d : ℕ} (hc : c < 3) (hd : d < 3) (hne : d ≠ c) {t : ℝ} (ht : t ∈ Set.Icc ta tb) {p : ℝ × ℝ × ℝ} (hp : InBox lo hi p) {s h : ℝ} (hh : 0 ≤ h)
    (h1 : cor d lo ≤ s) (h2 : s + h ≤ cor d hi) :
    |S.E c t (put d (s + h) p) - S.E c t (put d s p) - h * S.dE c d t (put d (s + h / 2) p)| ≤ mE / 24 * h ^ 3 := by
  have := midpoint (by linarith) ((S.space_E c hc d hd hne t ht p hp).mono h1 h2)
  have e1 : s + h - s = h := by ring
  have e2 : (s + (s + h)) / 2 = s + h / 2 := by ring
  rw [e1, e2] at this
  exact this

theorem diff_H {c d : ℕ} (hc : c < 3) (hd : d < 3) (hne : d ≠ c) {t : ℝ} (ht : t ∈ Set.Icc ta tb) {p : ℝ × ℝ × ℝ} (hp : InBox lo hi p) {s h : ℝ} (hh : 0 ≤ h)
    (h1 : cor d lo ≤ s) (h2 : s + h ≤ cor d hi) :
    |S.H c t (put d (s + h) p) - S.H c t (put d s p) - h * S.dH c d t (put d (s + h / 2) p)| ≤ mH / 24 * h ^ 3 := by
  have := midpoint (by linarith) ((S.space_H c hc d hd hne t ht p hp).mono h1 h2)
  have e1 : s + h - s = h := by ring
  have e2 : (s + (s + h)) / 2 = s + h / 2 := by ring
  rw [e1, e2] at this
  exact this

theorem diff_tE {c : ℕ} (hc : c < 3) {p : ℝ × ℝ × ℝ} (hp : InBox lo hi p) {s h : ℝ} (hh : 0 ≤ h) (h1 : ta ≤ s) (h2 : s + h ≤ tb) :
    |S.E c (s + h) p - S.E c s p - h * S.tE c (s + h / 2) p| ≤ nE / 24 * h ^ 3 := by
  have := midpoint (by linarith) ((S.time_E c hc p hp).mono h1 h2)
  have e1 : s + h - s = h := by ring
  have e2 : (s + (s + h)) / 2 = s + h / 2 := by ring
  rw [e1, e2] at this
  exact this

theorem diff_tH {c : ℕ} (hc : c < 3) {p : ℝ × ℝ × ℝ} (hp : InBox lo hi p) {s h : ℝ} (hh : 0 ≤ h) (h1 : ta ≤ s) (h2 : s + h ≤ tb) :
    |S.H c (s + h) p - S.H c s p - h * S.tH c (s + h / 2) p| ≤ nH / 24 * h ^ 3 := by
  have := midpoint (by linarith) ((S.time_H c hc p hp).mono h1 h2)
  have e1 : s + h - s = h := by ring
  have e2 : (s + (s + h)) / 2 = s + h / 2 := by ring
  rw [e1, e2] at this
  exact this

end

namespace Box
variable (G : Box) {ta tb mE mH nE nH : ℝ} (S : Maxwell G.eps G.mu G.lo G.hi ta tb mE mH nE nH) {bc : Faces String}

/-- Sum of the squares of the cell lengths. -/
def h2 : ℝ := G.dx ^ 2 + G.dy ^ 2 + G.dz ^ 2

theorem sE_at (E : ℕ → ℝ → ℝ × ℝ × ℝ → ℝ) (t : ℝ) {c i j k : ℕ} (hi : i ≤ G.nx) (hj : j ≤ G.ny) (hk : k ≤ G.nz) :
    G.sE E t (G.at' c i j k) = if (c ≠ 0 ∨ i < G.nx) ∧ (c ≠ 1 ∨ j < G.ny) ∧ (c ≠ 2 ∨ k < G.nz) then E c t (G.ePt c i j k) else 0 := G.flat_at _ hi hj hk

theorem sH_at (H : ℕ → ℝ → ℝ × ℝ × ℝ → ℝ) (t : ℝ) {c i j k : ℕ} (hi : i ≤ G.nx) (hj : j ≤ G.ny) (hk : k ≤ G.nz) :
    G.sH H t (G.at' c i j k) = if (c = 0 ∨ i < G.nx) ∧ (c = 1 ∨ j < G.ny) ∧ (c = 2 ∨ k < G.nz) then H c t (G.hPt c i j k) else 0 := G.flat_at _ hi hj hk

theorem sE_live (E : ℕ → ℝ → ℝ × ℝ × ℝ → ℝ) (t : ℝ) {c i j k : ℕ} (hi : i ≤ G.nx) (hj : j ≤ G.ny) (hk : k ≤ G.nz)
    (h : (c ≠ 0 ∨ i < G.nx) ∧ (c ≠ 1 ∨ j < G.ny) ∧ (c ≠ 2 ∨ k < G.nz)) : G.sE E t (G.at' c i j k) = E c t (G.ePt c i j k) := by rw [G.sE_at _ _ hi hj hk, if_pos h]

theorem sE_dead (E : ℕ → ℝ → ℝ × ℝ × ℝ → ℝ) (t : ℝ) {c i j k : ℕ} (hi : i ≤ G.nx) (hj : j ≤ G.ny) (hk : k ≤ G.nz)
    (h : ¬((c ≠ 0 ∨ i < G.nx) ∧ (c ≠ 1 ∨ j < G.ny) ∧ (c ≠ 2 ∨ k < G.nz))) : G.sE E t (G.at' c i j k) = 0 := by rw [G.sE_at _ _ hi hj hk, if_neg h]

theorem sH_live (H : ℕ → ℝ → ℝ × ℝ × ℝ → ℝ) (t : ℝ) {c i j k : ℕ} (hi : i ≤ G.nx) (hj : j ≤ G.ny) (hk : k ≤ G.nz)
    (h : (c = 0 ∨ i < G.nx) ∧ (c = 1 ∨ j < G.ny) ∧ (c = 2 ∨ k < G.nz)) : G.sH H t (G.at' c i j k) = H c t (G.hPt c i j k) := by rw [G.sH_at _ _ hi hj hk, if_pos h]

theorem sH_dead (H : ℕ → ℝ → ℝ × ℝ × ℝ → ℝ) (t : ℝ) {c i j k : ℕ} (hi : i ≤ G.nx) (hj : j ≤ G.ny) (hk : k ≤ G.nz)
    (h : ¬((c = 0 ∨ i < G.nx) ∧ (c = 1 ∨ j < G.ny) ∧ (c = 2 ∨ k < G.nz))) : G.sH H t (G.at' c i j k) = 0 := by rw [G.sH_at _ _ hi hj hk, if_neg h]

/-- The samples vanish tangentially on the walls. -/
theorem sE_wall {t : ℝ} (ht : t ∈ Set.Icc ta tb) {c i j k : ℕ} (hc : c < 3) (hi : i ≤ G.nx) (hj : j ≤ G.ny) (hk : k ≤ G.nz)
    (h : (c ≠ 0 ∧ (i = 0 ∨ i = G.nx)) ∨ (c ≠ 1 ∧ (j = 0 ∨ j = G.ny)) ∨ (c ≠ 2 ∧ (k = 0 ∨ k = G.nz))) : G.sE S.E t (G.at' c i j k) = 0 := by
  rw [G.sE_at _ _ hi hj hk]
  split_ifs with hl
  · have hp := G.ePt_in hi hj hk hl.1 hl.2.1 hl.2.2
    rcases h with ⟨h, h'⟩ | ⟨h, h'⟩ | ⟨h, h'⟩
    · refine S.wall c hc 0 (by omega) (Ne.symm h) t ht _ hp ?_
      rcases h' with rfl | rfl
      · left; simp [cor, ePt, edgePoint, lo, h]
      · right; simp [cor, ePt, edgePoint, Box.hi, h]
    · refine S.wall c hc 1 (by omega) (Ne.symm h) t ht _ hp ?_
      rcases h' with rfl | rfl
      · left; simp [cor, ePt, edgePoint, lo, h]
      · right; simp [cor, ePt, edgePoint, Box.hi, h]
    · refine S.wall c hc 2 (by omega) (Ne.symm h) t ht _ hp ?_
      rcases h' with rfl | rfl
      · left; simp [cor, ePt, edgePoint, lo, h]
      · right; simp [cor, ePt, edgePoint, Box.hi, h]
  · rfl

theorem sE_clean {t : ℝ} (ht : t ∈ Set.Icc ta tb) : PecClean G.geom bc (G.sE S.E t) := by
  intro axis s c i j k ha hc hne hi hj hk hon _
  have hi' : i < G.nx + 1 := hi
  have hj' : j < G.ny + 1 := hj
  have hk' : k < G.nz + 1 := hk
  refine G.sE_wall S ht hc (by omega) (by omega) (by omega) ?_
  have hon' : coord axis i j k = 0 ∨ coord axis i j k = coord axis (G.nx + 1) (G.ny + 1) (G.nz + 1) - 1 := by
    cases s
    · exact .inl hon
    · exact .inr hon
  have : axis = 0 ∨ axis = 1 ∨ axis = 2 := by omega
  rcases this with rfl | rfl | rfl
  · left; exact ⟨fun h => hne h.symm, by simpa [coord] using hon'⟩
  · right; left; exact ⟨fun h => hne h.symm, by simpa [coord] using hon'⟩
  · right; right; exact ⟨fun h => hne h.symm, by simpa [coord] using hon'⟩

/-- Edge voltages of the samples, continued by zero. -/
theorem view_E (t : ℝ) {c i j k : ℕ} (hc : c < 3) (hi : i ≤ G.nx) (hj : j ≤ G.ny) (hk : k ≤ G.nz) :
    view0 (G.nx + 1) (G.ny + 1) (G.nz + 1) (fun q => G.geom.L.array q * G.sE S.E t q) c i j k =
      (if c = 0 then G.dx else if c = 1 then G.dy else G.dz) * G.sE S.E t (G.at' c i j k) := by
  rw [view0, if_pos ⟨by omega, by omega, by omega⟩]
  show G.geom.L.array (G.at' c i j k) * _ = _
  rw [G.L_at hc hi hj hk]
  rfl

theorem view_out (v : ℕ → ℝ) {c i j k : ℕ} (h : G.nx < i ∨ G.ny < j ∨ G.nz < k) : view0 (G.nx + 1) (G.ny + 1) (G.nz + 1) v c i j k = 0 := by
  rw [view0, if_neg (by omega)]

/-- The local error of the H update. -/
theorem res_H (hbc : AllPec bc) (hmE : 0 ≤ mE) (hnH : 0 ≤ nH) {t : ℝ} (h1 : ta ≤ t - G.dt / 2) (h2 : t + G.dt / 2 ≤ tb) {r : ℕ} (hr : r < 3 * ((G.nx + 1) * (G.ny + 1) * (G.nz + 1))) :
    |(oneStep (G.solver bc) (eh (G.sE S.E t) (G.sH S.H (t - G.dt / 2)))).H r - G.sH S.H (t + G.dt / 2) r| ≤
      G.dt * (nH / 24 * G.dt ^ 2 + mE / (24 * G.mu) * G.h2) := by
  obtain ⟨c, i, j, k, hc, hi, hj, hk, rfl⟩ := pos_surj hr
  have hdt := G.hdt
  have ht : t ∈ Set.Icc ta tb := ⟨by linarith, by linarith⟩
  obtain ⟨hpec, hpmc, -, -, -⟩ := hbc.names
  have hi' : i ≤ G.nx := by omega
  have hj' : j ≤ G.ny := by omega
  have hk' : k ≤ G.nz := by omega
  have e := C25_H_update G.geom bc (fun _ => 1 / G.eps) (fun _ => 1 / G.mu) (fun _ => 0) G.dt false (hpec 0 .lo (by decide)) (hpec 1 .lo (by decide)) hpmc
    (eh (G.sE S.E t) (G.sH S.H (t - G.dt / 2))) rfl (G.sE_clean S ht) hc (i := i) (j := j) (k := k) hi hj hk
  simp only at e
  have e' : (oneStep (G.solver bc) (eh (G.sE S.E t) (G.sH S.H (t - G.dt / 2)))).H (G.at' c i j k) = G.sH S.H (t - G.dt / 2) (G.at' c i j k) -
      G.dt * (G.geom.iA.array (G.at' c i j k) * (1 / G.mu) * circ (view0 (G.nx + 1) (G.ny + 1) (G.nz + 1) fun q => G.geom.L.array q * G.sE S.E t q) c i j k) := e
  show |(oneStep (G.solver bc) (eh (G.sE S.E t) (G.sH S.H (t - G.dt / 2)))).H (G.at' c i j k) - G.sH S.H (t + G.dt / 2) (G.at' c i j k)| ≤ _
  rw [e', G.iA_at hc hi' hj' hk']
  have hh2 : 0 ≤ G.h2 := by unfold Box.h2; positivity
  have B0 : 0 ≤ G.dt * (nH / 24 * G.dt ^ 2 + mE / (24 * G.mu) * G.h2) := by have := G.hmu; positivity
  have fin : ∀ {p q : ℝ}, p ^ 2 + q ^ 2 ≤ G.h2 → G.dt * (nH / 24 * G.dt ^ 2 + mE / (24 * G.mu) * (p ^ 2 + q ^ 2)) ≤ G.dt * (nH / 24 * G.dt ^ 2 + mE / (24 * G.mu) * G.h2) := by
    intro p q h
    have := G.hmu
    have : mE / (24 * G.mu) * (p ^ 2 + q ^ 2) ≤ mE / (24 * G.mu) * G.h2 := mul_le_mul_of_nonneg_left h (by positivity)
    exact mul_le_mul_of_nonneg_left (by linarith) hdt
  have tm : ∀ p, InBox G.lo G.hi p → |S.H c (t + G.dt / 2) p - S.H c (t - G.dt / 2) p - G.dt * S.tH c t p| ≤ nH / 24 * G.dt ^ 3 := by
    intro p hp
    have := diff_tH S hc hp (s := t - G.dt / 2) (h := G.dt) hdt h1 (by linarith)
    rw [show t - G.dt / 2 + G.dt = t + G.dt / 2 by ring, show t - G.dt / 2 + G.dt / 2 = t by ring] at this
    exact this
  have hc3 : c = 0 ∨ c = 1 ∨ c = 2 := by omega
  rcases hc3 with rfl | rfl | rfl
  · by_cases hl : j < G.ny ∧ k < G.nz
    · obtain ⟨l1, l2⟩ := hl
      rw [G.sH_live _ _ hi' hj' hk' (by omega), G.sH_live _ _ hi' hj' hk' (by omega)]
      rw [if_pos rfl]
      set p := G.hPt 0 i j k with hp
      have hpin : InBox G.lo G.hi p := G.hPt_in hi' hj' hk' (by omega) (by omega) (by omega)
      have q1 := diff_E S (c := 2) (d := 1) (by omega) (by omega) (by omega) ht hpin (s := G.ay j) (h := G.dy) G.hdy.le (G.ay_mono (by omega))
        (by rw [← G.ay_succ]; exact G.ay_mono (by omega))
      have q2 := diff_E S (c := 1) (d := 2) (by omega) (by omega) (by omega) ht hpin (s := G.az k) (h := G.dz) G.hdz.le (G.az_mono (by omega))
        (by rw [← G.az_succ]; exact G.az_mono (by omega))
      rw [← G.ay_succ] at q1
      rw [← G.az_succ] at q2
      have p1 : put 1 (G.ay j + G.dy / 2) p = p := by simp [put, hp, hPt, facePoint, G.mid_y]
      have p2 : put 2 (G.az k + G.dz / 2) p = p := by simp [put, hp, hPt, facePoint, G.mid_z]
      have p3 : ∀ n', put 1 (G.ay n') p = G.ePt 2 i n' k := fun n' => by simp [put, hp, hPt, ePt, facePoint, edgePoint]
      have p4 : ∀ n', put 2 (G.az n') p = G.ePt 1 i j n' := fun n' => by simp [put, hp, hPt, ePt, facePoint, edgePoint]
      rw [p1, p3, p3] at q1
      rw [p2, p4, p4] at q2
      unfold circ
      rw [if_pos rfl]
      rw [G.view_E S t (by omega) hi' (by omega) hk', G.view_E S t (by omega) hi' hj' hk', G.view_E S t (by omega) hi' hj' (by omega), G.view_E S t (by omega) hi' hj' hk',
        G.sE_live _ _ hi' (by omega) hk' (by omega), G.sE_live _ _ hi' hj' hk' (by omega), G.sE_live _ _ hi' hj' (by omega) (by omega), G.sE_live _ _ hi' hj' hk' (by omega)]
      simp only [OfNat.ofNat_ne_zero, OfNat.ofNat_ne_one, if_false, one_ne_zero, if_true]
      have fr := S.faraday 0 (by omega) t ht p hpin
      simp only [curlOf, if_true, OfNat.ofNat_ne_zero, OfNat.ofNat_ne_one, if_false, one_ne_zero] at fr
      have := res_alg (X := S.H 0 (t - G.dt / 2) p) (X' := S.H 0 (t + G.dt / 2) p) (τ := S.tH 0 t p) (m := G.mu) (N := nH) (M := mE) (J := 0) (p := G.dy) (q := G.dz)
        (D1 := -(S.E 2 t (G.ePt 2 i (j + 1) k) - S.E 2 t (G.ePt 2 i j k))) (a := -S.dE 2 1 t p) (D2 := -(S.E 1 t (G.ePt 1 i j (k + 1)) - S.E 1 t (G.ePt 1 i j k))) (b := -S.dE 1 2 t p)
        G.hdy G.hdz G.hmu hdt (tm p hpin) (by linarith) (by rw [← abs_neg]; convert q1 using 2; ring) (by rw [← abs_neg]; convert q2 using 2; ring)
      refine le_trans (le_of_eq ?_) (this.trans (fin (by unfold Box.h2; nlinarith [sq_nonneg G.dx])))
      congr 1
      ring
    · rw [G.sH_dead _ _ hi' hj' hk' (by omega), G.sH_dead _ _ hi' hj' hk' (by omega)]
      have z : circ (view0 (G.nx + 1) (G.ny + 1) (G.nz + 1) fun q => G.geom.L.array q * G.sE S.E t q) 0 i j k = 0 := by
        unfold circ
        rw [if_pos rfl]
        have a1 : view0 (G.nx + 1) (G.ny + 1) (G.nz + 1) (fun q => G.geom.L.array q * G.sE S.E t q) 2 i j k = 0 := by
          rw [G.view_E S t (by omega) hi' hj' hk']
          by_cases h : j = G.ny
          · rw [G.sE_wall S ht (by omega) hi' hj' hk' (by omega), mul_zero]
          · rw [G.sE_dead _ _ hi' hj' hk' (by omega), mul_zero]
        have a2 : view0 (G.nx + 1) (G.ny + 1) (G.nz + 1) (fun q => G.geom.L.array q * G.sE S.E t q) 1 i j k = 0 := by
          rw [G.view_E S t (by omega) hi' hj' hk']
          by_cases h : k = G.nz
          · rw [G.sE_wall S ht (by omega) hi' hj' hk' (by omega), mul_zero]
          · rw [G.sE_dead _ _ hi' hj' hk' (by omega), mul_zero]
        have a3 : view0 (G.nx + 1) (G.ny + 1) (G.nz + 1) (fun q => G.geom.L.array q * G.sE S.E t q) 2 i (j + 1) k = 0 := by
          by_cases h : j < G.ny
          · rw [G.view_E S t (by omega) hi' (by omega) hk', G.sE_dead _ _ hi' (by omega) hk' (by omega), mul_zero]
          · exact G.view_out _ (by omega)
        have a4 : view0 (G.nx + 1) (G.ny + 1) (G.nz + 1) (fun q => G.geom.L.array q * G.sE S.E t q) 1 i j (k + 1) = 0 := by
          by_cases h : k < G.nz
          · rw [G.view_E S t (by omega) hi' hj' (by omega), G.sE_dead _ _ hi' hj' (by omega) (by omega), mul_zero]
          · exact G.view_out _ (by omega)
        rw [a1, a2, a3, a4]; ring
      rw [z]
      simpa using B0
  · by_cases hl : k < G.nz ∧ i < G.nx
    · obtain ⟨l1, l2⟩ := hl
      rw [G.sH_live _ _ hi' hj' hk' (by omega), G.sH_live _ _ hi' hj' hk' (by omega)]
      rw [if_neg (by decide), if_pos rfl]
      set p := G.hPt 1 i j k with hp
      have hpin : InBox G.lo G.hi p := G.hPt_in hi' hj' hk' (by omega) (by omega) (by omega)
      have q1 := diff_E S (c := 0) (d := 2) (by omega) (by omega) (by omega) ht hpin (s := G.az k) (h := G.dz) G.hdz.le (G.az_mono (by omega))
        (by rw [← G.az_succ]; exact G.az_mono (by omega))
      have q2 := diff_E S (c := 2) (d := 0) (by omega) (by omega) (by omega) ht hpin (s := G.ax i) (h := G.dx) G.hdx.le (G.ax_mono (by omega))
        (by rw [← G.ax_succ]; exact G.ax_mono (by omega))
      rw [← G.az_succ] at q1
      rw [← G.ax_succ] at q2
      have p1 : put 2 (G.az k + G.dz / 2) p = p := by simp [put, hp, hPt, facePoint, G.mid_z]
      have p2 : put 0 (G.ax i + G.dx / 2) p = p := by simp [put, hp, hPt, facePoint, G.mid_x]
      have p3 : ∀ n', put 2 (G.az n') p = G.ePt 0 i j n' := fun n' => by simp [put, hp, hPt, ePt, facePoint, edgePoint]
      have p4 : ∀ n', put 0 (G.ax n') p = G.ePt 2 n' j k := fun n' => by simp [put, hp, hPt, ePt, facePoint, edgePoint]
      rw [p1, p3, p3] at q1
      rw [p2, p4, p4] at q2
      unfold circ
      rw [if_neg (by decide), if_pos rfl]
      rw [G.view_E S t (by omega) hi' hj' (by omega), G.view_E S t (by omega) hi' hj' hk', G.view_E S t (by omega) (by omega) hj' hk', G.view_E S t (by omega) hi' hj' hk',
        G.sE_live _ _ hi' hj' (by omega) (by omega), G.sE_live _ _ hi' hj' hk' (by omega), G.sE_live _ _ (by omega) hj' hk' (by omega), G.sE_live _ _ hi' hj' hk' (by omega)]
      simp only [OfNat.ofNat_ne_zero, OfNat.ofNat_ne_one, if_false, one_ne_zero, if_true]
      have fr := S.faraday 1 (by omega) t ht p hpin
      simp only [curlOf, if_true, OfNat.ofNat_ne_zero, OfNat.ofNat_ne_one, if_false, one_ne_zero] at fr
      have := res_alg (X := S.H 1 (t - G.dt / 2) p) (X' := S.H 1 (t + G.dt / 2) p) (τ := S.tH 1 t p) (m := G.mu) (N := nH) (M := mE) (J := 0) (p := G.dz) (q := G.dx)
        (D1 := -(S.E 0 t (G.ePt 0 i j (k + 1)) - S.E 0 t (G.ePt 0 i j k))) (a := -S.dE 0 2 t p) (D2 := -(S.E 2 t (G.ePt 2 (i + 1) j k) - S.E 2 t (G.ePt 2 i j k))) (b := -S.dE 2 0 t p)
        G.hdz G.hdx G.hmu hdt (tm p hpin) (by linarith) (by rw [← abs_neg]; convert q1 using 2; ring) (by rw [← abs_neg]; convert q2 using 2; ring)
      refine le_trans (le_of_eq ?_) (this.trans (fin (by unfold Box.h2; nlinarith [sq_nonneg G.dy])))
      congr 1
      ring
    · rw [G.sH_dead _ _ hi' hj' hk' (by omega), G.sH_dead _ _ hi' hj' hk' (by omega)]
      have z : circ (view0 (G.nx + 1) (G.ny + 1) (G.nz + 1) fun q => G.geom.L.array q * G.sE S.E t q) 1 i j k = 0 := by
        unfold circ
        rw [if_neg (by decide), if_pos rfl]
        have a1 : view0 (G.nx + 1) (G.ny + 1) (G.nz + 1) (fun q => G.geom.L.array q * G.sE S.E t q) 0 i j k = 0 := by
          rw [G.view_E S t (by omega) hi' hj' hk']
          by_cases h : k = G.nz
          · rw [G.sE_wall S ht (by omega) hi' hj' hk' (by omega), mul_zero]
          · rw [G.sE_dead _ _ hi' hj' hk' (by omega), mul_zero]
        have a2 : view0 (G.nx + 1) (G.ny + 1) (G.nz + 1) (fun q => G.geom.L.array q * G.sE S.E t q) 2 i j k = 0 := by
          rw [G.view_E S t (by omega) hi' hj' hk']
          by_cases h : i = G.nx
          · rw [G.sE_wall S ht (by omega) hi' hj' hk' (by omega), mul_zero]
          · rw [G.sE_dead _ _ hi' hj' hk' (by omega), mul_zero]
        have a3 : view0 (G.nx + 1) (G.ny + 1) (G.nz + 1) (fun q => G.geom.L.array q * G.sE S.E t q) 0 i j (k + 1) = 0 := by
          by_cases h : k < G.nz
          · rw [G.view_E S t (by omega) hi' hj' (by omega), G.sE_dead _ _ hi' hj' (by omega) (by omega), mul_zero]
          · exact G.view_out _ (by omega)
        have a4 : view0 (G.nx + 1) (G.ny + 1) (G.nz + 1) (fun q => G.geom.L.array q * G.sE S.E t q) 2 (i + 1) j k = 0 := by
          by_cases h : i < G.nx
          · rw [G.view_E S t (by omega) (by omega) hj' hk', G.sE_dead _ _ (by omega) hj' hk' (by omega), mul_zero]
          · exact G.view_out _ (by omega)
        rw [a1, a2, a3, a4]; ring
      rw [z]
      simpa using B0
  · by_cases hl : i < G.nx ∧ j < G.ny
    · obtain ⟨l1, l2⟩ := hl
      rw [G.sH_live _ _ hi' hj' hk' (by omega), G.sH_live _ _ hi' hj' hk' (by omega)]
      rw [if_neg (by decide), if_neg (by decide)]
      set p := G.hPt 2 i j k with hp
      have hpin : InBox G.lo G.hi p := G.hPt_in hi' hj' hk' (by omega) (by omega) (by omega)
      have q1 := diff_E S (c := 1) (d := 0) (by omega) (by omega) (by omega) ht hpin (s := G.ax i) (h := G.dx) G.hdx.le (G.ax_mono (by omega))
        (by rw [← G.ax_succ]; exact G.ax_mono (by omega))
      have q2 := diff_E S (c := 0) (d := 1) (by omega) (by omega) (by omega) ht hpin (s := G.ay j) (h := G.dy) G.hdy.le (G.ay_mono (by omega))
        (by rw [← G.ay_succ]; exact G.ay_mono (by omega))
      rw [← G.ax_succ] at q1
      rw [← G.ay_succ] at q2
      have p1 : put 0 (G.ax i + G.dx / 2) p = p := by simp [put, hp, hPt, facePoint, G.mid_x]
      have p2 : put 1 (G.ay j + G.dy / 2) p = p := by simp [put, hp, hPt, facePoint, G.mid_y]
      have p3 : ∀ n', put 0 (G.ax n') p = G.ePt 1 n' j k := fun n' => by simp [put, hp, hPt, ePt, facePoint, edgePoint]
      have p4 : ∀ n', put 1 (G.ay n') p = G.ePt 0 i n' k := fun n' => by simp [put, hp, hPt, ePt, facePoint, edgePoint]
      rw [p1, p3, p3] at q1
      rw [p2, p4, p4] at q2
      unfold circ
      rw [if_neg (by decide), if_neg (by decide)]
      rw [G.view_E S t (by omega) (by omega) hj' hk', G.view_E S t (by omega) hi' hj' hk', G.view_E S t (by omega) hi' (by omega) hk', G.view_E S t (by omega) hi' hj' hk',
        G.sE_live _ _ (by omega) hj' hk' (by omega), G.sE_live _ _ hi' hj' hk' (by omega), G.sE_live _ _ hi' (by omega) hk' (by omega), G.sE_live _ _ hi' hj' hk' (by omega)]
      simp only [OfNat.ofNat_ne_zero, OfNat.ofNat_ne_one, if_false, one_ne_zero, if_true]
      have fr := S.faraday 2 (by omega) t ht p hpin
      simp only [curlOf, if_true, OfNat.ofNat_ne_zero, OfNat.ofNat_ne_one, if_false, one_ne_zero] at fr
      have := res_alg (X := S.H 2 (t - G.dt / 2) p) (X' := S.H 2 (t + G.dt / 2) p) (τ := S.tH 2 t p) (m := G.mu) (N := nH) (M := mE) (J := 0) (p := G.dx) (q := G.dy)
        (D1 := -(S.E 1 t (G.ePt 1 (i + 1) j k) - S.E 1 t (G.ePt 1 i j k))) (a := -S.dE 1 0 t p) (D2 := -(S.E 0 t (G.ePt 0 i (j + 1) k) - S.E 0 t (G.ePt 0 i j k))) (b := -S.dE 0 1 t p)
        G.hdx G.hdy G.hmu hdt (tm p hpin) (by linarith) (by rw [← abs_neg]; convert q1 using 2; ring) (by rw [← abs_neg]; convert q2 using 2; ring)
      refine le_trans (le_of_eq ?_) (this.trans (fin (by unfold Box.h2; nlinarith [sq_nonneg G.dz])))
      congr 1
      ring
    · rw [G.sH_dead _ _ hi' hj' hk' (by omega), G.sH_dead _ _ hi' hj' hk' (by omega)]
      have z : circ (view0 (G.nx + 1) (G.ny + 1) (G.nz + 1) fun q => G.geom.L.array q * G.sE S.E t q) 2 i j k = 0 := by
        unfold circ
        rw [if_neg (by decide), if_neg (by decide)]
        have a1 : view0 (G.nx + 1) (G.ny + 1) (G.nz + 1) (fun q => G.geom.L.array q * G.sE S.E t q) 1 i j k = 0 := by
          rw [G.view_E S t (by omega) hi' hj' hk']
          by_cases h : i = G.nx
          · rw [G.sE_wall S ht (by omega) hi' hj' hk' (by omega), mul_zero]
          · rw [G.sE_dead _ _ hi' hj' hk' (by omega), mul_zero]
        have a2 : view0 (G.nx + 1) (G.ny + 1) (G.nz + 1) (fun q => G.geom.L.array q * G.sE S.E t q) 0 i j k = 0 := by
          rw [G.view_E S t (by omega) hi' hj' hk']
          by_cases h : j = G.ny
          · rw [G.sE_wall S ht (by omega) hi' hj' hk' (by omega), mul_zero]
          · rw [G.sE_dead _ _ hi' hj' hk' (by omega), mul_zero]
        have a3 : view0 (G.nx + 1) (G.ny + 1) (G.nz + 1) (fun q => G.geom.L.array q * G.sE S.E t q) 1 (i + 1) j k = 0 := by
          by_cases h : i < G.nx
          · rw [G.view_E S t (by omega) (by omega) hj' hk', G.sE_dead _ _ (by omega) hj' hk' (by omega), mul_zero]
          · exact G.view_out _ (by omega)
        have a4 : view0 (G.nx + 1) (G.ny + 1) (G.nz + 1) (fun q => G.geom.L.array q * G.sE S.E t q) 0 i (j + 1) k = 0 := by
          by_cases h : j < G.ny
          · rw [G.view_E S t (by omega) hi' (by omega) hk', G.sE_dead _ _ hi' (by omega) hk' (by omega), mul_zero]
          · exact G.view_out _ (by omega)
        rw [a1, a2, a3, a4]; ring
      rw [z]
      simpa using B0

end Box
end Conv
end Wakis
