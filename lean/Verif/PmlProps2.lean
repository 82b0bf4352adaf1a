import Verif.PmlProps
import Mathlib.Analysis.SpecialFunctions.Pow.Real

/-!
# PML conductivity: the property theorems (C31)
-/

namespace Wakis
namespace Sol

/-! ### `np.geomspace(5e-3, 10, n)` by depth -/

theorem geom_pos {n : ℕ} (s : Side) (d : ℕ) : 0 < profAt geomspace (5 / 1000) 10 n s d := by
  cases s <;> simp only [profAt, geomspace] <;> positivity

/-- Low and high faces have the same profile, counted from the face, for two or more layers. -/
theorem geom_eq {n : ℕ} (hn : 2 ≤ n) (s : Side) {d : ℕ} (hd : d < n) :
    profAt geomspace (5 / 1000) 10 n s d = 10 * (2000 : ℝ) ^ (-((d : ℝ) / ((n : ℝ) - 1))) := by
  have hn1 : (0 : ℝ) < (n : ℝ) - 1 := by
    have : (2 : ℝ) ≤ n := by exact_mod_cast hn
    linarith
  cases s with
  | lo =>
    simp only [profAt, geomspace]
    rw [Real.rpow_neg (by norm_num), ← Real.inv_rpow (by norm_num)]
    norm_num
  | hi =>
    simp only [profAt, geomspace]
    have e : (((n - (d + 1) : ℕ) : ℝ)) = (n : ℝ) - 1 - d := by
      rw [Nat.cast_sub (by omega)]; push_cast; ring
    rw [e, sub_div, div_self hn1.ne', sub_eq_add_neg, Real.rpow_add (by norm_num), Real.rpow_one]
    norm_num
    ring

theorem geom_anti {n : ℕ} (s : Side) {d d' : ℕ} (hdd : d < d') (hd' : d' < n) :
    profAt geomspace (5 / 1000) 10 n s d' < profAt geomspace (5 / 1000) 10 n s d := by
  have hn : 2 ≤ n := by omega
  rw [geom_eq hn s hd', geom_eq hn s (by omega)]
  have hn1 : (0 : ℝ) < (n : ℝ) - 1 := by
    have : (2 : ℝ) ≤ n := by exact_mod_cast hn
    linarith
  have : (d : ℝ) < d' := by exact_mod_cast hdd
  have : (2000 : ℝ) ^ (-((d' : ℝ) / ((n : ℝ) - 1))) < (2000 : ℝ) ^ (-((d : ℝ) / ((n : ℝ) - 1))) := by
    apply Real.rpow_lt_rpow_of_exponent_lt (by norm_num)
    rw [neg_lt_neg_iff]
    gcongr
  linarith

theorem geom_first {n : ℕ} (hn : 2 ≤ n) (s : Side) : profAt geomspace (5 / 1000) 10 n s 0 = 10 := by
  rw [geom_eq hn s (by omega)]; simp

theorem geom_last {n : ℕ} (hn : 2 ≤ n) (s : Side) : profAt geomspace (5 / 1000) 10 n s (n - 1) = 5 / 1000 := by
  rw [geom_eq hn s (by omega)]
  have hn1 : (n : ℝ) - 1 ≠ 0 := by
    have : (2 : ℝ) ≤ n := by exact_mod_cast hn
    linarith
  rw [Nat.cast_sub (by omega), Nat.cast_one, div_self hn1, Real.rpow_neg (by norm_num), Real.rpow_one]
  norm_num

/-- Conductivities are not negative. -/
def CondNonneg (Nx Ny Nz : ℕ) (t : Mats ℝ) : Prop :=
  ∀ key c, Fld.Names key c → ∀ i < Nx, ∀ j < Ny, ∀ k < Nz, ∀ v, t.sigma.get i j k key = .ok v → 0 ≤ v

theorem condNonneg_at3 {Nx Ny Nz : ℕ} {t : Mats ℝ} (ht : t.Sized Nx Ny Nz) (h : CondNonneg Nx Ny Nz t) :
    ∀ c < 3, ∀ i < Nx, ∀ j < Ny, ∀ k < Nz, 0 ≤ t.sigma.at3 c i j k := by
  intro c hc i hi j hj k hk
  obtain ⟨s1, s2, s3⟩ := ht.s
  have hn : Fld.Names (.num c) c := by simp [Fld.Names, hc]
  exact h (.num c) c hn i hi j hj k hk _ (Fld.get_at3 _ hn (by omega) (by omega) (by omega))

theorem order_lt : ∀ f ∈ pmlOrder, f.1 < 3 := by decide

section C31
variable {Nx Ny Nz n : ℕ} {bc : Faces String} {t t' : Mats ℝ}

/-- **C31 (outside).** Cells in no PML layer keep permittivity and conductivity, every cell keeps its
permeability. -/
theorem C31_outside_unchanged (hx : 0 < Nx) (hy : 0 < Ny) (hz : 0 < Nz) (ht : t.Sized Nx Ny Nz)
    (h : fillPml geomspace (5 / 1000) 10 n bc t = .ok t') :
    (∀ i j k key, t'.imu.get i j k key = t.imu.get i j k key) ∧
    ∀ i < Nx, ∀ j < Ny, ∀ k < Nz,
      (∀ axis < 3, ∀ side, isPml (faceName bc axis side) = true → n ≤ depth Nx Ny Nz axis side i j k) →
      ∀ key c, Fld.Names key c → t'.ieps.get i j k key = t.ieps.get i j k key ∧
        t'.sigma.get i j k key = t.sigma.get i j k key := by
  rw [fillPml_eq] at h
  obtain ⟨g1, g2, -, g4, -, -⟩ := fillFaces_ok geomspace (5 / 1000) 10 bc (fun s d _ => geom_pos s d) hx hy hz pmlOrder t t'
    order_lt ht h
  refine ⟨fun i j k key => by rw [g2], fun i hi j hj k hk hout key c hkey => ?_⟩
  obtain ⟨e1, e2, e3⟩ := ht.e; obtain ⟨s1, s2, s3⟩ := ht.s
  obtain ⟨e1', e2', e3'⟩ := g1.e; obtain ⟨s1', s2', s3'⟩ := g1.s
  have hc3 : c < 3 := Fld.compOf_lt (Fld.names_iff.1 hkey)
  obtain ⟨a1, a2⟩ := g4 c hc3 i hi j hj k hk fun ⟨f, hf, hp, hd⟩ =>
    absurd hd (not_lt.2 (hout f.1 (order_lt f hf) f.2 hp))
  rw [Fld.get_at3 key hkey (by omega) (by omega) (by omega), Fld.get_at3 key hkey (by omega) (by omega) (by omega),
    Fld.get_at3 key hkey (by omega) (by omega) (by omega), Fld.get_at3 key hkey (by omega) (by omega) (by omega), a1, a2]
  exact ⟨rfl, rfl⟩

/-- **C31 (positive).** Every cell of every PML layer has strictly positive conductivity, corners
included, and no cell's conductivity becomes negative. -/
theorem C31_positive (hx : 0 < Nx) (hy : 0 < Ny) (hz : 0 < Nz) (ht : t.Sized Nx Ny Nz)
    (hσ : CondNonneg Nx Ny Nz t) (h : fillPml geomspace (5 / 1000) 10 n bc t = .ok t') :
    CondNonneg Nx Ny Nz t' ∧
    ∀ axis < 3, ∀ side, isPml (faceName bc axis side) = true →
      ∀ i < Nx, ∀ j < Ny, ∀ k < Nz, depth Nx Ny Nz axis side i j k < n →
      ∀ key c, Fld.Names key c → ∃ v, t'.sigma.get i j k key = .ok v ∧ 0 < v := by
  rw [fillPml_eq] at h
  obtain ⟨g1, -, -, -, g5, -⟩ := fillFaces_ok geomspace (5 / 1000) 10 bc (fun s d _ => geom_pos s d) hx hy hz pmlOrder t t'
    order_lt ht h
  obtain ⟨s1', s2', s3'⟩ := g1.s
  have g5 := g5 (condNonneg_at3 ht hσ)
  constructor
  · intro key c hkey i hi j hj k hk v hv
    rw [Fld.get_at3 key hkey (by omega) (by omega) (by omega)] at hv
    obtain rfl : t'.sigma.at3 c i j k = v := by simpa using hv
    exact (g5 c (Fld.compOf_lt (Fld.names_iff.1 hkey)) i hi j hj k hk).1
  · intro axis hax side hp i hi j hj k hk hd key c hkey
    refine ⟨_, Fld.get_at3 key hkey (by omega) (by omega) (by omega), ?_⟩
    refine (g5 c (Fld.compOf_lt (Fld.names_iff.1 hkey)) i hi j hj k hk).2 ⟨(axis, side), ?_, hp, hd⟩
    rcases (by omega : axis = 0 ∨ axis = 1 ∨ axis = 2) with rfl | rfl | rfl <;> cases side <;> decide

/-- **C31 (profile), partial.** On each PML face, in the layers that no PML face filled later also
covers, permittivity is one reference value and the conductivity is `s0 + mult * profile` with one
`s0 ≥ 0` and `mult > 0` per component: it grows strictly towards the face, from `s0 + mult * 5e-3`
in the innermost to `s0 + mult * 10` in the outermost layer (two or more layers).  The reference
values are those before filling of the cell in the middle of the face at layer `n + 1` (low face) or
`N - (n + 1)` (high face), unless a PML face filled earlier covers that cell.  Missing from the full
claim: covered edges, see `C31_overlap_refuted`; on low faces the reference is not the adjacent
layer `n`, see `C31_reference_refuted`. -/
theorem C31_profile_partial (hx : 0 < Nx) (hy : 0 < Ny) (hz : 0 < Nz) (ht : t.Sized Nx Ny Nz)
    (hσ : CondNonneg Nx Ny Nz t) (h : fillPml geomspace (5 / 1000) 10 n bc t = .ok t')
    {axis : ℕ} {side : Side} {earlier later : List (ℕ × Side)}
    (ho : pmlOrder = earlier ++ (axis, side) :: later) (hp : isPml (faceName bc axis side) = true)
    {key : Fld.CKey} {c : ℕ} (hkey : Fld.Names key c) :
    ∃ r0 s0 mult : ℝ, 0 ≤ s0 ∧ 0 < mult ∧
      (∀ i < Nx, ∀ j < Ny, ∀ k < Nz, depth Nx Ny Nz axis side i j k < n →
        (∀ f ∈ later, isPml (faceName bc f.1 f.2) = true → n ≤ depth Nx Ny Nz f.1 f.2 i j k) →
        t'.ieps.get i j k key = .ok r0 ∧
        (∃ v, t'.sigma.get i j k key = .ok v ∧
          (2 ≤ n → depth Nx Ny Nz axis side i j k = 0 → v = s0 + mult * 10) ∧
          (2 ≤ n → depth Nx Ny Nz axis side i j k = n - 1 → v = s0 + mult * (5 / 1000)) ∧
          ∀ i' < Nx, ∀ j' < Ny, ∀ k' < Nz, depth Nx Ny Nz axis side i j k < depth Nx Ny Nz axis side i' j' k' →
            depth Nx Ny Nz axis side i' j' k' < n →
            (∀ f ∈ later, isPml (faceName bc f.1 f.2) = true → n ≤ depth Nx Ny Nz f.1 f.2 i' j' k') →
            ∃ v', t'.sigma.get i' j' k' key = .ok v' ∧ v' < v)) ∧
      (∀ a b d : ℕ, (a, b, d) = refCell Nx Ny Nz axis (match side with
          | .lo => n + 1 | .hi => coord axis Nx Ny Nz - (n + 1)) →
        (∀ f ∈ earlier, isPml (faceName bc f.1 f.2) = true → n ≤ depth Nx Ny Nz f.1 f.2 a b d) →
        t.ieps.get a b d key = .ok r0 ∧ t.sigma.get a b d key = .ok s0 ∧ mult = max 1 s0) := by
  rw [fillPml_eq, ho] at h
  obtain ⟨hfit, r0, s0, g1, g2, g3⟩ := fillFaces_layer geomspace (5 / 1000) 10 bc (fun s d _ => geom_pos s d) hx hy hz
    (by rw [← ho]; exact order_lt) ht h hp
  obtain ⟨hs', -⟩ := fillFaces_ok geomspace (5 / 1000) 10 bc (fun s d _ => geom_pos s d) hx hy hz
    (earlier ++ (axis, side) :: later) t t' (by rw [← ho]; exact order_lt) ht h
  have hax : axis < 3 := order_lt (axis, side) (by rw [ho]; simp)
  obtain ⟨e1, e2, e3⟩ := ht.e; obtain ⟨s1, s2, s3⟩ := ht.s
  obtain ⟨e1', e2', e3'⟩ := hs'.e; obtain ⟨s1', s2', s3'⟩ := hs'.s
  have hc3 : c < 3 := Fld.compOf_lt (Fld.names_iff.1 hkey)
  have h0 := g2 (condNonneg_at3 ht hσ) c hc3
  have hmult : (0 : ℝ) < if s0 c < 1 then 1 else s0 c := by
    split_ifs with h1
    · exact one_pos
    · exact lt_of_lt_of_le one_pos (not_lt.1 h1)
  refine ⟨r0 c, s0 c, if s0 c < 1 then 1 else s0 c, h0, hmult, ?_, ?_⟩
  · intro i hi j hj k hk hd hl
    obtain ⟨a1, a2⟩ := g1 c hc3 i hi j hj k hk hd fun ⟨f, hf, hpf, hdf⟩ => absurd hdf (not_lt.2 (hl f hf hpf))
    refine ⟨by rw [Fld.get_at3 key hkey (by omega) (by omega) (by omega), a1], _,
      Fld.get_at3 key hkey (by omega) (by omega) (by omega), ?_, ?_, ?_⟩
    · intro hn h0; rw [a2, h0, geom_first hn]; rfl
    · intro hn h0; rw [a2, h0, geom_last hn]; rfl
    · intro i' hi' j' hj' k' hk' hdd hd' hl'
      obtain ⟨b1, b2⟩ := g1 c hc3 i' hi' j' hj' k' hk' hd' fun ⟨f, hf, hpf, hdf⟩ => absurd hdf (not_lt.2 (hl' f hf hpf))
      refine ⟨_, Fld.get_at3 key hkey (by omega) (by omega) (by omega), ?_⟩
      rw [a2, b2]
      unfold pmlSigma
      have := mul_lt_mul_of_pos_left (geom_anti (n := n) side hdd hd') hmult
      linarith
  · intro a b d habd hl
    have hr : refCell Nx Ny Nz axis (refLayer Nx Ny Nz n axis side) = (a, b, d) := by
      rw [habd]; cases side <;> rfl
    simp only [hr] at g3
    obtain ⟨q1, q2⟩ := g3 (fun ⟨f, hf, hpf, hdf⟩ => absurd hdf (not_lt.2 (hl f hf hpf))) c hc3
    have hR : a < Nx ∧ b < Ny ∧ d < Nz := by
      have ha : a = (refCell Nx Ny Nz axis (refLayer Nx Ny Nz n axis side)).1 := by rw [hr]
      have hb : b = (refCell Nx Ny Nz axis (refLayer Nx Ny Nz n axis side)).2.1 := by rw [hr]
      have hd : d = (refCell Nx Ny Nz axis (refLayer Nx Ny Nz n axis side)).2.2 := by rw [hr]
      rw [ha, hb, hd]
      clear * - hfit hax hx hy hz
      rcases (by omega : axis = 0 ∨ axis = 1 ∨ axis = 2) with rfl | rfl | rfl <;> cases side <;>
        simp [refCell, refLayer, FaceFits, coord] at hfit ⊢ <;> omega
    rw [Fld.get_at3 key hkey (by omega) (by omega) (by omega), Fld.get_at3 key hkey (by omega) (by omega) (by omega),
      q1, q2]
    refine ⟨rfl, rfl, ?_⟩
    rw [← q2]
    split_ifs with h1
    · rw [max_eq_left h1.le]
    · rw [max_eq_right (not_lt.1 h1)]

/-- **C31 (when it works).** With a single PML face, filling succeeds exactly when the layers and the
reference layer fit: more than `n + 1` cells for a low face; more than `n` cells and `n > 0` for a
high face. -/
theorem C31_single_face_succeeds_iff (hx : 0 < Nx) (hy : 0 < Ny) (hz : 0 < Nz) (ht : t.Sized Nx Ny Nz)
    {axis : ℕ} {side : Side} (hax : axis < 3)
    (hp : ∀ a < 3, ∀ s, isPml (faceName bc a s) = true ↔ a = axis ∧ s = side) :
    (∃ t', fillPml geomspace (5 / 1000) 10 n bc t = .ok t') ↔
      match side with
      | .lo => n + 1 < coord axis Nx Ny Nz
      | .hi => n < coord axis Nx Ny Nz ∧ 0 < n := by
  have key : ∀ l : List (ℕ × Side), (∀ f ∈ l, f.1 < 3) → (axis, side) ∉ l → ∀ t : Mats ℝ,
      fillFaces geomspace (5 / 1000) 10 n bc l t = .ok t := by
    intro l
    induction l with
    | nil => intro _ _ t; rfl
    | cons f l ih =>
      intro hl hn t
      have : isPml (faceName bc f.1 f.2) = false := by
        rw [Bool.eq_false_iff]
        intro hq
        obtain ⟨q1, q2⟩ := (hp f.1 (hl f (by simp)) f.2).1 hq
        exact hn (by rw [← q1, ← q2]; simp)
      simp only [fillFaces, this, Bool.false_eq_true, if_false, bind, Except.bind]
      exact ih (fun g hg => hl g (by simp [hg])) (fun hg => hn (by simp [hg])) t
  have ho : ∃ l1 l2, pmlOrder = l1 ++ (axis, side) :: l2 ∧ (axis, side) ∉ l1 ∧ (axis, side) ∉ l2 := by
    rcases (by omega : axis = 0 ∨ axis = 1 ∨ axis = 2) with rfl | rfl | rfl <;> cases side
    · exact ⟨[], [(1, .lo), (2, .lo), (0, .hi), (1, .hi), (2, .hi)], rfl, by decide, by decide⟩
    · exact ⟨[(0, .lo), (1, .lo), (2, .lo)], [(1, .hi), (2, .hi)], rfl, by decide, by decide⟩
    · exact ⟨[(0, .lo)], [(2, .lo), (0, .hi), (1, .hi), (2, .hi)], rfl, by decide, by decide⟩
    · exact ⟨[(0, .lo), (1, .lo), (2, .lo), (0, .hi)], [(2, .hi)], rfl, by decide, by decide⟩
    · exact ⟨[(0, .lo), (1, .lo)], [(0, .hi), (1, .hi), (2, .hi)], rfl, by decide, by decide⟩
    · exact ⟨[(0, .lo), (1, .lo), (2, .lo), (0, .hi), (1, .hi)], [], rfl, by decide, by decide⟩
  obtain ⟨l1, l2, ho, hn1, hn2⟩ := ho
  have hl1 : ∀ f ∈ l1, f.1 < 3 := fun f hf => order_lt f (by rw [ho]; simp [hf])
  have hl2 : ∀ f ∈ l2, f.1 < 3 := fun f hf => order_lt f (by rw [ho]; simp [hf])
  have e : fillPml geomspace (5 / 1000) 10 n bc t = pmlSide geomspace (5 / 1000) 10 n axis side t := by
    rw [fillPml_eq, ho, fillFaces_append, key l1 hl1 hn1]
    simp only [Except.bind, fillFaces, (hp axis hax side).2 ⟨rfl, rfl⟩, if_true, bind]
    cases pmlSide geomspace (5 / 1000) 10 n axis side t with
    | error e => rfl
    | ok t1 => exact key l2 hl2 hn2 t1
  rw [e]
  have fin : (∃ t', pmlSide geomspace (5 / 1000) 10 n axis side t = .ok t') ↔ FaceFits Nx Ny Nz n axis side := by
    constructor
    · rintro ⟨t', h⟩; exact pmlSide_fits _ _ _ side hax hx hy ht h
    · intro hfit
      obtain ⟨t', h, -⟩ := pmlSide_ok geomspace (5 / 1000) 10 side hax hx hy hz ht hfit
      exact ⟨t', h⟩
  cases side <;> exact fin

end C31

/-! ### Where the full claim fails, and concrete cases -/

/-- A `5×5×1` grid with the given conductivity, constant in y and components. -/
def pmlDemo (s : ℕ → ℝ) : Mats ℝ :=
  ⟨⟨5, 5, 1, fun _ => 1⟩, ⟨5, 5, 1, fun _ => 1⟩, ⟨5, 5, 1, fun p => s (p % 5)⟩, true⟩

theorem pmlDemo_sized (s : ℕ → ℝ) : (pmlDemo s).Sized 5 5 1 := ⟨⟨rfl, rfl, rfl⟩, ⟨rfl, rfl, rfl⟩, ⟨rfl, rfl, rfl⟩⟩

theorem pmlDemo_get (s : ℕ → ℝ) {key : Fld.CKey} {c i j : ℕ} (hk : Fld.Names key c) (hi : i < 5) (hj : j < 5) :
    (pmlDemo s).sigma.get i j (0 : ℕ) key = .ok (s i) := by
  rw [Fld.get_at3 key hk hi hj (show 0 < 1 by omega)]
  show Except.ok (s ((c * (5 * 5 * 1) + (i + 5 * (j + 5 * 0))) % 5)) = _
  have : (c * (5 * 5 * 1) + (i + 5 * (j + 5 * 0))) % 5 = i := by omega
  rw [this]

theorem pmlDemo_nonneg {s : ℕ → ℝ} (hs : ∀ i, 0 ≤ s i) : CondNonneg 5 5 1 (pmlDemo s) := by
  intro key c hkey i hi j hj k hk v hv
  obtain rfl : k = 0 := by omega
  rw [pmlDemo_get s hkey hi hj] at hv
  obtain rfl : s i = v := by simpa using hv
  exact hs i

/-- PML on the low x face only. -/
def bcPmlX : Faces String := ⟨"PML", "pec", "pec", "pec", "pec", "pec"⟩
/-- PML on the low x and low y faces. -/
def bcPmlXY : Faces String := ⟨"pml", "pec", "pml", "pec", "pec", "pec"⟩

theorem bcPmlX_iff : ∀ a < 3, ∀ s, isPml (faceName bcPmlX a s) = true ↔ a = 0 ∧ s = .lo := by
  intro a ha s
  rcases (by omega : a = 0 ∨ a = 1 ∨ a = 2) with rfl | rfl | rfl <;> cases s <;> decide

theorem bcPmlX_ok (s : ℕ → ℝ) : ∃ t', fillPml geomspace (5 / 1000) 10 2 bcPmlX (pmlDemo s) = .ok t' :=
  (C31_single_face_succeeds_iff (by omega) (by omega) (by omega) (pmlDemo_sized s) (by omega) bcPmlX_iff).2
    (show 2 + 1 < 5 by omega)

/-- Non-vacuity: the hypotheses of `C31_profile_partial` and the others hold for two PML layers on the
low x face of a `5×5×1` grid. -/
example : ∃ t', fillPml geomspace (5 / 1000) 10 2 bcPmlX (pmlDemo fun i => i) = .ok t' ∧
    CondNonneg 5 5 1 (pmlDemo fun i => i) ∧ isPml (faceName bcPmlX 0 .lo) = true := by
  obtain ⟨t', h⟩ := bcPmlX_ok fun i => i
  exact ⟨t', h, pmlDemo_nonneg fun i => by positivity, by decide⟩

/-- Full claim on the reference: on the (only) PML face, the outermost layer has the conductivity of
the layer adjacent to the PML, plus ten times its maximum with one. -/
def ReferenceAdjacent : Prop :=
  ∀ (Nx Ny Nz n : ℕ) (bc : Faces String) (t t' : Mats ℝ), 0 < Nx → 0 < Ny → 0 < Nz → 2 ≤ n → t.Sized Nx Ny Nz →
    CondNonneg Nx Ny Nz t → fillPml geomspace (5 / 1000) 10 n bc t = .ok t' →
    (∀ a < 3, ∀ s, isPml (faceName bc a s) = true ↔ a = 0 ∧ s = .lo) →
    ∀ v, t.sigma.get n (Ny / 2 : ℕ) (Nz / 2 : ℕ) (.str "x") = .ok v →
      t'.sigma.get (0 : ℕ) (0 : ℕ) (0 : ℕ) (.str "x") = .ok (v + max 1 v * 10)

/-- **C31 is false of the code for the reference of low faces**: it takes the second layer inside. -/
theorem C31_reference_refuted : ¬ ReferenceAdjacent := by
  intro hall
  have hx : Fld.Names (.str "x") 0 := Fld.names_iff.2 (by decide)
  obtain ⟨t', h⟩ := bcPmlX_ok fun i => i
  have hnn : CondNonneg 5 5 1 (pmlDemo fun i => i) := pmlDemo_nonneg fun i => by positivity
  have h1 := hall 5 5 1 2 bcPmlX _ t' (by omega) (by omega) (by omega) le_rfl (pmlDemo_sized _) hnn h bcPmlX_iff 2
    (pmlDemo_get (fun i => i) hx (i := 2) (j := 2) (by omega) (by omega))
  obtain ⟨r0, s0, mult, -, -, h2, h3⟩ := C31_profile_partial (n := 2) (bc := bcPmlX) (by omega) (by omega) (by omega)
    (pmlDemo_sized _) hnn h (axis := 0) (side := .lo) (earlier := [])
    (later := [(1, .lo), (2, .lo), (0, .hi), (1, .hi), (2, .hi)]) rfl (by decide) hx
  obtain ⟨-, hs0, hm⟩ := h3 3 2 0 rfl (by simp)
  rw [pmlDemo_get (fun i => i) hx (i := 3) (j := 2) (by omega) (by omega)] at hs0
  have hs0 : ((3 : ℕ) : ℝ) = s0 := by simpa using hs0
  obtain ⟨-, v, hv, hv0, -⟩ := h2 0 (by omega) 0 (by omega) 0 (by omega) (by decide) (by decide)
  rw [h1] at hv
  have := hv0 le_rfl (by decide)
  rw [← hs0] at hm this
  simp only [Except.ok.injEq] at hv
  rw [this, hm] at hv
  norm_num at hv

theorem fillFaces_fill {n : ℕ} {bc : Faces String} {f : ℕ × Side} {l : List (ℕ × Side)} {t t' : Mats ℝ}
    {lo hi : ℝ} (hp : isPml (faceName bc f.1 f.2) = true) (h : pmlSide geomspace lo hi n f.1 f.2 t = .ok t') :
    fillFaces geomspace lo hi n bc (f :: l) t = fillFaces geomspace lo hi n bc l t' := by
  rw [fillFaces, if_pos hp, h]; rfl

theorem fillFaces_skip {n : ℕ} {bc : Faces String} {f : ℕ × Side} {l : List (ℕ × Side)} {t : Mats ℝ}
    {lo hi : ℝ} (hp : isPml (faceName bc f.1 f.2) = false) :
    fillFaces geomspace lo hi n bc (f :: l) t = fillFaces geomspace lo hi n bc l t := by
  rw [fillFaces, if_neg (by rw [hp]; decide)]; rfl

/-- Full claim on monotonicity: along every PML face, conductivity grows strictly towards the face in
all its layers, whatever the other faces are. -/
def GrowsTowardsFace : Prop :=
  ∀ (Nx Ny Nz n : ℕ) (bc : Faces String) (t t' : Mats ℝ), 0 < Nx → 0 < Ny → 0 < Nz → t.Sized Nx Ny Nz →
    CondNonneg Nx Ny Nz t → fillPml geomspace (5 / 1000) 10 n bc t = .ok t' →
    isPml bc.xlo = true → ∀ i < Nx, ∀ i' < Nx, ∀ j < Ny, ∀ k < Nz, i < i' → i' < n →
      ∀ v v', t'.sigma.get i j k (.str "x") = .ok v → t'.sigma.get i' j k (.str "x") = .ok v' → v' < v

/-- **C31 is false of the code where two PML faces meet**: the face filled later overwrites the earlier
one, whose conductivity no longer grows towards it. -/
theorem C31_overlap_refuted : ¬ GrowsTowardsFace := by
  intro hall
  have hx : Fld.Names (.str "x") 0 := Fld.names_iff.2 (by decide)
  have hnn : CondNonneg 5 5 1 (pmlDemo fun _ => 0) := pmlDemo_nonneg fun i => le_rfl
  obtain ⟨t1, h1, e1⟩ := pmlSide_ok geomspace (5 / 1000) 10 (n := 2) (axis := 0) .lo (by omega) (by omega) (by omega)
    (by omega) (pmlDemo_sized fun _ => 0) (show 2 + 1 < 5 by omega)
  obtain ⟨t2, h2, e2⟩ := pmlSide_ok geomspace (5 / 1000) 10 (n := 2) (axis := 1) .lo (by omega) (by omega) (by omega)
    (by omega) e1.sized (show 2 + 1 < 5 by omega)
  have n0 : isPml (faceName bcPmlXY 0 .lo) = true := by decide
  have n1 : isPml (faceName bcPmlXY 1 .lo) = true := by decide
  have n2 : isPml (faceName bcPmlXY 2 .lo) = false := by decide
  have n3 : isPml (faceName bcPmlXY 0 .hi) = false := by decide
  have n4 : isPml (faceName bcPmlXY 1 .hi) = false := by decide
  have n5 : isPml (faceName bcPmlXY 2 .hi) = false := by decide
  have h : fillPml geomspace (5 / 1000) 10 2 bcPmlXY (pmlDemo fun _ => 0) = .ok t2 := by
    rw [fillPml_eq]
    unfold pmlOrder
    rw [fillFaces_fill (f := (0, .lo)) n0 h1, fillFaces_fill (f := (1, .lo)) n1 h2, fillFaces_skip (f := (2, .lo)) n2,
      fillFaces_skip (f := (0, .hi)) n3, fillFaces_skip (f := (1, .hi)) n4, fillFaces_skip (f := (2, .hi)) n5]
    rfl
  obtain ⟨s1, s2, s3⟩ := e2.sized.s
  have a1 := (e2.inside 0 (by omega) 0 (by omega) 0 (by omega) 0 (by omega) (by decide)).2
  have a2 := (e2.inside 0 (by omega) 1 (by omega) 0 (by omega) 0 (by omega) (by decide)).2
  have := hall 5 5 1 2 bcPmlXY _ t2 (by omega) (by omega) (by omega) (pmlDemo_sized _) hnn h n0 0 (by omega) 1 (by omega)
    0 (by omega) 0 (by omega) (by omega) (by omega) _ _
    (Fld.get_at3 _ hx (by omega) (by omega) (by omega)) (Fld.get_at3 _ hx (by omega) (by omega) (by omega))
  have d1 : depth 5 5 1 1 .lo 0 0 0 = 0 := rfl
  have d2 : depth 5 5 1 1 .lo 1 0 0 = 0 := rfl
  rw [a1, a2, d1, d2] at this
  exact absurd this (lt_irrefl _)

end Sol
end Wakis
