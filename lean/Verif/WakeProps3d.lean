import Verif.WakeProps
import Mathlib.Algebra.BigOperators.Field
import Mathlib.Algebra.BigOperators.Intervals
import Mathlib.Tactic.IntervalCases

/-!
# C48, C66: the wake map and counter-moving particles
-/

namespace Wakis
namespace Wake

variable {K : Type} [Field K] [LinearOrder K] [IsStrictOrderedRing K] [FloorRing K]

/-! ### the transverse loops -/

theorem flatMap_range {α : Type} (f : ℕ → ℕ → α) (A : ℕ) {B : ℕ} (hB : 0 < B) :
    ((List.range A).flatMap fun a => (List.range B).map fun b => f a b) = (List.range (A * B)).map fun m => f (m / B) (m % B) := by
  induction A with
  | zero => simp
  | succ A ih =>
    rw [List.range_succ, List.flatMap_append, ih, Nat.succ_mul, List.range_add, List.map_append]
    congr 1
    simp only [List.flatMap_cons, List.flatMap_nil, List.append_nil, List.map_map]
    refine List.map_congr_left fun b hb => ?_
    have hb' := List.mem_range.1 hb
    have e1 : (A * B + b) / B = A := by rw [Nat.mul_comm, Nat.mul_add_div hB, Nat.div_eq_of_lt hb', add_zero]
    have e2 : (A * B + b) % B = b := by rw [Nat.mul_comm, Nat.mul_add_mod, Nat.mod_eq_of_lt hb']
    simp [e1, e2]

/-- The transverse cells in loop order: cell `(a, b)` of the recorded block at position `a*(2*n0+1) + b`. -/
theorem transPairs_eq (n0 : ℕ) : transPairs n0 = (List.range ((2 * n0 + 1) * (2 * n0 + 1))).map fun m => (((m / (2 * n0 + 1) : ℕ) : ℤ) - n0, ((m % (2 * n0 + 1) : ℕ) : ℤ) - n0) := by
  rw [← flatMap_range (fun a b => ((a : ℤ) - n0, (b : ℤ) - n0)) (2 * n0 + 1) (by omega)]
  unfold transPairs offsets
  rw [List.flatMap_map]
  refine congrArg (fun F : ℕ → List (ℤ × ℤ) => (List.range (2 * n0 + 1)).flatMap F) (funext fun a => ?_)
  rw [List.map_map]
  rfl

/-! ### one cell -/

/-- The integral over the selected cells of the field recorded at transverse cell `(a, b)`, before normalisation: sum of field seen times cell length. -/
def cellSum (Nt : ℕ) (zz : List ℕ) (E : ℕ → ℕ → ℕ → ℕ → K) (vdt : K) (dist dz : ℕ → K) (a b n : ℕ) : K :=
  ∑ k ∈ Finset.range zz.length, seen Nt (fun m k => E m a b (zz.getD k 0)) vdt n k (dist (zz.getD k 0)) * dz k

theorem zzPos_lt {skip n k : ℕ} (hk : k < (zzPos skip n).length) : (zzPos skip n).getD k 0 < n := by
  rw [List.getD_eq_getElem?_getD, List.getElem?_eq_getElem hk]
  have hm : (zzPos skip n)[k] ∈ zzPos skip n := List.getElem_mem hk
  generalize (zzPos skip n)[k] = a at hm
  unfold zzPos at hm
  cases h : (zzSel skip).resolve n with
  | error e => rw [h] at hm; simp [Except.toOption] at hm
  | ok l => rw [h] at hm; exact Sel.resolve_lt h a hm

theorem rowAt_ok {nx ny nz skip a b : ℕ} {v : ℕ → ℕ → ℕ → K} {fi fj : ℕ → ℤ} (ha : pyIndex nx (fi nx) = .ok a) (hb : pyIndex ny (fj ny) = .ok b) :
    rowAt (.d3 nx ny nz v) fi fj skip (zzPos skip nz).length = .ok fun k => v a b ((zzPos skip nz).getD k 0) := by
  unfold rowAt
  simp only [ha, hb, bind, Except.bind, if_true]
  rfl

section
variable {r : Rec K} {Nt Nz nx ny : ℕ} {dt zmin zmax : K} {md : ℕ → Dset K} {E : ℕ → ℕ → ℕ → ℕ → K}

/-- What one pass of the transverse loops computes for a forward test particle: the *previous* values plus the integral of this cell, all divided by the charge. -/
theorem cell3d_ok (h : Recorded r Nt Nz dt zmin zmax md (fun n => .d3 nx ny Nz (E n))) (w : Par K) (hv : 0 < w.v) (hdt : 0 < dt) (hN' : Nt ≤ 100000)
    (hdz : (zzPos w.skip Nz).length ≤ r.ndz) (hcm : w.counterMoving = false) {i j : ℤ} {a b : ℕ}
    (ha : pyIndex nx ((nx / 2 : ℕ) + i) = .ok a) (hb : pyIndex ny ((ny / 2 : ℕ) + j) = .ok b) (ns : ℕ) (wl : K) (WP : List K) :
    cell3d w ⟨dt, zmin, zmax, zzPos w.skip Nz, wl, ns, Nt⟩ r WP (i, j) = .ok ((List.range ns).map fun n =>
      (WP.getD n 0 + cellSum Nt (zzPos w.skip Nz) E (w.v * dt) (fun k => r.zf k - zmin) r.dz a b n) / (w.q * 10 ^ 12)) := by
  have hfile : ∀ n < Nt, r.file[n]? = some (frameName n, Dset.d3 nx ny Nz (E n)) := fun n hn => by
    rw [h.file]; exact C49_frames_partial md hN' (fun n => .d3 nx ny Nz (E n)) hn
  unfold cell3d
  simp only [bind, Except.bind, hcm]
  rw [assemble_ok (c := fun m k => E m a b ((zzPos w.skip Nz).getD k 0)) hfile fun n _ => rowAt_ok ha hb]
  simp only [Bool.false_eq_true, if_false]
  rw [mapM_ok _ (fun n => WP.getD n 0 + cellSum Nt (zzPos w.skip Nz) E (w.v * dt) (fun k => r.zf k - zmin) r.dz a b n)]
  · simp only [List.map_map]
    rfl
  · intro n _
    rw [integrate_ok w _ r _ hv hdt (by rw [h.t]; simp) (fun k hk => h.least.2 _ (zzPos_lt hk)) hdz]
    refine congrArg (fun x => Except.ok (WP.getD n 0 + x)) (Finset.sum_congr rfl fun k hk => ?_)
    rw [seen_congr (b := fun m k => E m a b ((zzPos w.skip Nz).getD k 0)) (fun m hm k => by rw [getD_map_range hm]) _ (mul_pos hv hdt) n k
      (sub_nonneg.2 (h.least.2 _ (zzPos_lt (Finset.mem_range.1 hk))))]

end

/-! ### all cells -/

/-- Values obtained by repeatedly adding the next integral to the previous result and dividing by `Q`. -/
theorem chain_closed {Q : K} (hQ : Q ≠ 0) {I x : ℕ → K} (h0 : x 0 = I 0 / Q) (hs : ∀ m, x (m + 1) = (x m + I (m + 1)) / Q) (m : ℕ) :
    x m = ∑ l ∈ Finset.range (m + 1), I l / Q ^ (m + 1 - l) := by
  induction m with
  | zero => simp [h0]
  | succ m ih =>
    rw [hs, ih, add_div, Finset.sum_div, Finset.sum_range_succ _ (m + 1)]
    congr 1
    · refine Finset.sum_congr rfl fun l hl => ?_
      have := Finset.mem_range.1 hl
      rw [show m + 1 + 1 - l = (m + 1 - l) + 1 by omega, pow_succ, div_div]
    · rw [show m + 1 + 1 - (m + 1) = 1 by omega, pow_one]

theorem cells3d_ok {w : Par K} {su : Setup K} {r : Rec K} {I : ℤ × ℤ → ℕ → K} {Q : K}
    (hc : ∀ (WP : List K) (ij : ℤ × ℤ), ij ∈ transPairs w.nTrans → cell3d w su r WP ij = .ok ((List.range su.ns).map fun n => (WP.getD n 0 + I ij n) / Q)) :
    ∀ (l : List (ℤ × ℤ)) (x : ℕ → K), (∀ ij ∈ l, ij ∈ transPairs w.nTrans) → ∃ y : ℕ → ℕ → K,
      cells3d w su r ((List.range su.ns).map x) l = .ok ((List.range l.length).map fun m => (List.range su.ns).map (y m)) ∧
      (∀ n, y 0 n = (x n + I (l.getD 0 (0, 0)) n) / Q) ∧ ∀ m n, y (m + 1) n = (y m n + I (l.getD (m + 1) (0, 0)) n) / Q
  | [], x, _ => ⟨fun m n => Nat.rec ((x n + I (0, 0) n) / Q) (fun _ v => (v + I (0, 0) n) / Q) m, rfl, fun _ => rfl, fun _ _ => rfl⟩
  | ij :: l, x, hl => by
    have hx : cell3d w su r ((List.range su.ns).map x) ij = .ok ((List.range su.ns).map fun n => (x n + I ij n) / Q) := by
      rw [hc _ _ (hl ij (List.mem_cons_self))]
      refine congrArg Except.ok (List.map_congr_left fun n hn => ?_)
      rw [List.getD_eq_getElem?_getD, List.getElem?_map, List.getElem?_range (List.mem_range.1 hn)]
      rfl
    obtain ⟨y, hy, h0, hs⟩ := cells3d_ok hc l (fun n => (x n + I ij n) / Q) fun a ha => hl a (List.mem_cons_of_mem _ ha)
    refine ⟨fun m n => match m with | 0 => (x n + I ij n) / Q | m + 1 => y m n, ?_, fun n => rfl, fun m n => ?_⟩
    · unfold cells3d
      simp only [hx, hy, bind, Except.bind, List.length_cons, List.range_succ_eq_map, List.map_cons, List.map_map]
      rfl
    · cases m with
      | zero => exact h0 n
      | succ m => exact hs m n

section
variable {r : Rec K} {Nt Nz : ℕ} {dt zmin zmax : K} {md : ℕ → Dset K} {E : ℕ → ℕ → ℕ → ℕ → K}

/-- Integral of the `m`-th transverse cell in loop order. -/
def cellIntegral (w : Par K) (r : Rec K) (Nt Nz : ℕ) (dt zmin : K) (E : ℕ → ℕ → ℕ → ℕ → K) (m n : ℕ) : K :=
  cellSum Nt (zzPos w.skip Nz) E (w.v * dt) (fun k => r.zf k - zmin) r.dz (m / (2 * w.nTrans + 1)) (m % (2 * w.nTrans + 1)) n

/-- The wake length and number of s samples in use. -/
def nsOf (w : Par K) (Nt : ℕ) (dt zmin zmax : K) : ℕ := arangeLen (-w.ti * w.v) (lengthOf w Nt dt zmin zmax) (dt * w.v)

theorem calcLongWP3d_ok (w : Par K) (h : Recorded r Nt Nz dt zmin zmax md (fun n => .d3 (2 * w.nTrans + 1) (2 * w.nTrans + 1) Nz (E n))) (hv : 0 < w.v) (hdt : 0 < dt)
    (hN : 3 ≤ Nt) (hN' : Nt ≤ 100000) (hdz : (zzPos w.skip Nz).length ≤ r.ndz) (hcm : w.counterMoving = false) :
    ∃ y : ℕ → ℕ → K, calcLongWP3d w r = .ok ((List.range (nsOf w Nt dt zmin zmax)).map fun n : ℕ => -w.ti * w.v + (n : K) * (dt * w.v),
        (List.range ((2 * w.nTrans + 1) * (2 * w.nTrans + 1))).map fun m => (List.range (nsOf w Nt dt zmin zmax)).map (y m)) ∧
      (∀ n, y 0 n = cellIntegral w r Nt Nz dt zmin E 0 n / (w.q * 10 ^ 12)) ∧
      ∀ m n, m + 1 < (2 * w.nTrans + 1) * (2 * w.nTrans + 1) → y (m + 1) n = (y m n + cellIntegral w r Nt Nz dt zmin E (m + 1) n) / (w.q * 10 ^ 12) := by
  obtain ⟨y, hy, h0, hs⟩ := cells3d_ok (w := w) (r := r) (Q := w.q * 10 ^ 12)
    (su := ⟨dt, zmin, zmax, zzPos w.skip Nz, lengthOf w Nt dt zmin zmax, nsOf w Nt dt zmin zmax, Nt⟩)
    (I := fun ij n => cellSum Nt (zzPos w.skip Nz) E (w.v * dt) (fun k => r.zf k - zmin) r.dz (ij.1 + w.nTrans).toNat (ij.2 + w.nTrans).toNat n) (by
      intro WP ij hij
      rw [transPairs_eq] at hij
      obtain ⟨m, hm, rfl⟩ := List.mem_map.1 hij
      have hm' := List.mem_range.1 hm
      have h1 : m / (2 * w.nTrans + 1) < 2 * w.nTrans + 1 := Nat.div_lt_of_lt_mul hm'
      have h2 : m % (2 * w.nTrans + 1) < 2 * w.nTrans + 1 := Nat.mod_lt _ (by omega)
      rw [cell3d_ok h w hv hdt hN' hdz hcm (a := m / (2 * w.nTrans + 1)) (b := m % (2 * w.nTrans + 1)) (pyIndex_ok_iff.2 ⟨h1, .inl (by omega)⟩) (pyIndex_ok_iff.2 ⟨h2, .inl (by omega)⟩)]
      have e1 : ((((m / (2 * w.nTrans + 1) : ℕ) : ℤ) - w.nTrans) + w.nTrans).toNat = m / (2 * w.nTrans + 1) := by rw [sub_add_cancel, Int.toNat_natCast]
      have e2 : ((((m % (2 * w.nTrans + 1) : ℕ) : ℤ) - w.nTrans) + w.nTrans).toNat = m % (2 * w.nTrans + 1) := by rw [sub_add_cancel, Int.toNat_natCast]
      simp only [e1, e2])
    (transPairs w.nTrans) (fun _ => 0) fun _ h => h
  have hlen : (transPairs w.nTrans).length = (2 * w.nTrans + 1) * (2 * w.nTrans + 1) := by rw [transPairs_eq, List.length_map, List.length_range]
  have hI : ∀ m < (2 * w.nTrans + 1) * (2 * w.nTrans + 1), ∀ n, cellSum Nt (zzPos w.skip Nz) E (w.v * dt) (fun k => r.zf k - zmin) r.dz
      (((transPairs w.nTrans).getD m (0, 0)).1 + w.nTrans).toNat (((transPairs w.nTrans).getD m (0, 0)).2 + w.nTrans).toNat n = cellIntegral w r Nt Nz dt zmin E m n := by
    intro m hm n
    have e : (transPairs w.nTrans).getD m (0, 0) = (((m / (2 * w.nTrans + 1) : ℕ) : ℤ) - w.nTrans, ((m % (2 * w.nTrans + 1) : ℕ) : ℤ) - w.nTrans) := by
      rw [transPairs_eq, List.getD_eq_getElem?_getD, List.getElem?_map, List.getElem?_range hm]
      rfl
    rw [e]
    have e1 : ((((m / (2 * w.nTrans + 1) : ℕ) : ℤ) - w.nTrans) + w.nTrans).toNat = m / (2 * w.nTrans + 1) := by rw [sub_add_cancel, Int.toNat_natCast]
    have e2 : ((((m % (2 * w.nTrans + 1) : ℕ) : ℤ) - w.nTrans) + w.nTrans).toNat = m % (2 * w.nTrans + 1) := by rw [sub_add_cancel, Int.toNat_natCast]
    simp only [e1, e2]
    rfl
  refine ⟨y, ?_, fun n => ?_, fun m n hm => ?_⟩
  · unfold calcLongWP3d
    rw [h.setup_eq w hN]
    have hrep : List.replicate (nsOf w Nt dt zmin zmax) (0 : K) = (List.range (nsOf w Nt dt zmin zmax)).map fun _ => 0 := by
      rw [List.map_const', List.length_range]
    simp only [bind, Except.bind]
    unfold nsOf at hy hrep
    rw [hrep, hy, hlen]
    rfl
  · rw [h0, hI 0 (by positivity), zero_add]
  · rw [hs, hI (m + 1) hm]

/-- **C48 (what the code computes).** On a recorded block of `2*n+1` by `2*n+1` transverse cells, the value of the `m`-th cell in loop order is the sum of the integrals of
*all cells up to it*, the one of cell `l` divided by the charge (in pC) to the power `m+1-l`. -/
theorem C48_actual (w : Par K) (h : Recorded r Nt Nz dt zmin zmax md (fun n => .d3 (2 * w.nTrans + 1) (2 * w.nTrans + 1) Nz (E n))) (hv : 0 < w.v) (hdt : 0 < dt)
    (hN : 3 ≤ Nt) (hN' : Nt ≤ 100000) (hdz : (zzPos w.skip Nz).length ≤ r.ndz) (hcm : w.counterMoving = false) (hq : w.q ≠ 0) :
    calcLongWP3d w r = .ok ((List.range (nsOf w Nt dt zmin zmax)).map fun n : ℕ => -w.ti * w.v + (n : K) * (dt * w.v),
        (List.range ((2 * w.nTrans + 1) * (2 * w.nTrans + 1))).map fun m => (List.range (nsOf w Nt dt zmin zmax)).map fun n =>
          ∑ l ∈ Finset.range (m + 1), cellIntegral w r Nt Nz dt zmin E l n / (w.q * 10 ^ 12) ^ (m + 1 - l)) := by
  obtain ⟨y, hy, h0, hs⟩ := calcLongWP3d_ok w h hv hdt hN hN' hdz hcm
  rw [hy]
  refine congrArg (fun x => Except.ok (_, x)) (List.map_congr_left fun m hm => List.map_congr_left fun n _ => ?_)
  have hQ : w.q * 10 ^ 12 ≠ 0 := mul_ne_zero hq (by positivity)
  have hm' := List.mem_range.1 hm
  -- extend the recursion beyond the last cell
  obtain ⟨x, hx0, hxs⟩ : ∃ x : ℕ → K, x 0 = cellIntegral w r Nt Nz dt zmin E 0 n / (w.q * 10 ^ 12) ∧
      ∀ m, x (m + 1) = (x m + cellIntegral w r Nt Nz dt zmin E (m + 1) n) / (w.q * 10 ^ 12) :=
    ⟨fun m => Nat.rec (cellIntegral w r Nt Nz dt zmin E 0 n / (w.q * 10 ^ 12)) (fun m v => (v + cellIntegral w r Nt Nz dt zmin E (m + 1) n) / (w.q * 10 ^ 12)) m, rfl, fun _ => rfl⟩
  have hxy : ∀ m < (2 * w.nTrans + 1) * (2 * w.nTrans + 1), y m n = x m := by
    intro m hm
    induction m with
    | zero => rw [h0, hx0]
    | succ m ih => rw [hs m n hm, hxs, ih (by omega)]
  rw [hxy m hm']
  exact chain_closed (I := fun m => cellIntegral w r Nt Nz dt zmin E m n) hQ hx0 hxs m

/-- **C48 (partial).** The value of every cell times the charge is the integral of the field recorded at that cell plus the value of the cell computed before it; the first
cell is exact. -/
theorem C48_cell_partial (w : Par K) (h : Recorded r Nt Nz dt zmin zmax md (fun n => .d3 (2 * w.nTrans + 1) (2 * w.nTrans + 1) Nz (E n))) (hv : 0 < w.v) (hdt : 0 < dt)
    (hN : 3 ≤ Nt) (hN' : Nt ≤ 100000) (hdz : (zzPos w.skip Nz).length ≤ r.ndz) (hcm : w.counterMoving = false) (hq : w.q ≠ 0) :
    ∃ y : ℕ → ℕ → K, calcLongWP3d w r = .ok ((List.range (nsOf w Nt dt zmin zmax)).map fun n : ℕ => -w.ti * w.v + (n : K) * (dt * w.v),
        (List.range ((2 * w.nTrans + 1) * (2 * w.nTrans + 1))).map fun m => (List.range (nsOf w Nt dt zmin zmax)).map (y m)) ∧
      (∀ n, y 0 n = cellIntegral w r Nt Nz dt zmin E 0 n / (w.q * 10 ^ 12)) ∧
      ∀ m n, m + 1 < (2 * w.nTrans + 1) * (2 * w.nTrans + 1) → y (m + 1) n * (w.q * 10 ^ 12) = cellIntegral w r Nt Nz dt zmin E (m + 1) n + y m n := by
  obtain ⟨y, hy, h0, hs⟩ := calcLongWP3d_ok w h hv hdt hN hN' hdz hcm
  refine ⟨y, hy, h0, fun m n hm => ?_⟩
  have hQ : w.q * 10 ^ 12 ≠ 0 := mul_ne_zero hq (by positivity)
  rw [hs m n hm, div_mul_cancel₀ _ hQ, add_comm]

end

/-! ### the refutation -/

/-- A run of three steps on one cell with 3 × 3 recorded columns; the field is `a` in the corner column and zero elsewhere. -/
def cornerRec (a : ℚ) : Rec ℚ :=
  ⟨3, fun i => i * 1, 1, fun _ => 0, 1, fun _ => 1, H5.ofWrites (wakeWrites (fun _ => .d1 0 0) 3 fun _ => .d3 3 3 1 fun i j _ => if i = 0 ∧ j = 0 then a else 0)⟩

def cornerPar : Par ℚ := ⟨1, 1, 0, some 1, 0, false, 1⟩

theorem cornerRec_recorded (a : ℚ) : Recorded (cornerRec a) 3 1 1 0 0 (fun _ => .d1 0 0) (fun _ => .d3 (2 * cornerPar.nTrans + 1) (2 * cornerPar.nTrans + 1) 1 fun i j _ => if i = 0 ∧ j = 0 then a else 0) where
  nt := rfl
  t := fun _ => rfl
  nzf := rfl
  least := ⟨⟨0, by norm_num, rfl⟩, fun _ _ => le_refl _⟩
  greatest := ⟨⟨0, by norm_num, rfl⟩, fun _ _ => le_refl _⟩
  file := rfl

/-- The wake computed at the centre (position 4 of 9). -/
def centreOf (r : Py (List ℚ × List (List ℚ))) : Option (List ℚ) := r.toOption.bind fun x => x.2[4]?

/-- **C48 (refuted).** The wake at the centre depends on the field recorded in the corner column: it is not zero although the field at the centre is. -/
theorem C48_refuted : centreOf (calcLongWP3d cornerPar (cornerRec 1)) = some [1 / (10 ^ 12) ^ 5] ∧ centreOf (calcLongWP3d cornerPar (cornerRec 0)) = some [0] := by
  have hz1 : (zzPos cornerPar.skip 1).length = 1 := by decide
  have hns : nsOf cornerPar 3 1 0 0 = 1 := by norm_num [nsOf, cornerPar, arangeLen, lengthOf]
  have hI : ∀ a m, cellIntegral cornerPar (cornerRec a) 3 1 1 0 (fun _ i j _ => if i = 0 ∧ j = 0 then a else 0) m 0 = if m / 3 = 0 ∧ m % 3 = 0 then a else 0 := by
    intro a m
    have hz : zzPos cornerPar.skip 1 = [0] := by decide
    unfold cellIntegral cellSum
    rw [hz]
    simp [seen, cornerPar, cornerRec]
  have key : ∀ a, centreOf (calcLongWP3d cornerPar (cornerRec a)) = some [a / (10 ^ 12) ^ 5] := by
    intro a
    rw [C48_actual cornerPar (cornerRec_recorded a) (by norm_num [cornerPar]) (by norm_num) (by norm_num) (by norm_num) (by rw [hz1]; exact le_refl 1) rfl (by norm_num [cornerPar]), hns]
    unfold centreOf
    simp only [Except.toOption, Option.bind_some]
    rw [List.getElem?_map, List.getElem?_range (by decide)]
    simp only [Option.map_some, List.range_one, List.map_cons, List.map_nil, Finset.sum_range_succ, Finset.sum_range_zero, hI]
    norm_num [cornerPar]
  exact ⟨by rw [key 1], by rw [key 0]; norm_num⟩

/-! ### C66: counter-moving particles -/

theorem timeIndexBack_eq (w : Par K) (su : Setup K) (hv : 0 < w.v) (hdt : 0 < su.dt) {z : K} (hz : z ≤ su.zmax) (n : ℕ) :
    timeIndexBack w su 0 z (sAxis w su n) = n + ⌊(su.zmax - z) / (w.v * su.dt)⌋ := by
  have e : ((z - sAxis w su n) / (-1 * w.v) - su.zmax / (-1 * w.v) - 0 + w.ti) / su.dt = (n : K) + (su.zmax - z) / (w.v * su.dt) := by
    unfold sAxis
    field_simp
    ring
  have hp : 0 ≤ (su.zmax - z) / (w.v * su.dt) := div_nonneg (sub_nonneg.2 hz) (mul_pos hv hdt).le
  unfold timeIndexBack pyInt
  rw [e, if_pos (add_nonneg (Nat.cast_nonneg n) hp), Int.floor_natCast_add]

/-- What is computed for a counter-moving particle: the field seen on the way from the last cell back, with the sign reversed; the weight of the cell `k` cells *before the
last* is the length of cell `k`. -/
theorem integrateBack_ok (w : Par K) (su : Setup K) (r : Rec K) (Ezt : List (ℕ → K)) (hv : 0 < w.v) (hdt : 0 < su.dt) (ht : r.t 0 = 0)
    (hz : ∀ k < su.zz.length, r.zf (su.zz.getD k 0) ≤ su.zmax) (hd : su.zz.length ≤ r.ndz) (n : ℕ) (acc : K) :
    integrateBack w su r Ezt n acc = .ok (acc - ∑ k ∈ Finset.range su.zz.length,
      seen su.nt (fun m => Ezt.getD m fun _ => 0) (w.v * su.dt) n (su.zz.length - 1 - k) (su.zmax - r.zf (su.zz.getD (su.zz.length - 1 - k) 0)) * r.dz k) := by
  unfold integrateBack
  rw [foldlM_add su.zz.length acc (g := fun k => -(seen su.nt (fun m => Ezt.getD m fun _ => 0) (w.v * su.dt) n (su.zz.length - 1 - k)
    (su.zmax - r.zf (su.zz.getD (su.zz.length - 1 - k) 0)) * r.dz k)), Finset.sum_neg_distrib, ← sub_eq_add_neg]
  intro a k hk
  have hk' : su.zz.length - 1 - k < su.zz.length := by omega
  have h0 : 0 ≤ ⌊(su.zmax - r.zf (su.zz.getD (su.zz.length - 1 - k) 0)) / (w.v * su.dt)⌋ := Int.floor_nonneg.2 (div_nonneg (sub_nonneg.2 (hz _ hk')) (mul_pos hv hdt).le)
  simp only
  rw [ht, timeIndexBack_eq w su hv hdt (hz _ hk'), addSample_ok (by omega) (by omega)]
  unfold seen
  split_ifs
  · congr 1; ring
  · rw [zero_mul, neg_zero]

/-- **C66 (partial).** If the cell lengths are the same read from either end (in particular uniform), a counter-moving particle sees minus the line integral: every cell with
its own length. -/
theorem C66_back_partial (w : Par K) (su : Setup K) (r : Rec K) (Ezt : List (ℕ → K)) (hv : 0 < w.v) (hdt : 0 < su.dt) (ht : r.t 0 = 0)
    (hz : ∀ k < su.zz.length, r.zf (su.zz.getD k 0) ≤ su.zmax) (hd : su.zz.length ≤ r.ndz) (hsym : ∀ k < su.zz.length, r.dz (su.zz.length - 1 - k) = r.dz k) (n : ℕ) (acc : K) :
    integrateBack w su r Ezt n acc = .ok (acc - ∑ k ∈ Finset.range su.zz.length,
      seen su.nt (fun m => Ezt.getD m fun _ => 0) (w.v * su.dt) n k (su.zmax - r.zf (su.zz.getD k 0)) * r.dz k) := by
  rw [integrateBack_ok w su r Ezt hv hdt ht hz hd, ← Finset.sum_range_reflect]
  refine congrArg (fun x => Except.ok (acc - x)) (Finset.sum_congr rfl fun k hk => ?_)
  have hk' := Finset.mem_range.1 hk
  rw [hsym k hk', show su.zz.length - 1 - (su.zz.length - 1 - k) = k by omega]

/-- **C66 (refuted).** With unequal cell lengths the weights are those of the mirrored cells: a field of one in the first cell only, of length 2, contributes with the length
3 of the last cell. -/
theorem C66_refuted : ∃ (w : Par ℚ) (su : Setup ℚ) (r : Rec ℚ), 0 < w.v ∧ 0 < su.dt ∧ su.zz = [0, 1] ∧ r.dz 0 = 2 ∧ r.dz 1 = 3 ∧
    integrateBack w su r [fun k => if k = 0 then 1 else 0, fun k => if k = 0 then 1 else 0] 0 0 = .ok (-3) := by
  refine ⟨⟨1, 1, 0, none, 0, true, 1⟩, ⟨2, 0, 1, [0, 1], 1, 1, 2⟩, ⟨2, fun i => 2 * i, 2, fun k => k, 2, fun k => if k = 0 then 2 else 3, []⟩, by norm_num, by norm_num, rfl, by norm_num, by norm_num, ?_⟩
  rw [integrateBack_ok _ _ _ _ (by norm_num) (by norm_num) (by norm_num)]
  · norm_num [Finset.sum_range_succ, seen]
  · intro k hk
    have : k < 2 := hk
    interval_cases k <;> norm_num
  · exact le_refl 2

end Wake
end Wakis
