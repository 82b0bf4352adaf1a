import Verif.SourceModel
import Mathlib.MeasureTheory.Integral.IntegralEqImproper

/-!
# Sources: cells written, currents, times and pulse shapes (C41, C42, C44, C45)
-/

namespace Wakis
namespace Src
open Fld

/-! ### C44: nearest cell -/

theorem argminUpTo_spec (f : ℕ → ℝ) (n : ℕ) : argminUpTo f n ≤ n ∧ (∀ i ≤ n, f (argminUpTo f n) ≤ f i) ∧ ∀ i < argminUpTo f n, f (argminUpTo f n) < f i := by
  induction n with
  | zero =>
    refine ⟨le_refl _, fun i hi => ?_, fun i hi => ?_⟩
    · have : i = 0 := by omega
      subst this; exact le_refl _
    · simp only [argminUpTo] at hi; omega
  | succ n ih =>
    obtain ⟨h1, h2, h3⟩ := ih
    unfold argminUpTo
    split_ifs with h
    · refine ⟨le_refl _, fun i hi => ?_, fun i hi => ?_⟩
      · rcases Nat.lt_or_ge n i with hh | hh
        · have : i = n + 1 := by omega
          subst this; exact le_refl _
        · exact h.le.trans (h2 i hh)
      · exact lt_of_lt_of_le h (h2 i (by omega))
    · refine ⟨by omega, fun i hi => ?_, h3⟩
      rcases Nat.lt_or_ge n i with hh | hh
      · have : i = n + 1 := by omega
        subst this; exact not_lt.1 h
      · exact h2 i hh

/-- Cell `r` is the nearest of the `n` cell centres `x` to the coordinate `a`, the first one in case of ties. -/
def IsNearest (n : ℕ) (x : ℕ → ℝ) (a : ℝ) (r : ℕ) : Prop :=
  r < n ∧ (∀ i < n, |x r - a| ≤ |x i - a|) ∧ ∀ i < r, |x r - a| < |x i - a|

/-- **C44.** On every non-empty axis every coordinate is mapped to a cell whose centre is at minimal distance, the
lowest-index one on ties. -/
theorem C44_nearest {n : ℕ} (hn : 0 < n) (x : ℕ → ℝ) (a : ℝ) : ∃ r, nearest n x a = .ok r ∧ IsNearest n x a r := by
  obtain ⟨h1, h2, h3⟩ := argminUpTo_spec (fun i => |x i - a|) (n - 1)
  refine ⟨_, if_neg (by omega), by omega, fun i hi => h2 i (by omega), h3⟩

/-- The nearest cell is unique. -/
theorem C44_unique {n : ℕ} {x : ℕ → ℝ} {a : ℝ} {r r' : ℕ} (h : IsNearest n x a r) (h' : IsNearest n x a r') : r = r' := by
  by_contra hne
  rcases lt_or_gt_of_ne hne with hlt | hlt
  · exact absurd (h'.2.2 r hlt) (not_lt.2 (h.2.1 r' h'.1))
  · exact absurd (h.2.2 r' hlt) (not_lt.2 (h'.2.1 r h.1))

theorem nearest_iff {n : ℕ} {x : ℕ → ℝ} {a : ℝ} {r : ℕ} : nearest n x a = .ok r ↔ IsNearest n x a r := by
  constructor
  · intro h
    have hn : 0 < n := by
      by_contra hh
      rw [nearest, if_pos (by omega)] at h
      cases h
    obtain ⟨r', p, q⟩ := C44_nearest hn x a
    rw [h] at p; cases p; exact q
  · intro h
    obtain ⟨r', p, q⟩ := C44_nearest (Nat.lt_of_le_of_lt (Nat.zero_le _) h.1) x a
    rw [p, C44_unique q h]

/-- **C44 (inside the grid).** For cell edges `e 0 < e 1 < …` and centres halfway between them, a coordinate strictly inside a cell of a
uniform grid is mapped to that cell. -/
theorem C44_inside {n : ℕ} {e : ℕ → ℝ} {h : ℝ} (hh : 0 < h) (he : ∀ i, e i = e 0 + i * h) {a : ℝ} {m : ℕ} (hm : m < n) (h1 : e m < a) (h2 : a < e (m + 1)) :
    nearest n (fun i => (e i + e (i + 1)) / 2) a = .ok m := by
  rw [nearest_iff]
  have hx : ∀ i : ℕ, (e i + e (i + 1)) / 2 = e 0 + i * h + h / 2 := by
    intro i; rw [he i, he (i + 1)]; push_cast; ring
  rw [he m] at h1
  rw [he (m + 1)] at h2
  push_cast at h2
  have far : ∀ i : ℕ, i ≠ m → |(e m + e (m + 1)) / 2 - a| < |(e i + e (i + 1)) / 2 - a| := by
    intro i hi
    rw [hx, hx]
    have hc : |e 0 + (m : ℝ) * h + h / 2 - a| < h / 2 := by rw [abs_lt]; constructor <;> nlinarith
    refine lt_of_lt_of_le hc ?_
    rcases lt_or_gt_of_ne hi with hlt | hlt
    · have : ((i : ℝ) + 1) * h ≤ (m : ℝ) * h := by
        refine mul_le_mul_of_nonneg_right ?_ hh.le
        exact_mod_cast hlt
      rw [le_abs]; right; nlinarith
    · have : ((m : ℝ) + 1) * h ≤ (i : ℝ) * h := by
        refine mul_le_mul_of_nonneg_right ?_ hh.le
        exact_mod_cast hlt
      rw [le_abs]; left; nlinarith
  refine ⟨hm, fun i _ => ?_, fun i hi => far i (by omega)⟩
  by_cases hi : i = m
  · subst hi; exact le_refl _
  · exact (far i hi).le

example : nearest 4 (fun i => ((i : ℝ) + (i + 1 : ℕ)) / 2) 2.25 = .ok 2 :=
  C44_inside (e := fun i => (i : ℝ)) (h := 1) (by norm_num) (by simp) (by norm_num) (by norm_num) (by norm_num)

/-! ### C41: cells written -/

/-- Python index `s` selects position `i` of an axis of length `n`. -/
def Selects (s : Sel) (n i : ℕ) : Prop := ∃ l, s.resolve n = .ok l ∧ i ∈ l

/-- `g` has the size of `f` and, outside the cells `P c i j k`, the same values. -/
def SameBut (P : ℕ → ℕ → ℕ → ℕ → Prop) (f g : Fld ℝ) : Prop :=
  g.Nx = f.Nx ∧ g.Ny = f.Ny ∧ g.Nz = f.Nz ∧ ∀ key c i j k, Names key c → i < f.Nx → j < f.Ny → k < f.Nz → ¬ P c i j k →
    g.get (i : ℤ) (j : ℤ) (k : ℤ) key = f.get (i : ℤ) (j : ℤ) (k : ℤ) key

theorem setitem_inv {f g : Fld ℝ} {kx ky kz : Sel} {key : CKey} {v : Rhs ℝ} (h : f.setitem (.tup kx ky kz key) v = .ok g) :
    ∃ c xs ys zs, Names key c ∧ kx.resolve f.Nx = .ok xs ∧ ky.resolve f.Ny = .ok ys ∧ kz.resolve f.Nz = .ok zs := by
  cases hc : compOf key with
  | none => simp [setitem, toMatrix, hc] at h
  | some c =>
    cases hx : kx.resolve f.Nx with
    | error e => simp [setitem, toMatrix, hc, assign3, resolve3, hx, bind, Except.bind] at h
    | ok xs =>
      cases hy : ky.resolve f.Ny with
      | error e => simp [setitem, toMatrix, hc, assign3, resolve3, hx, hy, bind, Except.bind] at h
      | ok ys =>
        cases hz : kz.resolve f.Nz with
        | error e => simp [setitem, toMatrix, hc, assign3, resolve3, hx, hy, hz, bind, Except.bind] at h
        | ok zs => exact ⟨c, xs, ys, zs, names_iff.2 hc, rfl, rfl, rfl⟩

theorem setitem_same {f g : Fld ℝ} {kx ky kz : Sel} {key : CKey} {v : Rhs ℝ} (h : f.setitem (.tup kx ky kz key) v = .ok g) :
    SameBut (fun c i j k => Names key c ∧ Selects kx f.Nx i ∧ Selects ky f.Ny j ∧ Selects kz f.Nz k) f g := by
  obtain ⟨c, xs, ys, zs, hc, hx, hy, hz⟩ := setitem_inv h
  obtain ⟨d1, d2, d3⟩ := set_dims h
  refine ⟨d1, d2, d3, fun key' c' i j k hc' hi hj hk hn => ?_⟩
  rw [C01_block_write f g hc hx hy hz h hc' hi hj hk, if_neg]
  rintro ⟨rfl, q1, q2, q3⟩
  exact hn ⟨hc, ⟨xs, hx, q1⟩, ⟨ys, hy, q2⟩, ⟨zs, hz, q3⟩⟩

/-- The transverse cell of a beam on a grid. -/
def Beam.At (b : Beam) (g : Grd) (i j : ℕ) : Prop := IsNearest g.Nx g.x b.xsource i ∧ IsNearest g.Ny g.y b.ysource j

/-- The beam has not been used yet, or only with this grid. -/
def Beam.Fits (b : Beam) (g : Grd) : Prop := b.cache = none ∨ ∃ b0 : Beam, b0.cache = none ∧ b0.xsource = b.xsource ∧ b0.ysource = b.ysource ∧ (∃ c, b.cache = some c ∧ b0.locate g = .ok c)

theorem Beam.locate_at {b : Beam} {g : Grd} (hb : b.cache = none) {c : ℕ × ℕ × ℝ} (h : b.locate g = .ok c) : b.At g c.1 c.2.1 := by
  unfold Beam.locate at h
  rw [hb] at h
  simp only [bind, Except.bind] at h
  cases h1 : nearest g.Nx g.x b.xsource with
  | error e => rw [h1] at h; cases h
  | ok i =>
    rw [h1] at h
    simp only at h
    cases h2 : nearest g.Ny g.y b.ysource with
    | error e => rw [h2] at h; cases h
    | ok j =>
      rw [h2] at h
      simp only at h
      have hc : c.1 = i ∧ c.2.1 = j := by
        cases hZ : g.ZMIN with
        | none =>
          rw [hZ] at h
          simp only at h
          cases h3 : minOf g.Nz g.z with
          | error e => rw [h3] at h; cases h
          | ok m => rw [h3] at h; cases h; exact ⟨rfl, rfl⟩
        | some Z =>
          rw [hZ] at h
          simp only at h
          cases h3 : nearest g.Nz g.z Z with
          | error e => rw [h3] at h; cases h
          | ok m => rw [h3] at h; cases h; exact ⟨rfl, rfl⟩
      rw [hc.1, hc.2]
      exact ⟨nearest_iff.1 h1, nearest_iff.1 h2⟩

theorem Beam.locate_congr {b b0 : Beam} {g : Grd} (h0 : b0.cache = none) (h : b.cache = none) (e1 : b0.xsource = b.xsource) (e2 : b0.ysource = b.ysource) :
    b0.locate g = b.locate g := by
  unfold Beam.locate; rw [h0, h, e1, e2]

theorem Beam.fits_locate {b : Beam} {g : Grd} (hb : b.Fits g) {c : ℕ × ℕ × ℝ} (h : b.locate g = .ok c) :
    ∃ b0 : Beam, b0.cache = none ∧ b0.xsource = b.xsource ∧ b0.ysource = b.ysource ∧ b0.locate g = .ok c := by
  rcases hb with hb | ⟨b0, h0, e1, e2, c', hc, hl⟩
  · exact ⟨b, hb, rfl, rfl, h⟩
  · unfold Beam.locate at h
    rw [hc] at h
    cases h
    exact ⟨b0, h0, e1, e2, hl⟩

theorem Beam.update_inv {b b' : Beam} {g : Grd} {F F' : Flds} {t : ℝ} (h : b.update g F t = .ok (b', F')) :
    ∃ c sg J, b.locate g = .ok c ∧ b.sigmaz = some sg ∧ b' = { b with cache := some c } ∧ F' = { F with J := J } ∧
      F.J.setitem (.tup (.int c.1) (.int c.2.1) .all (.str "z"))
        (.arr (1, 1, g.Nz) fun _ _ k => b.q * b.v * b.profile c.2.2 sg (g.z k) t / g.dx c.1 / g.dy c.2.1) = .ok J := by
  unfold Beam.update at h
  simp only [bind, Except.bind] at h
  cases hl : b.locate g with
  | error e => rw [hl] at h; cases h
  | ok c =>
    rw [hl] at h
    simp only at h
    cases hs : b.sigmaz with
    | none => rw [hs] at h; cases h
    | some sg =>
      rw [hs] at h
      simp only at h
      cases hJ : F.J.setitem (.tup (.int c.1) (.int c.2.1) .all (.str "z"))
        (.arr (1, 1, g.Nz) fun _ _ k => b.q * b.v * b.profile c.2.2 sg (g.z k) t / g.dx c.1 / g.dy c.2.1) with
      | error e => rw [hJ] at h; cases h
      | ok J => rw [hJ] at h; cases h; exact ⟨c, sg, J, rfl, rfl, rfl, rfl, hJ⟩

/-- **C41 (beam).** At every time an update of the beam changes only Jz, and only on the transverse cell nearest to the source
position.  `Fits` is kept, so this holds for every update of a run on one grid. -/
theorem C41_beam {b b' : Beam} {g : Grd} {F F' : Flds} {t : ℝ} (hb : b.Fits g) (hx : F.J.Nx = g.Nx) (hy : F.J.Ny = g.Ny)
    (h : b.update g F t = .ok (b', F')) :
    F'.E = F.E ∧ F'.H = F.H ∧ b'.Fits g ∧ SameBut (fun c i j _ => c = 2 ∧ IsNearest g.Nx g.x b.xsource i ∧ IsNearest g.Ny g.y b.ysource j) F.J F'.J := by
  obtain ⟨c, sg, J, hl, -, rfl, rfl, hJ⟩ := Beam.update_inv h
  obtain ⟨b0, h0, e1, e2, hl0⟩ := Beam.fits_locate hb hl
  refine ⟨rfl, rfl, .inr ⟨b0, h0, e1, e2, c, rfl, hl0⟩, ?_⟩
  obtain ⟨d1, d2, d3, hs⟩ := setitem_same hJ
  refine ⟨d1, d2, d3, fun key c' i j k hc' hi hj hk hn => hs key c' i j k hc' hi hj hk ?_⟩
  rintro ⟨q0, ⟨lx, q1, q1'⟩, ⟨ly, q2, q2'⟩, -⟩
  refine hn ⟨?_, ?_, ?_⟩
  · have := names_iff.1 q0
    have e : compOf (.str "z") = some 2 := by decide
    rw [e] at this; cases this; rfl
  · have hat := (Beam.locate_at h0 hl0).1
    rw [e1] at hat
    have : c.1 < F.J.Nx := by rw [hx]; exact hat.1
    simp only [Sel.resolve, pyIndex_natCast this, Except.map] at q1
    cases q1
    rw [List.mem_singleton] at q1'
    rw [q1']; exact hat
  · have hat := (Beam.locate_at h0 hl0).2
    rw [e2] at hat
    have : c.2.1 < F.J.Ny := by rw [hy]; exact hat.1
    simp only [Sel.resolve, pyIndex_natCast this, Except.map] at q2
    cases q2
    rw [List.mem_singleton] at q2'
    rw [q2']; exact hat

/-- **C41 (plane wave).** Only Hy and Ex on the chosen slices change. -/
theorem C41_planeWave {p p' : PlaneWave} {g : Grd} {F F' : Flds} {t : ℝ} (h : p.update g F t = .ok (p', F')) :
    F'.J = F.J ∧
      SameBut (fun c i j k => c = 1 ∧ Selects (p.xs.getD (.slice (some 0) (some g.Nx))) F.H.Nx i ∧ Selects (p.ys.getD (.slice (some 0) (some g.Ny))) F.H.Ny j ∧ Selects p.zs F.H.Nz k) F.H F'.H ∧
      SameBut (fun c i j k => c = 0 ∧ Selects (p.xs.getD (.slice (some 0) (some g.Nx))) F.E.Nx i ∧ Selects (p.ys.getD (.slice (some 0) (some g.Ny))) F.E.Ny j ∧ Selects p.zs F.E.Nz k) F.E F'.E := by
  unfold PlaneWave.update at h
  simp only [bind, Except.bind] at h
  split at h
  · cases h
  rename_i H hH
  split at h
  · cases h
  rename_i E hE
  cases h
  refine ⟨rfl, ?_, ?_⟩
  · obtain ⟨d1, d2, d3, hs⟩ := setitem_same hH
    refine ⟨d1, d2, d3, fun key c i j k hc hi hj hk hn => hs key c i j k hc hi hj hk fun q => hn ⟨?_, q.2⟩⟩
    have := names_iff.1 q.1
    rw [show compOf (.str "y") = some 1 by decide] at this; cases this; rfl
  · obtain ⟨d1, d2, d3, hs⟩ := setitem_same hE
    refine ⟨d1, d2, d3, fun key c i j k hc hi hj hk hn => hs key c i j k hc hi hj hk fun q => hn ⟨?_, q.2⟩⟩
    have := names_iff.1 q.1
    rw [show compOf (.str "x") = some 0 by decide] at this; cases this; rfl

/-- **C41 (wave packet).** Only Hy and Ex on the chosen slices of the injection layer change. -/
theorem C41_wavePacket {p p' : WavePacket} {g : Grd} {F F' : Flds} {t : ℝ} (h : p.update g F t = .ok (p', F')) :
    F'.J = F.J ∧ ∃ xs ys : Option ℤ × Option ℤ, xs = p.xs.getD (some 0, some (g.Nx : ℤ)) ∧ ys = p.ys.getD (some 0, some (g.Ny : ℤ)) ∧
      SameBut (fun c i j k => c = 1 ∧ Selects (.slice xs.1 xs.2) F.H.Nx i ∧ Selects (.slice ys.1 ys.2) F.H.Ny j ∧ Selects (.int p.zs) F.H.Nz k) F.H F'.H ∧
      SameBut (fun c i j k => c = 0 ∧ Selects (.slice xs.1 xs.2) F.E.Nx i ∧ Selects (.slice ys.1 ys.2) F.E.Ny j ∧ Selects (.int p.zs) F.E.Nz k) F.E F'.E := by
  unfold WavePacket.update at h
  simp only [bind, Except.bind] at h
  split at h
  · cases h
  split at h
  · cases h
  split at h
  · cases h
  split at h
  · cases h
  rename_i H hH
  split at h
  · cases h
  rename_i E hE
  cases h
  refine ⟨rfl, _, _, rfl, rfl, ?_, ?_⟩
  · obtain ⟨d1, d2, d3, hs⟩ := setitem_same hH
    refine ⟨d1, d2, d3, fun key c i j k hc hi hj hk hn => hs key c i j k hc hi hj hk fun q => hn ⟨?_, q.2⟩⟩
    have := names_iff.1 q.1
    rw [show compOf (.str "y") = some 1 by decide] at this; cases this; rfl
  · obtain ⟨d1, d2, d3, hs⟩ := setitem_same hE
    refine ⟨d1, d2, d3, fun key c i j k hc hi hj hk hn => hs key c i j k hc hi hj hk fun q => hn ⟨?_, q.2⟩⟩
    have := names_iff.1 q.1
    rw [show compOf (.str "x") = some 0 by decide] at this; cases this; rfl

/-- A scalar written to a named field: every cell of the named component in the selection holds it, everything else is unchanged. -/
def WritesOnly (field : String) (kx ky kz : Sel) (component : CKey) (v : ℝ) (F F' : Flds) : Prop :=
  let one := fun (name : String) (f g : Fld ℝ) =>
    SameBut (fun c i j k => field = name ∧ Names component c ∧ Selects kx f.Nx i ∧ Selects ky f.Ny j ∧ Selects kz f.Nz k) f g ∧
    (field = name → ∀ c i j k, Names component c → Selects kx f.Nx i → Selects ky f.Ny j → Selects kz f.Nz k → i < f.Nx → j < f.Ny → k < f.Nz →
      g.get (i : ℤ) (j : ℤ) (k : ℤ) component = .ok v)
  one "E" F.E F'.E ∧ one "H" F.H F'.H ∧ one "J" F.J F'.J

theorem SameBut.refl (P : ℕ → ℕ → ℕ → ℕ → Prop) (f : Fld ℝ) : SameBut P f f := ⟨rfl, rfl, rfl, fun _ _ _ _ _ _ _ _ _ _ => rfl⟩

theorem writeTo_only {field : String} {kx ky kz : Sel} {component : CKey} {v : ℝ} {F F' : Flds} (h : writeTo field kx ky kz component v F = .ok F') :
    WritesOnly field kx ky kz component v F F' := by
  have key : ∀ (name : String) (f g : Fld ℝ), f.setitem (.tup kx ky kz component) (.scalar v) = .ok g → field = name →
      SameBut (fun c i j k => field = name ∧ Names component c ∧ Selects kx f.Nx i ∧ Selects ky f.Ny j ∧ Selects kz f.Nz k) f g ∧
      (field = name → ∀ c i j k, Names component c → Selects kx f.Nx i → Selects ky f.Ny j → Selects kz f.Nz k → i < f.Nx → j < f.Ny → k < f.Nz →
        g.get (i : ℤ) (j : ℤ) (k : ℤ) component = .ok v) := by
    intro name f g hg hname
    refine ⟨?_, ?_⟩
    · obtain ⟨d1, d2, d3, hs⟩ := setitem_same hg
      exact ⟨d1, d2, d3, fun key c i j k hc hi hj hk hn => hs key c i j k hc hi hj hk fun q => hn ⟨hname, q⟩⟩
    · rintro - c i j k hc ⟨xs, hx, mx⟩ ⟨ys, hy, my⟩ ⟨zs, hz, mz⟩ hi hj hk
      rw [C01_block_write f g hc hx hy hz hg hc hi hj hk, if_pos ⟨rfl, mx, my, mz⟩]
  have other : ∀ (name : String) (f : Fld ℝ), field ≠ name →
      SameBut (fun c i j k => field = name ∧ Names component c ∧ Selects kx f.Nx i ∧ Selects ky f.Ny j ∧ Selects kz f.Nz k) f f ∧
      (field = name → ∀ c i j k, Names component c → Selects kx f.Nx i → Selects ky f.Ny j → Selects kz f.Nz k → i < f.Nx → j < f.Ny → k < f.Nz →
        f.get (i : ℤ) (j : ℤ) (k : ℤ) component = .ok v) := fun name f hne => ⟨SameBut.refl _ _, fun e => absurd e hne⟩
  unfold writeTo at h
  simp only [bind, Except.bind] at h
  split_ifs at h with h1 h2 h3
  · split at h
    · cases h
    rename_i E hE
    cases h
    exact ⟨key _ _ _ hE h1, other _ _ (by rw [h1]; decide), other _ _ (by rw [h1]; decide)⟩
  · split at h
    · cases h
    rename_i E hE
    cases h
    exact ⟨other _ _ h1, key _ _ _ hE h2, other _ _ (by rw [h2]; decide)⟩
  · split at h
    · cases h
    rename_i E hE
    cases h
    exact ⟨other _ _ h1, other _ _ h2, key _ _ _ hE h3⟩
  · cases h
    exact ⟨other _ _ h1, other _ _ h2, other _ _ h3⟩

/-- **C41 (dipole).** Only the chosen component of the chosen field changes, on the chosen cells (the centre cell by default), where it takes one value. -/
theorem C41_dipole {p p' : Dipole} {g : Grd} {F F' : Flds} {t : ℝ} (h : p.update g F t = .ok (p', F')) :
    ∃ w, WritesOnly p.field (p.xs.getD (.int (g.Nx / 2 : ℕ))) (p.ys.getD (.int (g.Ny / 2 : ℕ))) (p.zs.getD (.int (g.Nz / 2 : ℕ))) p.component
      (p.amplitude * Real.sin (w * t + p.phase)) F F' ∧ ∀ f, p.f = some f → w = 2 * Real.pi * f := by
  unfold Dipole.update at h
  simp only [bind, Except.bind] at h
  split at h
  · cases h
  rename_i f hf
  split at h
  · cases h
  rename_i G hG
  cases h
  refine ⟨2 * Real.pi * f, writeTo_only hG, fun f' hf' => ?_⟩
  unfold Dipole.freq at hf
  rw [hf'] at hf
  cases hf
  rfl

/-- **C41 (pulse).** The same for a pulse. -/
theorem C41_pulse {p p' : Pulse} {g : Grd} {F F' : Flds} {t : ℝ} (h : p.update g F t = .ok (p', F')) :
    ∃ v, WritesOnly p.field (p.xs.getD (.int (g.Nx / 2 : ℕ))) (p.ys.getD (.int (g.Ny / 2 : ℕ))) (p.zs.getD (.int (g.Nz / 2 : ℕ))) p.component v F F' ∧
      ∀ sh, p.shape = some sh → v = p.amplitude * sh.profile (p.L.getD (50 * g.dt)) p.delay t := by
  unfold Pulse.update at h
  simp only [bind, Except.bind] at h
  cases hsh : p.shape with
  | none =>
    rw [hsh] at h
    simp only at h
    split_ifs at h with hf
    · cases h
      push Not at hf
      refine ⟨0, ⟨⟨SameBut.refl _ _, fun e => absurd e hf.1⟩, ⟨SameBut.refl _ _, fun e => absurd e hf.2.1⟩, ⟨SameBut.refl _ _, fun e => absurd e hf.2.2⟩⟩, fun _ e => by cases e⟩
  | some sh =>
    rw [hsh] at h
    simp only at h
    split at h
    · cases h
    rename_i G hG
    cases h
    exact ⟨_, writeTo_only hG, fun _ e => by cases e; rfl⟩

/-! ### C42: the beam current -/

/-- The line density of a Gaussian bunch of length `σ`, in 1/m. -/
noncomputable def lineDensity (σ u : ℝ) : ℝ := Real.exp (-(u ^ 2) / (2 * σ ^ 2)) / Real.sqrt (2 * Real.pi * σ ^ 2)

/-- It integrates to one. -/
theorem lineDensity_integral {σ : ℝ} (hσ : σ ≠ 0) : ∫ u, lineDensity σ u = 1 := by
  have h2 : 0 < 2 * σ ^ 2 := by positivity
  have e : ∀ u, lineDensity σ u = (Real.sqrt (2 * Real.pi * σ ^ 2))⁻¹ * Real.exp (-(1 / (2 * σ ^ 2)) * u ^ 2) := by
    intro u
    unfold lineDensity
    rw [div_eq_inv_mul]
    congr 2
    field_simp
  simp only [e]
  rw [MeasureTheory.integral_const_mul, integral_gaussian]
  rw [show Real.pi / (1 / (2 * σ ^ 2)) = 2 * Real.pi * σ ^ 2 by field_simp]
  exact inv_mul_cancel₀ (Real.sqrt_ne_zero'.2 (by have := Real.pi_pos; positivity))

/-- Where the bunch centre is at time `t`: at the first cell centre at the injection time, moving with velocity `v`. -/
noncomputable def Beam.centre (b : Beam) (zmin t : ℝ) : ℝ := zmin + b.v * (t - b.ti)

theorem Beam.profile_eq (b : Beam) (zmin sg z t : ℝ) : b.profile zmin sg z t = lineDensity sg (z - b.centre zmin t) := by
  unfold Beam.profile lineDensity Beam.centre
  simp only
  rw [div_mul_eq_mul_div, one_mul]
  congr 3
  ring

/-- **C42 (current density).** After an update at any time `t`, every layer `k` of the transverse cell `(i,j)` nearest to the source position
carries the current density q*v*λ(z_k - centre(t)) divided by the transverse area of the cell.  `Fits` holds for a new beam and is kept by updates
(`C41_beam`), so this covers every update of a run. -/
theorem C42_current {b b' : Beam} {g : Grd} {F F' : Flds} {t : ℝ} (hb : b.Fits g) (hx : F.J.Nx = g.Nx) (hy : F.J.Ny = g.Ny) (hz : F.J.Nz = g.Nz) (hM : g.ZMIN = none)
    (h : b.update g F t = .ok (b', F')) :
    ∃ sg zmin i j, b.sigmaz = some sg ∧ (∃ m < g.Nz, zmin = g.z m) ∧ (∀ m < g.Nz, zmin ≤ g.z m) ∧ IsNearest g.Nx g.x b.xsource i ∧ IsNearest g.Ny g.y b.ysource j ∧
      ∀ k < g.Nz, F'.J.get (i : ℤ) (j : ℤ) (k : ℤ) (.str "z") = .ok (b.q * b.v * lineDensity sg (g.z k - b.centre zmin t) / (g.dx i * g.dy j)) := by
  obtain ⟨c, sg, J, hl, hs, rfl, rfl, hJ⟩ := Beam.update_inv h
  obtain ⟨b0, h0, e1, e2, hl0⟩ := Beam.fits_locate hb hl
  obtain ⟨hi, hj⟩ := Beam.locate_at h0 hl0
  rw [e1] at hi
  rw [e2] at hj
  have hzm : (∃ m < g.Nz, c.2.2 = g.z m) ∧ ∀ m < g.Nz, c.2.2 ≤ g.z m := by
    unfold Beam.locate at hl0
    rw [h0, hM] at hl0
    simp only [bind, Except.bind] at hl0
    split at hl0
    · cases hl0
    split at hl0
    · cases hl0
    split at hl0
    · cases hl0
    rename_i zm hzm
    cases hl0
    unfold minOf at hzm
    split_ifs at hzm with h0
    cases hzm
    obtain ⟨q1, q2, -⟩ := argminUpTo_spec g.z (g.Nz - 1)
    exact ⟨⟨_, by omega, rfl⟩, fun m hm => q2 m (by omega)⟩
  refine ⟨sg, c.2.2, c.1, c.2.1, hs, hzm.1, hzm.2, hi, hj, fun k hk => ?_⟩
  have rx : (Sel.int (c.1 : ℤ)).resolve F.J.Nx = .ok [c.1] := by simp [Sel.resolve, pyIndex_natCast (show c.1 < F.J.Nx by rw [hx]; exact hi.1), Except.map]
  have ry : (Sel.int (c.2.1 : ℤ)).resolve F.J.Ny = .ok [c.2.1] := by simp [Sel.resolve, pyIndex_natCast (show c.2.1 < F.J.Ny by rw [hy]; exact hj.1), Except.map]
  have := C01_block_write F.J J (key := .str "z") (c := 2) (names_iff.2 (by decide)) rx ry (Sel.resolve_all F.J.Nz) hJ (key' := .str "z") (c' := 2) (i := c.1) (j := c.2.1) (k := k)
    (names_iff.2 (by decide)) (by rw [hx]; exact hi.1) (by rw [hy]; exact hj.1) (by rw [hz]; exact hk)
  show J.get _ _ _ _ = _
  rw [this, if_pos ⟨rfl, List.mem_singleton_self _, List.mem_singleton_self _, List.mem_range.2 (by rw [hz]; exact hk)⟩]
  simp only [Except.ok.injEq]
  have hidx : (List.range F.J.Nz).idxOf k = k := by
    have hk' : k < (List.range F.J.Nz).length := by rw [List.length_range, hz]; exact hk
    have := List.nodup_range.idxOf_getElem k hk'
    rwa [List.getElem_range] at this
  rw [hidx, Beam.profile_eq, div_div]

/-- **C42 (charge).** The current integrated over the transverse cell area and over all times is the bunch charge, at every position z. -/
theorem C42_charge (b : Beam) {sg : ℝ} (hsg : sg ≠ 0) (hv : 0 < b.v) (zmin z : ℝ) {dx dy : ℝ} (hdx : 0 < dx) (hdy : 0 < dy) :
    ∫ t, dx * dy * (b.q * b.v * lineDensity sg (z - b.centre zmin t) / (dx * dy)) = b.q := by
  have e : ∀ t, dx * dy * (b.q * b.v * lineDensity sg (z - b.centre zmin t) / (dx * dy)) = b.q * b.v * lineDensity sg ((z - zmin + b.v * b.ti) - b.v * t) := by
    intro t
    rw [show z - b.centre zmin t = (z - zmin + b.v * b.ti) - b.v * t by unfold Beam.centre; ring]
    field_simp
  simp only [e]
  rw [MeasureTheory.integral_const_mul]
  have := MeasureTheory.Measure.integral_comp_mul_left (fun u => lineDensity sg ((z - zmin + b.v * b.ti) - u)) b.v
  rw [this, MeasureTheory.integral_sub_left_eq_self, lineDensity_integral hsg, smul_eq_mul, abs_of_pos (inv_pos.2 hv)]
  field_simp

/-- **C42 (total charge).** At every time the line density times q integrates over z to q. -/
theorem C42_line_charge (b : Beam) {sg : ℝ} (hsg : sg ≠ 0) (zmin t : ℝ) : ∫ z, b.q * lineDensity sg (z - b.centre zmin t) = b.q := by
  rw [MeasureTheory.integral_const_mul, MeasureTheory.integral_sub_right_eq_self, lineDensity_integral hsg, mul_one]

/-- **C42 (updates succeed).** On a non-empty grid with a given bunch length every update succeeds, in serial and under MPI. -/
theorem C42_updates (b : Beam) {g : Grd} {F : Flds} (t : ℝ) {sg : ℝ} (hs : b.sigmaz = some sg) (hN : 0 < g.Nx ∧ 0 < g.Ny ∧ 0 < g.Nz) (hb : b.Fits g)
    (hx : F.J.Nx = g.Nx) (hy : F.J.Ny = g.Ny) (hz : F.J.Nz = g.Nz) : ∃ b' F', b.update g F t = .ok (b', F') := by
  have hloc : ∃ c : ℕ × ℕ × ℝ, b.locate g = .ok c ∧ c.1 < g.Nx ∧ c.2.1 < g.Ny := by
    have key : ∀ b0 : Beam, b0.cache = none → ∃ c : ℕ × ℕ × ℝ, b0.locate g = .ok c ∧ c.1 < g.Nx ∧ c.2.1 < g.Ny := by
      intro b0 h0
      obtain ⟨i, hi, hi'⟩ := C44_nearest hN.1 g.x b0.xsource
      obtain ⟨j, hj, hj'⟩ := C44_nearest hN.2.1 g.y b0.ysource
      unfold Beam.locate
      rw [h0]
      simp only [hi, hj, bind, Except.bind]
      cases hM : g.ZMIN with
      | none =>
        have : minOf g.Nz g.z = .ok (g.z (argminUpTo g.z (g.Nz - 1))) := if_neg (by omega)
        simp only [this]
        exact ⟨_, rfl, hi'.1, hj'.1⟩
      | some Z =>
        obtain ⟨k, hk, -⟩ := C44_nearest hN.2.2 g.z Z
        simp only [hk]
        exact ⟨_, rfl, hi'.1, hj'.1⟩
    rcases hb with hb | ⟨b0, h0, -, -, c, hc, hl⟩
    · exact key b hb
    · obtain ⟨c', p, q⟩ := key b0 h0
      rw [hl] at p; cases p
      exact ⟨c, by unfold Beam.locate; rw [hc], q⟩
  obtain ⟨c, hl, h1, h2⟩ := hloc
  unfold Beam.update
  simp only [hl, hs, bind, Except.bind]
  have hset : ∃ J, F.J.setitem (.tup (.int c.1) (.int c.2.1) .all (.str "z"))
      (.arr (1, 1, g.Nz) fun _ _ k => b.q * b.v * b.profile c.2.2 sg (g.z k) t / g.dx c.1 / g.dy c.2.1) = .ok J := by
    have rx : (Sel.int (c.1 : ℤ)).resolve F.J.Nx = .ok [c.1] := by simp [Sel.resolve, pyIndex_natCast (show c.1 < F.J.Nx by rw [hx]; exact h1), Except.map]
    have ry : (Sel.int (c.2.1 : ℤ)).resolve F.J.Ny = .ok [c.2.1] := by simp [Sel.resolve, pyIndex_natCast (show c.2.1 < F.J.Ny by rw [hy]; exact h2), Except.map]
    have hc : compOf (.str "z") = some 2 := by decide
    simp only [setitem, toMatrix, hc, Option.map, assign3, resolve3, rx, ry, Sel.resolve_all, bind, Except.bind, pure, Except.pure, fromMatrix, List.length_singleton, List.length_range, hz, if_true]
    exact ⟨_, rfl⟩
  obtain ⟨J, hJ⟩ := hset
  rw [hJ]
  exact ⟨_, _, rfl⟩

/-- **C42 (MPI).** On every rank of a uniform z-partition the reference position is the centre of the first cell of the *global* grid, so that all ranks and the
serial run use the same current at the same z. -/
theorem C42_mpi {b : Beam} {g : Grd} (hb : b.Fits g) {Z D : ℝ} (hM : g.ZMIN = some Z) (hu : ∀ m < g.Nz, g.dz m = D) {c : ℕ × ℕ × ℝ} (h : b.locate g = .ok c) :
    c.2.2 = Z + D / 2 := by
  obtain ⟨b0, h0, -, -, h⟩ := Beam.fits_locate hb h
  unfold Beam.locate at h
  rw [h0, hM] at h
  simp only [bind, Except.bind] at h
  split at h
  · cases h
  split at h
  · cases h
  split at h
  · cases h
  rename_i m hm
  cases h
  rw [hu m (nearest_iff.1 hm).1]

/-! ### C45: pulse shapes -/

/-- The Harris window is the cube of a raised cosine. -/
theorem harris_cube (L u : ℝ) : (10 - 15 * Real.cos (2 * Real.pi / L * u) + 6 * Real.cos (4 * Real.pi / L * u) - Real.cos (6 * Real.pi / L * u)) / 32 =
    ((1 - Real.cos (2 * Real.pi / L * u)) / 2) ^ 3 := by
  rw [show 4 * Real.pi / L * u = 2 * (2 * Real.pi / L * u) by ring, show 6 * Real.pi / L * u = 3 * (2 * Real.pi / L * u) by ring, Real.cos_two_mul, Real.cos_three_mul]
  ring

/-- The pulse runs from the time the front passes (`c*t = delay`) for a length `L`. -/
def InPulse (L delay t : ℝ) : Prop := 0 ≤ t * cLight - delay ∧ t * cLight - delay ≤ L

/-- **C45 (range).** Harris, Gaussian and rectangular pulses take values in [0,1], for every time, length and delay. -/
theorem C45_range (sh : Shape) (L delay t : ℝ) : 0 ≤ sh.profile L delay t ∧ sh.profile L delay t ≤ 1 := by
  cases sh with
  | harris =>
    show 0 ≤ harrisPulse L delay t ∧ harrisPulse L delay t ≤ 1
    unfold harrisPulse
    simp only
    split_ifs
    · rw [harris_cube]
      have h1 := Real.neg_one_le_cos (2 * Real.pi / L * (t * cLight - delay))
      have h2 := Real.cos_le_one (2 * Real.pi / L * (t * cLight - delay))
      exact ⟨pow_nonneg (by linarith) 3, pow_le_one₀ (by linarith) (by linarith)⟩
    · exact ⟨le_refl _, zero_le_one⟩
  | gaussian =>
    show 0 ≤ gaussianPulse L delay t ∧ gaussianPulse L delay t ≤ 1
    unfold gaussianPulse
    refine ⟨(Real.exp_pos _).le, Real.exp_le_one_iff.2 ?_⟩
    rw [neg_div, neg_nonpos]
    positivity
  | rectangular =>
    show 0 ≤ rectangularPulse L delay t ∧ rectangularPulse L delay t ≤ 1
    unfold rectangularPulse
    simp only
    split_ifs <;> norm_num

/-- **C45 (end).** Harris and rectangular pulses are zero after their end. -/
theorem C45_after {L delay t : ℝ} (h : L ≤ t * cLight - delay) : harrisPulse L delay t = 0 ∧ rectangularPulse L delay t = 0 := by
  unfold harrisPulse rectangularPulse
  simp only
  rw [if_neg (not_lt.2 h), if_neg (fun x => absurd x.1 (not_lt.2 h))]
  exact ⟨rfl, rfl⟩

/-- **C45 (start, rectangular).** A rectangular pulse is zero before its start. -/
theorem C45_before_rectangular {L delay t : ℝ} (h : t * cLight - delay ≤ 0) : rectangularPulse L delay t = 0 := by
  unfold rectangularPulse
  simp only
  rw [if_neg (fun x => absurd x.2 (not_lt.2 h))]

/-- **C45 (start, Harris; partial).** A Harris pulse starts from zero, with zero value at both ends of its support; before the start it is zero only at
multiples of its length — see `C45_before_refuted`. -/
theorem C45_before_partial {L : ℝ} (hL : L ≠ 0) {delay t : ℝ} {n : ℤ} (h : t * cLight - delay = n * L) : harrisPulse L delay t = 0 := by
  unfold harrisPulse
  simp only
  rw [harris_cube, h, show 2 * Real.pi / L * (n * L) = n * (2 * Real.pi) by field_simp, Real.cos_int_mul_two_pi]
  simp

/-- **C45 (refuted).** With a delay, the Harris pulse is not zero before it starts: half a length before the start it has its full value. -/
theorem C45_before_refuted {L : ℝ} (hL : 0 < L) {delay t : ℝ} (h : t * cLight - delay = -L / 2) : ¬ InPulse L delay t ∧ harrisPulse L delay t = 1 := by
  refine ⟨fun x => ?_, ?_⟩
  · have := x.1; rw [h] at this; linarith
  · unfold harrisPulse
    simp only
    rw [if_pos (by rw [h]; linarith), harris_cube, h, show 2 * Real.pi / L * (-L / 2) = -Real.pi by field_simp, Real.cos_neg, Real.cos_pi]
    norm_num

/-- **C45 (default length refuted).** With the default length `50*dt` and no delay, Harris and rectangular pulses are zero at *every* time step: the length is
compared with `c*t`, not with `t`. -/
theorem C45_default_refuted {dt : ℝ} (hdt : 0 < dt) (n : ℕ) : harrisPulse (50 * dt) 0 (n * dt) = 0 ∧ rectangularPulse (50 * dt) 0 (n * dt) = 0 := by
  cases n with
  | zero =>
    refine ⟨?_, C45_before_rectangular (by simp)⟩
    exact C45_before_partial (by positivity) (n := 0) (by simp)
  | succ n =>
    refine C45_after ?_
    have : (1 : ℝ) ≤ ((n + 1 : ℕ) : ℝ) := by exact_mod_cast Nat.succ_le_succ (Nat.zero_le n)
    unfold cLight
    nlinarith

/-- **C45 (default pulse does nothing).** A default Harris pulse on E keeps the chosen cells at zero for the whole run. -/
theorem C45_default_silent {p p' : Pulse} {g : Grd} {F F' : Flds} (hdt : 0 < g.dt) (hL : p.L = none) (hd : p.delay = 0) (hsh : p.shape = some .harris) (n : ℕ)
    (h : p.update g F (n * g.dt) = .ok (p', F')) :
    WritesOnly p.field (p.xs.getD (.int (g.Nx / 2 : ℕ))) (p.ys.getD (.int (g.Ny / 2 : ℕ))) (p.zs.getD (.int (g.Nz / 2 : ℕ))) p.component 0 F F' := by
  obtain ⟨v, hv, hv'⟩ := C41_pulse h
  have : v = 0 := by
    rw [hv' _ hsh, hL, hd]
    show p.amplitude * harrisPulse (50 * g.dt) 0 (n * g.dt) = 0
    rw [(C45_default_refuted hdt n).1, mul_zero]
  rw [← this]
  exact hv

/-! ### More of `sources.py`: what the other sources write -/

/-- The wave packet a user asks for: a transverse Gaussian centred on the axis, times a Gaussian pulse in time whose centre passes when β c t is the injection distance `tinj`, times the
carrier. -/
noncomputable def packetAt (amplitude f phase beta tinj sxy sz t x y : ℝ) : ℝ :=
  amplitude * Real.cos (2 * Real.pi * f * t + phase) * Real.exp (-(x ^ 2 + y ^ 2) / (2 * sxy ^ 2)) * Real.exp (-((beta * cLight * t - tinj) ^ 2) / (2 * sz ^ 2))

/-- The widths used: those given, or 5 (transverse) and 10 (longitudinal) mean cell sizes. -/
noncomputable def WavePacket.widths (p : WavePacket) (g : Grd) : ℝ × ℝ :=
  (p.sigmaxy.getD (5 * ((meanOf g.Nx g.dx + meanOf g.Ny g.dy) / 2)), p.sigmaz.getD (10 * meanOf g.Nz g.dz))

theorem resolve_full (n : ℕ) : (Sel.slice (some 0) (some (n : ℤ))).resolve n = .ok (List.range n) := by
  have h : clipBound n (n : ℤ) = n := by unfold clipBound; split_ifs <;> omega
  have h0 : clipBound n 0 = 0 := by unfold clipBound; split_ifs <;> omega
  simp [Sel.resolve, sliceLo, sliceHi, h, h0]

theorem idxOf_range {n k : ℕ} (hk : k < n) : (List.range n).idxOf k = k := by
  have hk' : k < (List.range n).length := by rw [List.length_range]; exact hk
  have := List.nodup_range.idxOf_getElem k hk'
  rwa [List.getElem_range] at this

theorem getD_range {n k : ℕ} (hk : k < n) : (List.range n).getD k 0 = k := by
  rw [List.getD_eq_getElem?_getD, List.getElem?_range hk]; rfl

/-- The two assignments of a wave packet over the whole cross-section. -/
theorem WavePacket.full_inv {p p' : WavePacket} {g : Grd} {F F' : Flds} {t : ℝ} (hxs : p.xs = none) (hys : p.ys = none) (h : p.update g F t = .ok (p', F')) :
    ∃ s0 s E H, s - s0 = p.tinj - p.beta * cLight * t ∧ F' = { F with E := E, H := H } ∧
      F.H.setitem (.tup (.slice (some 0) (some g.Nx)) (.slice (some 0) (some g.Ny)) (.int p.zs) (.str "y"))
        (.arr (g.Ny, g.Nx, 1) fun a b _ => -p.amplitude * Real.cos (2 * Real.pi * p.f * t + p.phase) *
          Real.exp (-((g.x ((List.range g.Nx).getD b 0)) ^ 2 + (g.y ((List.range g.Ny).getD a 0)) ^ 2) / (2 * (p.widths g).1 ^ 2)) * Real.exp (-((s - s0) ^ 2) / (2 * (p.widths g).2 ^ 2))) = .ok H ∧
      F.E.setitem (.tup (.slice (some 0) (some g.Nx)) (.slice (some 0) (some g.Ny)) (.int p.zs) (.str "x"))
        (.arr (g.Ny, g.Nx, 1) fun a b _ => p.amplitude * mu0 * cLight * Real.cos (2 * Real.pi * p.f * t + p.phase) *
          Real.exp (-((g.x ((List.range g.Nx).getD b 0)) ^ 2 + (g.y ((List.range g.Ny).getD a 0)) ^ 2) / (2 * (p.widths g).1 ^ 2)) * Real.exp (-((s - s0) ^ 2) / (2 * (p.widths g).2 ^ 2))) = .ok E := by
  unfold WavePacket.update at h
  simp only [hxs, hys, Option.getD_none, resolve_full, bind, Except.bind, List.length_range] at h
  split at h
  · cases h
  split at h
  · cases h
  rename_i H hH
  split at h
  · cases h
  rename_i E hE
  cases h
  exact ⟨_, _, E, H, by ring, rfl, hH, hE⟩

/-- What a wave packet over a square cross-section writes at cell (i,j): the packet value at the *transposed* position (x_j, y_i). -/
theorem C62_actual {p p' : WavePacket} {g : Grd} {F F' : Flds} {t : ℝ} (hxs : p.xs = none) (hys : p.ys = none) (hN : g.Nx = g.Ny)
    (hE : F.E.Nx = g.Nx ∧ F.E.Ny = g.Ny) (hH : F.H.Nx = g.Nx ∧ F.H.Ny = g.Ny) {kz : ℕ}
    (hkz : p.zs = kz) (hEz : kz < F.E.Nz) (hHz : kz < F.H.Nz) (h : p.update g F t = .ok (p', F')) :
    ∀ i < g.Nx, ∀ j < g.Ny,
      F'.H.get (i : ℤ) (j : ℤ) (kz : ℤ) (.str "y") = .ok (-packetAt p.amplitude p.f p.phase p.beta p.tinj (p.widths g).1 (p.widths g).2 t (g.x j) (g.y i)) ∧
      F'.E.get (i : ℤ) (j : ℤ) (kz : ℤ) (.str "x") = .ok (mu0 * cLight * packetAt p.amplitude p.f p.phase p.beta p.tinj (p.widths g).1 (p.widths g).2 t (g.x j) (g.y i)) := by
  obtain ⟨s0, s, E, H, hs, rfl, h1, h2⟩ := WavePacket.full_inv hxs hys h
  refine fun i hi j hj => ⟨?_, ?_⟩
  · have rz : (Sel.int p.zs).resolve F.H.Nz = .ok [kz] := by simp [hkz, Sel.resolve, pyIndex_natCast hHz, Except.map]
    have := C01_block_write F.H H (key := .str "y") (c := 1) (names_iff.2 (by decide)) (by rw [hH.1]; exact resolve_full _) (by rw [hH.2]; exact resolve_full _) rz h1
      (key' := .str "y") (c' := 1) (i := i) (j := j) (k := kz) (names_iff.2 (by decide)) (by rw [hH.1]; exact hi) (by rw [hH.2]; exact hj) hHz
    show H.get _ _ _ _ = _
    rw [this, if_pos ⟨rfl, List.mem_range.2 hi, List.mem_range.2 hj, List.mem_singleton_self _⟩]
    simp only [Except.ok.injEq]
    rw [idxOf_range hi, idxOf_range hj, getD_range (by omega), getD_range (by omega)]
    rw [hs]
    unfold packetAt
    rw [show (p.tinj - p.beta * cLight * t) ^ 2 = (p.beta * cLight * t - p.tinj) ^ 2 by ring]
    ring
  · have rz : (Sel.int p.zs).resolve F.E.Nz = .ok [kz] := by simp [hkz, Sel.resolve, pyIndex_natCast hEz, Except.map]
    have := C01_block_write F.E E (key := .str "x") (c := 0) (names_iff.2 (by decide)) (by rw [hE.1]; exact resolve_full _) (by rw [hE.2]; exact resolve_full _) rz h2
      (key' := .str "x") (c' := 0) (i := i) (j := j) (k := kz) (names_iff.2 (by decide)) (by rw [hE.1]; exact hi) (by rw [hE.2]; exact hj) hEz
    show E.get _ _ _ _ = _
    rw [this, if_pos ⟨rfl, List.mem_range.2 hi, List.mem_range.2 hj, List.mem_singleton_self _⟩]
    simp only [Except.ok.injEq]
    rw [idxOf_range hi, idxOf_range hj, getD_range (by omega), getD_range (by omega)]
    rw [hs]
    unfold packetAt
    rw [show (p.tinj - p.beta * cLight * t) ^ 2 = (p.beta * cLight * t - p.tinj) ^ 2 by ring]
    ring

/-- **C62 (partial).** On a grid whose two transverse axes carry the same coordinates, a wave packet over the whole cross-section writes at cell (i,j) the packet
value at that cell's own position. -/
theorem C62_packet_partial {p p' : WavePacket} {g : Grd} {F F' : Flds} {t : ℝ} (hxs : p.xs = none) (hys : p.ys = none) (hN : g.Nx = g.Ny)
    (hE : F.E.Nx = g.Nx ∧ F.E.Ny = g.Ny) (hH : F.H.Nx = g.Nx ∧ F.H.Ny = g.Ny) (hsq : ∀ i, g.x i = g.y i) {kz : ℕ}
    (hkz : p.zs = kz) (hEz : kz < F.E.Nz) (hHz : kz < F.H.Nz)
    (h : p.update g F t = .ok (p', F')) :
    ∀ i < g.Nx, ∀ j < g.Ny,
      F'.H.get (i : ℤ) (j : ℤ) (kz : ℤ) (.str "y") = .ok (-packetAt p.amplitude p.f p.phase p.beta p.tinj (p.widths g).1 (p.widths g).2 t (g.x i) (g.y j)) ∧
      F'.E.get (i : ℤ) (j : ℤ) (kz : ℤ) (.str "x") = .ok (mu0 * cLight * packetAt p.amplitude p.f p.phase p.beta p.tinj (p.widths g).1 (p.widths g).2 t (g.x i) (g.y j)) := by
  have H := C62_actual hxs hys hN hE hH hkz hEz hHz h
  intro i hi j hj
  have e : packetAt p.amplitude p.f p.phase p.beta p.tinj (p.widths g).1 (p.widths g).2 t (g.x j) (g.y i) = packetAt p.amplitude p.f p.phase p.beta p.tinj (p.widths g).1 (p.widths g).2 t (g.x i) (g.y j) := by
    unfold packetAt; rw [hsq i, ← hsq j, add_comm (g.x j ^ 2), hsq j]
  rw [← e]
  exact H i hi j hj

/-- **C62 (refuted).** With different numbers of transverse cells every update of a full-cross-section wave packet fails. -/
theorem C62_rectangular_refuted (p : WavePacket) {g : Grd} {F : Flds} (t : ℝ) (hxs : p.xs = none) (hys : p.ys = none) (hN : g.Nx ≠ g.Ny)
    (hH : F.H.Nx = g.Nx ∧ F.H.Ny = g.Ny) : ∀ r, p.update g F t ≠ .ok r := by
  rintro ⟨p', F'⟩ h
  obtain ⟨s0, s, E, H, -, -, h1, -⟩ := WavePacket.full_inv hxs hys h
  have hc : compOf (.str "y") = some 1 := by decide
  simp only [setitem, toMatrix, hc, Option.map, assign3, resolve3, hH.1, hH.2, resolve_full, bind, Except.bind, pure, Except.pure] at h1
  split at h1
  · cases h1
  rename_i m hm
  split at hm
  · cases hm
  rename_i w hw
  split at hw
  · cases hw
  rename_i zs hzs
  cases hw
  simp only [List.length_range] at hm
  rw [if_neg (fun e => hN (by simpa using (Prod.mk.inj e).1.symm))] at hm
  cases hm

/-- **C63 (partial).** A plane wave with a frequency is switched off after `nodes` periods: Hy and Ex are set to zero on its plane. -/
theorem C63_off {p p' : PlaneWave} {g : Grd} {F F' : Flds} {t T : ℝ} (hT : p.tmax = some T) (ht : T < t) (h : p.update g F t = .ok (p', F')) :
    ∃ E H, F' = { F with E := E, H := H } ∧
      F.H.setitem (.tup (p.xs.getD (.slice (some 0) (some g.Nx))) (p.ys.getD (.slice (some 0) (some g.Ny))) p.zs (.str "y")) (.scalar 0) = .ok H ∧
      F.E.setitem (.tup (p.xs.getD (.slice (some 0) (some g.Nx))) (p.ys.getD (.slice (some 0) (some g.Ny))) p.zs (.str "x")) (.scalar 0) = .ok E := by
  have off : ¬ ∀ T, p.tmax = some T → t ≤ T := fun hh => absurd (hh T hT) (not_le.2 ht)
  unfold PlaneWave.update at h
  simp only [bind, Except.bind, if_neg off] at h
  split at h
  · cases h
  rename_i H hH
  split at h
  · cases h
  rename_i E hE
  cases h
  exact ⟨E, H, rfl, hH, hE⟩

/-- **C63 (refuted).** A plane wave given by its number of nodes alone, as the documentation allows, cannot be built. -/
theorem C63_nodes_refuted (xs ys : Option Sel) (zs : Sel) (nodes : ℝ) (amplitude beta phase : ℝ) : PlaneWave.init xs ys zs (some nodes) none amplitude beta phase = .error .typeError := rfl

/-- **C64 (wave packet).** At every cell the electric field of a wave packet is the magnetic field times the free-space impedance mu0*c (with opposite sign). -/
theorem C64_packet {p p' : WavePacket} {g : Grd} {F F' : Flds} {t : ℝ} (hxs : p.xs = none) (hys : p.ys = none) (hN : g.Nx = g.Ny)
    (hE : F.E.Nx = g.Nx ∧ F.E.Ny = g.Ny) (hH : F.H.Nx = g.Nx ∧ F.H.Ny = g.Ny) {kz : ℕ}
    (hkz : p.zs = kz) (hEz : kz < F.E.Nz) (hHz : kz < F.H.Nz) (h : p.update g F t = .ok (p', F')) {i j : ℕ} (hi : i < g.Nx) (hj : j < g.Ny) :
    ∃ e m, F'.E.get (i : ℤ) (j : ℤ) (kz : ℤ) (.str "x") = .ok e ∧ F'.H.get (i : ℤ) (j : ℤ) (kz : ℤ) (.str "y") = .ok m ∧ e = -(mu0 * cLight) * m := by
  have H := C62_actual hxs hys hN hE hH hkz hEz hHz h
  exact ⟨_, _, (H i hi j hj).2, (H i hi j hj).1, by ring⟩

/-- **C64 (plane wave; what the code does).** While the wave is on, the electric field is the magnetic field times `mu0 * beta * c^2 / (2 pi f)`: the impedance depends
on the frequency. -/
theorem C64_planeWave_actual {p p' : PlaneWave} {g : Grd} {F F' : Flds} {t : ℝ} (hf : p.f ≠ 0) (hxs : p.xs = none) (hys : p.ys = none)
    (hE : F.E.Nx = g.Nx ∧ F.E.Ny = g.Ny) (hH : F.H.Nx = g.Nx ∧ F.H.Ny = g.Ny) {kz : ℕ} (hkz : p.zs = .int kz) (hEz : kz < F.E.Nz) (hHz : kz < F.H.Nz)
    (h : p.update g F t = .ok (p', F')) {i j : ℕ} (hi : i < g.Nx) (hj : j < g.Ny) :
    ∃ e m, F'.E.get (i : ℤ) (j : ℤ) (kz : ℤ) (.str "x") = .ok e ∧ F'.H.get (i : ℤ) (j : ℤ) (kz : ℤ) (.str "y") = .ok m ∧
      e = -(mu0 * p.beta * cLight ^ 2 / (2 * Real.pi * p.f)) * m ∧ ((∀ T, p.tmax = some T → t ≤ T) → m = -p.amplitude * Real.cos (2 * Real.pi * p.f * t + p.phase)) := by
  classical
  have rzH : p.zs.resolve F.H.Nz = .ok [kz] := by rw [hkz]; simp [Sel.resolve, pyIndex_natCast hHz, Except.map]
  have rzE : p.zs.resolve F.E.Nz = .ok [kz] := by rw [hkz]; simp [Sel.resolve, pyIndex_natCast hEz, Except.map]
  unfold PlaneWave.update at h
  simp only [bind, Except.bind, hxs, hys, Option.getD_none] at h
  split at h
  · cases h
  rename_i H h1
  split at h
  · cases h
  rename_i E h2
  cases h
  have gH := C01_block_write F.H H (key := .str "y") (c := 1) (names_iff.2 (by decide)) (by rw [hH.1]; exact resolve_full _) (by rw [hH.2]; exact resolve_full _) rzH h1
    (key' := .str "y") (c' := 1) (i := i) (j := j) (k := kz) (names_iff.2 (by decide)) (by rw [hH.1]; exact hi) (by rw [hH.2]; exact hj) hHz
  have gE := C01_block_write F.E E (key := .str "x") (c := 0) (names_iff.2 (by decide)) (by rw [hE.1]; exact resolve_full _) (by rw [hE.2]; exact resolve_full _) rzE h2
    (key' := .str "x") (c' := 0) (i := i) (j := j) (k := kz) (names_iff.2 (by decide)) (by rw [hE.1]; exact hi) (by rw [hE.2]; exact hj) hEz
  rw [if_pos ⟨rfl, List.mem_range.2 hi, List.mem_range.2 hj, List.mem_singleton_self _⟩] at gH gE
  refine ⟨_, _, gE, gH, ?_, fun hon => ?_⟩
  · simp only
    have hpi := Real.pi_ne_zero
    have hc : cLight ≠ 0 := by unfold cLight; norm_num
    split_ifs
    · field_simp
    · simp
  · simp only
    rw [if_pos hon]

/-- **C64 (refuted for plane waves).** At `f = 1 GHz`, `beta = 1`, the ratio of the electric to the magnetic field is not the free-space impedance. -/
theorem C64_planeWave_refuted : mu0 * 1 * cLight ^ 2 / (2 * Real.pi * 1e9) < mu0 * cLight := by
  have hpi := Real.two_le_pi
  have hc : (0 : ℝ) < cLight := by unfold cLight; norm_num
  have hm : (0 : ℝ) < mu0 := by unfold mu0; norm_num
  rw [div_lt_iff₀ (by positivity)]
  have : cLight < 2 * Real.pi * 1e9 := by unfold cLight; nlinarith
  nlinarith [mul_pos hm hc, mul_lt_mul_of_pos_left this (mul_pos hm hc)]

/-! ### non-vacuity -/

/-- A grid of 2 × 3 × 4 unit cells. -/
noncomputable def demoGrd : Grd := ⟨2, 3, 4, fun i => i + 0.5, fun i => i + 0.5, fun i => i + 0.5, fun _ => 1, fun _ => 1, fun _ => 1, 0.1, none⟩
noncomputable def demoFlds : Flds := ⟨Fld.new 2 3 4, Fld.new 2 3 4, Fld.new 2 3 4⟩
noncomputable def demoBeam : Beam := ⟨0.3, 1.2, 1, 1e-9, some 0.01, 1, none⟩

example : ∃ b' F', demoBeam.update demoGrd demoFlds 3 = .ok (b', F') :=
  C42_updates demoBeam (g := demoGrd) (F := demoFlds) 3 rfl (by unfold demoGrd; decide) (.inl rfl) rfl rfl rfl

/-- A later update of the same beam object. -/
example : ∃ b1 F1 b2 F2, demoBeam.update demoGrd demoFlds 3 = .ok (b1, F1) ∧ b1.update demoGrd F1 4 = .ok (b2, F2) ∧ b1.cache ≠ none := by
  obtain ⟨b1, F1, h⟩ := C42_updates demoBeam (g := demoGrd) (F := demoFlds) 3 rfl (by unfold demoGrd; decide) (.inl rfl) rfl rfl rfl
  obtain ⟨-, -, hfit, d1, d2, d3, -⟩ := C41_beam (b := demoBeam) (.inl rfl) rfl rfl h
  obtain ⟨c, sg, J, -, hs, hb1, -, -⟩ := Beam.update_inv h
  obtain ⟨b2, F2, h2⟩ := C42_updates b1 (g := demoGrd) (F := F1) 4 (sg := sg) (by rw [hb1]; exact hs) (by unfold demoGrd; decide) hfit d1 d2 d3
  exact ⟨b1, F1, b2, F2, h, h2, by rw [hb1]; simp⟩

example : ∃ p' F', (Pulse.init "Ex" (.str "z") none none none "Harris" none 1 0).update demoGrd demoFlds 0 = .ok (p', F') := ⟨_, _, rfl⟩
example : ∃ p' F', (Dipole.init "H" (.str "z") none (some .all) none 10 (some 3) 1 0).update demoGrd demoFlds 0 = .ok (p', F') := ⟨_, _, rfl⟩
example : ∃ p p' F', PlaneWave.init none none (.int 0) (some 3) (some 1) 1 1 0 = .ok p ∧ p.update demoGrd demoFlds 0 = .ok (p', F') := ⟨_, _, _, rfl, rfl⟩
example : ∃ p p' F', WavePacket.init none none 1 (some 1) none none none (some 3) 1 1 0 = .ok p ∧ p.update { demoGrd with Ny := 2 } ⟨Fld.new 2 2 4, Fld.new 2 2 4, Fld.new 2 2 4⟩ 0 = .ok (p', F') := ⟨_, _, _, rfl, rfl⟩
example : ∃ p, WavePacket.init none none 1 (some 1) none none none (some 3) 1 1 0 = .ok p ∧ p.xs = none ∧ p.ys = none ∧ demoGrd.Nx ≠ demoGrd.Ny := ⟨_, rfl, rfl, rfl, by unfold demoGrd; decide⟩
example : (0 : ℝ) < 0.1 ∧ ∃ t : ℝ, t * cLight - 1 = -(0.1 : ℝ) / 2 := ⟨by norm_num, (1 - 0.1 / 2) / cLight, by unfold cLight; norm_num⟩

end Src
end Wakis
