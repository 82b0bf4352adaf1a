import Verif.Plots2

/-!
# Curves along grid lines and `Field.inspect` (C113, C114)
-/

namespace Wakis
namespace Plot
open Sol hiding matOf
open Mpi
open Wake (pyInt)
variable {K : Type} [Field K] [LinearOrder K] [FloorRing K]
set_option linter.unusedSectionVars false

/-! ### specification -/

/-- Cell number `i` of the line along axis `ax` at the fraction `p` of the other two axes: the cell `⌊n p⌋` of `n`. -/
def onLine (ax : String) (Nx Ny Nz : ℕ) (p : K) (i : ℕ) : ℕ × ℕ × ℕ :=
  if ax = "x" then (i, ⌊(Ny : K) * p⌋₊, ⌊(Nz : K) * p⌋₊) else if ax = "y" then (⌊(Nx : K) * p⌋₊, i, ⌊(Nz : K) * p⌋₊) else (⌊(Nx : K) * p⌋₊, ⌊(Ny : K) * p⌋₊, i)

/-- The curve along axis `ax` at fraction `p` of field `f`: one point per cell of the axis, at the cell centre, with the value of that cell; the label gives the centres of the cells of the other two axes. -/
structure IsCurve (norm3 : K → K → K → K) (f : Fld K) (comp : Fld.CKey) (x y z : ℕ → K) (ax : String) (p : K) (c : Curve K) : Prop where
  axis : c.xax = ax
  n : c.n = if ax = "x" then f.Nx else if ax = "y" then f.Ny else f.Nz
  at_ : ∀ i < c.n, c.xx i = if ax = "x" then centre x i else if ax = "y" then centre y i else centre z i
  vals : ∀ i < c.n, Value norm3 f comp (onLine ax f.Nx f.Ny f.Nz p i).1 (onLine ax f.Nx f.Ny f.Nz p i).2.1 (onLine ax f.Nx f.Ny f.Nz p i).2.2 (c.val i)
  label : (c.a, c.b) = if ax = "x" then (centre y ⌊(f.Ny : K) * p⌋₊, centre z ⌊(f.Nz : K) * p⌋₊) else if ax = "y" then (centre x ⌊(f.Nx : K) * p⌋₊, centre z ⌊(f.Nz : K) * p⌋₊)
    else (centre x ⌊(f.Nx : K) * p⌋₊, centre y ⌊(f.Ny : K) * p⌋₊)

section
variable [IsStrictOrderedRing K]

theorem label_int {n k : ℕ} (a : ℕ → K) (h : k < n) : line1D.label n a (.int (k : ℤ)) = .ok (a k) := by
  unfold line1D.label
  rw [pick1_int a h]
  rfl

theorem pick_full (n : ℕ) (a : ℕ → K) : pick n a (.slice (some 0) (some (n : ℤ))) = .ok ((List.range n).map a) := by
  unfold pick
  rw [resolve_full]
  rfl

theorem map_range_getD {n i : ℕ} (a : ℕ → K) (h : i < n) : ((List.range n).map a).getD i 0 = a i := by
  rw [getD_lt (by simpa using h)]; simp

/-- A scene on these axes. -/
structure OnAxes (S : Scene K) (Nx Ny Nz : ℕ) (x y z : ℕ → K) : Prop where
  nx : S.Nx = Nx
  ny : S.Ny = Ny
  nz : S.Nz = Nz
  x : S.x = x
  y : S.y = y
  zc : ∀ i < Nz, S.zc i = centre z i

theorem serial_axes (norm3 : K → K → K → K) {Nx Ny Nz : ℕ} {x y z : ℕ → K} {F : Which → Fld K} : OnAxes (serial norm3 Nx Ny Nz x y z F) Nx Ny Nz x y z := ⟨rfl, rfl, rfl, rfl, rfl, fun _ _ => rfl⟩

/-- The line of each axis. -/
theorem line_named {S : Scene K} {Nx Ny Nz : ℕ} (hNx : 0 < Nx) (hNy : 0 < Ny) (hNz : 0 < Nz) {x y z : ℕ → K} (hS : OnAxes S Nx Ny Nz x y z) {s : String} {p : K} (h0 : 0 ≤ p) (h1 : p < 1) :
    (pyLower s = "x" → line1D S (.name s) p = .ok ⟨.slice (some 0) (some (Nx : ℤ)), .int ⌊(Ny : K) * p⌋₊, .int ⌊(Nz : K) * p⌋₊, (List.range Nx).map (centre x), "x",
      centre y ⌊(Ny : K) * p⌋₊, centre z ⌊(Nz : K) * p⌋₊⟩) ∧
    (pyLower s = "y" → line1D S (.name s) p = .ok ⟨.int ⌊(Nx : K) * p⌋₊, .slice (some 0) (some (Ny : ℤ)), .int ⌊(Nz : K) * p⌋₊, (List.range Ny).map (centre y), "y",
      centre x ⌊(Nx : K) * p⌋₊, centre z ⌊(Nz : K) * p⌋₊⟩) ∧
    (pyLower s = "z" → line1D S (.name s) p = .ok ⟨.int ⌊(Nx : K) * p⌋₊, .int ⌊(Ny : K) * p⌋₊, .slice (some 0) (some (Nz : ℤ)), (List.range Nz).map (centre z), "z",
      centre x ⌊(Nx : K) * p⌋₊, centre y ⌊(Ny : K) * p⌋₊⟩) := by
  obtain ⟨ex, lx⟩ := cut_index (n := Nx) h0 h1 hNx
  obtain ⟨ey, ly⟩ := cut_index (n := Ny) h0 h1 hNy
  obtain ⟨ez, lz⟩ := cut_index (n := Nz) h0 h1 hNz
  have lab : line1D.label Nz S.zc (.int ((⌊(Nz : K) * p⌋₊ : ℕ) : ℤ)) = .ok (centre z ⌊(Nz : K) * p⌋₊) := by rw [label_int _ lz, hS.zc _ lz]
  have full : pick Nz S.zc (.slice (some 0) (some (Nz : ℤ))) = .ok ((List.range Nz).map (centre z)) := by
    rw [pick_full]
    exact congrArg _ (List.map_congr_left fun i hi => hS.zc i (List.mem_range.1 hi))
  refine ⟨fun h => ?_, fun h => ?_, fun h => ?_⟩
  all_goals
    unfold line1D
    simp only [h, hS.nx, hS.ny, hS.nz, hS.x, hS.y, ex, ey, ez, label_int _ lx, label_int _ ly, lab, full, pick_full, bind, Except.bind, pure, Except.pure]
    rfl

theorem curve_of {S : Scene K} {field component name comp : String} (hs : split1 field component = (name, comp)) {line : Where} {i : ℕ} (hi : i < 7) {pos : K} {l : Line K} (hl : line1D S line pos = .ok l)
    {A : Arr3 K} (hA : S.get name l.x l.y l.z (.str comp) = .ok A) : curve S field component line i pos =
      .ok ⟨l.xx.length, fun i => l.xx.getD i 0, if l.xax = "x" then fun i => A.val i 0 0 else if l.xax = "y" then fun i => A.val 0 i 0 else fun i => A.val 0 0 i, l.xax, l.a, l.b⟩ := by
  have hn : ¬ nColors ≤ i := by unfold nColors; omega
  unfold curve
  rw [hs]
  simp only [hl, hA, bind, Except.bind, hn, if_false, pure, Except.pure]

/-- What a scene shows of a field. -/
def Reads (S : Scene K) (name : String) (c : Fld.CKey) (f : Fld K) (M : ℕ → ℕ → ℕ → K) : Prop :=
  ∀ kx ky kz xs ys zs, Plain f.Nx kx → Plain f.Ny ky → kx.resolve f.Nx = .ok xs → ky.resolve f.Ny = .ok ys → kz.resolve f.Nz = .ok zs →
    ∃ A, S.get name kx ky kz c = .ok A ∧ ∀ i j k, i < xs.length → j < ys.length → k < zs.length → A.val i j k = M (xs.getD i 0) (ys.getD j 0) (zs.getD k 0)

theorem plain_int {n i : ℕ} (h : i < n) : Plain n (.int (i : ℤ)) := by
  show -(n : ℤ) ≤ i ∧ (i : ℤ) < n
  omega

/-- One curve. -/
theorem curve_ok (norm3 : K → K → K → K) {S : Scene K} {Nx Ny Nz : ℕ} (hNx : 0 < Nx) (hNy : 0 < Ny) (hNz : 0 < Nz) {x y z : ℕ → K} (hS : OnAxes S Nx Ny Nz x y z)
    {f : Fld K} (hf : f.Nx = Nx ∧ f.Ny = Ny ∧ f.Nz = Nz) {s ax : String} (ha : ax ∈ ["x", "y", "z"]) (hax : pyLower s = ax) {p : K} (h0 : 0 ≤ p) (h1 : p < 1)
    {field component name comp : String} (hs : split1 field component = (name, comp)) {M : ℕ → ℕ → ℕ → K} (hM : Mpi.matOf norm3 f (.str comp) = some M) (hR : Reads S name (.str comp) f M) {m : ℕ} (hm : m < 7) :
    ∃ c, curve S field component (.name s) m p = .ok c ∧ IsCurve norm3 f (.str comp) x y z ax p c := by
  obtain ⟨f1, f2, f3⟩ := hf
  obtain ⟨l1, l2, l3⟩ := line_named hNx hNy hNz hS (s := s) h0 h1
  obtain ⟨ex, lx⟩ := cut_index (n := Nx) h0 h1 hNx
  obtain ⟨ey, ly⟩ := cut_index (n := Ny) h0 h1 hNy
  obtain ⟨ez, lz⟩ := cut_index (n := Nz) h0 h1 hNz
  have fx : (Sel.slice (some 0) (some (Nx : ℤ))).resolve f.Nx = .ok (List.range Nx) := by rw [f1]; exact resolve_full Nx
  have fy : (Sel.slice (some 0) (some (Ny : ℤ))).resolve f.Ny = .ok (List.range Ny) := by rw [f2]; exact resolve_full Ny
  have fz : (Sel.slice (some 0) (some (Nz : ℤ))).resolve f.Nz = .ok (List.range Nz) := by rw [f3]; exact resolve_full Nz
  have ix : (Sel.int ((⌊(Nx : K) * p⌋₊ : ℕ) : ℤ)).resolve f.Nx = .ok [⌊(Nx : K) * p⌋₊] := by rw [f1]; exact resolve_int lx
  have iy : (Sel.int ((⌊(Ny : K) * p⌋₊ : ℕ) : ℤ)).resolve f.Ny = .ok [⌊(Ny : K) * p⌋₊] := by rw [f2]; exact resolve_int ly
  have iz : (Sel.int ((⌊(Nz : K) * p⌋₊ : ℕ) : ℤ)).resolve f.Nz = .ok [⌊(Nz : K) * p⌋₊] := by rw [f3]; exact resolve_int lz
  have V : ∀ {i j k}, i < Nx → j < Ny → k < Nz → Value norm3 f (.str comp) i j k (M i j k) := fun hi hj hk => value_of_mat hM (by omega) (by omega) (by omega)
  have mem : ax = "x" ∨ ax = "y" ∨ ax = "z" := by simpa using ha
  rcases mem with rfl | rfl | rfl
  · obtain ⟨A, hA, hv⟩ := hR _ _ _ _ _ _ (by rw [f1]; exact plain_full Nx) (by rw [f2]; exact plain_int ly) fx iy iz
    refine ⟨_, curve_of hs hm (l1 hax) hA, rfl, by simp [f1], fun i hi => ?_, fun i hi => ?_, by rw [f2, f3]; rfl⟩
    · exact map_range_getD _ (by simpa using hi)
    · have hi : i < Nx := by simpa using hi
      rw [f1, f2, f3]
      show Value _ _ _ _ _ _ (A.val i 0 0)
      rw [hv i 0 0 (by simpa using hi) (by simp) (by simp), range_getD hi]
      exact V hi ly lz
  · obtain ⟨A, hA, hv⟩ := hR _ _ _ _ _ _ (by rw [f1]; exact plain_int lx) (by rw [f2]; exact plain_full Ny) ix fy iz
    refine ⟨_, curve_of hs hm (l2 hax) hA, rfl, by simp [f2], fun i hi => ?_, fun i hi => ?_, by rw [f1, f3]; rfl⟩
    · exact map_range_getD _ (by simpa using hi)
    · have hi : i < Ny := by simpa using hi
      rw [f1, f2, f3]
      show Value _ _ _ _ _ _ (A.val 0 i 0)
      rw [hv 0 i 0 (by simp) (by simpa using hi) (by simp), range_getD hi]
      exact V lx hi lz
  · obtain ⟨A, hA, hv⟩ := hR _ _ _ _ _ _ (by rw [f1]; exact plain_int lx) (by rw [f2]; exact plain_int ly) ix iy fz
    refine ⟨_, curve_of hs hm (l3 hax) hA, rfl, by simp [f3], fun i hi => ?_, fun i hi => ?_, by rw [f1, f2]; rfl⟩
    · exact map_range_getD _ (by simpa using hi)
    · have hi : i < Nz := by simpa using hi
      rw [f1, f2, f3]
      show Value _ _ _ _ _ _ (A.val 0 0 i)
      rw [hv 0 0 i (by simp) (by simp) (by simpa using hi), range_getD hi]
      exact V lx ly hi

theorem curves_ok (norm3 : K → K → K → K) {S : Scene K} {Nx Ny Nz : ℕ} (hNx : 0 < Nx) (hNy : 0 < Ny) (hNz : 0 < Nz) {x y z : ℕ → K} (hS : OnAxes S Nx Ny Nz x y z)
    {f : Fld K} (hf : f.Nx = Nx ∧ f.Ny = Ny ∧ f.Nz = Nz) {s ax : String} (ha : ax ∈ ["x", "y", "z"]) (hax : pyLower s = ax)
    {field component name comp : String} (hs : split1 field component = (name, comp)) {M : ℕ → ℕ → ℕ → K} (hM : Mpi.matOf norm3 f (.str comp) = some M) (hR : Reads S name (.str comp) f M) (ps : List K) :
    ∀ (m : ℕ), m + ps.length ≤ 7 → (∀ p ∈ ps, 0 ≤ p ∧ p < 1) →
      ∃ cs, curves S field component (.name s) m ps = .ok cs ∧ List.Forall₂ (IsCurve norm3 f (.str comp) x y z ax) ps cs := by
  induction ps with
  | nil => intro m _ _; exact ⟨[], rfl, .nil⟩
  | cons p ps ih =>
    intro m hm hp
    simp only [List.length_cons] at hm
    obtain ⟨c, hc1, hc2⟩ := curve_ok norm3 hNx hNy hNz hS hf ha hax (hp p (by simp)).1 (hp p (by simp)).2 hs hM hR (m := m) (by omega)
    obtain ⟨cs, hcs1, hcs2⟩ := ih (m + 1) (by omega) fun q hq => hp q (by simp [hq])
    refine ⟨c :: cs, ?_, .cons hc2 hcs2⟩
    simp only [curves, hc1, hcs1, bind, Except.bind, pure, Except.pure]

theorem serial_reads (norm3 : K → K → K → K) {Nx Ny Nz : ℕ} {x y z : ℕ → K} {F : Which → Fld K} {name : String} {w : Which} (hw : which name = .ok w) {c : Fld.CKey}
    {M : ℕ → ℕ → ℕ → K} (hM : Mpi.matOf norm3 (F w) c = some M) : Reads (serial norm3 Nx Ny Nz x y z F) name c (F w) M :=
  fun _ _ _ _ _ _ _ _ h1 h2 h3 => ⟨_, serial_get_ok norm3 hw hM h1 h2 h3, fun _ _ _ _ _ _ => rfl⟩

theorem mpi_reads (norm3 : K → K → K → K) {size Nx Ny NZ : ℕ} {x y : ℕ → K} {zmin zmax : K} {zl : Arr K} {F : Which → Fld K} {fs : Which → ℕ → Fld K} {name : String} {w : Which} (hw : which name = .ok w)
    (hF : (F w).Nx = Nx ∧ (F w).Ny = Ny ∧ (F w).Nz = NZ) (hh : Holds size (F w) (fs w)) {c : Fld.CKey} {M : ℕ → ℕ → ℕ → K} (hM : Mpi.matOf norm3 (F w) c = some M) :
    Reads (mpi norm3 size Nx Ny NZ x y zmin zmax zl fs) name c (F w) M := by
  intro kx ky kz xs ys zs p1 p2 h1 h2 h3
  obtain ⟨A, hA, e0, e1, e2, hv⟩ := mpi_get norm3 (x := x) (y := y) (z := fun _ => 0) (zmin := zmin) (zmax := zmax) (zl := zl) hw hF hh (by rw [← hF.1]; exact p1) (by rw [← hF.2.1]; exact p2)
    (serial_get_ok norm3 hw hM h1 h2 h3)
  exact ⟨A, hA, fun i j k hi hj hk => hv i j k hi hj hk⟩

/-- **C114 (plot1D).** Any grid, graded or not; any axis name in any letter case; a list of up to seven fractions `0 ≤ p < 1`; E, H or J and any component or `component="Abs"`.  `plot1D` draws one curve per fraction, in
order, and each is the curve along that axis. -/
theorem C114_curves_partial (norm3 : K → K → K → K) {Nx Ny Nz : ℕ} (hNx : 0 < Nx) (hNy : 0 < Ny) (hNz : 0 < Nz) {x y z : ℕ → K} {F : Which → Fld K} (hF : ∀ w, (F w).Nx = Nx ∧ (F w).Ny = Ny ∧ (F w).Nz = Nz)
    {s ax : String} (ha : ax ∈ ["x", "y", "z"]) (hax : pyLower s = ax) {ps : List K} (hps : ∀ p ∈ ps, 0 ≤ p ∧ p < 1) (hlen : ps.length ≤ 7)
    {field component comp : String} {w : Which} (hask : AskedLine w comp field component) (hc : (∃ d, Fld.Names (.str comp) d) ∨ Fld.isAbs (.str comp) = true) :
    ∃ cs, plot1D (serial norm3 Nx Ny Nz x y z F) field component (.name s) ps = .ok cs ∧ List.Forall₂ (IsCurve norm3 (F w) (.str comp) x y z ax) ps cs := by
  obtain ⟨hs, hw⟩ := hask.split
  obtain ⟨M, hM⟩ := matOf_some norm3 (F w) hc
  exact curves_ok norm3 hNx hNy hNz (serial_axes norm3) (hF w) ha hax hs hM (serial_reads norm3 hw hM) ps 0 (by omega) hps

/-- **C114 (several processes).** Rank 0 of `size` processes that hold their layers of the fields draws the same curves. -/
theorem C114_mpi (norm3 : K → K → K → K) {size Nx Ny NZ : ℕ} (hNx : 0 < Nx) (hNy : 0 < Ny) {x y z : ℕ → K} (hz : Equidistant z NZ) {zl : Arr K} {F : Which → Fld K} {fs : Which → ℕ → Fld K}
    (hF : ∀ w, (F w).Nx = Nx ∧ (F w).Ny = Ny ∧ (F w).Nz = NZ) (hh : ∀ w, Holds size (F w) (fs w))
    {s ax : String} (ha : ax ∈ ["x", "y", "z"]) (hax : pyLower s = ax) {ps : List K} (hps : ∀ p ∈ ps, 0 ≤ p ∧ p < 1) (hlen : ps.length ≤ 7)
    {field component comp : String} {w : Which} (hask : AskedLine w comp field component) (hc : (∃ d, Fld.Names (.str comp) d) ∨ Fld.isAbs (.str comp) = true) :
    ∃ cs, plot1D (mpi norm3 size Nx Ny NZ x y (z 0) (z NZ) zl fs) field component (.name s) ps = .ok cs ∧ List.Forall₂ (IsCurve norm3 (F w) (.str comp) x y z ax) ps cs := by
  obtain ⟨hs, hw⟩ := hask.split
  obtain ⟨M, hM⟩ := matOf_some norm3 (F w) hc
  refine curves_ok norm3 hNx hNy hz.pos ⟨rfl, rfl, rfl, rfl, rfl, fun i hi => ?_⟩ (hF w) ha hax hs hM (mpi_reads norm3 hw (hF w) (hh w) hM) ps 0 (by omega) hps
  show z 0 + (i : K) * ((z NZ - z 0) / NZ) + (z NZ - z 0) / (2 * NZ) = z i + (z (i + 1) - z i) / 2
  have e1 := hz.2 i (by omega)
  have e2 := hz.2 (i + 1) (by omega)
  rw [Nat.cast_succ] at e2
  have e3 : (z NZ - z 0) / (2 * NZ) = ((z NZ - z 0) / NZ) / 2 := by rw [div_div, mul_comm (2 : K)]
  rw [e3]
  generalize (z NZ - z 0) / (NZ : K) = h at e1 e2 ⊢
  rw [e1, e2]; ring

/-- **C114 (position).** On an equidistant axis the cell `⌊n p⌋` is the one that contains the position `min + p (max - min)`. -/
theorem C114_position {x : ℕ → K} {n : ℕ} (hx : Equidistant x n) {p : K} (h0 : 0 ≤ p) (h1 : p < 1) : InCell x n ⌊(n : K) * p⌋₊ (p * (x n - x 0) + x 0) := by
  have d := sub_pos.2 hx.1
  obtain ⟨j, hj⟩ := find_cell (y := x) (n := n) (p := p * (x n - x 0) + x 0) (by nlinarith [mul_nonneg h0 d.le]) (by nlinarith [mul_lt_mul_of_pos_right h1 d])
  rw [cut_cell hx hj]
  exact hj

/-- **C114 refuted (eight positions).** More than seven positions fail whatever they are, though each alone would be drawn: there are seven colours. -/
theorem C114_eight_refuted (norm3 : K → K → K → K) {Nx Ny Nz : ℕ} (hNx : 0 < Nx) (hNy : 0 < Ny) (hNz : 0 < Nz) {x y z : ℕ → K} {F : Which → Fld K} (hF : ∀ w, (F w).Nx = Nx ∧ (F w).Ny = Ny ∧ (F w).Nz = Nz)
    {s ax : String} (ha : ax ∈ ["x", "y", "z"]) (hax : pyLower s = ax) {ps : List K} (hps : ∀ p ∈ ps, 0 ≤ p ∧ p < 1) (hlen : 7 < ps.length)
    {field component comp : String} {w : Which} (hask : AskedLine w comp field component) (hc : (∃ d, Fld.Names (.str comp) d) ∨ Fld.isAbs (.str comp) = true) :
    plot1D (serial norm3 Nx Ny Nz x y z F) field component (.name s) ps = .error .indexError := by
  obtain ⟨hs, hw⟩ := hask.split
  obtain ⟨M, hM⟩ := matOf_some norm3 (F w) hc
  have last : ∀ p, 0 ≤ p ∧ p < 1 → curve (serial norm3 Nx Ny Nz x y z F) field component (.name s) 7 p = .error .indexError := by
    intro p hp
    obtain ⟨c, hc1, -⟩ := curve_ok norm3 hNx hNy hNz (serial_axes norm3 (x := x) (y := y) (z := z) (F := F)) (hF w) ha hax hp.1 hp.2 hs hM (serial_reads norm3 hw hM) (m := 0) (by omega)
    unfold curve at hc1 ⊢
    rw [hs] at hc1 ⊢
    simp only [bind, Except.bind] at hc1 ⊢
    cases hl : line1D (serial norm3 Nx Ny Nz x y z F) (.name s) p with
    | error e => rw [hl] at hc1; cases hc1
    | ok l =>
      rw [hl] at hc1
      simp only at hc1 ⊢
      cases hA : (serial norm3 Nx Ny Nz x y z F).get (symbol w) l.x l.y l.z (.str comp) with
      | error e => rw [hA] at hc1; cases hc1
      | ok A => rfl
  have key : ∀ (ps : List K) (m : ℕ), m ≤ 7 → 7 < m + ps.length → (∀ p ∈ ps, 0 ≤ p ∧ p < 1) →
      curves (serial norm3 Nx Ny Nz x y z F) field component (.name s) m ps = .error .indexError := by
    intro ps
    induction ps with
    | nil => intro m h1 h2 _; simp at h2; omega
    | cons p ps ih =>
      intro m h1 h2 hp
      simp only [List.length_cons] at h2
      rcases Nat.lt_or_ge m 7 with h | h
      · obtain ⟨c, hc1, -⟩ := curve_ok norm3 hNx hNy hNz (serial_axes norm3 (x := x) (y := y) (z := z) (F := F)) (hF w) ha hax (hp p (by simp)).1 (hp p (by simp)).2 hs hM (serial_reads norm3 hw hM) (m := m) h
        simp only [curves, hc1, bind, Except.bind]
        rw [ih (m + 1) (by omega) (by omega) fun q hq => hp q (by simp [hq])]
      · obtain rfl : m = 7 := by omega
        simp only [curves, last p (hp p (by simp)), bind, Except.bind]
  exact key ps 0 (by omega) (by omega) hps

/-- **C114 refuted (upper end).** The fraction 1 fails on every axis. -/
theorem C114_end_refuted (norm3 : K → K → K → K) {Nx Ny Nz : ℕ} {x y z : ℕ → K} {F : Which → Fld K} {s ax : String} (ha : ax ∈ ["x", "y", "z"]) (hax : pyLower s = ax) (ps : List K)
    (field component : String) : plot1D (serial norm3 Nx Ny Nz x y z F) field component (.name s) (1 :: ps) = .error .indexError := by
  have lab : ∀ (n : ℕ) (a : ℕ → K), line1D.label n a (.int (pyInt ((n : K) * 1))) = .error .indexError := by
    intro n a
    unfold line1D.label pick1 pick
    rw [pyInt_end, resolve_end]
    rfl
  have hl : line1D (serial norm3 Nx Ny Nz x y z F) (.name s) 1 = .error .indexError := by
    have mem : ax = "x" ∨ ax = "y" ∨ ax = "z" := by simpa using ha
    unfold line1D
    simp only [hax]
    rcases mem with rfl | rfl | rfl
    · rw [if_pos rfl]; simp only [serial, lab, bind, Except.bind]
    · rw [if_neg (by decide), if_pos rfl]; simp only [serial, lab, bind, Except.bind]
    · rw [if_neg (by decide), if_neg (by decide), if_pos rfl]; simp only [serial, lab, bind, Except.bind]
  simp only [plot1D, curves, curve, hl, bind, Except.bind]

/-- **C114 refuted (magnitudes).** `field="EAbs"`, which `plot2D` accepts, fails in `plot1D` on every grid, line and position that another field is drawn at. -/
theorem C114_abs_refuted (norm3 : K → K → K → K) {Nx Ny Nz : ℕ} (hNx : 0 < Nx) (hNy : 0 < Ny) (hNz : 0 < Nz) {x y z : ℕ → K} {F : Which → Fld K}
    {s ax : String} (ha : ax ∈ ["x", "y", "z"]) (hax : pyLower s = ax) {p : K} (h0 : 0 ≤ p) (h1 : p < 1) (ps : List K) (component : String) :
    plot1D (serial norm3 Nx Ny Nz x y z F) "EAbs" component (.name s) (p :: ps) = .error .unboundLocalError := by
  obtain ⟨l1, l2, l3⟩ := line_named hNx hNy hNz (serial_axes norm3 (x := x) (y := y) (z := z) (F := F)) (s := s) h0 h1
  have mem : ax = "x" ∨ ax = "y" ∨ ax = "z" := by simpa using ha
  have hs : split1 "EAbs" component = ("EAbs", component) := rfl
  have hw : which "EAbs" = .error .unboundLocalError := rfl
  have : ∃ l, line1D (serial norm3 Nx Ny Nz x y z F) (.name s) p = .ok l := by
    rcases mem with rfl | rfl | rfl
    · exact ⟨_, l1 hax⟩
    · exact ⟨_, l2 hax⟩
    · exact ⟨_, l3 hax⟩
  obtain ⟨l, hl⟩ := this
  have hg : (serial norm3 Nx Ny Nz x y z F).get "EAbs" l.x l.y l.z (.str component) = .error .unboundLocalError := by
    show (which "EAbs" >>= _) = _
    rw [hw]; rfl
  simp only [plot1D, curves, curve, hs, hl, hg, bind, Except.bind]

/-! ### `Field.inspect` -/

/-- **C113 (inspect).** `field.inspect(plane)` shows, for each component, at the point `(u, v)` of the picture the value of the cell with these numbers in the middle layer, on every grid. -/
theorem C113_inspect (norm3 : K → K → K → K) (f : Fld K) (h : 0 < f.Nx ∧ 0 < f.Ny ∧ 0 < f.Nz) {d : ℕ} {key : Fld.CKey} (hd : Fld.Names key d) :
    (∃ P, inspect f "XY" d = .ok P ∧ P.xax = "nx" ∧ P.yax = "ny" ∧ ∀ (i j : ℕ) (u v : K), i < f.Nx → j < f.Ny → (i : K) ≤ u → u < i + 1 → (j : K) ≤ v → v < j + 1 →
      ∃ a, Value norm3 f key i j (f.Nz / 2) a ∧ Shows P u v a) ∧
    (∃ P, inspect f "XZ" d = .ok P ∧ P.xax = "nz" ∧ P.yax = "nx" ∧ ∀ (i k : ℕ) (u v : K), i < f.Nx → k < f.Nz → (k : K) ≤ u → u < k + 1 → (i : K) ≤ v → v < i + 1 →
      ∃ a, Value norm3 f key i (f.Ny / 2) k a ∧ Shows P u v a) ∧
    (∃ P, inspect f "YZ" d = .ok P ∧ P.xax = "nz" ∧ P.yax = "ny" ∧ ∀ (j k : ℕ) (u v : K), j < f.Ny → k < f.Nz → (k : K) ≤ u → u < k + 1 → (j : K) ≤ v → v < j + 1 →
      ∃ a, Value norm3 f key (f.Nx / 2) j k a ∧ Shows P u v a) := by
  obtain ⟨hx, hy, hz⟩ := h
  have hx2 : f.Nx / 2 < f.Nx := by omega
  have hy2 : f.Ny / 2 < f.Ny := by omega
  have hz2 : f.Nz / 2 < f.Nz := by omega
  have hM : Mpi.matOf norm3 f key = some (Fld.reshapeF f.Nx f.Ny (f.part d)) := by
    unfold Mpi.matOf Fld.toMatrix
    rw [Fld.names_iff.1 hd]; rfl
  have un : ∀ (n i : ℕ) (u : K), 0 < n → (i : K) ≤ u → u < i + 1 → (0 : K) + (i : K) * (((n : K) - 0) / n) ≤ u ∧ u < 0 + ((i : K) + 1) * (((n : K) - 0) / n) := by
    intro n i u hn h1 h2
    have : (n : K) ≠ 0 := by exact_mod_cast hn.ne'
    rw [sub_zero, div_self this]
    constructor <;> linarith
  refine ⟨⟨_, by simp only [inspect, Fld.index3, Fld.resolve3, resolve_full, resolve_int hz2, bind, Except.bind, pure, Except.pure, if_true]; rfl, rfl, rfl, ?_⟩,
    ⟨_, by rw [inspect, if_neg (by decide)]; simp only [Fld.index3, Fld.resolve3, resolve_full, resolve_int hy2, bind, Except.bind, pure, Except.pure, if_true]; rfl, rfl, rfl, ?_⟩,
    ⟨_, by rw [inspect, if_neg (by decide), if_neg (by decide)]; simp only [Fld.index3, Fld.resolve3, resolve_full, resolve_int hx2, bind, Except.bind, pure, Except.pure, if_true]; rfl, rfl, rfl, ?_⟩⟩
  · intro i j u v hi hj u1 u2 v1 v2
    refine ⟨_, value_of_mat hM hi hj hz2, j, i, by simpa using hj, by simpa using hi, ?_⟩
    simp only [List.length_range, range_getD hi, range_getD hj]
    exact ⟨(un _ i u hx u1 u2).1, (un _ i u hx u1 u2).2, (un _ j v hy v1 v2).1, (un _ j v hy v1 v2).2, rfl⟩
  · intro i k u v hi hk u1 u2 v1 v2
    refine ⟨_, value_of_mat hM hi hy2 hk, i, k, by simpa using hi, by simpa using hk, ?_⟩
    simp only [List.length_range, range_getD hi, range_getD hk]
    exact ⟨(un _ k u hz u1 u2).1, (un _ k u hz u1 u2).2, (un _ i v hx v1 v2).1, (un _ i v hx v1 v2).2, rfl⟩
  · intro j k u v hj hk u1 u2 v1 v2
    refine ⟨_, value_of_mat hM hx2 hj hk, j, k, by simpa using hj, by simpa using hk, ?_⟩
    simp only [List.length_range, range_getD hj, range_getD hk]
    exact ⟨(un _ k u hz u1 u2).1, (un _ k u hz u1 u2).2, (un _ j v hy v1 v2).1, (un _ j v hy v1 v2).2, rfl⟩

/-- **C113 refuted (colour range of inspect).** The colour range is taken from the largest value, not from the largest magnitude: a field that is nowhere positive and somewhere negative gets a range that excludes
negative values, or a reversed one. -/
theorem C113_inspect_range_refuted (f : Fld K) (d : ℕ) {n : ℕ} (hn : n < f.N) (hneg : ∀ m < f.N, f.part d m ≤ 0) (hlt : f.part d n < 0) :
    ∃ lo hi, inspectRange f d = .ok (lo, hi) ∧ ¬ (lo ≤ f.part d n ∧ f.part d n ≤ hi ∧ lo < hi) := by
  unfold inspectRange
  cases hl : (List.range f.N).map (f.part d) with
  | nil =>
    have := congrArg List.length hl
    simp at this; omega
  | cons v r =>
    refine ⟨_, _, rfl, fun ⟨h1, _, _⟩ => ?_⟩
    have all : ∀ a ∈ v :: r, a ≤ 0 := by
      rw [← hl]
      intro a ha
      obtain ⟨m, hm, rfl⟩ := List.mem_map.1 ha
      exact hneg m (List.mem_range.1 hm)
    have fold : ∀ (l : List K) (b : K), b ≤ 0 → (∀ a ∈ l, a ≤ 0) → l.foldl max b ≤ 0 := by
      intro l
      induction l with
      | nil => intro b hb _; exact hb
      | cons a l ih => intro b hb h; exact ih _ (max_le hb (h a (by simp))) fun c hc => h c (by simp [hc])
    have := fold r v (all v (by simp)) fun a ha => all a (by simp [ha])
    linarith

/-! ### cases -/

/-- A 4×5×6 grid with cells of length 1, 2 and 1/2. -/
def pX (i : ℕ) : ℚ := i
def pY (i : ℕ) : ℚ := 2 * i
def pZ (i : ℕ) : ℚ := i / 2
def pF (_ : Which) : Fld ℚ := ⟨4, 5, 6, fun n => n⟩

theorem pX_eq : Equidistant pX 4 := ⟨by norm_num [pX], fun i _ => by simp only [pX]; push_cast; ring⟩
theorem pY_eq : Equidistant pY 5 := ⟨by norm_num [pY], fun i _ => by simp only [pY]; push_cast; ring⟩
theorem pZ_eq : Equidistant pZ 6 := ⟨by norm_num [pZ], fun i _ => by simp only [pZ]; push_cast; ring⟩

example : ∃ P, plot2D (serial (fun a _ _ => a) 4 5 6 pX pY pZ pF) "E" "z" (.name "ZY") (1 / 2) = .ok P ∧ P.pos = 2 :=  by
  obtain ⟨P, h, -, h2, -⟩ := C113_picture_partial (fun a _ _ => a) pX_eq pY_eq pZ_eq (F := pF) (fun _ => ⟨rfl, rfl, rfl⟩) (plane := "ZY") (by decide) (pos := 1 / 2) (by norm_num) (by norm_num)
    (field := "E") (component := "z") (comp := "z") (w := .E) (.inl ⟨rfl, rfl⟩) (.inl ⟨2, .inr (.inr ⟨rfl, rfl⟩)⟩)
  refine ⟨P, h, h2.trans ?_⟩
  show 1 / 2 * (pX 4 - pX 0) + pX 0 = 2
  norm_num [pX]

example : ∃ P, plot2D (serial (fun a _ _ => a) 4 5 6 pX pY pZ pF) "EAbs" "z" (.name "XZ") (1 / 3) = .ok P := by
  obtain ⟨P, h, -⟩ := C113_picture_partial (fun a _ _ => a) pX_eq pY_eq pZ_eq (F := pF) (fun _ => ⟨rfl, rfl, rfl⟩) (plane := "XZ") (by decide) (pos := 1 / 3) (by norm_num) (by norm_num)
    (field := "EAbs") (component := "z") (comp := "Abs") (w := .E) (.inr ⟨by decide, by decide⟩) (.inr (by decide))
  exact ⟨P, h⟩

example : ∃ cs, plot1D (serial (fun a _ _ => a) 4 5 6 pX pY pZ pF) "Hy" "z" (.name "Z") [0, 1 / 2, 3 / 4] = .ok cs ∧ cs.length = 3 := by
  obtain ⟨cs, h, h2⟩ := C114_curves_partial (fun a _ _ => a) (Nx := 4) (Ny := 5) (Nz := 6) (by norm_num) (by norm_num) (by norm_num) (x := pX) (y := pY) (z := pZ) (F := pF) (fun _ => ⟨rfl, rfl, rfl⟩) (s := "Z") (ax := "z")
    (by simp) (by decide) (ps := [0, 1 / 2, 3 / 4]) (by intro p hp; simp only [List.mem_cons, List.not_mem_nil, or_false] at hp; rcases hp with rfl | rfl | rfl <;> norm_num) (by simp)
    (field := "Hy") (component := "z") (comp := "y") (w := .H) (.inr ⟨by decide, by decide⟩) (.inl ⟨1, .inr (.inl ⟨rfl, rfl⟩)⟩)
  exact ⟨cs, h, h2.length_eq.symm⟩

example : plot2D (serial (fun a _ _ => a) 4 5 6 pX pY pZ pF) "E" "z" (.name "XY") 1 = .error .indexError :=
  C113_end_refuted (fun a _ _ => a) (F := pF) (fun _ => ⟨rfl, rfl, rfl⟩) (plane := "XY") (by decide) (field := "E") (component := "z") (comp := "z") (w := .E) (.inl ⟨rfl, rfl⟩) (.inl ⟨2, .inr (.inr ⟨rfl, rfl⟩)⟩)

/-- Cells that grow: not equidistant. -/
def pG (i : ℕ) : ℚ := i ^ 2

example : (∀ i < 3, pG i < pG (i + 1)) ∧ ¬ Equidistant pG 3 := by
  refine ⟨fun i _ => ?_, fun h => ?_⟩
  · simp only [pG]; push_cast; nlinarith [(Nat.cast_nonneg i : (0 : ℚ) ≤ i)]
  · have := h.2 1 (by norm_num)
    norm_num [pG] at this

example : ∃ cs, plot1D (mpi (fun a b c => a + b + c) 3 2 3 6 pX pY (pZ 0) (pZ 6) ⟨3, pX⟩ (fun _ => demoParts)) "J" "Abs" (.name "y") [1 / 4, 2 / 3] = .ok cs ∧ cs.length = 2 := by
  obtain ⟨cs, h, h2⟩ := C114_mpi (fun a b c => a + b + c) (size := 3) (Nx := 2) (Ny := 3) (NZ := 6) (by norm_num) (by norm_num) (x := pX) (y := pY) (z := pZ) pZ_eq (zl := ⟨3, pX⟩) (F := fun _ => demoGlobal)
    (fs := fun _ => demoParts) (fun _ => ⟨rfl, rfl, rfl⟩) (fun _ => demoHolds) (s := "y") (ax := "y")
    (by simp) (by decide) (ps := [1 / 4, 2 / 3]) (by intro p hp; simp only [List.mem_cons, List.not_mem_nil, or_false] at hp; rcases hp with rfl | rfl <;> norm_num) (by simp)
    (field := "J") (component := "Abs") (comp := "Abs") (w := .J) (.inl ⟨rfl, rfl⟩) (.inr (by decide))
  exact ⟨cs, h, h2.length_eq.symm⟩

example : plot2D (mpi (fun a b c => a + b + c) 3 2 3 6 pX pY (pZ 0) (pZ 6) ⟨3, pX⟩ (fun _ => demoParts)) "E" "z" (.sels (.slice (some 0) (some 2)) (.slice (some 0) (some 3)) (.int ((5 : ℕ) : ℤ))) 0 = .error .indexError :=
  C113_mpi_indices_refuted _ _ _ _ _ _ rfl (by norm_num)

example : plot1D (serial (fun a _ _ => a) 4 5 6 pX pY pZ pF) "Ex" "z" (.name "x") [0, 1 / 9, 2 / 9, 3 / 9, 4 / 9, 5 / 9, 6 / 9, 7 / 9] = .error .indexError :=
  C114_eight_refuted (fun a _ _ => a) (by norm_num) (by norm_num) (by norm_num) (F := pF) (fun _ => ⟨rfl, rfl, rfl⟩) (s := "x") (ax := "x") (by simp) (by decide)
    (by intro p hp; simp only [List.mem_cons, List.not_mem_nil, or_false] at hp; rcases hp with rfl | rfl | rfl | rfl | rfl | rfl | rfl | rfl <;> norm_num) (by simp)
    (comp := "x") (w := .E) (.inr ⟨by decide, by decide⟩) (.inl ⟨0, .inl ⟨rfl, rfl⟩⟩)

example : ∃ lo hi, inspectRange (⟨1, 1, 2, fun n => if n = 1 then -3 else -1⟩ : Fld ℚ) 0 = .ok (lo, hi) ∧ ¬ (lo ≤ (-3 : ℚ) ∧ (-3 : ℚ) ≤ hi ∧ lo < hi) :=
  C113_inspect_range_refuted _ 0 (n := 1) (by decide) (by intro m _; show (if (0 * _ + m) = 1 then (-3 : ℚ) else -1) ≤ 0; split <;> norm_num) (by show (if (0 * _ + 1) = 1 then (-3 : ℚ) else -1) < 0; norm_num)

end
end Plot
end Wakis
