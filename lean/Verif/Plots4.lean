import Verif.Plots3

/-!
# Pictures of the fields: the other cuts and lines given by indices (C113, C114)
-/

namespace Wakis
namespace Plot
open Sol hiding matOf
open Mpi
open Wake (pyInt)
variable {K : Type} [Field K] [LinearOrder K] [FloorRing K]
set_option linter.unusedSectionVars false
section
variable [IsStrictOrderedRing K]

/-- **C113 (indices, normal to x).** A cut `[i, :, :]`: row `j` and column `k` are the values of cell `(i, j, k)`, and the title gives the centre of cell `i`. -/
theorem C113_indices_x (norm3 : K → K → K → K) {Nx ny nz : ℕ} {x y z : ℕ → K} (hy : ∀ i < ny + 1, y i < y (i + 1)) (hz : ∀ i < nz + 1, z i < z (i + 1)) {F : Which → Fld K}
    (hF : ∀ w, (F w).Nx = Nx ∧ (F w).Ny = ny + 1 ∧ (F w).Nz = nz + 1) {i : ℕ} (hi : i < Nx) {field component comp : String} {w : Which} (hask : Asked w comp field component) (hc : (∃ d, Fld.Names (.str comp) d) ∨ Fld.isAbs (.str comp) = true) (pos : K) :
    ∃ P, plot2D (serial norm3 Nx (ny + 1) (nz + 1) x y z F) field component (.sels (.int i) (.slice (some 0) (some ((ny + 1 : ℕ) : ℤ))) (.slice (some 0) (some ((nz + 1 : ℕ) : ℤ)))) pos = .ok P ∧
      P.rows = ny + 1 ∧ P.cols = nz + 1 ∧ P.pos = centre x i ∧ P.xax = "z" ∧ P.yax = "y" ∧ (∀ j ≤ ny, ∀ k ≤ nz, Value norm3 (F w) (.str comp) i j k (P.val j k)) ∧
      P.left = centre z 0 ∧ P.right = centre z nz ∧ P.bottom = centre y 0 ∧ P.top = centre y ny := by
  obtain ⟨hs, hw⟩ := hask.split
  obtain ⟨f1, f2, f3⟩ := hF w
  obtain ⟨M, hM⟩ := matOf_some norm3 (F w) hc
  have bz := bounds_full (a := centre z) (n := nz) fun i hi => (centre_lt hz (by omega)).le
  have by' := bounds_full (a := centre y) (n := ny) fun i hi => (centre_lt hy (by omega)).le
  have cut : cut2D (serial norm3 Nx (ny + 1) (nz + 1) x y z F) (.sels (.int i) (.slice (some 0) (some ((ny + 1 : ℕ) : ℤ))) (.slice (some 0) (some ((nz + 1 : ℕ) : ℤ)))) pos =
      .ok ⟨.int i, .slice (some 0) (some ((ny + 1 : ℕ) : ℤ)), .slice (some 0) (some ((nz + 1 : ℕ) : ℤ)), centre x i, "z", "y", centre z 0, centre z nz, centre y 0, centre y ny⟩ := by
    unfold cut2D
    simp only
    unfold cutSels
    simp only [isInt, if_true, serial, pick1_int (centre x) hi, bz, by', bind, Except.bind, pure, Except.pure]
    rfl
  refine ⟨_, plot_of_cut hs cut (serial_get_ok norm3 hw hM (by rw [f1]; exact resolve_int hi) (by rw [f2]; exact resolve_full _) (by rw [f3]; exact resolve_full _)),
    by simp, by simp, rfl, rfl, rfl, ?_, rfl, rfl, rfl, rfl⟩
  intro j hj k hk
  show Value _ _ _ _ _ _ (M _ _ _)
  rw [range_getD (by omega), range_getD (by omega)]
  exact value_of_mat hM (by omega) (by omega) (by omega)

/-- **C113 (indices, normal to y).** A cut `[:, j, :]`: row `i` and column `k` are the values of cell `(i, j, k)`, and the title gives the centre of cell `j`. -/
theorem C113_indices_y (norm3 : K → K → K → K) {nx Ny nz : ℕ} {x y z : ℕ → K} (hx : ∀ i < nx + 1, x i < x (i + 1)) (hz : ∀ i < nz + 1, z i < z (i + 1)) {F : Which → Fld K}
    (hF : ∀ w, (F w).Nx = nx + 1 ∧ (F w).Ny = Ny ∧ (F w).Nz = nz + 1) {j : ℕ} (hj : j < Ny) {field component comp : String} {w : Which} (hask : Asked w comp field component) (hc : (∃ d, Fld.Names (.str comp) d) ∨ Fld.isAbs (.str comp) = true) (pos : K) :
    ∃ P, plot2D (serial norm3 (nx + 1) Ny (nz + 1) x y z F) field component (.sels (.slice (some 0) (some ((nx + 1 : ℕ) : ℤ))) (.int j) (.slice (some 0) (some ((nz + 1 : ℕ) : ℤ)))) pos = .ok P ∧
      P.rows = nx + 1 ∧ P.cols = nz + 1 ∧ P.pos = centre y j ∧ P.xax = "z" ∧ P.yax = "x" ∧ (∀ i ≤ nx, ∀ k ≤ nz, Value norm3 (F w) (.str comp) i j k (P.val i k)) ∧
      P.left = centre z 0 ∧ P.right = centre z nz ∧ P.bottom = centre x 0 ∧ P.top = centre x nx := by
  obtain ⟨hs, hw⟩ := hask.split
  obtain ⟨f1, f2, f3⟩ := hF w
  obtain ⟨M, hM⟩ := matOf_some norm3 (F w) hc
  have bz := bounds_full (a := centre z) (n := nz) fun i hi => (centre_lt hz (by omega)).le
  have bx := bounds_full (a := centre x) (n := nx) fun i hi => (centre_lt hx (by omega)).le
  have cut : cut2D (serial norm3 (nx + 1) Ny (nz + 1) x y z F) (.sels (.slice (some 0) (some ((nx + 1 : ℕ) : ℤ))) (.int j) (.slice (some 0) (some ((nz + 1 : ℕ) : ℤ)))) pos =
      .ok ⟨.slice (some 0) (some ((nx + 1 : ℕ) : ℤ)), .int j, .slice (some 0) (some ((nz + 1 : ℕ) : ℤ)), centre y j, "z", "x", centre z 0, centre z nz, centre x 0, centre x nx⟩ := by
    unfold cut2D
    simp only
    unfold cutSels
    simp only [isInt, if_true, serial, pick1_int (centre y) hj, bz, bx, bind, Except.bind, pure, Except.pure]
    rfl
  refine ⟨_, plot_of_cut hs cut (serial_get_ok norm3 hw hM (by rw [f1]; exact resolve_full _) (by rw [f2]; exact resolve_int hj) (by rw [f3]; exact resolve_full _)),
    by simp, by simp, rfl, rfl, rfl, ?_, rfl, rfl, rfl, rfl⟩
  intro i hi k hk
  show Value _ _ _ _ _ _ (M _ _ _)
  rw [range_getD (by omega), range_getD (by omega)]
  exact value_of_mat hM (by omega) (by omega) (by omega)

/-- The curve through the cells `cell m` for the numbers `m` of a list. -/
def IsLine (norm3 : K → K → K → K) (f : Fld K) (c : Fld.CKey) (ax : String) (x : ℕ → K) (l : List ℕ) (cell : ℕ → ℕ × ℕ × ℕ) (a b : K) (C : Curve K) : Prop :=
  C.xax = ax ∧ C.n = l.length ∧ (∀ m < l.length, C.xx m = centre x (l.getD m 0) ∧ Value norm3 f c (cell (l.getD m 0)).1 (cell (l.getD m 0)).2.1 (cell (l.getD m 0)).2.2 (C.val m)) ∧ C.a = a ∧ C.b = b

theorem pick_of {n : ℕ} {a : ℕ → K} {s : Sel} {l : List ℕ} (h : s.resolve n = .ok l) : pick n a s = .ok (l.map a) := by
  unfold pick
  rw [h]; rfl

theorem getD_map {a : ℕ → K} {l : List ℕ} {m : ℕ} (hm : m < l.length) : (l.map a).getD m 0 = a (l.getD m 0) := by
  rw [List.getD_eq_getElem?_getD, List.getD_eq_getElem?_getD, List.getElem?_map, List.getElem?_eq_getElem hm]; rfl

theorem getD_lt {s : Sel} {n : ℕ} {l : List ℕ} (h : s.resolve n = .ok l) {m : ℕ} (hm : m < l.length) : l.getD m 0 < n := by
  rw [List.getD_eq_getElem?_getD, List.getElem?_eq_getElem hm]
  exact Sel.resolve_lt h _ (List.getElem_mem hm)

/-- **C114 (indices).** A line given by a slice and two integers is drawn through the cells the slice selects, at their centres; the legend gives the centre of the line. -/
theorem C114_indices (norm3 : K → K → K → K) {Nx Ny Nz : ℕ} {x y z : ℕ → K} {F : Which → Fld K} (hF : ∀ w, (F w).Nx = Nx ∧ (F w).Ny = Ny ∧ (F w).Nz = Nz) {i j k : ℕ} (hi : i < Nx) (hj : j < Ny) (hk : k < Nz)
    (lo hi' : Option ℤ) {field component comp : String} {w : Which} (hask : AskedLine w comp field component)
    (hc : (∃ d, Fld.Names (.str comp) d) ∨ Fld.isAbs (.str comp) = true) (pos : K) :
    (∀ l, (Sel.slice lo hi').resolve Nx = .ok l → ∃ C, plot1D (serial norm3 Nx Ny Nz x y z F) field component (.sels (.slice lo hi') (.int j) (.int k)) [pos] = .ok [C] ∧
      IsLine norm3 (F w) (.str comp) "x" x l (fun i => (i, j, k)) (centre y j) (centre z k) C) ∧
    (∀ l, (Sel.slice lo hi').resolve Ny = .ok l → ∃ C, plot1D (serial norm3 Nx Ny Nz x y z F) field component (.sels (.int i) (.slice lo hi') (.int k)) [pos] = .ok [C] ∧
      IsLine norm3 (F w) (.str comp) "y" y l (fun j => (i, j, k)) (centre x i) (centre z k) C) ∧
    (∀ l, (Sel.slice lo hi').resolve Nz = .ok l → ∃ C, plot1D (serial norm3 Nx Ny Nz x y z F) field component (.sels (.int i) (.int j) (.slice lo hi')) [pos] = .ok [C] ∧
      IsLine norm3 (F w) (.str comp) "z" z l (fun k => (i, j, k)) (centre x i) (centre y j) C) := by
  obtain ⟨hs, hw⟩ := hask.split
  obtain ⟨f1, f2, f3⟩ := hF w
  obtain ⟨M, hM⟩ := matOf_some norm3 (F w) hc
  have one : ∀ {line : Where} {C : Curve K}, curve (serial norm3 Nx Ny Nz x y z F) field component line 0 pos = .ok C → plot1D (serial norm3 Nx Ny Nz x y z F) field component line [pos] = .ok [C] := by
    intro line C h
    simp only [plot1D, curves, h, bind, Except.bind, pure, Except.pure]
  refine ⟨fun l hl => ?_, fun l hl => ?_, fun l hl => ?_⟩
  · have h : line1D (serial norm3 Nx Ny Nz x y z F) (.sels (.slice lo hi') (.int j) (.int k)) pos = .ok ⟨.slice lo hi', .int j, .int k, l.map (centre x), "x", centre y j, centre z k⟩ := by
      unfold line1D
      simp only [serial, isInt, label_int _ hj, label_int _ hk, pick_of hl, bind, Except.bind, pure, Except.pure]
      rfl
    refine ⟨_, one (curve_of hs (by norm_num) h (serial_get_ok norm3 hw hM (by rw [f1]; exact hl) (by rw [f2]; exact resolve_int hj) (by rw [f3]; exact resolve_int hk))), rfl, by simp, fun m hm => ⟨getD_map hm, ?_⟩, rfl, rfl⟩
    exact value_of_mat hM (by rw [f1]; exact getD_lt hl hm) (by rw [f2]; exact hj) (by rw [f3]; exact hk)
  · have h : line1D (serial norm3 Nx Ny Nz x y z F) (.sels (.int i) (.slice lo hi') (.int k)) pos = .ok ⟨.int i, .slice lo hi', .int k, l.map (centre y), "y", centre x i, centre z k⟩ := by
      unfold line1D
      simp only [serial, isInt, label_int _ hi, label_int _ hk, pick_of hl, bind, Except.bind, pure, Except.pure]
      rfl
    refine ⟨_, one (curve_of hs (by norm_num) h (serial_get_ok norm3 hw hM (by rw [f1]; exact resolve_int hi) (by rw [f2]; exact hl) (by rw [f3]; exact resolve_int hk))), rfl, by simp, fun m hm => ⟨getD_map hm, ?_⟩, rfl, rfl⟩
    exact value_of_mat hM (by rw [f1]; exact hi) (by rw [f2]; exact getD_lt hl hm) (by rw [f3]; exact hk)
  · have h : line1D (serial norm3 Nx Ny Nz x y z F) (.sels (.int i) (.int j) (.slice lo hi')) pos = .ok ⟨.int i, .int j, .slice lo hi', l.map (centre z), "z", centre x i, centre y j⟩ := by
      unfold line1D
      simp only [serial, isInt, label_int _ hi, label_int _ hj, pick_of hl, bind, Except.bind, pure, Except.pure]
      rfl
    refine ⟨_, one (curve_of hs (by norm_num) h (serial_get_ok norm3 hw hM (by rw [f1]; exact resolve_int hi) (by rw [f2]; exact resolve_int hj) (by rw [f3]; exact hl))), rfl, by simp, fun m hm => ⟨getD_map hm, ?_⟩, rfl, rfl⟩
    exact value_of_mat hM (by rw [f1]; exact hi) (by rw [f2]; exact hj) (by rw [f3]; exact getD_lt hl hm)

example : (Sel.slice (some 1) (some (-1))).resolve 5 = .ok [1, 2, 3] := by decide

end
end Plot
end Wakis
