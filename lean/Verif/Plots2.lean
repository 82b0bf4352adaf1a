import Verif.Plots

/-!
# Pictures of the fields: cuts given by indices, several processes, curves (C113, C114)
-/

namespace Wakis
namespace Plot
open Sol hiding matOf
open Mpi
open Wake (pyInt)
variable {K : Type} [Field K] [LinearOrder K] [FloorRing K]
set_option linter.unusedSectionVars false
section
variable [IsStrictOrderedRing K]

theorem range_succ_map {α : Type _} (a : ℕ → α) (n : ℕ) : (List.range (n + 1)).map a = a 0 :: (List.range n).map fun i => a (i + 1) := by
  rw [List.range_succ_eq_map, List.map_cons, List.map_map]; rfl

theorem fold_min_max {a : ℕ → K} {n : ℕ} (ha : ∀ i < n, a i ≤ a (i + 1)) :
    ((List.range n).map fun i => a (i + 1)).foldl min (a 0) = a 0 ∧ ((List.range n).map fun i => a (i + 1)).foldl max (a 0) = a n ∧ a 0 ≤ a n := by
  induction n with
  | zero => exact ⟨rfl, rfl, le_rfl⟩
  | succ n ih =>
    obtain ⟨h1, h2, h3⟩ := ih fun i hi => ha i (by omega)
    have h4 := h3.trans (ha n (by omega))
    rw [List.range_succ, List.map_append, List.foldl_append, List.foldl_append, h1, h2]
    exact ⟨min_eq_left h4, max_eq_right (ha n (by omega)), h4⟩

theorem bounds_full {a : ℕ → K} {n : ℕ} (ha : ∀ i < n, a i ≤ a (i + 1)) : bounds (n + 1) a (.slice (some 0) (some ((n + 1 : ℕ) : ℤ))) = .ok (a 0, a n) := by
  unfold bounds pick
  rw [resolve_full]
  simp only [bind, Except.bind, pure, Except.pure, range_succ_map]
  rw [(fold_min_max ha).1, (fold_min_max ha).2.1]

theorem pick1_int {n k : ℕ} (a : ℕ → K) (h : k < n) : pick1 n a (.int (k : ℤ)) = .ok (a k) := by
  unfold pick1 pick
  rw [resolve_int h]
  rfl

theorem centre_lt {x : ℕ → K} {n i : ℕ} (hx : ∀ i < n, x i < x (i + 1)) (hi : i + 1 < n) : centre x i < centre x (i + 1) := by
  have h1 := hx i (by omega)
  have h2 := hx (i + 1) hi
  unfold centre
  linarith

/-- **C113 (indices).** A cut `[:, :, k]` given by indices: row `i` and column `j` of the picture are the values of cell `(i, j, k)`, and the title gives the centre of layer `k`. -/
theorem C113_indices (norm3 : K → K → K → K) {nx ny Nz : ℕ} {x y z : ℕ → K} (hx : ∀ i < nx + 1, x i < x (i + 1)) (hy : ∀ i < ny + 1, y i < y (i + 1)) {F : Which → Fld K}
    (hF : ∀ w, (F w).Nx = nx + 1 ∧ (F w).Ny = ny + 1 ∧ (F w).Nz = Nz) {k : ℕ} (hk : k < Nz) {field component comp : String} {w : Which} (hask : Asked w comp field component) (hc : (∃ d, Fld.Names (.str comp) d) ∨ Fld.isAbs (.str comp) = true) (pos : K) :
    ∃ P, plot2D (serial norm3 (nx + 1) (ny + 1) Nz x y z F) field component (.sels (.slice (some 0) (some ((nx + 1 : ℕ) : ℤ))) (.slice (some 0) (some ((ny + 1 : ℕ) : ℤ))) (.int k)) pos = .ok P ∧
      P.rows = nx + 1 ∧ P.cols = ny + 1 ∧ P.pos = centre z k ∧ P.xax = "y" ∧ P.yax = "x" ∧ (∀ i ≤ nx, ∀ j ≤ ny, Value norm3 (F w) (.str comp) i j k (P.val i j)) ∧
      P.left = centre y 0 ∧ P.right = centre y ny ∧ P.bottom = centre x 0 ∧ P.top = centre x nx := by
  obtain ⟨hs, hw⟩ := hask.split
  obtain ⟨f1, f2, f3⟩ := hF w
  obtain ⟨M, hM⟩ := matOf_some norm3 (F w) hc
  have bx := bounds_full (a := centre x) (n := nx) fun i hi => (centre_lt hx (by omega)).le
  have by' := bounds_full (a := centre y) (n := ny) fun i hi => (centre_lt hy (by omega)).le
  have cut : cut2D (serial norm3 (nx + 1) (ny + 1) Nz x y z F) (.sels (.slice (some 0) (some ((nx + 1 : ℕ) : ℤ))) (.slice (some 0) (some ((ny + 1 : ℕ) : ℤ))) (.int k)) pos =
      .ok ⟨.slice (some 0) (some ((nx + 1 : ℕ) : ℤ)), .slice (some 0) (some ((ny + 1 : ℕ) : ℤ)), .int k, centre z k, "y", "x", centre y 0, centre y ny, centre x 0, centre x nx⟩ := by
    unfold cut2D
    simp only
    unfold cutSels
    simp only [isInt, if_true, serial, pick1_int (centre z) hk, bx, by', bind, Except.bind, pure, Except.pure]
    rfl
  refine ⟨_, plot_of_cut hs cut (serial_get_ok norm3 hw hM (by rw [f1]; exact resolve_full _) (by rw [f2]; exact resolve_full _) (by rw [f3]; exact resolve_int hk)),
    by simp, by simp, rfl, rfl, rfl, ?_, rfl, rfl, rfl, rfl⟩
  intro i hi j hj
  show Value _ _ _ _ _ _ (M _ _ _)
  rw [range_getD (by omega), range_getD (by omega)]
  exact value_of_mat hM (by omega) (by omega) (by omega)

/-- **C113 refuted (indices).** In such a picture the colours are not where the cells are: the extent runs from the centre of the first to the centre of the last cell. With three or more equal cells along y, two or
more along x, there is a field and a point in the domain whose colour is not the value of its cell. -/
theorem C113_indices_refuted (norm3 : K → K → K → K) {nx ny Nz : ℕ} {x y z : ℕ → K} (hnx : 1 ≤ nx) (hny : 2 ≤ ny) (hx : ∀ i < nx + 1, x i < x (i + 1)) (hy : Equidistant y (ny + 1)) {k : ℕ} (hk : k < Nz) (pos : K) :
    ∃ F : Which → Fld K, (∀ w, (F w).Nx = nx + 1 ∧ (F w).Ny = ny + 1 ∧ (F w).Nz = Nz) ∧
      ∃ P, plot2D (serial norm3 (nx + 1) (ny + 1) Nz x y z F) "Ex" "z" (.sels (.slice (some 0) (some ((nx + 1 : ℕ) : ℤ))) (.slice (some 0) (some ((ny + 1 : ℕ) : ℤ))) (.int k)) pos = .ok P ∧
      ∃ (px py a b : K) (i j : ℕ), InCell x (nx + 1) i px ∧ InCell y (ny + 1) j py ∧ Value norm3 (F .E) (.str "x") i j k a ∧ Shows P py px b ∧ a ≠ b := by
  set F : Which → Fld K := fun _ => ⟨nx + 1, ny + 1, Nz, fun n => ((n / (nx + 1) % (ny + 1) : ℕ) : K)⟩ with hF
  have nN : (0 : K) < ((ny + 1 : ℕ) : K) := by positivity
  set h := (y (ny + 1) - y 0) / ((ny + 1 : ℕ) : K) with hh
  have h0 : 0 < h := div_pos (sub_pos.2 hy.1) nN
  have hyi : ∀ i < ny + 1, y i < y (i + 1) := by
    intro i hi
    rw [hy.2 i (by omega), hy.2 (i + 1) (by omega), ← hh, Nat.cast_succ]
    linarith
  obtain ⟨P, hP, e1, e2, -, -, -, hv, e3, e4, e5, e6⟩ := C113_indices norm3 (z := z) hx hyi (F := F) (fun _ => ⟨rfl, rfl, rfl⟩) hk (field := "Ex") (component := "z") (comp := "x") (w := .E) (.inr ⟨by decide, by decide⟩)
    (.inl ⟨0, .inl ⟨rfl, rfl⟩⟩) pos
  have hM : Mpi.matOf norm3 (F .E) (.str "x") = some (Fld.reshapeF (nx + 1) (ny + 1) ((F .E).part 0)) := rfl
  have M1 : ∀ i ≤ nx, ∀ j ≤ ny, Fld.reshapeF (nx + 1) (ny + 1) ((F .E).part 0) i j k = (j : K) := by
    intro i hi j hj
    show (((0 * (F .E).N + (i + (nx + 1) * (j + (ny + 1) * k))) / (nx + 1) % (ny + 1) : ℕ) : K) = _
    rw [Nat.zero_mul, Nat.zero_add, Nat.add_mul_div_left _ _ (by omega), Nat.div_eq_of_lt (by omega), Nat.zero_add, Nat.add_mul_mod_self_left, Nat.mod_eq_of_lt (by omega)]
  have V := fun {i j : ℕ} (hi : i ≤ nx) (hj : j ≤ ny) => M1 i hi j hj ▸ value_of_mat hM (i := i) (j := j) (k := k) (show i < nx + 1 by omega) (show j < ny + 1 by omega) hk
  have pv : P.val 0 0 = ((0 : ℕ) : K) := by
    obtain ⟨b, hb, hb'⟩ := hv 0 (by omega) 0 (by omega)
    obtain ⟨c, hc, hc'⟩ := V (i := 0) (j := 0) (by omega) (by omega)
    rw [hb] at hc
    cases hc
    rw [← hb', hc']
  have y1 : y 1 = y 0 + h := by have := hy.2 1 (by omega); push_cast at this; rw [this, hh]; push_cast; ring
  have yn : y ny = y 0 + ny * h := hy.2 ny (by omega)
  have yn1 : y (ny + 1) = y 0 + (ny + 1) * h := by have := hy.2 (ny + 1) le_rfl; rw [← hh] at this; push_cast at this; exact this
  have cl : ∀ {m j}, j ≤ m → m ≤ nx → centre x j ≤ centre x m := by
    intro m j hjm hm
    induction m with
    | zero => obtain rfl : j = 0 := by omega
              exact le_rfl
    | succ m ih =>
      rcases Nat.lt_or_ge j (m + 1) with q | q
      · exact (ih (by omega) (by omega)).trans (centre_lt hx (by omega)).le
      · obtain rfl : j = m + 1 := by omega
        exact le_rfl
  have xw : 0 < (centre x nx - centre x 0) / ((nx + 1 : ℕ) : K) := by
    refine div_pos (sub_pos.2 ?_) (by positivity)
    exact (centre_lt hx (i := 0) (by omega)).trans_le (cl hnx le_rfl)
  have x01 := hx 0 (by omega)
  refine ⟨F, fun _ => ⟨rfl, rfl, rfl⟩, P, hP, centre x 0, y 1, (1 : ℕ), (0 : ℕ), 0, 1, ⟨by omega, by unfold centre; linarith, by unfold centre; linarith⟩, ⟨by omega, le_rfl, hyi 1 (by omega)⟩, V (by omega) (by omega),
    ⟨0, 0, by omega, by omega, ?_, ?_, ?_, ?_, pv⟩, by norm_num⟩
  · rw [e3, e4, e2]; unfold centre; rw [Nat.zero_add, y1]; push_cast; linarith
  · rw [e3, e4, e2]
    have c0 : centre y 0 = y 0 + h / 2 := by unfold centre; rw [Nat.zero_add, y1]; ring
    have cn : centre y ny = y 0 + (ny + 1 / 2) * h := by unfold centre; rw [yn, yn1]; ring
    rw [c0, cn, y1]
    have : h / 2 < (y 0 + (ny + 1 / 2) * h - (y 0 + h / 2)) / ((ny + 1 : ℕ) : K) := by
      rw [lt_div_iff₀ nN]
      have n2 : (2 : K) ≤ ny := by exact_mod_cast hny
      push_cast
      nlinarith
    push_cast at this ⊢
    linarith
  · rw [e5, e6, e1]; push_cast; linarith
  · rw [e5, e6, e1]; push_cast at xw ⊢; linarith

/-! ### several processes -/

/-- Two pictures that look the same. -/
structure Same (P Q : Picture K) : Prop where
  size : P.rows = Q.rows ∧ P.cols = Q.cols
  frame : (P.left, P.right, P.bottom, P.top) = (Q.left, Q.right, Q.bottom, Q.top)
  text : (P.xax, P.yax, P.pos) = (Q.xax, Q.yax, Q.pos)
  vals : ∀ i < P.rows, ∀ j < P.cols, P.val i j = Q.val i j

theorem parse_of_which {name : String} {w : Which} (h : which name = .ok w) (c : Fld.CKey) : parseField name (some c) = .ok (w, c) := by
  unfold which at h
  split_ifs at h with h1 h2 h3
  · subst h1; cases h; rfl
  · subst h2; cases h; rfl
  · subst h3; cases h; rfl

theorem plain_full (n : ℕ) : Plain n (.slice (some 0) (some (n : ℤ))) := ⟨le_rfl, by omega, le_rfl⟩

theorem plain_of_resolve {n : ℕ} {i : ℤ} {xs : List ℕ} (h : (Sel.int i).resolve n = .ok xs) : Plain n (.int i) := by
  simp only [Sel.resolve] at h
  cases hp : pyIndex n i with
  | error e => rw [hp] at h; cases h
  | ok a =>
    have := pyIndex_ok_iff.1 hp
    show -(n : ℤ) ≤ i ∧ i < n
    omega

/-- The gathered block is the block of the field. -/
theorem mpi_get (norm3 : K → K → K → K) {size Nx Ny NZ : ℕ} {x y z : ℕ → K} {zmin zmax : K} {zl : Arr K} {F : Which → Fld K} {fs : Which → ℕ → Fld K} {name : String} {w : Which} (hw : which name = .ok w)
    (hF : (F w).Nx = Nx ∧ (F w).Ny = Ny ∧ (F w).Nz = NZ) (hh : Holds size (F w) (fs w)) {kx ky kz : Sel} {c : Fld.CKey} (px : Plain Nx kx) (py : Plain Ny ky) {A : Arr3 K}
    (hA : (serial norm3 Nx Ny NZ x y z F).get name kx ky kz c = .ok A) :
    ∃ A', (mpi norm3 size Nx Ny NZ x y zmin zmax zl fs).get name kx ky kz c = .ok A' ∧ A'.n0 = A.n0 ∧ A'.n1 = A.n1 ∧ A'.n2 = A.n2 ∧
      ∀ i j k, i < A.n0 → j < A.n1 → k < A.n2 → A'.val i j k = A.val i j k := by
  obtain ⟨f1, f2, f3⟩ := hF
  rw [serial_get norm3 hw] at hA
  cases hB : (F w).getitem norm3 kx ky kz c with
  | error e => rw [hB] at hA; cases hA
  | ok B =>
    rw [hB] at hA
    cases hA
    obtain ⟨A', h1, h2, h3⟩ := C13_gather norm3 hh (x := some kx) (y := some ky) (z := some kz) (key := c) (fun t ht => by cases ht; rw [f1]; exact px) (fun t ht => by cases ht; rw [f2]; exact py) hB
    rw [f3] at h1
    have d1 : A'.n0 = B.xs.length := congrArg (·.1) h2
    have d2 : A'.n1 = B.ys.length := congrArg (·.2.1) h2
    have d3 : A'.n2 = B.zs.length := congrArg (·.2.2) h2
    refine ⟨A', ?_, d1, d2, d3, fun i j k hi hj hk => h3 i j k (by rw [d1]; exact hi) (by rw [d2]; exact hj) (by rw [d3]; exact hk)⟩
    show (parseField name (some c) >>= fun p => mpiGather norm3 size NZ (fs p.1) (some kx) (some ky) (some kz) p.2) = _
    rw [parse_of_which hw]
    exact h1

/-- **C113 (several processes).** When the ranks hold their layers of the fields, rank 0 of `size` processes draws the picture that one process draws. -/
theorem C113_mpi (norm3 : K → K → K → K) {size Nx Ny NZ : ℕ} (hNZ : 0 < NZ) {x y z : ℕ → K} {zl : Arr K} {F : Which → Fld K} {fs : Which → ℕ → Fld K}
    (hF : ∀ w, (F w).Nx = Nx ∧ (F w).Ny = Ny ∧ (F w).Nz = NZ) (hh : ∀ w, Holds size (F w) (fs w)) {field component plane : String} {pos : K} {P : Picture K}
    (hP : plot2D (serial norm3 Nx Ny NZ x y z F) field component (.name plane) pos = .ok P) :
    ∃ Q, plot2D (mpi norm3 size Nx Ny NZ x y (z 0) (z NZ) zl fs) field component (.name plane) pos = .ok Q ∧ Same P Q := by
  set S := serial norm3 Nx Ny NZ x y z F with hS
  set T := mpi norm3 size Nx Ny NZ x y (z 0) (z NZ) zl fs with hT
  have nz : (NZ : K) ≠ 0 := by exact_mod_cast hNZ.ne'
  have z0 : T.z 0 = z 0 := by show z 0 + ((0 : ℕ) : K) * _ = _; push_cast; ring
  have zN : T.z NZ = z NZ := by show z 0 + (NZ : K) * ((z NZ - z 0) / NZ) = _; field_simp; ring
  have cuts : cut2D T (.name plane) pos = cut2D S (.name plane) pos := by
    show cutName T plane pos = cutName S plane pos
    unfold cutName
    have e1 : T.Nz = NZ := rfl
    rw [e1, z0, zN]
    rfl
  obtain ⟨⟨name, comp⟩, hs⟩ : ∃ nc, split2 field component = nc := ⟨_, rfl⟩
  unfold plot2D at hP ⊢
  rw [hs] at hP ⊢
  simp only [bind, Except.bind] at hP ⊢
  rw [cuts]
  cases hc : cut2D S (.name plane) pos with
  | error e => rw [hc] at hP; cases hP
  | ok c =>
    rw [hc] at hP
    simp only at hP ⊢
    cases hA : S.get name c.x c.y c.z (.str comp) with
    | error e => rw [hA] at hP; cases hP
    | ok A =>
      rw [hA] at hP
      simp only at hP
      cases hw : which name with
      | error e =>
        have : S.get name c.x c.y c.z (.str comp) = .error e := by
          show (which name >>= fun w => (F w).getitem norm3 c.x c.y c.z (.str comp) >>= fun b => pure (arr3 b)) = _
          rw [hw]; rfl
        rw [this] at hA; cases hA
      | ok w =>
        obtain ⟨f1, f2, f3⟩ := hF w
        have hA' := hA
        rw [hS, serial_get norm3 hw] at hA'
        cases hB : (F w).getitem norm3 c.x c.y c.z (.str comp) with
        | error e => rw [hB] at hA'; cases hA'
        | ok B =>
          -- the three resolutions succeed
          have res : ∃ xs ys zs, c.x.resolve Nx = .ok xs ∧ c.y.resolve Ny = .ok ys ∧ c.z.resolve NZ = .ok zs := by
            rw [getitem_eq] at hB
            cases hM : Mpi.matOf norm3 (F w) (.str comp) with
            | none => rw [hM] at hB; cases hB
            | some M =>
              rw [hM] at hB
              simp only [Fld.index3, Fld.resolve3, f1, f2, f3, bind, Except.bind] at hB
              cases h1 : c.x.resolve Nx with
              | error e => rw [h1] at hB; cases hB
              | ok xs =>
                cases h2 : c.y.resolve Ny with
                | error e => rw [h1, h2] at hB; cases hB
                | ok ys =>
                  cases h3 : c.z.resolve NZ with
                  | error e => rw [h1, h2, h3] at hB; cases hB
                  | ok zs => exact ⟨xs, ys, zs, rfl, rfl, rfl⟩
          obtain ⟨xs, ys, zs, r1, r2, r3⟩ := res
          have shape : (c.x = .slice (some 0) (some (Nx : ℤ)) ∧ c.y = .slice (some 0) (some (Ny : ℤ)) ∧ ∃ i, c.z = .int i) ∨
              ((∃ i, c.x = .int i) ∧ c.y = .slice (some 0) (some (Ny : ℤ)) ∧ c.z = .slice (some 0) (some (NZ : ℤ))) ∨
              (c.x = .slice (some 0) (some (Nx : ℤ)) ∧ (∃ i, c.y = .int i) ∧ c.z = .slice (some 0) (some (NZ : ℤ))) := by
            have hc : cutName S plane pos = .ok c := hc
            unfold cutName at hc
            split_ifs at hc <;> cases hc
            · exact .inl ⟨rfl, rfl, _, rfl⟩
            · exact .inr (.inl ⟨⟨_, rfl⟩, rfl, rfl⟩)
            · exact .inr (.inr ⟨rfl, ⟨_, rfl⟩, rfl⟩)
          have px : Plain Nx c.x := by
            rcases shape with ⟨h, -⟩ | ⟨⟨i, h⟩, -⟩ | ⟨h, -⟩
            · rw [h]; exact plain_full Nx
            · rw [h] at r1 ⊢; exact plain_of_resolve r1
            · rw [h]; exact plain_full Nx
          have py : Plain Ny c.y := by
            rcases shape with ⟨-, h, -⟩ | ⟨-, h, -⟩ | ⟨-, ⟨i, h⟩, -⟩
            · rw [h]; exact plain_full Ny
            · rw [h]; exact plain_full Ny
            · rw [h] at r2 ⊢; exact plain_of_resolve r2
          obtain ⟨A', hA1, d0, d1, d2, hv⟩ := mpi_get norm3 (zmin := z 0) (zmax := z NZ) (zl := zl) hw (hF w) (hh w) px py hA
          have hA2 : T.get name c.x c.y c.z (.str comp) = .ok A' := hA1
          rw [hA2]
          simp only
          -- the axis with an integer has one entry
          rw [hB] at hA'
          cases hA'
          have lens : B.xs = xs ∧ B.ys = ys ∧ B.zs = zs := by
            rw [getitem_eq] at hB
            cases hM : Mpi.matOf norm3 (F w) (.str comp) with
            | none => rw [hM] at hB; cases hB
            | some M =>
              rw [hM] at hB
              simp only [Fld.index3, Fld.resolve3, f1, f2, f3, r1, r2, r3, bind, Except.bind, pure, Except.pure] at hB
              cases hB
              exact ⟨rfl, rfl, rfl⟩
          have one : ∀ {n : ℕ} {i : ℤ} {l : List ℕ}, (Sel.int i).resolve n = .ok l → 0 < l.length := by
            intro n i l h
            simp only [Sel.resolve] at h
            cases hp : pyIndex n i with
            | error e => rw [hp] at h; cases h
            | ok a => rw [hp] at h; cases h; simp
          rcases shape with ⟨h1, h2, i, h3⟩ | ⟨⟨i, h1⟩, h2, h3⟩ | ⟨h1, ⟨i, h2⟩, h3⟩
          · rw [h3] at r3
            have o := one r3
            rw [← lens.2.2] at o
            unfold draw at hP ⊢
            rw [h1, h2, h3] at hP ⊢
            simp only [isInt] at hP ⊢
            cases hP
            exact ⟨_, rfl, ⟨⟨d0.symm, d1.symm⟩, rfl, rfl, fun a ha b hb => (hv a b 0 ha hb o).symm⟩⟩
          · rw [h1] at r1
            have o := one r1
            rw [← lens.1] at o
            unfold draw at hP ⊢
            rw [h1, h2, h3] at hP ⊢
            simp only [isInt] at hP ⊢
            cases hP
            exact ⟨_, rfl, ⟨⟨d1.symm, d2.symm⟩, rfl, rfl, fun a ha b hb => (hv 0 a b o ha hb).symm⟩⟩
          · rw [h2] at r2
            have o := one r2
            rw [← lens.2.1] at o
            unfold draw at hP ⊢
            rw [h1, h2, h3] at hP ⊢
            simp only [isInt] at hP ⊢
            cases hP
            exact ⟨_, rfl, ⟨⟨d0.symm, d2.symm⟩, rfl, rfl, fun a ha b hb => (hv a 0 b ha o hb).symm⟩⟩

/-- **C113 refuted (indices, several processes).** A cut `[x, y, k]` whose layer `k` is beyond the cells of rank 0 fails there (the title reads the local `z`), although the field has that layer. -/
theorem C113_mpi_indices_refuted (norm3 : K → K → K → K) {size Nx Ny NZ : ℕ} {x y : ℕ → K} {zmin zmax : K} {zl : Arr K} {fs : Which → ℕ → Fld K} (field component : String) (kx ky : Sel) (pos : K)
    (hlen : zl.len = NZ / size + 1) {k : ℕ} (hk : NZ / size + 1 ≤ k) :
    plot2D (mpi norm3 size Nx Ny NZ x y zmin zmax zl fs) field component (.sels kx ky (.int k)) pos = .error .indexError := by
  have e : pick1 zl.len zl.val (.int (k : ℤ)) = .error .indexError := by
    have : pyIndex zl.len (k : ℤ) = .error .indexError := by unfold pyIndex; rw [if_neg (by omega), if_neg (by omega)]
    unfold pick1 pick
    simp only [Sel.resolve, this, Except.map, bind, Except.bind]
  unfold plot2D cut2D
  simp only
  unfold cutSels
  simp only [isInt, if_true, mpi, e, bind, Except.bind]

end
end Plot
end Wakis
