import Verif.SolverProps2
import Verif.FieldProps

/-!
# Boundary conditions: C24 - C28, C37

`faceName`, `OnFace`, `view0` are the specification vocabulary: the name declared for a face, whether
a cell lies in the layer of a face, and a field continued by zero outside the domain.
-/

namespace Wakis
namespace Sol
open Sparse Finset
variable {K : Type _} [Field K]

/-! ### specification vocabulary -/

/-- Low or high side of an axis. -/
inductive Side | lo | hi
  deriving DecidableEq, Repr

/-- The boundary name given for a face. -/
def faceName (bc : Faces String) (axis : ℕ) : Side → String
  | .lo => bc.lo axis
  | .hi => bc.hi axis

/-- Cell `(i,j,k)` lies in the layer of the face. -/
def OnFace (Nx Ny Nz axis : ℕ) (s : Side) (i j k : ℕ) : Prop :=
  coord axis i j k = match s with | .lo => 0 | .hi => coord axis Nx Ny Nz - 1

instance (Nx Ny Nz axis : ℕ) (s : Side) (i j k : ℕ) : Decidable (OnFace Nx Ny Nz axis s i j k) := by
  unfold OnFace; infer_instance

/-- Component `c` of cell `(i,j,k)`, zero outside the domain. -/
def view0 (Nx Ny Nz : ℕ) (v : ℕ → K) (c i j k : ℕ) : K :=
  if i < Nx ∧ j < Ny ∧ k < Nz then v (pos Nx Ny Nz c i j k) else 0

/-- The event assigns neither entry `r` of E nor entry `r` of J. -/
def Ev.NotEJAt (r : ℕ) : Ev K → Prop
  | .write .E n _ => n ≠ r
  | .write .J n _ => n ≠ r
  | _ => True

/-- The event does not assign entry `r` of H. -/
def Ev.NotHAt (r : ℕ) : Ev K → Prop
  | .write .H n _ => n ≠ r
  | _ => True

/-! ### plane assignment is `Field.__setitem__` -/

omit [Field K] in
theorem setPart_congr (f : Fld K) (c : ℕ) {u v : ℕ → K} (h : ∀ p < f.N, u p = v p) : f.setPart c u = f.setPart c v := by
  unfold Fld.setPart
  congr 1
  funext n
  split_ifs with hn
  · refine h _ ?_
    have : (c + 1) * f.N = c * f.N + f.N := by ring
    omega
  · rfl

omit [Field K] in
/-- `f[m, :, :, c] = v`, `f[:, m, :, c] = v` and `f[:, :, m, c] = v` through `Field.__setitem__` (with
`m` possibly negative) are `setPlane`. -/
theorem setPlane_eq_setitem (f : Fld K) {key : Fld.CKey} {c : ℕ} (hc : Fld.Names key c) (v : K) {m : ℤ} {a : ℕ} :
    (pyIndex f.Nx m = .ok a → f.setitem (.tup (.int m) .all .all key) (.scalar v) = .ok (setPlane f 0 a c fun _ _ _ => v)) ∧
    (pyIndex f.Ny m = .ok a → f.setitem (.tup .all (.int m) .all key) (.scalar v) = .ok (setPlane f 1 a c fun _ _ _ => v)) ∧
    (pyIndex f.Nz m = .ok a → f.setitem (.tup .all .all (.int m) key) (.scalar v) = .ok (setPlane f 2 a c fun _ _ _ => v)) := by
  have hc' := Fld.names_iff.1 hc
  refine ⟨?_, ?_, ?_⟩ <;> intro hm <;>
  · simp only [Fld.setitem, Fld.toMatrix, hc', Option.map, Fld.assign3, Fld.resolve3, Fld.mem_idx hm, Sel.resolve_all, bind,
      Except.bind, pure, Except.pure, Fld.fromMatrix, Except.ok.injEq]
    unfold setPlane
    apply setPart_congr
    intro p hp
    obtain ⟨h1, h2, h3⟩ := Fld.digits_lt hp
    unfold Fld.ravelF
    simp only [List.mem_range, List.mem_singleton, h1, h2, h3, and_true, true_and]
    rfl

/-! ### masks cell by cell -/

/-- The value the masks have in a cell: the last face written wins. -/
def maskVal (Nx Ny Nz : ℕ) (w : Faces K) (c i j k : ℕ) : K :=
  if c = 0 then edge w.zlo w.zhi Nz k (edge w.ylo w.yhi Ny j 1)
  else if c = 1 then edge w.zlo w.zhi Nz k (edge w.xlo w.xhi Nx i 1)
  else edge w.ylo w.yhi Ny j (edge w.xlo w.xhi Nx i 1)

theorem bcMask_pos (w : Faces K) {Nx Ny Nz c i j k : ℕ} (hc : c < 3) (hi : i < Nx) (hj : j < Ny) (hk : k < Nz) :
    (bcMask Nx Ny Nz w).array (pos Nx Ny Nz c i j k) = maskVal Nx Ny Nz w c i j k := by
  have dims : (bcMask Nx Ny Nz w).Nx = Nx ∧ (bcMask Nx Ny Nz w).Ny = Ny ∧ (bcMask Nx Ny Nz w).Nz = Nz := by
    unfold bcMask
    refine ⟨?_, ?_, ?_⟩ <;> simp [maskComp_dims, Fld.new]
  have := bcMask_at3 (w := w) hi hj hk hc
  simp only [Fld.at3, Fld.N, dims.1, dims.2.1, dims.2.2] at this
  exact this

theorem edge_one (n m : ℕ) : edge (1 : K) 1 n m 1 = 1 := by unfold edge; simp

theorem maskVal_ones (Nx Ny Nz c i j k : ℕ) : maskVal Nx Ny Nz (ones6 : Faces K) c i j k = 1 := by
  simp [maskVal, ones6, edge_one]

section
variable (g : Grid.Geom K) (bc : Faces String) (ieps imu sigma : Vec K) (dt : K) (uc : Bool)

theorem colMask_pos {c i j k : ℕ} (hc : c < 3) (hi : i < g.Nx) (hj : j < g.Ny) (hk : k < g.Nz) :
    colMask g bc (pos g.Nx g.Ny g.Nz c i j k) = maskVal g.Nx g.Ny g.Nz (pecFaces bc) c i j k := by
  unfold colMask
  by_cases h : anyFace isPec bc = true
  · rw [if_pos h, bcMask_pos _ hc hi hj hk]
  · rw [if_neg h, show (pecFaces bc : Faces K) = ones6 from by simp [pecFaces, h], maskVal_ones]

theorem rowMask_pos (h : anyFace isPmcAny bc = true) {c i j k : ℕ} (hc : c < 3) (hi : i < g.Nx) (hj : j < g.Ny)
    (hk : k < g.Nz) : rowMask g bc (pos g.Nx g.Ny g.Nz c i j k) =
      maskVal g.Nx g.Ny g.Nz (zeroWhere isPmcFace bc (pecFaces bc)) c i j k := by
  unfold rowMask
  rw [if_pos h, bcMask_pos _ hc hi hj hk]
end

theorem anyFace_of {t : String → Bool} {bc : Faces String} {axis : ℕ} {s : Side} (h : t (faceName bc axis s) = true) :
    anyFace t bc = true := by
  unfold anyFace
  cases s <;> simp only [faceName, Faces.lo, Faces.hi] at h <;> split_ifs at h <;> simp [h]

theorem pecFaces_lo (bc : Faces String) (axis : ℕ) :
    (pecFaces bc : Faces K).lo axis = if isPec (bc.lo axis) then 0 else 1 := by
  unfold pecFaces
  by_cases h : anyFace isPec bc = true
  · rw [if_pos h]
    simp only [zeroWhere, ones6, Faces.lo]
    split_ifs <;> rfl
  · rw [if_neg h]
    have : isPec (bc.lo axis) = false := by
      by_contra hc
      exact h (anyFace_of (axis := axis) (s := .lo) (by simpa [faceName] using hc))
    rw [this]
    simp only [ones6, Faces.lo]
    split_ifs <;> first | rfl | contradiction

theorem pecFaces_hi (bc : Faces String) (axis : ℕ) :
    (pecFaces bc : Faces K).hi axis = if isPec (bc.hi axis) then 0 else 1 := by
  unfold pecFaces
  by_cases h : anyFace isPec bc = true
  · rw [if_pos h]
    simp only [zeroWhere, ones6, Faces.hi]
    split_ifs <;> rfl
  · rw [if_neg h]
    have : isPec (bc.hi axis) = false := by
      by_contra hc
      exact h (anyFace_of (axis := axis) (s := .hi) (by simpa [faceName] using hc))
    rw [this]
    simp only [ones6, Faces.hi]
    split_ifs <;> first | rfl | contradiction

theorem zeroWhere_lo (t : String → Bool) (bc : Faces String) (w : Faces K) (axis : ℕ) :
    (zeroWhere t bc w).lo axis = if t (bc.lo axis) then 0 else w.lo axis := by
  simp only [zeroWhere, Faces.lo]; split_ifs <;> rfl

theorem zeroWhere_hi (t : String → Bool) (bc : Faces String) (w : Faces K) (axis : ℕ) :
    (zeroWhere t bc w).hi axis = if t (bc.hi axis) then 0 else w.hi axis := by
  simp only [zeroWhere, Faces.hi]; split_ifs <;> rfl

theorem edge_zero {lo hi v : K} {n m : ℕ} (h1 : m = n - 1 → hi = 0) (h2 : m = 0 → lo = 0)
    (h3 : m ≠ n - 1 → m ≠ 0 → v = 0) : edge lo hi n m v = 0 := by
  unfold edge
  by_cases a : m = n - 1
  · rw [if_pos a]; exact h1 a
  · by_cases b : m = 0
    · rw [if_neg a, if_pos b]; exact h2 b
    · rw [if_neg a, if_neg b]; exact h3 a b

/-- If every tangential face through the cell has value zero and there is one, the mask is zero. -/
theorem maskVal_zero (Nx Ny Nz : ℕ) (w : Faces K) {c i j k axis : ℕ} {s : Side} (hc : c < 3) (ha : axis < 3)
    (hne : axis ≠ c) (hon : OnFace Nx Ny Nz axis s i j k)
    (hall : ∀ a < 3, a ≠ c → (coord a i j k = 0 → w.lo a = 0) ∧ (coord a i j k = coord a Nx Ny Nz - 1 → w.hi a = 0)) :
    maskVal Nx Ny Nz w c i j k = 0 := by
  have h0 := hall 0 (by decide)
  have h1 := hall 1 (by decide)
  have h2 := hall 2 (by decide)
  clear hall
  simp only [coord, Faces.lo, Faces.hi, if_true, if_false, one_ne_zero, OfNat.ofNat_ne_zero, OfNat.ofNat_ne_one] at h0 h1 h2
  have ho : (axis = 0 ∧ (i = 0 ∨ i = Nx - 1)) ∨ (axis = 1 ∧ (j = 0 ∨ j = Ny - 1)) ∨ (axis = 2 ∧ (k = 0 ∨ k = Nz - 1)) := by
    have : axis = 0 ∨ axis = 1 ∨ axis = 2 := by omega
    rcases this with rfl | rfl | rfl <;> cases s <;> simp [OnFace, coord] at hon <;> simp [hon]
  have hc' : c = 0 ∨ c = 1 ∨ c = 2 := by omega
  unfold maskVal
  rcases hc' with rfl | rfl | rfl
  · have h1 := h1 (by decide)
    have h2 := h2 (by decide)
    rw [if_pos rfl]
    have hx : (k = 0 ∨ k = Nz - 1) ∨ (j = 0 ∨ j = Ny - 1) := by
      rcases ho with ⟨h, _⟩ | ⟨_, h⟩ | ⟨_, h⟩
      · exact absurd h hne
      · exact .inr h
      · exact .inl h
    exact edge_zero h2.2 h2.1 fun a b => edge_zero h1.2 h1.1 fun a' b' => absurd hx (by simp [a, b, a', b'])
  · have h1 := h0 (by decide)
    have h2 := h2 (by decide)
    rw [if_neg (by decide), if_pos rfl]
    have hx : (k = 0 ∨ k = Nz - 1) ∨ (i = 0 ∨ i = Nx - 1) := by
      rcases ho with ⟨_, h⟩ | ⟨h, _⟩ | ⟨_, h⟩
      · exact .inr h
      · exact absurd h hne
      · exact .inl h
    exact edge_zero h2.2 h2.1 fun a b => edge_zero h1.2 h1.1 fun a' b' => absurd hx (by simp [a, b, a', b'])
  · have h0 := h0 (by decide)
    have h1 := h1 (by decide)
    rw [if_neg (by decide), if_neg (by decide)]
    have hx : (j = 0 ∨ j = Ny - 1) ∨ (i = 0 ∨ i = Nx - 1) := by
      rcases ho with ⟨_, h⟩ | ⟨_, h⟩ | ⟨h, _⟩
      · exact .inr h
      · exact .inl h
      · exact absurd h hne
    exact edge_zero h1.2 h1.1 fun a b => edge_zero h0.2 h0.1 fun a' b' => absurd hx (by simp [a, b, a', b'])

/-- Invariants of runs. -/
theorem runEv_induct (s : Solver K) (I : State K → Prop) (ok : Ev K → Prop) (hstep : ∀ st, I st → I (oneStep s st))
    (hw : ∀ st f n v, ok (.write f n v) → I st → I (event s st (.write f n v))) (evs : List (Ev K)) (hev : ∀ e ∈ evs, ok e)
    (st : State K) (h : I st) : I (runEv s st evs) := by
  induction evs generalizing st with
  | nil => exact h
  | cons e es ih =>
    refine ih (fun e he => hev e (List.mem_cons_of_mem _ he)) (event s st e) ?_
    have he := hev e (List.mem_cons_self ..)
    cases e with
    | step => exact hstep st h
    | write f n v => exact hw st f n v he h

theorem ghosts_E_zero (s : Solver K) (st : State K) {r : ℕ} (h : st.E r = 0) : (setGhostsTo0 s st).E r = 0 := by
  obtain ⟨ZE, hZE⟩ := ghostE_mask (K := K) s.Nx s.Ny s.Nz
  show (ghostE (s.fld st.E)).array r = 0
  rw [Solver.fld, hZE, h, ite_self]

theorem ghosts_H_zero (s : Solver K) (st : State K) {r : ℕ} (h : st.H r = 0) : (setGhostsTo0 s st).H r = 0 := by
  obtain ⟨ZH, hZH⟩ := ghostH_mask (K := K) s.Nx s.Ny s.Nz
  show (ghostH (s.fld st.H)).array r = 0
  rw [Solver.fld, hZH, h, ite_self]

section
variable (g : Grid.Geom K) (bc : Faces String) (ieps imu sigma : Vec K) (dt : K) (uc : Bool)

/-! ### C24 -/

/-- A masked entry with zero E and J keeps both at zero in every run that does not assign it. -/
theorem masked_E_zero {r : ℕ} (hr : r < 3 * (g.Nx * g.Ny * g.Nz)) (hm : colMask g bc r = 0) (st : State K)
    (h0 : st.E r = 0 ∧ st.J r = 0) (evs : List (Ev K)) (hev : ∀ e ∈ evs, e.NotEJAt r) :
    (runEv (build g bc ieps imu sigma dt uc) st evs).E r = 0 ∧ (runEv (build g bc ieps imu sigma dt uc) st evs).J r = 0 := by
  refine runEv_induct _ (fun st => st.E r = 0 ∧ st.J r = 0) (Ev.NotEJAt r) ?_ ?_ evs hev st h0
  · have adv : ∀ t : State K, t.E r = 0 ∧ t.J r = 0 → (advance (build g bc ieps imu sigma dt uc) t).E r = 0 ∧
        (advance (build g bc ieps imu sigma dt uc) t).J r = 0 := by
      intro t ht
      have hE : (advance (build g bc ieps imu sigma dt uc) t).E r = 0 := by
        rw [advance_E _ _ _ _ _ _ _ _ hr, hm, ht.1, ht.2]; ring
      refine ⟨hE, ?_⟩
      have e : (advance (build g bc ieps imu sigma dt uc) t).J = if (build g bc ieps imu sigma dt uc).useConductivity then
        fun i => sigma i * (advance (build g bc ieps imu sigma dt uc) t).E i else t.J := rfl
      rw [e]
      split_ifs
      · simp only; rw [hE, mul_zero]
      · exact ht.2
    intro t ht
    unfold oneStep
    split_ifs
    · exact adv _ ⟨ghosts_E_zero _ _ ht.1, ht.2⟩
    · exact adv _ ht
  · intro t f n v hok ht
    cases f with
    | H => exact ht
    | E => exact ⟨(Function.update_of_ne (Ne.symm hok) _ _).trans ht.1, ht.2⟩
    | J => exact ⟨ht.1, (Function.update_of_ne (Ne.symm hok) _ _).trans ht.2⟩

/-- The full claim of C24 for one set-up: on every face declared electric, pec or pml, every tangential
component of every cell of the face stays zero. -/
def TangentialEVanishes : Prop := ∀ (axis : ℕ) (s : Side) (c i j k : ℕ), axis < 3 → c < 3 → axis ≠ c →
  i < g.Nx → j < g.Ny → k < g.Nz → OnFace g.Nx g.Ny g.Nz axis s i j k → isPec (faceName bc axis s) = true →
  ∀ (st : State K), st.E (pos g.Nx g.Ny g.Nz c i j k) = 0 → st.J (pos g.Nx g.Ny g.Nz c i j k) = 0 →
  ∀ evs : List (Ev K), (∀ e ∈ evs, e.NotEJAt (pos g.Nx g.Ny g.Nz c i j k)) →
    (runEv (build g bc ieps imu sigma dt uc) st evs).E (pos g.Nx g.Ny g.Nz c i j k) = 0

/-- **C24 (partial).** In a cell of a PEC face, a tangential E component that starts at zero (with no
current there) is zero after every history that does not assign it, provided every *other* face
the cell lies on and to which the component is tangential is PEC too.  Missing: edges shared with a
face of another type, see `C24_refuted`. -/
theorem C24_tangential_zero_partial {axis c i j k : ℕ} {s : Side} (ha : axis < 3) (hc : c < 3) (hne : axis ≠ c)
    (hi : i < g.Nx) (hj : j < g.Ny) (hk : k < g.Nz) (hon : OnFace g.Nx g.Ny g.Nz axis s i j k)
    (hall : ∀ a s', a < 3 → a ≠ c → OnFace g.Nx g.Ny g.Nz a s' i j k → isPec (faceName bc a s') = true)
    (st : State K) (hE : st.E (pos g.Nx g.Ny g.Nz c i j k) = 0) (hJ : st.J (pos g.Nx g.Ny g.Nz c i j k) = 0)
    (evs : List (Ev K)) (hev : ∀ e ∈ evs, e.NotEJAt (pos g.Nx g.Ny g.Nz c i j k)) :
    (runEv (build g bc ieps imu sigma dt uc) st evs).E (pos g.Nx g.Ny g.Nz c i j k) = 0 := by
  refine (masked_E_zero g bc ieps imu sigma dt uc (pos_lt hc hi hj hk) ?_ st ⟨hE, hJ⟩ evs hev).1
  rw [colMask_pos g bc hc hi hj hk]
  refine maskVal_zero _ _ _ _ hc ha hne hon fun a ha3 hac => ⟨fun h0 => ?_, fun h1 => ?_⟩
  · rw [pecFaces_lo]; exact if_pos (hall a .lo ha3 hac h0)
  · rw [pecFaces_hi]; exact if_pos (hall a .hi ha3 hac h1)

/-- **C24 (closed box).** With all six faces electric, pec or pml the claim holds on every face, edges and
corners included. -/
theorem C24_closed_box (h : ∀ a s, a < 3 → isPec (faceName bc a s) = true) :
    TangentialEVanishes g bc ieps imu sigma dt uc :=
  fun _axis _s _c _i _j _k ha hc hne hi hj hk hon _ st hE hJ evs hev =>
    C24_tangential_zero_partial g bc ieps imu sigma dt uc ha hc hne hi hj hk hon (fun a s' ha _ _ => h a s' ha) st hE hJ evs hev

/-! ### C25 -/

theorem pos_decode {Nx Ny Nz p : ℕ} (hp : p < Nx * Ny * Nz) :
    ∃ i j k, i < Nx ∧ j < Ny ∧ k < Nz ∧ p = fl Nx Ny i j k := by
  obtain ⟨h1, h2, h3⟩ := Fld.digits_lt hp
  refine ⟨_, _, _, h1, h2, h3, ?_⟩
  unfold fl
  rw [Nat.mod_add_div (p / Nx) Ny, Nat.mod_add_div]

/-- E is zero at every tangential entry of every PEC face (what `C24` maintains). -/
def PecClean (E : Vec K) : Prop := ∀ (axis : ℕ) (s : Side) (c i j k : ℕ), axis < 3 → c < 3 → axis ≠ c →
  i < g.Nx → j < g.Ny → k < g.Nz → OnFace g.Nx g.Ny g.Nz axis s i j k → isPec (faceName bc axis s) = true →
  E (pos g.Nx g.Ny g.Nz c i j k) = 0

/-- The mask of a cell is 1 unless a tangential PEC face passes through it. -/
theorem maskVal_cases {c i j k : ℕ} (hc : c < 3) :
    maskVal g.Nx g.Ny g.Nz (pecFaces bc : Faces K) c i j k = 1 ∨ ∃ a s, a < 3 ∧ a ≠ c ∧ OnFace g.Nx g.Ny g.Nz a s i j k ∧
      isPec (faceName bc a s) = true := by
  by_cases h : ∃ a s, a < 3 ∧ a ≠ c ∧ OnFace g.Nx g.Ny g.Nz a s i j k ∧ isPec (faceName bc a s) = true
  · exact .inr h
  left
  have hlo : ∀ a < 3, a ≠ c → coord a i j k = 0 → (pecFaces bc : Faces K).lo a = 1 := by
    intro a ha hac h0
    rw [pecFaces_lo, if_neg]
    exact fun hp => h ⟨a, .lo, ha, hac, h0, hp⟩
  have hhi : ∀ a < 3, a ≠ c → coord a i j k = coord a g.Nx g.Ny g.Nz - 1 → (pecFaces bc : Faces K).hi a = 1 := by
    intro a ha hac h0
    rw [pecFaces_hi, if_neg]
    exact fun hp => h ⟨a, .hi, ha, hac, h0, hp⟩
  have e1 : ∀ {lo hi v : K} {n m : ℕ}, (m = n - 1 → hi = 1) → (m = 0 → lo = 1) → v = 1 → edge lo hi n m v = 1 := by
    intro lo hi v n m h1 h2 h3
    unfold edge
    by_cases a : m = n - 1
    · rw [if_pos a]; exact h1 a
    · by_cases b : m = 0
      · rw [if_neg a, if_pos b]; exact h2 b
      · rw [if_neg a, if_neg b]; exact h3
  have hc' : c = 0 ∨ c = 1 ∨ c = 2 := by omega
  unfold maskVal
  rcases hc' with rfl | rfl | rfl
  · rw [if_pos rfl]
    exact e1 (hhi 2 (by decide) (by decide)) (hlo 2 (by decide) (by decide))
      (e1 (hhi 1 (by decide) (by decide)) (hlo 1 (by decide) (by decide)) rfl)
  · rw [if_neg (by decide), if_pos rfl]
    exact e1 (hhi 2 (by decide) (by decide)) (hlo 2 (by decide) (by decide))
      (e1 (hhi 0 (by decide) (by decide)) (hlo 0 (by decide) (by decide)) rfl)
  · rw [if_neg (by decide), if_neg (by decide)]
    exact e1 (hhi 1 (by decide) (by decide)) (hlo 1 (by decide) (by decide))
      (e1 (hhi 0 (by decide) (by decide)) (hlo 0 (by decide) (by decide)) rfl)

theorem masked_clean {E : Vec K} (h : PecClean g bc E) {c i j k : ℕ} (hc : c < 3) (hi : i < g.Nx) (hj : j < g.Ny) (hk : k < g.Nz) :
    colMask g bc (pos g.Nx g.Ny g.Nz c i j k) * (g.L.array (pos g.Nx g.Ny g.Nz c i j k) * E (pos g.Nx g.Ny g.Nz c i j k)) =
      g.L.array (pos g.Nx g.Ny g.Nz c i j k) * E (pos g.Nx g.Ny g.Nz c i j k) := by
  rw [colMask_pos g bc hc hi hj hk]
  rcases maskVal_cases (K := K) g bc (i := i) (j := j) (k := k) hc with h1 | ⟨a, s, ha, hac, hon, hp⟩
  · rw [h1, one_mul]
  · rw [h a s c i j k ha hc hac hi hj hk hon hp]; ring

/-- A value past the end of a row, read by flat offset, is a value of a low-face cell. -/
theorem ext_step {Nx Ny Nz i j k : ℕ} (v : Vec K) {c axis : ℕ} (ha : axis < 3)
    (hi : i < Nx) (hj : j < Ny) (hk : k < Nz)
    (hz : axis ≠ 2 → ∀ i' j' k', i' < Nx → j' < Ny → k' < Nz → coord axis i' j' k' = 0 → v (pos Nx Ny Nz c i' j' k') = 0) :
    ext (Nx * Ny * Nz) v c (fl Nx Ny i j k + if axis = 0 then 1 else if axis = 1 then Nx else Nx * Ny) =
      view0 Nx Ny Nz v c (if axis = 0 then i + 1 else i) (if axis = 1 then j + 1 else j) (if axis = 2 then k + 1 else k) := by
  have h0 : axis = 0 ∨ axis = 1 ∨ axis = 2 := by omega
  rcases h0 with rfl | rfl | rfl
  · simp only [if_true, if_false, zero_ne_one, OfNat.zero_ne_ofNat]
    by_cases hlast : i + 1 < Nx
    · rw [view0, if_pos ⟨hlast, hj, hk⟩, ← fl_x, ext_fl v c hlast hj hk]; rfl
    · rw [view0, if_neg (fun h => hlast h.1)]
      have hN : fl Nx Ny i j k + 1 = fl Nx Ny 0 (j + 1) k := by
        have : i + 1 = Nx := by omega
        unfold fl
        rw [← this]; ring
      rw [hN]
      unfold ext
      split_ifs with hlt
      · by_cases hj' : j + 1 < Ny
        · exact hz (by decide) 0 (j + 1) k (by omega) hj' hk rfl
        · have e : fl Nx Ny 0 (j + 1) k = fl Nx Ny 0 0 (k + 1) := by
            have : j + 1 = Ny := by omega
            unfold fl
            rw [← this]; ring
          rw [e] at hlt ⊢
          have hk' : k + 1 < Nz := by
            by_contra hk'
            have : Nz = k + 1 := by omega
            subst this
            unfold fl at hlt
            have : 0 + Nx * (0 + Ny * (k + 1)) = Nx * Ny * (k + 1) := by ring
            omega
          exact hz (by decide) 0 0 (k + 1) (by omega) (by omega) hk' rfl
      · rfl
  · simp only [if_true, if_false, one_ne_zero, OfNat.one_ne_ofNat]
    by_cases hlast : j + 1 < Ny
    · rw [view0, if_pos ⟨hi, hlast, hk⟩, ← fl_y, ext_fl v c hi hlast hk]; rfl
    · rw [view0, if_neg (fun h => hlast h.2.1)]
      have hN : fl Nx Ny i j k + Nx = fl Nx Ny i 0 (k + 1) := by
        have : j + 1 = Ny := by omega
        unfold fl
        rw [← this]; ring
      rw [hN]
      unfold ext
      split_ifs with hlt
      · have hk' : k + 1 < Nz := by
          by_contra hk'
          have : Nz = k + 1 := by omega
          subst this
          unfold fl at hlt
          have : i + Nx * (0 + Ny * (k + 1)) = i + Nx * Ny * (k + 1) := by ring
          omega
        exact hz (by decide) i 0 (k + 1) hi (by omega) hk' rfl
      · rfl
  · simp only [if_true, if_false, OfNat.ofNat_ne_zero, OfNat.ofNat_ne_one]
    by_cases hlast : k + 1 < Nz
    · rw [view0, if_pos ⟨hi, hj, hlast⟩, ← fl_z, ext_fl v c hi hj hlast]; rfl
    · rw [view0, if_neg (fun h => hlast h.2.2), ← fl_z]
      unfold ext
      rw [if_neg]
      have : Nz = k + 1 := by omega
      subst this
      have : fl Nx Ny i j (k + 1) = i + Nx * j + Nx * Ny * (k + 1) := by unfold fl; ring
      omega

/-- The curl matrix is the circulation of the zero-continued field when the field vanishes tangentially on
the low x and low y faces. -/
theorem C0_circ0 {Nx Ny Nz i j k : ℕ} (v : Vec K) {c : ℕ} (hc : c < 3) (hi : i < Nx) (hj : j < Ny) (hk : k < Nz)
    (hx : ∀ c', c' < 3 → c' ≠ 0 → ∀ j' k', j' < Ny → k' < Nz → v (pos Nx Ny Nz c' 0 j' k') = 0)
    (hy : ∀ c', c' < 3 → c' ≠ 1 → ∀ i' k', i' < Nx → k' < Nz → v (pos Nx Ny Nz c' i' 0 k') = 0) :
    mulVec (3 * (Nx * Ny * Nz)) (C0 Nx Ny Nz) v (pos Nx Ny Nz c i j k) = circ (view0 Nx Ny Nz v) c i j k := by
  have hp := fl_lt hi hj hk
  have z0 : ∀ c', c' < 3 → c' ≠ 0 → ∀ i' j' k', i' < Nx → j' < Ny → k' < Nz → coord 0 i' j' k' = 0 →
      v (pos Nx Ny Nz c' i' j' k') = 0 := by
    intro c' h1 h2 i' j' k' _ h4 h5 h6
    have : i' = 0 := h6
    subst this
    exact hx c' h1 h2 j' k' h4 h5
  have z1 : ∀ c', c' < 3 → c' ≠ 1 → ∀ i' j' k', i' < Nx → j' < Ny → k' < Nz → coord 1 i' j' k' = 0 →
      v (pos Nx Ny Nz c' i' j' k') = 0 := by
    intro c' h1 h2 i' j' k' h3 _ h5 h6
    have : j' = 0 := h6
    subst this
    exact hy c' h1 h2 i' k' h3 h5
  have e0 : ∀ c' < 3, ext (Nx * Ny * Nz) v c' (fl Nx Ny i j k) = view0 Nx Ny Nz v c' i j k := by
    intro c' _
    rw [ext_fl v c' hi hj hk, view0, if_pos ⟨hi, hj, hk⟩]; rfl
  have ex : ∀ c', c' < 3 → c' ≠ 0 → ext (Nx * Ny * Nz) v c' (fl Nx Ny i j k + 1) = view0 Nx Ny Nz v c' (i + 1) j k :=
    fun c' h1 h2 => ext_step v (axis := 0) (by decide) hi hj hk (fun _ => z0 c' h1 h2)
  have ey : ∀ c', c' < 3 → c' ≠ 1 → ext (Nx * Ny * Nz) v c' (fl Nx Ny i j k + Nx) = view0 Nx Ny Nz v c' i (j + 1) k :=
    fun c' h1 h2 => ext_step v (axis := 1) (by decide) hi hj hk (fun _ => z1 c' h1 h2)
  have ez : ∀ c', ext (Nx * Ny * Nz) v c' (fl Nx Ny i j k + Nx * Ny) = view0 Nx Ny Nz v c' i j (k + 1) :=
    fun c' => ext_step v (axis := 2) (by decide) hi hj hk (fun h => absurd rfl h)
  unfold pos circ
  have hc' : c = 0 ∨ c = 1 ∨ c = 2 := by omega
  rcases hc' with rfl | rfl | rfl
  · rw [C0_x hp, ey 2 (by decide) (by decide), ez 1, e0 2 (by decide), e0 1 (by decide), if_pos rfl]
  · rw [C0_y hp, ez 0, ex 2 (by decide) (by decide), e0 2 (by decide), e0 0 (by decide),
      if_neg (by decide), if_pos rfl]
  · rw [C0_z hp, ex 1 (by decide) (by decide), ey 0 (by decide) (by decide), e0 1 (by decide), e0 0 (by decide),
      if_neg (by decide), if_neg (by decide)]

/-- **C25 (H update).** With PEC on the low x and low y faces (any names elsewhere, no PMC), in every state
whose tangential E is zero on the PEC faces, the H update of *every* cell - last cells of rows and
planes included - is the three-dimensional stencil applied to E continued by zero outside the
domain: nothing leaks from the end of a row or plane into the next one. -/
theorem C25_H_update (hx : isPec bc.xlo = true) (hy : isPec bc.ylo = true) (hpmc : anyFace isPmcAny bc = false)
    (st : State K) (hst : st.step0 = false) (hE : PecClean g bc st.E) {c i j k : ℕ} (hc : c < 3)
    (hi : i < g.Nx) (hj : j < g.Ny) (hk : k < g.Nz) :
    let P := pos g.Nx g.Ny g.Nz c i j k
    (oneStep (build g bc ieps imu sigma dt uc) st).H P =
      st.H P - dt * (g.iA.array P * imu P * circ (view0 g.Nx g.Ny g.Nz fun q => g.L.array q * st.E q) c i j k) := by
  intro P
  rw [oneStep_started _ _ hst, advance_H _ _ _ _ _ _ _ _ (pos_lt hc hi hj hk), rowMask_one _ _ hpmc, one_mul, C0_circ0 _ hc hi hj hk]
  · have e : view0 g.Nx g.Ny g.Nz (fun q => colMask g bc q * (g.L.array q * st.E q)) =
        fun c' i' j' k' => if c' < 3 then view0 g.Nx g.Ny g.Nz (fun q => g.L.array q * st.E q) c' i' j' k' else
          view0 g.Nx g.Ny g.Nz (fun q => colMask g bc q * (g.L.array q * st.E q)) c' i' j' k' := by
      funext c' i' j' k'
      split_ifs with h3
      · unfold view0
        split_ifs with hr
        · exact masked_clean g bc hE h3 hr.1 hr.2.1 hr.2.2
        · rfl
      · rfl
    rw [e]
    have hc' : c = 0 ∨ c = 1 ∨ c = 2 := by omega
    rcases hc' with rfl | rfl | rfl <;> rfl
  · intro c' h1 h2 j' k' h3 h4
    have := hE 0 .lo c' 0 j' k' (by decide) h1 (Ne.symm h2) (by omega) h3 h4 rfl hx
    simp only [this, mul_zero]
  · intro c' h1 h2 i' k' h3 h4
    have := hE 1 .lo c' i' 0 k' (by decide) h1 (Ne.symm h2) h3 (by omega) h4 rfl hy
    simp only [this, mul_zero]

/-- **C25 (E update).** With PEC on the three low faces and no PMC, the E update of every component that is
not tangential to a PEC face through its cell is the three-dimensional backward stencil. -/
theorem C25_E_update (hx : isPec bc.xlo = true) (hy : isPec bc.ylo = true) (hz : isPec bc.zlo = true)
    (hpmc : anyFace isPmcAny bc = false) (st : State K) (hst : st.step0 = false) {c i j k : ℕ} (hc : c < 3)
    (hi : i < g.Nx) (hj : j < g.Ny) (hk : k < g.Nz)
    (hfree : ∀ a s, a < 3 → a ≠ c → OnFace g.Nx g.Ny g.Nz a s i j k → isPec (faceName bc a s) = false) :
    let P := pos g.Nx g.Ny g.Nz c i j k
    let st' := oneStep (build g bc ieps imu sigma dt uc) st
    let b := applyBC g bc (C0 g.Nx g.Ny g.Nz)
    st'.E P = st.E P + dt * (ieps P * b.itA.array P *
        cocirc (view3 g.Nx g.Ny g.Nz fun q => b.tL.array q * st'.H q) c i j k - ieps P * st.J P) := by
  intro P st' b
  have h1 : ∀ a, a < 3 → a ≠ c → isPec (bc.lo a) = true → 0 < coord a i j k := by
    intro a ha hac hp
    by_contra h0
    have : OnFace g.Nx g.Ny g.Nz a .lo i j k := by simpa [OnFace] using h0
    have := hfree a .lo ha hac this
    rw [show faceName bc a .lo = bc.lo a from rfl, hp] at this
    exact absurd this (by decide)
  show (oneStep _ st).E P = _
  simp only [st']
  rw [oneStep_started _ _ hst, advance_E _ _ _ _ _ _ _ _ (pos_lt hc hi hj hk), colMask_pos g bc hc hi hj hk,
    CT_cocirc _ hc hi hj hk (fun h => h1 0 (by decide) (Ne.symm h) hx) (fun h => h1 1 (by decide) (Ne.symm h) hy)
      (fun h => h1 2 (by decide) (Ne.symm h) hz)]
  rcases maskVal_cases (K := K) g bc (i := i) (j := j) (k := k) hc with h | ⟨a, s, ha, hac, hon, hp⟩
  · rw [h, one_mul]
    simp only [rowMask_one _ _ hpmc, one_mul]
    rfl
  · rw [hfree a s ha hac hon] at hp; exact absurd hp (by decide)

/-- A run that assigns no tangential E or J entry of a PEC face. -/
def Ev.KeepsPec (e : Ev K) : Prop := ∀ (axis : ℕ) (s : Side) (c i j k : ℕ), axis < 3 → c < 3 → axis ≠ c →
  i < g.Nx → j < g.Ny → k < g.Nz → OnFace g.Nx g.Ny g.Nz axis s i j k → isPec (faceName bc axis s) = true →
  e.NotEJAt (pos g.Nx g.Ny g.Nz c i j k)

/-- **C25 (closed box, any history).** In a box with six PEC faces the clean-state hypothesis of the update
theorems holds after every history that starts clean and does not drive the PEC faces. -/
theorem C25_clean_forever (h : ∀ a s, a < 3 → isPec (faceName bc a s) = true) (st : State K)
    (hE : PecClean g bc st.E) (hJ : PecClean g bc st.J) (evs : List (Ev K)) (hev : ∀ e ∈ evs, e.KeepsPec g bc) :
    PecClean g bc (runEv (build g bc ieps imu sigma dt uc) st evs).E := by
  intro axis s c i j k ha hc hne hi hj hk hon hp
  exact C24_closed_box g bc ieps imu sigma dt uc h axis s c i j k ha hc hne hi hj hk hon hp st
    (hE axis s c i j k ha hc hne hi hj hk hon hp) (hJ axis s c i j k ha hc hne hi hj hk hon hp) evs
    (fun e he => hev e he axis s c i j k ha hc hne hi hj hk hon hp)

/-! ### C26 -/

theorem frozen_H {r : ℕ} (hr : r < 3 * (g.Nx * g.Ny * g.Nz)) (hm : rowMask g bc r = 0) (st : State K)
    (hst : st.step0 = false) (evs : List (Ev K)) (hev : ∀ e ∈ evs, e.NotHAt r) :
    (runEv (build g bc ieps imu sigma dt uc) st evs).H r = st.H r := by
  have := runEv_induct (build g bc ieps imu sigma dt uc) (fun t => t.H r = st.H r ∧ t.step0 = false) (Ev.NotHAt r) ?_ ?_ evs hev
    st ⟨rfl, hst⟩
  · exact this.1
  · intro t ht
    rw [oneStep_started _ _ ht.2, advance_H _ _ _ _ _ _ _ _ hr, hm]
    exact ⟨by rw [← ht.1]; ring, ht.2⟩
  · intro t f n v hok ht
    cases f with
    | E => exact ht
    | J => exact ht
    | H => exact ⟨(Function.update_of_ne (Ne.symm hok) _ _).trans ht.1, ht.2⟩

theorem frozen_H_zero {r : ℕ} (hr : r < 3 * (g.Nx * g.Ny * g.Nz)) (hm : rowMask g bc r = 0) (st : State K)
    (h0 : st.H r = 0) (evs : List (Ev K)) (hev : ∀ e ∈ evs, e.NotHAt r) :
    (runEv (build g bc ieps imu sigma dt uc) st evs).H r = 0 := by
  refine runEv_induct _ (fun t => t.H r = 0) (Ev.NotHAt r) ?_ ?_ evs hev st h0
  · intro t ht
    unfold oneStep
    split_ifs
    · rw [advance_H _ _ _ _ _ _ _ _ hr, hm]
      have := ghosts_H_zero (build g bc ieps imu sigma dt uc) t ht
      rw [this]; ring
    · rw [advance_H _ _ _ _ _ _ _ _ hr, hm, ht]; ring
  · intro t f n v hok ht
    cases f with
    | E => exact ht
    | J => exact ht
    | H => exact (Function.update_of_ne (Ne.symm hok) _ _).trans ht

theorem rowMask_zero (hany : anyFace isPmcAny bc = true) {axis c i j k : ℕ} {s : Side} (ha : axis < 3) (hc : c < 3)
    (hne : axis ≠ c) (hi : i < g.Nx) (hj : j < g.Ny) (hk : k < g.Nz) (hon : OnFace g.Nx g.Ny g.Nz axis s i j k)
    (hall : ∀ a s', a < 3 → a ≠ c → OnFace g.Nx g.Ny g.Nz a s' i j k →
      isPmcFace (faceName bc a s') = true ∨ isPec (faceName bc a s') = true) :
    rowMask g bc (pos g.Nx g.Ny g.Nz c i j k) = 0 := by
  rw [rowMask_pos g bc hany hc hi hj hk]
  refine maskVal_zero _ _ _ _ hc ha hne hon fun a ha3 hac => ⟨fun h0 => ?_, fun h1 => ?_⟩
  · rw [zeroWhere_lo, pecFaces_lo]
    rcases hall a .lo ha3 hac h0 with h | h
    · exact if_pos h
    · rw [show isPec (bc.lo a) = true from h]; simp
  · rw [zeroWhere_hi, pecFaces_hi]
    rcases hall a .hi ha3 hac h1 with h | h
    · exact if_pos h
    · rw [show isPec (bc.hi a) = true from h]; simp

/-- The full first half of C26 for one set-up: tangential H on every face whose name is magnetic or pmc in
any letter case stays zero. -/
def TangentialHVanishes : Prop := ∀ (axis : ℕ) (s : Side) (c i j k : ℕ), axis < 3 → c < 3 → axis ≠ c →
  i < g.Nx → j < g.Ny → k < g.Nz → OnFace g.Nx g.Ny g.Nz axis s i j k → isPmcAny (faceName bc axis s) = true →
  ∀ (st : State K), st.H (pos g.Nx g.Ny g.Nz c i j k) = 0 →
  ∀ evs : List (Ev K), (∀ e ∈ evs, e.NotHAt (pos g.Nx g.Ny g.Nz c i j k)) →
    (runEv (build g bc ieps imu sigma dt uc) st evs).H (pos g.Nx g.Ny g.Nz c i j k) = 0

/-- **C26 (partial).** In a cell of a face spelled `magnetic` (any case) or exactly `pmc`, tangential H that
starts at zero stays zero for every history not assigning it, if the other tangential faces through
the cell are magnetic, `pmc` or PEC.  Missing: the spelling `PMC` (`C26_spelling_refuted`) and edges
shared with other types. -/
theorem C26_tangential_zero_partial {axis c i j k : ℕ} {s : Side} (ha : axis < 3) (hc : c < 3)
    (hne : axis ≠ c) (hi : i < g.Nx) (hj : j < g.Ny) (hk : k < g.Nz) (hon : OnFace g.Nx g.Ny g.Nz axis s i j k)
    (hp : isPmcFace (faceName bc axis s) = true)
    (hall : ∀ a s', a < 3 → a ≠ c → OnFace g.Nx g.Ny g.Nz a s' i j k →
      isPmcFace (faceName bc a s') = true ∨ isPec (faceName bc a s') = true)
    (st : State K) (h0 : st.H (pos g.Nx g.Ny g.Nz c i j k) = 0) (evs : List (Ev K))
    (hev : ∀ e ∈ evs, e.NotHAt (pos g.Nx g.Ny g.Nz c i j k)) :
    (runEv (build g bc ieps imu sigma dt uc) st evs).H (pos g.Nx g.Ny g.Nz c i j k) = 0 := by
  have hany : anyFace isPmcAny bc = true := by
    apply anyFace_of (axis := axis) (s := s)
    unfold isPmcFace at hp
    unfold isPmcAny
    simp only [Bool.or_eq_true, decide_eq_true_eq] at hp ⊢
    rcases hp with h | h
    · exact .inl h
    · right; rw [h]; decide
  exact frozen_H_zero g bc ieps imu sigma dt uc (pos_lt hc hi hj hk)
    (rowMask_zero g bc hany ha hc hne hi hj hk hon hall) st h0 evs hev

/-- **C26 (side effect on PEC faces).** As soon as any one face is PMC, H tangential to a PEC face is frozen at
whatever value it has, in every cell whose tangential faces are all PEC or PMC: declaring PMC on one
face *does* alter H on PEC faces. -/
theorem C26_pec_faces_frozen (hany : anyFace isPmcAny bc = true) {axis c i j k : ℕ} {s : Side} (ha : axis < 3) (hc : c < 3)
    (hne : axis ≠ c) (hi : i < g.Nx) (hj : j < g.Ny) (hk : k < g.Nz) (hon : OnFace g.Nx g.Ny g.Nz axis s i j k)
    (hall : ∀ a s', a < 3 → a ≠ c → OnFace g.Nx g.Ny g.Nz a s' i j k →
      isPmcFace (faceName bc a s') = true ∨ isPec (faceName bc a s') = true)
    (st : State K) (hst : st.step0 = false) (evs : List (Ev K))
    (hev : ∀ e ∈ evs, e.NotHAt (pos g.Nx g.Ny g.Nz c i j k)) :
    (runEv (build g bc ieps imu sigma dt uc) st evs).H (pos g.Nx g.Ny g.Nz c i j k) = st.H (pos g.Nx g.Ny g.Nz c i j k) :=
  frozen_H g bc ieps imu sigma dt uc (pos_lt hc hi hj hk) (rowMask_zero g bc hany ha hc hne hi hj hk hon hall) st hst evs hev

end

end Sol
end Wakis
