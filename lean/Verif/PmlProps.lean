import Verif.MaterialProps
import Verif.SolverBC

/-!
# PML conductivity (C31)
-/

namespace Wakis
namespace Sol
variable {K : Type _} [Field K] [LinearOrder K]

/-! ### Specification vocabulary -/

/-- Number of cells between the cell and the face (0 for the outermost layer). -/
def depth (Nx Ny Nz axis : ℕ) (s : Side) (i j k : ℕ) : ℕ :=
  match s with
  | .lo => coord axis i j k
  | .hi => coord axis Nx Ny Nz - 1 - coord axis i j k

/-- The six faces in the order in which the code fills them. -/
def pmlOrder : List (ℕ × Side) := [(0, .lo), (1, .lo), (2, .lo), (0, .hi), (1, .hi), (2, .hi)]

/-- Conductivity of a PML cell: reference conductivity plus a multiple of the profile value `p`. -/
def pmlSigma (s0 p : K) : K := s0 + (if s0 < 1 then 1 else s0) * p

/-- The reference cell of a face: index `ref` on the axis of the face and the middle of the two others. -/
def refCell (Nx Ny Nz axis ref : ℕ) : ℕ × ℕ × ℕ :=
  (if axis = 0 then ref else Nx / 2, if axis = 1 then ref else Ny / 2,
    if axis = 0 ∨ axis = 1 then Nz / 2 else ref)

/-! ### One face -/

/-- What filling one face does. -/
structure FaceEffect (Nx Ny Nz n axis : ℕ) (side : Side) (ref : ℕ) (prof : ℕ → K) (t t' : Mats K) : Prop where
  sized : t'.Sized Nx Ny Nz
  imu : t'.imu = t.imu
  cond : t'.useCond = t.useCond
  inside : ∀ c < 3, ∀ i < Nx, ∀ j < Ny, ∀ k < Nz, depth Nx Ny Nz axis side i j k < n →
    t'.ieps.at3 c i j k = t.ieps.at3 c (refCell Nx Ny Nz axis ref).1 (refCell Nx Ny Nz axis ref).2.1
      (refCell Nx Ny Nz axis ref).2.2 ∧
    t'.sigma.at3 c i j k = pmlSigma (t.sigma.at3 c (refCell Nx Ny Nz axis ref).1
      (refCell Nx Ny Nz axis ref).2.1 (refCell Nx Ny Nz axis ref).2.2) (prof (depth Nx Ny Nz axis side i j k))
  outside : ∀ c < 3, ∀ i < Nx, ∀ j < Ny, ∀ k < Nz, ¬ depth Nx Ny Nz axis side i j k < n →
    t'.ieps.at3 c i j k = t.ieps.at3 c i j k ∧ t'.sigma.at3 c i j k = t.sigma.at3 c i j k

omit [Field K] [LinearOrder K] in
theorem setitem_plane {f : Fld K} {axis : ℕ} {m : ℤ} {a c : ℕ} {key : Fld.CKey} (hc : Fld.Names key c)
    (ha : axis < 3) (hm : pyIndex (coord axis f.Nx f.Ny f.Nz) m = .ok a) (v : K) :
    f.setitem (planeKey axis m key) (.scalar v) = .ok (setPlane f axis a c fun _ _ _ => v) := by
  obtain ⟨h0, h1, h2⟩ := setPlane_eq_setitem f hc v (m := m) (a := a)
  rcases (by omega : axis = 0 ∨ axis = 1 ∨ axis = 2) with rfl | rfl | rfl
  · exact h0 hm
  · exact h1 hm
  · exact h2 hm

omit [LinearOrder K] in
/-- The plane loop, cell by cell. -/
theorem pmlPlanes_ok {axis c : ℕ} {key : Fld.CKey} (hc : Fld.Names key c) (ha : axis < 3)
    (ieps0 s0 mult : K) {Nx Ny Nz : ℕ} : ∀ (planes : List (ℤ × K)) (t : Mats K), t.Sized Nx Ny Nz →
    (∀ mp ∈ planes, ∃ a, pyIndex (coord axis Nx Ny Nz) mp.1 = .ok a) →
    ∃ t', pmlPlanes axis key ieps0 s0 mult t planes = .ok t' ∧ t'.Sized Nx Ny Nz ∧ t'.imu = t.imu ∧
      t'.useCond = t.useCond ∧
      ∀ c', ∀ i < Nx, ∀ j < Ny, ∀ k < Nz,
        ((c' ≠ c ∨ ∀ mp ∈ planes, pyIndex (coord axis Nx Ny Nz) mp.1 ≠ .ok (coord axis i j k)) →
          t'.ieps.at3 c' i j k = t.ieps.at3 c' i j k ∧ t'.sigma.at3 c' i j k = t.sigma.at3 c' i j k) ∧
        (∀ p, c' = c → (∃ mp ∈ planes, pyIndex (coord axis Nx Ny Nz) mp.1 = .ok (coord axis i j k)) →
          (∀ mp ∈ planes, pyIndex (coord axis Nx Ny Nz) mp.1 = .ok (coord axis i j k) → mp.2 = p) →
          t'.ieps.at3 c' i j k = ieps0 ∧ t'.sigma.at3 c' i j k = s0 + mult * p) := by
  intro planes
  induction planes with
  | nil =>
    intro t ht _
    refine ⟨t, rfl, ht, rfl, rfl, fun c' i hi j hj k hk => ⟨fun _ => ⟨rfl, rfl⟩, ?_⟩⟩
    rintro p - ⟨mp, hmp, -⟩ _
    simp at hmp
  | cons mp rest ih =>
    intro t ht hok
    obtain ⟨m, q⟩ := mp
    obtain ⟨a, hm⟩ := hok (m, q) (by simp)
    obtain ⟨e1, e2, e3⟩ := ht.e
    obtain ⟨s1, s2, s3⟩ := ht.s
    have he := setitem_plane (f := t.ieps) hc ha (by rw [e1, e2, e3]; exact hm) ieps0
    have hs := setitem_plane (f := t.sigma) hc ha (by rw [s1, s2, s3]; exact hm) (s0 + mult * q)
    obtain ⟨t', h1, h2, h3, h4, h5⟩ := ih
      { t with ieps := setPlane t.ieps axis a c fun _ _ _ => ieps0, sigma := setPlane t.sigma axis a c fun _ _ _ => s0 + mult * q }
      ⟨⟨e1, e2, e3⟩, ht.m, ⟨s1, s2, s3⟩⟩ fun mp hmp => hok mp (by simp [hmp])
    refine ⟨t', ?_, h2, h3, h4, ?_⟩
    · simp only [pmlPlanes, he, hs, bind, Except.bind]; exact h1
    · intro c' i hi j hj k hk
      obtain ⟨g1, g2⟩ := h5 c' i hi j hj k hk
      have we : (setPlane t.ieps axis a c fun _ _ _ => ieps0).at3 c' i j k
          = if c' = c ∧ coord axis i j k = a then ieps0 else t.ieps.at3 c' i j k :=
        setPlane_at3 (by omega) (by omega) (by omega)
      have ws : (setPlane t.sigma axis a c fun _ _ _ => s0 + mult * q).at3 c' i j k
          = if c' = c ∧ coord axis i j k = a then s0 + mult * q else t.sigma.at3 c' i j k :=
        setPlane_at3 (by omega) (by omega) (by omega)
      refine ⟨fun hn => ?_, fun p hcc hex huniq => ?_⟩
      · obtain ⟨k1, k2⟩ := g1 (hn.imp id fun h mp hmp => h mp (by simp [hmp]))
        have : ¬ (c' = c ∧ coord axis i j k = a) := by
          rintro ⟨h, h'⟩
          rcases hn with hn | hn
          · exact hn h
          · exact hn (m, q) (by simp) (by rw [h']; exact hm)
        rw [k1, k2]
        exact ⟨by rw [we, if_neg this], by rw [ws, if_neg this]⟩
      · by_cases hr : ∃ mp ∈ rest, pyIndex (coord axis Nx Ny Nz) mp.1 = .ok (coord axis i j k)
        · exact g2 p hcc hr fun mp hmp => huniq mp (by simp [hmp])
        · obtain ⟨k1, k2⟩ := g1 (Or.inr fun mp hmp h => hr ⟨mp, hmp, h⟩)
          obtain ⟨mp, hmp, hq⟩ := hex
          rcases List.mem_cons.1 hmp with rfl | hmp
          · have ha' : coord axis i j k = a := by rw [hm] at hq; simpa using hq.symm
            rw [k1, k2]
            refine ⟨by rw [we, if_pos ⟨hcc, ha'⟩], ?_⟩
            rw [ws, if_pos ⟨hcc, ha'⟩, ← huniq (m, q) (by simp) hq]
          · exact absurd ⟨mp, hmp, hq⟩ hr

omit [Field K] [LinearOrder K] in
theorem centreOf_ok {f : Fld K} {axis c ref : ℕ} {m : ℤ} {key : Fld.CKey} (hc : Fld.Names key c) (ha : axis < 3)
    (hm : pyIndex (coord axis f.Nx f.Ny f.Nz) m = .ok ref) (hx : 0 < f.Nx) (hy : 0 < f.Ny) (hz : 0 < f.Nz) :
    centreOf f axis m key = .ok (f.at3 c (refCell f.Nx f.Ny f.Nz axis ref).1 (refCell f.Nx f.Ny f.Nz axis ref).2.1
      (refCell f.Nx f.Ny f.Nz axis ref).2.2) := by
  have hc' := Fld.names_iff.1 hc
  have ex := pyIndex_natCast (n := f.Nx) (a := f.Nx / 2) (by omega)
  have ey := pyIndex_natCast (n := f.Ny) (a := f.Ny / 2) (by omega)
  have ez := pyIndex_natCast (n := f.Nz) (a := f.Nz / 2) (by omega)
  rcases (by omega : axis = 0 ∨ axis = 1 ∨ axis = 2) with rfl | rfl | rfl
  · exact Fld.get_eq hm ey ez hc'
  · exact Fld.get_eq ex hm ez hc'
  · exact Fld.get_eq ex ey hm hc'

omit [Field K] [LinearOrder K] in
theorem centreOf_error {f : Fld K} {axis c : ℕ} {m : ℤ} {key : Fld.CKey} (hc : Fld.Names key c) (ha : axis < 3)
    {e : PyErr} (hm : pyIndex (coord axis f.Nx f.Ny f.Nz) m = .error e) (hx : 0 < f.Nx) (hy : 0 < f.Ny) :
    ∃ e, centreOf f axis m key = .error e := by
  have hc' := Fld.names_iff.1 hc
  have ex := Fld.mem_idx (pyIndex_natCast (n := f.Nx) (a := f.Nx / 2) (by omega))
  have ey := Fld.mem_idx (pyIndex_natCast (n := f.Ny) (a := f.Ny / 2) (by omega))
  rcases (by omega : axis = 0 ∨ axis = 1 ∨ axis = 2) with rfl | rfl | rfl
  · simp only [coord, if_true] at hm
    refine ⟨e, ?_⟩
    simp [centreOf, Fld.get, Fld.toMatrix, hc', Fld.index3, Fld.resolve3, Sel.resolve, hm, Except.map, bind, Except.bind]
  · simp only [coord, if_true, one_ne_zero, if_false] at hm
    refine ⟨e, ?_⟩
    simp only [centreOf, one_ne_zero, if_false, if_true, Fld.get, Fld.toMatrix, hc', Option.map, Fld.index3, Fld.resolve3, ex, bind, Except.bind]
    simp [Sel.resolve, hm, Except.map]
  · simp only [coord, OfNat.ofNat_ne_zero, OfNat.ofNat_ne_one, if_false] at hm
    refine ⟨e, ?_⟩
    simp only [centreOf, OfNat.ofNat_ne_zero, OfNat.ofNat_ne_one, if_false, Fld.get, Fld.toMatrix, hc', Option.map, Fld.index3, Fld.resolve3, ex, ey, bind, Except.bind]
    simp [Sel.resolve, hm, Except.map]

/-- The component loop, cell by cell. -/
theorem pmlFace_ok {axis ref : ℕ} {m : ℤ} (ha : axis < 3) {Nx Ny Nz : ℕ} (hx : 0 < Nx) (hy : 0 < Ny) (hz : 0 < Nz)
    (hm : pyIndex (coord axis Nx Ny Nz) m = .ok ref) (planes : List (ℤ × K))
    (hok : ∀ mp ∈ planes, ∃ a, pyIndex (coord axis Nx Ny Nz) mp.1 = .ok a) :
    ∀ (ds : List Fld.CKey) (comps : List ℕ) (t : Mats K), List.Forall₂ Fld.Names ds comps → comps.Nodup →
    t.Sized Nx Ny Nz →
    ∃ t', pmlFace axis m planes t ds = .ok t' ∧ t'.Sized Nx Ny Nz ∧ t'.imu = t.imu ∧ t'.useCond = t.useCond ∧
      ∀ c, ∀ i < Nx, ∀ j < Ny, ∀ k < Nz,
        ((c ∉ comps ∨ ∀ mp ∈ planes, pyIndex (coord axis Nx Ny Nz) mp.1 ≠ .ok (coord axis i j k)) →
          t'.ieps.at3 c i j k = t.ieps.at3 c i j k ∧ t'.sigma.at3 c i j k = t.sigma.at3 c i j k) ∧
        (∀ p, c ∈ comps → (∃ mp ∈ planes, pyIndex (coord axis Nx Ny Nz) mp.1 = .ok (coord axis i j k)) →
          (∀ mp ∈ planes, pyIndex (coord axis Nx Ny Nz) mp.1 = .ok (coord axis i j k) → mp.2 = p) →
          t'.ieps.at3 c i j k = t.ieps.at3 c (refCell Nx Ny Nz axis ref).1 (refCell Nx Ny Nz axis ref).2.1
            (refCell Nx Ny Nz axis ref).2.2 ∧
          t'.sigma.at3 c i j k = pmlSigma (t.sigma.at3 c (refCell Nx Ny Nz axis ref).1
            (refCell Nx Ny Nz axis ref).2.1 (refCell Nx Ny Nz axis ref).2.2) p) := by
  have hR : (refCell Nx Ny Nz axis ref).1 < Nx ∧ (refCell Nx Ny Nz axis ref).2.1 < Ny ∧
      (refCell Nx Ny Nz axis ref).2.2 < Nz := by
    have := pyIndex_lt hm
    rcases (by omega : axis = 0 ∨ axis = 1 ∨ axis = 2) with rfl | rfl | rfl <;>
      simp [refCell, coord] at this ⊢ <;> omega
  intro ds
  induction ds with
  | nil =>
    intro comps t hf _ ht
    obtain rfl : comps = [] := by cases hf; rfl
    refine ⟨t, rfl, ht, rfl, rfl, fun c i hi j hj k hk => ⟨fun _ => ⟨rfl, rfl⟩, ?_⟩⟩
    intro p hc
    simp at hc
  | cons d ds ih =>
    intro comps t hf hnd ht
    cases hf with
    | cons hname hf =>
      rename_i c0 comps
      obtain ⟨hc0, hnd⟩ := List.nodup_cons.1 hnd
      obtain ⟨e1, e2, e3⟩ := ht.e
      obtain ⟨s1, s2, s3⟩ := ht.s
      have ce := centreOf_ok (f := t.ieps) hname ha (by rw [e1, e2, e3]; exact hm) (by omega) (by omega) (by omega)
      have cs := centreOf_ok (f := t.sigma) hname ha (by rw [s1, s2, s3]; exact hm) (by omega) (by omega) (by omega)
      rw [e1, e2, e3] at ce
      rw [s1, s2, s3] at cs
      obtain ⟨t1, p1, p2, p3, p4, p5⟩ := pmlPlanes_ok hname ha
        (t.ieps.at3 c0 (refCell Nx Ny Nz axis ref).1 (refCell Nx Ny Nz axis ref).2.1 (refCell Nx Ny Nz axis ref).2.2)
        (t.sigma.at3 c0 (refCell Nx Ny Nz axis ref).1 (refCell Nx Ny Nz axis ref).2.1 (refCell Nx Ny Nz axis ref).2.2)
        (if t.sigma.at3 c0 (refCell Nx Ny Nz axis ref).1 (refCell Nx Ny Nz axis ref).2.1 (refCell Nx Ny Nz axis ref).2.2 < 1
          then 1 else t.sigma.at3 c0 (refCell Nx Ny Nz axis ref).1 (refCell Nx Ny Nz axis ref).2.1 (refCell Nx Ny Nz axis ref).2.2)
        planes t ht hok
      obtain ⟨t', q1, q2, q3, q4, q5⟩ := ih comps t1 hf hnd p2
      refine ⟨t', ?_, q2, q3.trans p3, q4.trans p4, ?_⟩
      · simp only [pmlFace, ce, cs, bind, Except.bind, p1]; exact q1
      · intro c i hi j hj k hk
        obtain ⟨a1, a2⟩ := p5 c i hi j hj k hk
        obtain ⟨b1, b2⟩ := q5 c i hi j hj k hk
        refine ⟨fun hn => ?_, fun p hc hex hu => ?_⟩
        · obtain ⟨x1, x2⟩ := b1 (hn.imp (fun h hc => h (by simp [hc])) id)
          obtain ⟨y1, y2⟩ := a1 (hn.imp (fun h hc => h (by simp [hc])) id)
          exact ⟨x1.trans y1, x2.trans y2⟩
        · rcases List.mem_cons.1 hc with rfl | hc'
          · obtain ⟨x1, x2⟩ := b1 (Or.inl hc0)
            obtain ⟨y1, y2⟩ := a2 p rfl hex hu
            exact ⟨x1.trans y1, x2.trans y2⟩
          · obtain ⟨x1, x2⟩ := b2 p hc' hex hu
            obtain ⟨y1, y2⟩ := (p5 c _ hR.1 _ hR.2.1 _ hR.2.2).1 (Or.inl fun h => hc0 (h ▸ hc'))
            rw [x1, x2, y1, y2]
            exact ⟨rfl, rfl⟩

theorem xyz_names : List.Forall₂ Fld.Names xyz [0, 1, 2] := by
  refine .cons (Fld.names_iff.2 ?_) (.cons (Fld.names_iff.2 ?_) (.cons (Fld.names_iff.2 ?_) .nil)) <;> decide

/-- Values of the profile by depth. -/
def profAt (geom : K → K → ℕ → ℕ → K) (lo hi : K) (n : ℕ) : Side → ℕ → K
  | .lo, d => geom hi lo n d
  | .hi, d => geom lo hi n (n - (d + 1))

/-- Index of the reference layer of a face. -/
def refLayer (Nx Ny Nz n axis : ℕ) : Side → ℕ
  | .lo => n + 1
  | .hi => coord axis Nx Ny Nz - (n + 1)

/-- Filling one face. -/
def pmlSide (geom : K → K → ℕ → ℕ → K) (lo hi : K) (n : ℕ) (axis : ℕ) : Side → Mats K → Py (Mats K)
  | .lo => pmlLow geom lo hi n axis
  | .hi => pmlHigh geom lo hi n axis

/-- The condition under which a face can be filled. -/
def FaceFits (Nx Ny Nz n axis : ℕ) : Side → Prop
  | .lo => n + 1 < coord axis Nx Ny Nz
  | .hi => n < coord axis Nx Ny Nz ∧ 0 < n

theorem pmlSide_ok (geom : K → K → ℕ → ℕ → K) (lo hi : K) {n axis : ℕ} (side : Side) (ha : axis < 3)
    {Nx Ny Nz : ℕ} (hx : 0 < Nx) (hy : 0 < Ny) (hz : 0 < Nz) {t : Mats K} (ht : t.Sized Nx Ny Nz)
    (hfit : FaceFits Nx Ny Nz n axis side) :
    ∃ t', pmlSide geom lo hi n axis side t = .ok t' ∧
      FaceEffect Nx Ny Nz n axis side (refLayer Nx Ny Nz n axis side) (profAt geom lo hi n side) t t' := by
  obtain ⟨e1, e2, e3⟩ := ht.e
  have hcl : ∀ i < Nx, ∀ j < Ny, ∀ k < Nz, coord axis i j k < coord axis Nx Ny Nz := by
    intro i hi j hj k hk
    rcases (by omega : axis = 0 ∨ axis = 1 ∨ axis = 2) with rfl | rfl | rfl <;> simp [coord] <;> omega
  cases side with
  | lo =>
    have hfit : n + 1 < coord axis Nx Ny Nz := hfit
    have hin : ∀ mp ∈ (List.range n).map (fun m : ℕ => ((m : ℤ), geom hi lo n m)),
        ∃ a < n, mp = ((a : ℤ), geom hi lo n a) ∧ pyIndex (coord axis Nx Ny Nz) mp.1 = .ok a := by
      intro mp hmp
      obtain ⟨a, ha, rfl⟩ := List.mem_map.1 hmp
      have := List.mem_range.1 ha
      exact ⟨a, this, rfl, pyIndex_natCast (by omega)⟩
    obtain ⟨t', h1, h2, h3, h4, h5⟩ := pmlFace_ok ha hx hy hz (m := ((n + 1 : ℕ) : ℤ)) (pyIndex_natCast hfit)
      ((List.range n).map fun m : ℕ => ((m : ℤ), geom hi lo n m))
      (fun mp hmp => by obtain ⟨a, -, -, h⟩ := hin mp hmp; exact ⟨a, h⟩) xyz [0, 1, 2] t xyz_names (by decide) ht
    refine ⟨t', ?_, ⟨h2, h3, h4, ?_, ?_⟩⟩
    · simp only [pmlSide, pmlLow, e1, e2, e3, if_neg (show ¬ coord axis Nx Ny Nz < n by omega)]
      exact h1
    · intro c hc i hi' j hj k hk hd
      refine (h5 c i hi' j hj k hk).2 _ (by simp; omega) ?_ ?_
      · exact ⟨((coord axis i j k : ℕ), geom hi lo n (coord axis i j k)),
          List.mem_map.2 ⟨_, List.mem_range.2 hd, rfl⟩, pyIndex_natCast (hcl i hi' j hj k hk)⟩
      · intro mp hmp hq
        obtain ⟨a, -, rfl, hp⟩ := hin mp hmp
        rw [hp] at hq
        obtain rfl : a = coord axis i j k := by simpa using hq
        rfl
    · intro c hc i hi' j hj k hk hd
      refine (h5 c i hi' j hj k hk).1 (Or.inr fun mp hmp hq => ?_)
      obtain ⟨a, han, rfl, hp⟩ := hin mp hmp
      rw [hp] at hq
      obtain rfl : a = coord axis i j k := by simpa using hq
      exact hd han
  | hi =>
    obtain ⟨hfit, hn0⟩ : n < coord axis Nx Ny Nz ∧ 0 < n := hfit
    have hin : ∀ mp ∈ (List.range n).map (fun m : ℕ => (-((m : ℤ) + 1), geom lo hi n (n - (m + 1)))),
        ∃ a < n, mp = (-((a : ℤ) + 1), geom lo hi n (n - (a + 1))) ∧
          pyIndex (coord axis Nx Ny Nz) mp.1 = .ok (coord axis Nx Ny Nz - 1 - a) := by
      intro mp hmp
      obtain ⟨a, ha, rfl⟩ := List.mem_map.1 hmp
      have := List.mem_range.1 ha
      exact ⟨a, this, rfl, pyIndex_ok_iff.2 (by dsimp only; omega)⟩
    obtain ⟨t', h1, h2, h3, h4, h5⟩ := pmlFace_ok ha hx hy hz (m := -((n : ℤ) + 1))
      (ref := coord axis Nx Ny Nz - (n + 1)) (pyIndex_ok_iff.2 (by omega))
      ((List.range n).map fun m : ℕ => (-((m : ℤ) + 1), geom lo hi n (n - (m + 1))))
      (fun mp hmp => by obtain ⟨a, -, -, h⟩ := hin mp hmp; exact ⟨_, h⟩) xyz [0, 1, 2] t xyz_names (by decide) ht
    refine ⟨t', ?_, ⟨h2, h3, h4, ?_, ?_⟩⟩
    · simp only [pmlSide, pmlHigh, e1, e2, e3, if_neg (show ¬ (coord axis Nx Ny Nz < n ∨ n = 0) by omega)]
      exact h1
    · intro c hc i hi' j hj k hk hd
      have hlt := hcl i hi' j hj k hk
      simp only [depth] at hd
      refine (h5 c i hi' j hj k hk).2 _ (by simp; omega) ?_ ?_
      · refine ⟨_, List.mem_map.2 ⟨_, List.mem_range.2 hd, rfl⟩, pyIndex_ok_iff.2 ?_⟩
        dsimp only
        omega
      · intro mp hmp hq
        obtain ⟨a, han, rfl, hp⟩ := hin mp hmp
        rw [hp] at hq
        have : coord axis Nx Ny Nz - 1 - a = coord axis i j k := by simpa using hq
        have : a = coord axis Nx Ny Nz - 1 - coord axis i j k := by omega
        subst this
        rfl
    · intro c hc i hi' j hj k hk hd
      have hlt := hcl i hi' j hj k hk
      simp only [depth] at hd
      refine (h5 c i hi' j hj k hk).1 (Or.inr fun mp hmp hq => ?_)
      obtain ⟨a, han, rfl, hp⟩ := hin mp hmp
      rw [hp] at hq
      have : coord axis Nx Ny Nz - 1 - a = coord axis i j k := by simpa using hq
      omega

/-- A face that does not fit cannot be filled. -/
theorem pmlSide_fits (geom : K → K → ℕ → ℕ → K) (lo hi : K) {n axis : ℕ} (side : Side) (ha : axis < 3)
    {Nx Ny Nz : ℕ} (hx : 0 < Nx) (hy : 0 < Ny) {t t' : Mats K} (ht : t.Sized Nx Ny Nz)
    (h : pmlSide geom lo hi n axis side t = .ok t') : FaceFits Nx Ny Nz n axis side := by
  obtain ⟨e1, e2, e3⟩ := ht.e
  have hn : Fld.Names (.str "x") 0 := Fld.names_iff.2 (by decide)
  cases side with
  | lo =>
    by_contra hc
    have hc : ¬ (n + 1 < coord axis Nx Ny Nz) := hc
    simp only [pmlSide, pmlLow, xyz] at h
    split_ifs at h
    have : pyIndex (coord axis t.ieps.Nx t.ieps.Ny t.ieps.Nz) ((n + 1 : ℕ) : ℤ) = .error .indexError := by
      unfold pyIndex
      rw [e1, e2, e3]
      rw [if_neg (by omega), if_neg (by omega)]
    obtain ⟨e, he⟩ := centreOf_error hn ha this (by omega) (by omega)
    simp only [pmlFace, he, bind, Except.bind] at h
    simp at h
  | hi =>
    by_contra hc
    have hc : ¬ (n < coord axis Nx Ny Nz ∧ 0 < n) := hc
    simp only [pmlSide, pmlHigh, xyz] at h
    split_ifs at h with h0
    have : pyIndex (coord axis t.ieps.Nx t.ieps.Ny t.ieps.Nz) (-((n : ℤ) + 1)) = .error .indexError := by
      unfold pyIndex
      rw [e1, e2, e3] at *
      rw [if_neg (by omega), if_neg (by omega)]
    obtain ⟨e, he⟩ := centreOf_error hn ha this (by omega) (by omega)
    simp only [pmlFace, he, bind, Except.bind] at h
    simp at h

/-! ### All faces -/

/-- Fill the faces of a list that are declared PML. -/
def fillFaces (geom : K → K → ℕ → ℕ → K) (lo hi : K) (n : ℕ) (bc : Faces String) :
    List (ℕ × Side) → Mats K → Py (Mats K)
  | [], t => .ok t
  | f :: l, t => do
    let t ← if isPml (faceName bc f.1 f.2) then pmlSide geom lo hi n f.1 f.2 t else .ok t
    fillFaces geom lo hi n bc l t

theorem fillPml_eq (geom : K → K → ℕ → ℕ → K) (lo hi : K) (n : ℕ) (bc : Faces String) (t : Mats K) :
    fillPml geom lo hi n bc t = fillFaces geom lo hi n bc pmlOrder t := by
  have e : ∀ x : Py (Mats K), (x >>= fun t => Except.ok t) = x := by
    intro x; cases x <;> rfl
  simp only [pmlOrder, fillFaces, e]
  rfl

theorem pmlSigma_pos [IsStrictOrderedRing K] {s0 p : K} (h0 : 0 ≤ s0) (hp : 0 < p) : 0 < pmlSigma s0 p := by
  unfold pmlSigma
  split_ifs with h
  · linarith
  · have := mul_pos (lt_of_lt_of_le one_pos (not_lt.1 h)) hp
    linarith

/-- The cell lies in the layers of a PML face of the list. -/
def InPml (Nx Ny Nz n : ℕ) (bc : Faces String) (l : List (ℕ × Side)) (i j k : ℕ) : Prop :=
  ∃ f ∈ l, isPml (faceName bc f.1 f.2) = true ∧ depth Nx Ny Nz f.1 f.2 i j k < n

theorem fillFaces_append (geom : K → K → ℕ → ℕ → K) (lo hi : K) (n : ℕ) (bc : Faces String) :
    ∀ (l1 l2 : List (ℕ × Side)) (t : Mats K), fillFaces geom lo hi n bc (l1 ++ l2) t =
      (fillFaces geom lo hi n bc l1 t).bind (fillFaces geom lo hi n bc l2) := by
  intro l1
  induction l1 with
  | nil => intro l2 t; rfl
  | cons f l ih =>
    intro l2 t
    simp only [List.cons_append, fillFaces, bind, Except.bind]
    split_ifs with h
    · cases pmlSide geom lo hi n f.1 f.2 t with
      | error e => rfl
      | ok t1 => exact ih l2 t1
    · exact ih l2 t

/-- Filling a list of faces: sizes, untouched cells, signs. -/
theorem fillFaces_ok [IsStrictOrderedRing K] (geom : K → K → ℕ → ℕ → K) (lo hi : K) {n : ℕ} (bc : Faces String)
    (hpos : ∀ s, ∀ d < n, 0 < profAt geom lo hi n s d)
    {Nx Ny Nz : ℕ} (hx : 0 < Nx) (hy : 0 < Ny) (hz : 0 < Nz) :
    ∀ (l : List (ℕ × Side)) (t t' : Mats K), (∀ f ∈ l, f.1 < 3) → t.Sized Nx Ny Nz →
    fillFaces geom lo hi n bc l t = .ok t' →
    t'.Sized Nx Ny Nz ∧ t'.imu = t.imu ∧ t'.useCond = t.useCond ∧
      (∀ c < 3, ∀ i < Nx, ∀ j < Ny, ∀ k < Nz, ¬ InPml Nx Ny Nz n bc l i j k →
        t'.ieps.at3 c i j k = t.ieps.at3 c i j k ∧ t'.sigma.at3 c i j k = t.sigma.at3 c i j k) ∧
      ((∀ c < 3, ∀ i < Nx, ∀ j < Ny, ∀ k < Nz, 0 ≤ t.sigma.at3 c i j k) →
        ∀ c < 3, ∀ i < Nx, ∀ j < Ny, ∀ k < Nz, 0 ≤ t'.sigma.at3 c i j k ∧
          (InPml Nx Ny Nz n bc l i j k → 0 < t'.sigma.at3 c i j k)) ∧
      (∀ P : K → Prop, (∀ c < 3, ∀ i < Nx, ∀ j < Ny, ∀ k < Nz, P (t.ieps.at3 c i j k)) →
        ∀ c < 3, ∀ i < Nx, ∀ j < Ny, ∀ k < Nz, P (t'.ieps.at3 c i j k)) := by
  intro l
  induction l with
  | nil =>
    intro t t' _ ht h
    obtain rfl : t = t' := by simpa [fillFaces] using h
    refine ⟨ht, rfl, rfl, fun c _ i _ j _ k _ _ => ⟨rfl, rfl⟩, fun h0 c hc i hi j hj k hk => ⟨h0 c hc i hi j hj k hk, ?_⟩,
      fun _ h => h⟩
    rintro ⟨f, hf, -⟩
    simp at hf
  | cons f l ih =>
    intro t t' ha ht h
    have ha0 := ha f (by simp)
    simp only [fillFaces, bind, Except.bind] at h
    by_cases hp : isPml (faceName bc f.1 f.2) = true
    · rw [if_pos hp] at h
      cases h1 : pmlSide geom lo hi n f.1 f.2 t with
      | error e => rw [h1] at h; simp at h
      | ok t1 =>
        rw [h1] at h
        have hfit := pmlSide_fits geom lo hi f.2 ha0 hx hy ht h1
        obtain ⟨t1', h1', eff⟩ := pmlSide_ok geom lo hi f.2 ha0 hx hy hz ht hfit
        rw [h1] at h1'
        obtain rfl : t1 = t1' := by simpa using h1'
        obtain ⟨g1, g2, g3, g4, g5, g6⟩ := ih t1 t' (fun f hf => ha f (by simp [hf])) eff.sized h
        have hR : (refCell Nx Ny Nz f.1 (refLayer Nx Ny Nz n f.1 f.2)).1 < Nx ∧
            (refCell Nx Ny Nz f.1 (refLayer Nx Ny Nz n f.1 f.2)).2.1 < Ny ∧
            (refCell Nx Ny Nz f.1 (refLayer Nx Ny Nz n f.1 f.2)).2.2 < Nz := by
          obtain ⟨ax, sd⟩ := f
          rcases (by omega : ax = 0 ∨ ax = 1 ∨ ax = 2) with rfl | rfl | rfl <;> cases sd <;>
            simp [refCell, refLayer, FaceFits, coord] at hfit ⊢ <;> omega
        have step : (∀ c < 3, ∀ i < Nx, ∀ j < Ny, ∀ k < Nz, 0 ≤ t.sigma.at3 c i j k) →
            ∀ c < 3, ∀ i < Nx, ∀ j < Ny, ∀ k < Nz, 0 ≤ t1.sigma.at3 c i j k ∧
              (depth Nx Ny Nz f.1 f.2 i j k < n → 0 < t1.sigma.at3 c i j k) := by
          intro h0 c hc i hi j hj k hk
          by_cases hd : depth Nx Ny Nz f.1 f.2 i j k < n
          · have e := (eff.inside c hc i hi j hj k hk hd).2
            have r0 := h0 c hc _ hR.1 _ hR.2.1 _ hR.2.2
            have p0 := hpos f.2 _ hd
            have : 0 < t1.sigma.at3 c i j k := by
              rw [e]
              exact pmlSigma_pos r0 p0
            exact ⟨this.le, fun _ => this⟩
          · rw [(eff.outside c hc i hi j hj k hk hd).2]
            exact ⟨h0 c hc i hi j hj k hk, fun h => absurd h hd⟩
        refine ⟨g1, g2.trans eff.imu, g3.trans eff.cond, ?_, ?_, ?_⟩
        · intro c hc i hi j hj k hk hn
          obtain ⟨a1, a2⟩ := g4 c hc i hi j hj k hk fun ⟨q, hq, hq'⟩ => hn ⟨q, by simp [hq], hq'⟩
          obtain ⟨b1, b2⟩ := eff.outside c hc i hi j hj k hk fun hd => hn ⟨f, by simp, hp, hd⟩
          exact ⟨a1.trans b1, a2.trans b2⟩
        · intro h0 c hc i hi j hj k hk
          obtain ⟨a1, a2⟩ := g5 (fun c hc i hi j hj k hk => (step h0 c hc i hi j hj k hk).1) c hc i hi j hj k hk
          refine ⟨a1, ?_⟩
          by_cases hl : InPml Nx Ny Nz n bc l i j k
          · exact fun _ => a2 hl
          · rintro ⟨q, hq, hq'⟩
            rcases List.mem_cons.1 hq with rfl | hq
            · rw [(g4 c hc i hi j hj k hk hl).2]
              exact (step h0 c hc i hi j hj k hk).2 hq'.2
            · exact absurd ⟨q, hq, hq'⟩ hl
        · intro P h0
          apply g6 P
          intro c hc i hi j hj k hk
          by_cases hd : depth Nx Ny Nz f.1 f.2 i j k < n
          · rw [(eff.inside c hc i hi j hj k hk hd).1]
            exact h0 c hc _ hR.1 _ hR.2.1 _ hR.2.2
          · rw [(eff.outside c hc i hi j hj k hk hd).1]
            exact h0 c hc i hi j hj k hk
    · rw [if_neg hp] at h
      obtain ⟨g1, g2, g3, g4, g5, g6⟩ := ih t t' (fun f hf => ha f (by simp [hf])) ht h
      refine ⟨g1, g2, g3, ?_, ?_, g6⟩
      · intro c hc i hi j hj k hk hn
        exact g4 c hc i hi j hj k hk fun ⟨q, hq, hq'⟩ => hn ⟨q, by simp [hq], hq'⟩
      · intro h0 c hc i hi j hj k hk
        obtain ⟨a1, a2⟩ := g5 h0 c hc i hi j hj k hk
        refine ⟨a1, ?_⟩
        rintro ⟨q, hq, hq'⟩
        rcases List.mem_cons.1 hq with rfl | hq
        · exact absurd hq'.1 hp
        · exact a2 ⟨q, hq, hq'⟩

/-- The layers of a face outside the faces filled after it. -/
theorem fillFaces_layer [IsStrictOrderedRing K] (geom : K → K → ℕ → ℕ → K) (lo hi : K) {n : ℕ} (bc : Faces String)
    (hpos : ∀ s, ∀ d < n, 0 < profAt geom lo hi n s d)
    {Nx Ny Nz : ℕ} (hx : 0 < Nx) (hy : 0 < Ny) (hz : 0 < Nz)
    {l1 l2 : List (ℕ × Side)} {f : ℕ × Side} {t t' : Mats K} (ha : ∀ g ∈ l1 ++ f :: l2, g.1 < 3)
    (ht : t.Sized Nx Ny Nz) (h : fillFaces geom lo hi n bc (l1 ++ f :: l2) t = .ok t')
    (hp : isPml (faceName bc f.1 f.2) = true) :
    FaceFits Nx Ny Nz n f.1 f.2 ∧ ∃ r0 s0 : ℕ → K,
      (∀ c < 3, ∀ i < Nx, ∀ j < Ny, ∀ k < Nz, depth Nx Ny Nz f.1 f.2 i j k < n → ¬ InPml Nx Ny Nz n bc l2 i j k →
        t'.ieps.at3 c i j k = r0 c ∧
        t'.sigma.at3 c i j k = pmlSigma (s0 c) (profAt geom lo hi n f.2 (depth Nx Ny Nz f.1 f.2 i j k))) ∧
      ((∀ c < 3, ∀ i < Nx, ∀ j < Ny, ∀ k < Nz, 0 ≤ t.sigma.at3 c i j k) → ∀ c < 3, 0 ≤ s0 c) ∧
      (¬ InPml Nx Ny Nz n bc l1 (refCell Nx Ny Nz f.1 (refLayer Nx Ny Nz n f.1 f.2)).1
          (refCell Nx Ny Nz f.1 (refLayer Nx Ny Nz n f.1 f.2)).2.1
          (refCell Nx Ny Nz f.1 (refLayer Nx Ny Nz n f.1 f.2)).2.2 →
        ∀ c < 3, r0 c = t.ieps.at3 c (refCell Nx Ny Nz f.1 (refLayer Nx Ny Nz n f.1 f.2)).1
          (refCell Nx Ny Nz f.1 (refLayer Nx Ny Nz n f.1 f.2)).2.1
          (refCell Nx Ny Nz f.1 (refLayer Nx Ny Nz n f.1 f.2)).2.2 ∧
          s0 c = t.sigma.at3 c (refCell Nx Ny Nz f.1 (refLayer Nx Ny Nz n f.1 f.2)).1
          (refCell Nx Ny Nz f.1 (refLayer Nx Ny Nz n f.1 f.2)).2.1
          (refCell Nx Ny Nz f.1 (refLayer Nx Ny Nz n f.1 f.2)).2.2) := by
  rw [fillFaces_append] at h
  cases h1 : fillFaces geom lo hi n bc l1 t with
  | error e => rw [h1] at h; simp [Except.bind] at h
  | ok t1 =>
    rw [h1] at h
    obtain ⟨g1, -, -, g4, g5, -⟩ := fillFaces_ok geom lo hi bc hpos hx hy hz l1 t t1
      (fun q hq => ha q (by simp [hq])) ht h1
    simp only [Except.bind, fillFaces, bind, hp, if_true] at h
    have ha0 := ha f (by simp)
    cases h2 : pmlSide geom lo hi n f.1 f.2 t1 with
    | error e => rw [h2] at h; simp at h
    | ok t2 =>
      rw [h2] at h
      have hfit := pmlSide_fits geom lo hi f.2 ha0 hx hy g1 h2
      obtain ⟨t2', h2', eff⟩ := pmlSide_ok geom lo hi f.2 ha0 hx hy hz g1 hfit
      rw [h2] at h2'
      obtain rfl : t2 = t2' := by simpa using h2'
      obtain ⟨-, -, -, q4, -, -⟩ := fillFaces_ok geom lo hi bc hpos hx hy hz l2 t2 t'
        (fun q hq => ha q (by simp [hq])) eff.sized h
      have hR : (refCell Nx Ny Nz f.1 (refLayer Nx Ny Nz n f.1 f.2)).1 < Nx ∧
          (refCell Nx Ny Nz f.1 (refLayer Nx Ny Nz n f.1 f.2)).2.1 < Ny ∧
          (refCell Nx Ny Nz f.1 (refLayer Nx Ny Nz n f.1 f.2)).2.2 < Nz := by
        obtain ⟨ax, sd⟩ := f
        rcases (by omega : ax = 0 ∨ ax = 1 ∨ ax = 2) with rfl | rfl | rfl <;> cases sd <;>
          simp [refCell, refLayer, FaceFits, coord] at hfit ⊢ <;> omega
      refine ⟨hfit, fun c => t1.ieps.at3 c (refCell Nx Ny Nz f.1 (refLayer Nx Ny Nz n f.1 f.2)).1 (refCell Nx Ny Nz f.1 (refLayer Nx Ny Nz n f.1 f.2)).2.1 (refCell Nx Ny Nz f.1 (refLayer Nx Ny Nz n f.1 f.2)).2.2,
        fun c => t1.sigma.at3 c (refCell Nx Ny Nz f.1 (refLayer Nx Ny Nz n f.1 f.2)).1 (refCell Nx Ny Nz f.1 (refLayer Nx Ny Nz n f.1 f.2)).2.1 (refCell Nx Ny Nz f.1 (refLayer Nx Ny Nz n f.1 f.2)).2.2, ?_, ?_, ?_⟩
      · intro c hc i hi j hj k hk hd hn
        obtain ⟨a1, a2⟩ := q4 c hc i hi j hj k hk hn
        obtain ⟨b1, b2⟩ := eff.inside c hc i hi j hj k hk hd
        exact ⟨a1.trans b1, a2.trans b2⟩
      · intro h0 c hc
        exact (g5 h0 c hc _ hR.1 _ hR.2.1 _ hR.2.2).1
      · intro hn c hc
        exact g4 c hc _ hR.1 _ hR.2.1 _ hR.2.2 hn

end Sol
end Wakis
