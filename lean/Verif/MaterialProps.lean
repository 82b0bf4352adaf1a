import Verif.MaterialModel
import Mathlib.Tactic.FieldSimp
import Mathlib.Tactic.NormNum

/-!
# Materials: the last listed solid wins (C29)
-/

namespace Wakis
namespace Sol
variable {K : Type _} [Field K] [LinearOrder K]

/-! ### Specification -/

/-- `s` is the last solid of the list that contains cell `(i,j,k)`. -/
def Governs (solids : List Solid) (i j k : ℕ) (s : Solid) : Prop :=
  ∃ before after : List Solid, solids = before ++ s :: after ∧ s.2 i j k = true ∧
    ∀ t ∈ after, t.2 i j k = false

/-- The material a user entry stands for: the list itself, or the library entry of the lower-cased
name. -/
def MeansMaterial (spec : MatSpec K) (m : Material K) : Prop :=
  match spec with
  | .vals v => v = m
  | .name s => materialLib (pyLower s) = some m

/-- The material tensors have at cell `(i,j,k)`, in every component, the values of material `m`. -/
def CellHas (eps0 mu0 : K) (t : Mats K) (i j k : ℕ) (m : Material K) : Prop :=
  ∀ key c, Fld.Names key c →
    t.ieps.get i j k key = .ok (m.eps.over 1 eps0) ∧ t.imu.get i j k key = .ok (m.mu.over 1 mu0)

/-- ... and its conductivity (zero when the material lists none). -/
def CellCond (t : Mats K) (i j k : ℕ) (s : K) : Prop :=
  ∀ key c, Fld.Names key c → t.sigma.get i j k key = .ok s

/-! ### Lemmas -/

/-- Sizes of the tensors. -/
structure Mats.Sized (t : Mats K) (Nx Ny Nz : ℕ) : Prop where
  e : t.ieps.Nx = Nx ∧ t.ieps.Ny = Ny ∧ t.ieps.Nz = Nz
  m : t.imu.Nx = Nx ∧ t.imu.Ny = Ny ∧ t.imu.Nz = Nz
  s : t.sigma.Nx = Nx ∧ t.sigma.Ny = Ny ∧ t.sigma.Nz = Nz

omit [LinearOrder K] in
theorem look_iff {spec : MatSpec K} {m : Material K} : spec.look = .ok m ↔ MeansMaterial spec m := by
  cases spec with
  | vals v => simp [MatSpec.look, MeansMaterial]
  | name s =>
    simp only [MatSpec.look, MeansMaterial]
    cases materialLib (K := K) (pyLower s) <;> simp

omit [LinearOrder K] in
theorem clearIn_ok (f : Fld K) (mask : ℕ → ℕ → ℕ → Bool) :
    ∃ g, clearIn f mask = .ok g ∧ (g.Nx = f.Nx ∧ g.Ny = f.Ny ∧ g.Nz = f.Nz) ∧
      ∀ c < 3, ∀ i < f.Nx, ∀ j < f.Ny, ∀ k < f.Nz,
        g.at3 c i j k = if mask i j k then 0 else f.at3 c i j k := by
  refine ⟨_, rfl, ⟨rfl, rfl, rfl⟩, fun c hc i hi j hj k hk => ?_⟩
  rw [Fld.add_at3 (by rfl) (by rfl) (by rfl) hc hi hj hk, Fld.mulMatrix_at3 _ hc hi hj hk]
  cases h : mask i j k <;> simp [ind, h]

omit [LinearOrder K] in
theorem over_ind (r : RelC K) (mask : ℕ → ℕ → ℕ → Bool) (c0 : K) (i j k : ℕ) :
    r.over (ind mask i j k) c0 = if mask i j k then r.over 1 c0 else 0 := by
  cases r <;> cases h : mask i j k <;> simp [RelC.over, ind, h]

/-- What one solid does to every cell. -/
theorem applySolid_ok (eps0 mu0 sbg : K) (t : Mats K) {Nx Ny Nz : ℕ} (ht : t.Sized Nx Ny Nz)
    (mask : ℕ → ℕ → ℕ → Bool) (m : Material K) :
    ∃ t', applySolid eps0 mu0 sbg t mask m = .ok t' ∧ t'.Sized Nx Ny Nz ∧
      (t'.useCond = (t.useCond || m.sigma.isSome)) ∧
      ∀ c < 3, ∀ i < Nx, ∀ j < Ny, ∀ k < Nz,
        (t'.ieps.at3 c i j k = if mask i j k then m.eps.over 1 eps0 else t.ieps.at3 c i j k) ∧
        (t'.imu.at3 c i j k = if mask i j k then m.mu.over 1 mu0 else t.imu.at3 c i j k) ∧
        (t'.sigma.at3 c i j k =
          if mask i j k ∧ (m.sigma.isSome ∨ 0 < sbg) then m.sigma.getD 0 else t.sigma.at3 c i j k) := by
  obtain ⟨e1, e2, e3⟩ := ht.e
  obtain ⟨m1, m2, m3⟩ := ht.m
  obtain ⟨s1, s2, s3⟩ := ht.s
  obtain ⟨ge, he, ⟨hde1, hde2, hde3⟩, hce⟩ := clearIn_ok t.ieps mask
  obtain ⟨gm, hm, ⟨hdm1, hdm2, hdm3⟩, hcm⟩ := clearIn_ok t.imu mask
  obtain ⟨gs, hs, ⟨hds1, hds2, hds3⟩, hcs⟩ := clearIn_ok t.sigma mask
  have fe : ∀ c < 3, ∀ i < Nx, ∀ j < Ny, ∀ k < Nz,
      (ge.addMatrix fun i j k => m.eps.over (ind mask i j k) eps0).at3 c i j k
        = if mask i j k then m.eps.over 1 eps0 else t.ieps.at3 c i j k := by
    intro c hc i hi j hj k hk
    rw [Fld.addMatrix_at3 _ hc (by omega) (by omega) (by omega),
      hce c hc i (by omega) j (by omega) k (by omega), over_ind]
    split_ifs <;> simp
  have fm : ∀ c < 3, ∀ i < Nx, ∀ j < Ny, ∀ k < Nz,
      (gm.addMatrix fun i j k => m.mu.over (ind mask i j k) mu0).at3 c i j k
        = if mask i j k then m.mu.over 1 mu0 else t.imu.at3 c i j k := by
    intro c hc i hi j hj k hk
    rw [Fld.addMatrix_at3 _ hc (by omega) (by omega) (by omega),
      hcm c hc i (by omega) j (by omega) k (by omega), over_ind]
    split_ifs <;> simp
  cases hsig : m.sigma with
  | some s =>
    refine ⟨⟨ge.addMatrix fun i j k => m.eps.over (ind mask i j k) eps0,
      gm.addMatrix fun i j k => m.mu.over (ind mask i j k) mu0,
      gs.addMatrix fun i j k => ind mask i j k * s, true⟩, ?_, ?_, ?_, ?_⟩
    · simp only [applySolid, he, hm, hs, hsig, bind, Except.bind, Fld.addOp, pure, Except.pure]
    · exact ⟨⟨hde1.trans e1, hde2.trans e2,
        hde3.trans e3⟩, ⟨hdm1.trans m1,
        hdm2.trans m2, hdm3.trans m3⟩,
        ⟨hds1.trans s1, hds2.trans s2,
        hds3.trans s3⟩⟩
    · simp
    · intro c hc i hi j hj k hk
      refine ⟨fe c hc i hi j hj k hk, fm c hc i hi j hj k hk, ?_⟩
      rw [Fld.addMatrix_at3 _ hc (by omega) (by omega) (by omega),
        hcs c hc i (by omega) j (by omega) k (by omega)]
      cases h : mask i j k <;> simp [ind, h]
  | none =>
    by_cases hb : 0 < sbg
    · refine ⟨⟨ge.addMatrix fun i j k => m.eps.over (ind mask i j k) eps0,
        gm.addMatrix fun i j k => m.mu.over (ind mask i j k) mu0, gs, t.useCond⟩, ?_, ?_, ?_, ?_⟩
      · simp only [applySolid, he, hm, hs, hsig, if_pos hb, bind, Except.bind, Fld.addOp, pure, Except.pure]
      · exact ⟨⟨hde1.trans e1, hde2.trans e2,
          hde3.trans e3⟩, ⟨hdm1.trans m1,
          hdm2.trans m2, hdm3.trans m3⟩,
          ⟨hds1.trans s1, hds2.trans s2, hds3.trans s3⟩⟩
      · simp
      · intro c hc i hi j hj k hk
        refine ⟨fe c hc i hi j hj k hk, fm c hc i hi j hj k hk, ?_⟩
        rw [hcs c hc i (by omega) j (by omega) k (by omega)]
        cases h : mask i j k <;> simp [hb]
    · refine ⟨⟨ge.addMatrix fun i j k => m.eps.over (ind mask i j k) eps0,
        gm.addMatrix fun i j k => m.mu.over (ind mask i j k) mu0, t.sigma, t.useCond⟩, ?_, ?_, ?_, ?_⟩
      · simp only [applySolid, he, hm, hsig, if_neg hb, bind, Except.bind, Fld.addOp, pure, Except.pure]
      · exact ⟨⟨hde1.trans e1, hde2.trans e2,
          hde3.trans e3⟩, ⟨hdm1.trans m1,
          hdm2.trans m2, hdm3.trans m3⟩, ht.s⟩
      · simp
      · intro c hc i hi j hj k hk
        refine ⟨fe c hc i hi j hj k hk, fm c hc i hi j hj k hk, ?_⟩
        simp [hb]

omit [LinearOrder K] in
/-- The tensors of the background. -/
theorem background_ok (Nx Ny Nz : ℕ) (eps0 mu0 : K) (use0 : Bool) (bg : MatSpec K) {m : Material K}
    (hm : MeansMaterial bg m) :
    ∃ t, background Nx Ny Nz eps0 mu0 use0 bg = .ok (t, m.sigma.getD 0) ∧ t.Sized Nx Ny Nz ∧
      t.useCond = (use0 || m.sigma.isSome) ∧
      ∀ c i j k, t.ieps.at3 c i j k = m.eps.over 1 eps0 ∧ t.imu.at3 c i j k = m.mu.over 1 mu0 ∧
        t.sigma.at3 c i j k = m.sigma.getD 0 := by
  refine ⟨⟨(Fld.new Nx Ny Nz true).mulScalar (m.eps.over 1 eps0),
    (Fld.new Nx Ny Nz true).mulScalar (m.mu.over 1 mu0), (Fld.new Nx Ny Nz true).mulScalar (m.sigma.getD 0),
    use0 || m.sigma.isSome⟩, ?_, ?_, rfl, ?_⟩
  · simp only [background, look_iff.2 hm, bind, Except.bind, pure, Except.pure]
  · exact ⟨⟨rfl, rfl, rfl⟩, ⟨rfl, rfl, rfl⟩, ⟨rfl, rfl, rfl⟩⟩
  · intro c i j k
    simp [Fld.mulScalar, Fld.at3, Fld.new]

/-- The last element of a list satisfying a test. -/
def lastHit (P : Solid → Bool) (l : List Solid) : Option Solid := l.reverse.find? P

theorem lastHit_cons (P : Solid → Bool) (s : Solid) (l : List Solid) :
    lastHit P (s :: l) = (lastHit P l).or (if P s then some s else none) := by
  simp only [lastHit, List.reverse_cons, List.find?_append]
  cases h : P s <;> simp [h]

theorem lastHit_of_governs {l : List Solid} {i j k : ℕ} {s : Solid} (h : Governs l i j k s) :
    lastHit (fun t => t.2 i j k) l = some s := by
  obtain ⟨a, b, rfl, hs, hb⟩ := h
  unfold lastHit
  rw [List.reverse_append, List.find?_append, List.reverse_cons, List.find?_append]
  have : (b.reverse.find? fun t => t.2 i j k) = none := by
    rw [List.find?_eq_none]
    intro x hx
    simpa using hb x (List.mem_reverse.1 hx)
  simp [this, hs]

theorem lastHit_none {l : List Solid} {P : Solid → Bool} (h : ∀ s ∈ l, P s = false) :
    lastHit P l = none := by
  unfold lastHit
  rw [List.find?_eq_none]
  intro x hx
  simpa using h x (List.mem_reverse.1 hx)

theorem lastHit_some {l : List Solid} {P : Solid → Bool} {s : Solid} (h : lastHit P l = some s) :
    s ∈ l ∧ P s = true := by
  unfold lastHit at h
  exact ⟨List.mem_reverse.1 (List.mem_of_find?_eq_some h), List.find?_some h⟩

/-- Every listed solid has a material that can be looked up. -/
def AllKnown (dict : String → Option (MatSpec K)) (solids : List Solid) (mat : String → Material K) : Prop :=
  ∀ s ∈ solids, ∃ spec, dict s.1 = some spec ∧ MeansMaterial spec (mat s.1)

/-- The loop over the solids, cell by cell. -/
theorem applyStl_ok (eps0 mu0 sbg : K) (dict : String → Option (MatSpec K)) (mat : String → Material K)
    {Nx Ny Nz : ℕ} : ∀ (solids : List Solid) (t : Mats K), t.Sized Nx Ny Nz → AllKnown dict solids mat →
    ∃ t', applyStl eps0 mu0 sbg dict t solids = .ok t' ∧ t'.Sized Nx Ny Nz ∧
      (t'.useCond = (t.useCond || solids.any fun s => (mat s.1).sigma.isSome)) ∧
      ∀ c < 3, ∀ i < Nx, ∀ j < Ny, ∀ k < Nz,
        (t'.ieps.at3 c i j k = ((lastHit (fun s => s.2 i j k) solids).map
          fun s => (mat s.1).eps.over 1 eps0).getD (t.ieps.at3 c i j k)) ∧
        (t'.imu.at3 c i j k = ((lastHit (fun s => s.2 i j k) solids).map
          fun s => (mat s.1).mu.over 1 mu0).getD (t.imu.at3 c i j k)) ∧
        (t'.sigma.at3 c i j k =
          ((lastHit (fun s => s.2 i j k && ((mat s.1).sigma.isSome || decide (0 < sbg))) solids).map
            fun s => (mat s.1).sigma.getD 0).getD (t.sigma.at3 c i j k)) := by
  intro solids
  induction solids with
  | nil =>
    intro t ht _
    refine ⟨t, rfl, ht, by simp, fun c hc i hi j hj k hk => ?_⟩
    simp [lastHit]
  | cons s l ih =>
    intro t ht hk
    obtain ⟨spec, hd, hm⟩ := hk s (by simp)
    obtain ⟨t1, h1, hs1, hu1, hc1⟩ := applySolid_ok eps0 mu0 sbg t ht s.2 (mat s.1)
    obtain ⟨t2, h2, hs2, hu2, hc2⟩ := ih t1 hs1 fun s' hs' => hk s' (by simp [hs'])
    refine ⟨t2, ?_, hs2, ?_, ?_⟩
    · simp only [applyStl, hd, look_iff.2 hm, bind, Except.bind, h1, h2]
    · rw [hu2, hu1, List.any_cons, Bool.or_assoc]
    · intro c hc i hi j hj k hk
      obtain ⟨a1, a2, a3⟩ := hc1 c hc i hi j hj k hk
      obtain ⟨b1, b2, b3⟩ := hc2 c hc i hi j hj k hk
      rw [b1, b2, b3, a1, a2, a3, lastHit_cons, lastHit_cons]
      refine ⟨?_, ?_, ?_⟩
      · cases lastHit (fun s => s.2 i j k) l <;> cases s.2 i j k <;> simp
      · cases lastHit (fun s => s.2 i j k) l <;> cases s.2 i j k <;> simp
      · cases lastHit (fun s => s.2 i j k && ((mat s.1).sigma.isSome || decide (0 < sbg))) l with
        | some q => simp
        | none =>
          by_cases hw : s.2 i j k = true ∧ ((mat s.1).sigma.isSome = true ∨ 0 < sbg)
          · have : (s.2 i j k && ((mat s.1).sigma.isSome || decide (0 < sbg))) = true := by simpa using hw
            rw [if_pos hw, this]; simp
          · have : (s.2 i j k && ((mat s.1).sigma.isSome || decide (0 < sbg))) = false := by
              rw [Bool.eq_false_iff]; simpa using hw
            rw [if_neg hw, this]; simp

theorem applyStl_known {eps0 mu0 sbg : K} {dict : String → Option (MatSpec K)} :
    ∀ {solids : List Solid} {t t' : Mats K}, applyStl eps0 mu0 sbg dict t solids = .ok t' →
      ∀ s ∈ solids, ∃ spec m, dict s.1 = some spec ∧ MeansMaterial spec m := by
  intro solids
  induction solids with
  | nil => intro t t' _ s hs; simp at hs
  | cons a l ih =>
    intro t t' h s hs
    cases hd : dict a.1 with
    | none => simp [applyStl, hd] at h
    | some spec =>
      cases hl : spec.look with
      | error e => simp [applyStl, hd, hl, bind, Except.bind] at h
      | ok m =>
        cases ha : applySolid eps0 mu0 sbg t a.2 m with
        | error e => simp [applyStl, hd, hl, ha, bind, Except.bind] at h
        | ok t1 =>
          simp only [applyStl, hd, hl, ha, bind, Except.bind] at h
          rcases List.mem_cons.1 hs with rfl | hs
          · exact ⟨spec, m, hd, look_iff.1 hl⟩
          · exact ih h s hs

/-- A choice of the material of every key. -/
noncomputable def matOf (dict : String → Option (MatSpec K)) (key : String) : Material K := by
  classical
  exact if h : ∃ spec m, dict key = some spec ∧ MeansMaterial spec m then h.choose_spec.choose
    else ⟨.inf, .inf, none⟩

omit [LinearOrder K] in
theorem matOf_spec {dict : String → Option (MatSpec K)} {key : String}
    (h : ∃ spec m, dict key = some spec ∧ MeansMaterial spec m) :
    ∃ spec, dict key = some spec ∧ MeansMaterial spec (matOf dict key) := by
  classical
  refine ⟨h.choose, ?_⟩
  have := h.choose_spec.choose_spec
  unfold matOf
  rw [dif_pos h]
  exact this

omit [LinearOrder K] in
theorem means_unique {spec : MatSpec K} {m m' : Material K} (h : MeansMaterial spec m)
    (h' : MeansMaterial spec m') : m = m' := by
  have a := look_iff.2 h
  rw [look_iff.2 h'] at a
  simpa using a.symm

/-- Everything about the set-up, cell by cell. -/
theorem materials_ok {Nx Ny Nz : ℕ} {eps0 mu0 : K} {use0 : Bool} {bg : MatSpec K}
    {dict : String → Option (MatSpec K)} {solids : List Solid} {mb : Material K}
    (hb : MeansMaterial bg mb) (hk : ∀ s ∈ solids, ∃ spec m, dict s.1 = some spec ∧ MeansMaterial spec m) :
    ∃ t, materials Nx Ny Nz eps0 mu0 use0 bg dict solids = .ok t ∧ t.Sized Nx Ny Nz ∧
      (t.useCond = (use0 || mb.sigma.isSome || solids.any fun s => (matOf dict s.1).sigma.isSome)) ∧
      ∀ c < 3, ∀ i < Nx, ∀ j < Ny, ∀ k < Nz,
        (t.ieps.at3 c i j k = ((lastHit (fun s => s.2 i j k) solids).map
          fun s => (matOf dict s.1).eps.over 1 eps0).getD (mb.eps.over 1 eps0)) ∧
        (t.imu.at3 c i j k = ((lastHit (fun s => s.2 i j k) solids).map
          fun s => (matOf dict s.1).mu.over 1 mu0).getD (mb.mu.over 1 mu0)) ∧
        (t.sigma.at3 c i j k =
          ((lastHit (fun s => s.2 i j k && ((matOf dict s.1).sigma.isSome || decide (0 < mb.sigma.getD 0)))
            solids).map fun s => (matOf dict s.1).sigma.getD 0).getD (mb.sigma.getD 0)) := by
  obtain ⟨t0, h0, hs0, hu0, hc0⟩ := background_ok Nx Ny Nz eps0 mu0 use0 bg hb
  obtain ⟨t, h1, hs1, hu1, hc1⟩ := applyStl_ok eps0 mu0 (mb.sigma.getD 0) dict (matOf dict) solids t0 hs0
    fun s hs => matOf_spec (hk s hs)
  refine ⟨t, ?_, hs1, by rw [hu1, hu0], ?_⟩
  · simp only [materials, h0, bind, Except.bind, h1]
  · intro c hc i hi j hj k hk
    obtain ⟨a1, a2, a3⟩ := hc0 c i j k
    obtain ⟨b1, b2, b3⟩ := hc1 c hc i hi j hj k hk
    rw [a1] at b1; rw [a2] at b2; rw [a3] at b3
    exact ⟨b1, b2, b3⟩

theorem materials_known {Nx Ny Nz : ℕ} {eps0 mu0 : K} {use0 : Bool} {bg : MatSpec K}
    {dict : String → Option (MatSpec K)} {solids : List Solid} {t : Mats K}
    (h : materials Nx Ny Nz eps0 mu0 use0 bg dict solids = .ok t) :
    (∃ mb, MeansMaterial bg mb) ∧ ∀ s ∈ solids, ∃ spec m, dict s.1 = some spec ∧ MeansMaterial spec m := by
  cases hl : bg.look with
  | error e => simp [materials, background, hl, bind, Except.bind] at h
  | ok mb =>
    obtain ⟨t0, h0, -⟩ := background_ok Nx Ny Nz eps0 mu0 use0 bg (look_iff.1 hl)
    simp only [materials, h0, bind, Except.bind] at h
    exact ⟨⟨mb, look_iff.1 hl⟩, applyStl_known h⟩

/-! ### C29 -/

section C29
variable {Nx Ny Nz : ℕ} {eps0 mu0 : K} {use0 : Bool} {bg : MatSpec K}
  {dict : String → Option (MatSpec K)} {solids : List Solid} {t : Mats K}

/-- **C29 (set-up succeeds).** Exactly when the background and every listed solid have a known
material. -/
theorem C29_setup_succeeds_iff :
    (∃ t, materials Nx Ny Nz eps0 mu0 use0 bg dict solids = .ok t) ↔
      (∃ mb, MeansMaterial bg mb) ∧ ∀ s ∈ solids, ∃ spec m, dict s.1 = some spec ∧ MeansMaterial spec m := by
  constructor
  · rintro ⟨t, ht⟩; exact materials_known ht
  · rintro ⟨⟨mb, hb⟩, hk⟩
    obtain ⟨t, ht, -⟩ := materials_ok (Nx := Nx) (Ny := Ny) (Nz := Nz) (eps0 := eps0) (mu0 := mu0)
      (use0 := use0) hb hk
    exact ⟨t, ht⟩

/-- **C29 (permittivity and permeability).** After set-up every cell has the permittivity and
permeability of the last listed solid containing it, in all three components. -/
theorem C29_last_solid_wins (h : materials Nx Ny Nz eps0 mu0 use0 bg dict solids = .ok t) {i j k : ℕ}
    (hi : i < Nx) (hj : j < Ny) (hk : k < Nz) {s : Solid} (hg : Governs solids i j k s) :
    ∃ spec m, dict s.1 = some spec ∧ MeansMaterial spec m ∧ CellHas eps0 mu0 t i j k m := by
  obtain ⟨⟨mb, hb⟩, hkn⟩ := materials_known h
  obtain ⟨t', ht', hs, -, hc⟩ := materials_ok (Nx := Nx) (Ny := Ny) (Nz := Nz) (eps0 := eps0) (mu0 := mu0)
      (use0 := use0) hb hkn
  rw [h] at ht'
  obtain rfl : t = t' := by simpa using ht'
  have hsm : s ∈ solids := by obtain ⟨a, b, rfl, -⟩ := hg; simp
  obtain ⟨spec, h1, h2⟩ := matOf_spec (hkn s hsm)
  refine ⟨spec, _, h1, h2, fun key c hkey => ?_⟩
  have hc3 : c < 3 := Fld.compOf_lt (Fld.names_iff.1 hkey)
  obtain ⟨a1, a2, a3⟩ := hc c hc3 i hi j hj k hk
  obtain ⟨e1, e2, e3⟩ := hs.e
  obtain ⟨m1, m2, m3⟩ := hs.m
  rw [lastHit_of_governs hg] at a1 a2
  rw [Fld.get_at3 key hkey (by omega) (by omega) (by omega), a1,
    Fld.get_at3 key hkey (by omega) (by omega) (by omega), a2]
  exact ⟨rfl, rfl⟩

/-- **C29 (background).** A cell in no solid has all three background values. -/
theorem C29_background (h : materials Nx Ny Nz eps0 mu0 use0 bg dict solids = .ok t) {i j k : ℕ}
    (hi : i < Nx) (hj : j < Ny) (hk : k < Nz) (hn : ∀ s ∈ solids, s.2 i j k = false) :
    ∃ mb, MeansMaterial bg mb ∧ CellHas eps0 mu0 t i j k mb ∧ CellCond t i j k (mb.sigma.getD 0) := by
  obtain ⟨⟨mb, hb⟩, hkn⟩ := materials_known h
  obtain ⟨t', ht', hs, -, hc⟩ := materials_ok (Nx := Nx) (Ny := Ny) (Nz := Nz) (eps0 := eps0) (mu0 := mu0)
      (use0 := use0) hb hkn
  rw [h] at ht'
  obtain rfl : t = t' := by simpa using ht'
  obtain ⟨e1, e2, e3⟩ := hs.e
  obtain ⟨m1, m2, m3⟩ := hs.m
  obtain ⟨s1, s2, s3⟩ := hs.s
  refine ⟨mb, hb, fun key c hkey => ?_, fun key c hkey => ?_⟩
  all_goals
    have hc3 : c < 3 := Fld.compOf_lt (Fld.names_iff.1 hkey)
    obtain ⟨a1, a2, a3⟩ := hc c hc3 i hi j hj k hk
    rw [lastHit_none hn] at a1 a2
    rw [lastHit_none (fun s hs => by simp [hn s hs])] at a3
  · rw [Fld.get_at3 key hkey (by omega) (by omega) (by omega), a1,
      Fld.get_at3 key hkey (by omega) (by omega) (by omega), a2]
    exact ⟨rfl, rfl⟩
  · rw [Fld.get_at3 key hkey (by omega) (by omega) (by omega), a3]
    rfl

/-- **C29 (conductivity), partial.** The conductivity of a cell is that of the last solid containing
it (zero if its material lists none), provided that solid lists a conductivity, or the background
conductivity is positive, or no solid listed before it that contains the cell lists one.  The
proviso is needed: `C29_refuted`. -/
theorem C29_conductivity_partial (h : materials Nx Ny Nz eps0 mu0 use0 bg dict solids = .ok t) {i j k : ℕ}
    (hi : i < Nx) (hj : j < Ny) (hk : k < Nz) {s : Solid} (hg : Governs solids i j k s)
    {spec : MatSpec K} {m mb : Material K} (hd : dict s.1 = some spec) (hm : MeansMaterial spec m)
    (hb : MeansMaterial bg mb) (hb0 : 0 ≤ mb.sigma.getD 0)
    (hp : m.sigma ≠ none ∨ 0 < mb.sigma.getD 0 ∨
      ∀ s' ∈ solids, s'.2 i j k = true → ∀ spec' m', dict s'.1 = some spec' → MeansMaterial spec' m' →
        m'.sigma = none) :
    CellCond t i j k (m.sigma.getD 0) := by
  obtain ⟨-, hkn⟩ := materials_known h
  obtain ⟨t', ht', hs, -, hc⟩ := materials_ok (Nx := Nx) (Ny := Ny) (Nz := Nz) (eps0 := eps0) (mu0 := mu0)
      (use0 := use0) hb hkn
  rw [h] at ht'
  obtain rfl : t = t' := by simpa using ht'
  obtain ⟨s1, s2, s3⟩ := hs.s
  have hsm : s ∈ solids := by obtain ⟨a, b, rfl, -⟩ := hg; simp
  obtain ⟨spec0, h1, h2⟩ := matOf_spec (hkn s hsm)
  obtain rfl : spec0 = spec := by rw [hd] at h1; simpa using h1.symm
  obtain rfl := means_unique hm h2
  intro key c hkey
  have hc3 : c < 3 := Fld.compOf_lt (Fld.names_iff.1 hkey)
  obtain ⟨-, -, a3⟩ := hc c hc3 i hi j hj k hk
  rw [Fld.get_at3 key hkey (by omega) (by omega) (by omega), a3]
  by_cases hw : (matOf dict s.1).sigma.isSome = true ∨ 0 < mb.sigma.getD 0
  · have : lastHit (fun s => s.2 i j k && ((matOf dict s.1).sigma.isSome || decide (0 < mb.sigma.getD 0))) solids
        = some s := by
      obtain ⟨a, b, rfl, hs, hb⟩ := hg
      unfold lastHit
      rw [List.reverse_append, List.find?_append, List.reverse_cons, List.find?_append]
      have : (b.reverse.find? fun s => s.2 i j k && ((matOf dict s.1).sigma.isSome ||
          decide (0 < mb.sigma.getD 0))) = none := by
        rw [List.find?_eq_none]
        intro x hx
        simp [hb x (List.mem_reverse.1 hx)]
      rw [this]
      rcases hw with hw | hw <;> simp [hs, hw]
    rw [this]; rfl
  · have hw1 : (matOf dict s.1).sigma = none := by
      cases hq : (matOf dict s.1).sigma with
      | none => rfl
      | some v => exact absurd (Or.inl (by simp [hq])) hw
    have hw2 : ¬ 0 < mb.sigma.getD 0 := fun hq => hw (Or.inr hq)
    have hp' := (hp.resolve_left fun hq => hq hw1).resolve_left hw2
    rw [lastHit_none, hw1]
    · simp [le_antisymm (not_lt.1 hw2) hb0]
    · intro s' hs'
      cases hin : s'.2 i j k with
      | false => simp
      | true =>
        obtain ⟨spec', q1, q2⟩ := matOf_spec (hkn s' hs')
        simp [hp' s' hs' hin spec' _ q1 q2, hw2]

/-- **C29 (what the conductivity really is).** With a non-positive background conductivity, the
conductivity of a cell is that of the last containing solid *that lists one*, not of the last
containing solid. -/
theorem C29_conductivity_actual (h : materials Nx Ny Nz eps0 mu0 use0 bg dict solids = .ok t) {i j k : ℕ}
    (hi : i < Nx) (hj : j < Ny) (hk : k < Nz) {before after : List Solid} {s : Solid}
    (hl : solids = before ++ s :: after) (hin : s.2 i j k = true) {spec : MatSpec K} {m mb : Material K} {v : K}
    (hd : dict s.1 = some spec) (hm : MeansMaterial spec m) (hv : m.sigma = some v)
    (hb : MeansMaterial bg mb) (hb0 : mb.sigma.getD 0 ≤ 0)
    (ha : ∀ s' ∈ after, s'.2 i j k = true → ∃ spec' m', dict s'.1 = some spec' ∧ MeansMaterial spec' m' ∧
      m'.sigma = none) :
    CellCond t i j k v := by
  obtain ⟨-, hkn⟩ := materials_known h
  obtain ⟨t', ht', hs, -, hc⟩ := materials_ok (Nx := Nx) (Ny := Ny) (Nz := Nz) (eps0 := eps0) (mu0 := mu0)
      (use0 := use0) hb hkn
  rw [h] at ht'
  obtain rfl : t = t' := by simpa using ht'
  obtain ⟨s1, s2, s3⟩ := hs.s
  subst hl
  obtain ⟨spec0, h1, h2⟩ := matOf_spec (hkn s (by simp))
  obtain rfl : spec0 = spec := by rw [hd] at h1; simpa using h1.symm
  obtain rfl := means_unique hm h2
  intro key c hkey
  have hc3 : c < 3 := Fld.compOf_lt (Fld.names_iff.1 hkey)
  obtain ⟨-, -, a3⟩ := hc c hc3 i hi j hj k hk
  rw [Fld.get_at3 key hkey (by omega) (by omega) (by omega), a3]
  have : lastHit (fun s => s.2 i j k && ((matOf dict s.1).sigma.isSome || decide (0 < mb.sigma.getD 0)))
      (before ++ s :: after) = some s := by
    unfold lastHit
    rw [List.reverse_append, List.find?_append, List.reverse_cons, List.find?_append]
    have : (after.reverse.find? fun s => s.2 i j k && ((matOf dict s.1).sigma.isSome ||
        decide (0 < mb.sigma.getD 0))) = none := by
      rw [List.find?_eq_none]
      intro x hx
      have hx := List.mem_reverse.1 hx
      cases hxin : x.2 i j k with
      | false => simp
      | true =>
        obtain ⟨spec', m', q1, q2, q3⟩ := ha x hx hxin
        obtain ⟨spec'', r1, r2⟩ := matOf_spec (hkn x (by simp [hx]))
        obtain rfl : spec'' = spec' := by rw [q1] at r1; simpa using r1.symm
        obtain rfl := means_unique q2 r2
        simp [q3, not_lt.2 hb0]
    rw [this]
    simp [hin, hv]
  rw [this]
  simp [hv]

/-- **C29 (flag).** When the set-up leaves the conductivity flag off (so the time step skips the
conduction current), every cell indeed has conductivity zero. -/
theorem C29_flag_off (h : materials Nx Ny Nz eps0 mu0 use0 bg dict solids = .ok t) (hu : t.useCond = false)
    {i j k : ℕ} (hi : i < Nx) (hj : j < Ny) (hk : k < Nz) : CellCond t i j k 0 := by
  obtain ⟨⟨mb, hb⟩, hkn⟩ := materials_known h
  obtain ⟨t', ht', hs, hu', hc⟩ := materials_ok (Nx := Nx) (Ny := Ny) (Nz := Nz) (eps0 := eps0) (mu0 := mu0)
      (use0 := use0) hb hkn
  rw [h] at ht'
  obtain rfl : t = t' := by simpa using ht'
  rw [hu] at hu'
  obtain ⟨s1, s2, s3⟩ := hs.s
  simp only [Bool.false_eq, Bool.or_eq_false_iff, Option.isSome_eq_false_iff, Option.isNone_iff_eq_none,
    List.any_eq_false, Bool.not_eq_true] at hu'
  obtain ⟨⟨-, hmb⟩, hall⟩ := hu'
  intro key c hkey
  have hc3 : c < 3 := Fld.compOf_lt (Fld.names_iff.1 hkey)
  obtain ⟨-, -, a3⟩ := hc c hc3 i hi j hj k hk
  rw [Fld.get_at3 key hkey (by omega) (by omega) (by omega), a3, lastHit_none]
  · simp [hmb]
  · intro s hs
    simp [hall s hs, hmb]

/-- No cell of the grid lies in two of the solids. -/
def DisjointSolids (Nx Ny Nz : ℕ) (solids : List Solid) : Prop :=
  ∀ s ∈ solids, ∀ s' ∈ solids, ∀ i < Nx, ∀ j < Ny, ∀ k < Nz, s.2 i j k = true → s'.2 i j k = true → s = s'

theorem lastHit_perm {P : Solid → Bool} {l l' : List Solid} (hp : l.Perm l')
    (hu : ∀ s ∈ l, ∀ s' ∈ l, P s = true → P s' = true → s = s') : lastHit P l = lastHit P l' := by
  cases h : lastHit P l with
  | some s =>
    obtain ⟨h1, h2⟩ := lastHit_some h
    cases h' : lastHit P l' with
    | some s' =>
      obtain ⟨h3, h4⟩ := lastHit_some h'
      rw [hu s h1 s' (hp.symm.subset h3) h2 h4]
    | none =>
      unfold lastHit at h'
      rw [List.find?_eq_none] at h'
      exact absurd h2 (h' s (List.mem_reverse.2 (hp.subset h1)))
  | none =>
    unfold lastHit at h
    rw [List.find?_eq_none] at h
    symm
    apply lastHit_none
    intro s hs
    simpa using h s (List.mem_reverse.2 (hp.symm.subset hs))

/-- **C29 (order).** Listing disjoint solids in another order changes nothing: set-up succeeds again,
with the same values in every cell and the same conductivity flag. -/
theorem C29_disjoint_order (h : materials Nx Ny Nz eps0 mu0 use0 bg dict solids = .ok t)
    {solids' : List Solid} (hp : solids.Perm solids') (hdis : DisjointSolids Nx Ny Nz solids) :
    ∃ t', materials Nx Ny Nz eps0 mu0 use0 bg dict solids' = .ok t' ∧ t'.useCond = t.useCond ∧
      ∀ i < Nx, ∀ j < Ny, ∀ k < Nz, ∀ key c, Fld.Names key c →
        t'.ieps.get i j k key = t.ieps.get i j k key ∧ t'.imu.get i j k key = t.imu.get i j k key ∧
        t'.sigma.get i j k key = t.sigma.get i j k key := by
  obtain ⟨⟨mb, hb⟩, hkn⟩ := materials_known h
  obtain ⟨t1, ht1, hs1, hu1, hc1⟩ := materials_ok (Nx := Nx) (Ny := Ny) (Nz := Nz) (eps0 := eps0) (mu0 := mu0)
      (use0 := use0) hb hkn
  rw [h] at ht1
  obtain rfl : t = t1 := by simpa using ht1
  obtain ⟨t2, ht2, hs2, hu2, hc2⟩ := materials_ok (Nx := Nx) (Ny := Ny) (Nz := Nz) (eps0 := eps0) (mu0 := mu0)
      (use0 := use0) (solids := solids') hb fun s hs => hkn s (hp.symm.subset hs)
  refine ⟨t2, ht2, ?_, fun i hi j hj k hk key c hkey => ?_⟩
  · rw [hu1, hu2]
    congr 1
    rw [Bool.eq_iff_iff]
    simp only [List.any_eq_true]
    exact ⟨fun ⟨x, hx, hq⟩ => ⟨x, hp.symm.subset hx, hq⟩, fun ⟨x, hx, hq⟩ => ⟨x, hp.subset hx, hq⟩⟩
  · have hc3 : c < 3 := Fld.compOf_lt (Fld.names_iff.1 hkey)
    obtain ⟨a1, a2, a3⟩ := hc1 c hc3 i hi j hj k hk
    obtain ⟨b1, b2, b3⟩ := hc2 c hc3 i hi j hj k hk
    obtain ⟨e1, e2, e3⟩ := hs1.e; obtain ⟨m1, m2, m3⟩ := hs1.m; obtain ⟨s1, s2, s3⟩ := hs1.s
    obtain ⟨e1', e2', e3'⟩ := hs2.e; obtain ⟨m1', m2', m3'⟩ := hs2.m; obtain ⟨s1', s2', s3'⟩ := hs2.s
    rw [← lastHit_perm hp fun s hs s' hs' hq hq' => hdis s hs s' hs' i hi j hj k hk hq hq'] at b1 b2
    rw [← lastHit_perm hp fun s hs s' hs' hq hq' => hdis s hs s' hs' i hi j hj k hk
      (by simp only [Bool.and_eq_true] at hq; exact hq.1) (by simp only [Bool.and_eq_true] at hq'; exact hq'.1)] at b3
    rw [Fld.get_at3 key hkey (by omega) (by omega) (by omega), Fld.get_at3 key hkey (by omega) (by omega) (by omega),
      Fld.get_at3 key hkey (by omega) (by omega) (by omega), Fld.get_at3 key hkey (by omega) (by omega) (by omega),
      Fld.get_at3 key hkey (by omega) (by omega) (by omega), Fld.get_at3 key hkey (by omega) (by omega) (by omega),
      a1, a2, a3, b1, b2, b3]
    exact ⟨rfl, rfl, rfl⟩

end C29

/-! ### Concrete cases -/

/-- A `2×1×1` grid: solid "a" (lossy metal) fills both cells, solid "b" (vacuum by name) the second. -/
def demoSolids : List Solid := [("a", fun _ _ _ => true), ("b", fun i _ _ => i == 1)]

/-- Their materials. -/
def demoDict : String → Option (MatSpec ℚ) := fun s =>
  if s = "a" then some (.name "Lossy Metal") else if s = "b" then some (.vals ⟨.fin 1, .fin 1, none⟩) else none

omit [LinearOrder K] in
theorem lossy_means : MeansMaterial (K := K) (.name "Lossy Metal") ⟨.fin 10, .fin 1, some 10⟩ := by
  have : pyLower "Lossy Metal" = "lossy metal" := by decide
  simp [MeansMaterial, this, materialLib]

omit [LinearOrder K] in
theorem vacuum_means : MeansMaterial (K := K) (.name "vacuum") ⟨.fin 1, .fin 1, none⟩ := by
  have : pyLower "vacuum" = "vacuum" := by decide
  simp [MeansMaterial, this, materialLib]

theorem demo_known : ∀ s ∈ demoSolids, ∃ spec m, demoDict s.1 = some spec ∧ MeansMaterial spec m := by
  intro s hs
  simp only [demoSolids, List.mem_cons, List.not_mem_nil, or_false] at hs
  rcases hs with rfl | rfl
  · exact ⟨.name "Lossy Metal", ⟨.fin 10, .fin 1, some 10⟩, rfl, lossy_means⟩
  · exact ⟨.vals ⟨.fin 1, .fin 1, none⟩, ⟨.fin 1, .fin 1, none⟩, rfl, rfl⟩

theorem demo_ok : ∃ t, materials 2 1 1 2 3 false (.name "vacuum") demoDict demoSolids = .ok t :=
  C29_setup_succeeds_iff.2 ⟨⟨⟨.fin 1, .fin 1, none⟩, vacuum_means⟩, demo_known⟩

theorem demo_governs : Governs demoSolids 1 0 0 ("b", fun i _ _ => i == 1) :=
  ⟨[("a", fun _ _ _ => true)], [], rfl, rfl, by simp⟩

/-- Non-vacuity: the hypotheses of the theorems above hold in the example, for the cell in both solids
and (first solid) for the cell in one. -/
example : Governs demoSolids 1 0 0 ("b", fun i _ _ => i == 1) ∧
    Governs demoSolids 0 0 0 ("a", fun _ _ _ => true) ∧
    DisjointSolids 2 1 1 [("a", fun i _ _ => i == 0), ("b", fun i _ _ => i == 1)] := by
  refine ⟨demo_governs, ⟨[], [("b", fun i _ _ => i == 1)], rfl, rfl, by simp⟩, ?_⟩
  intro s hs s' hs' i hi j hj k hk h h'
  simp only [List.mem_cons, List.not_mem_nil, or_false] at hs hs'
  rcases hs with rfl | rfl <;> rcases hs' with rfl | rfl <;> first | rfl | (simp at h h'; omega)

/-- The full conductivity claim of C29: the last solid containing a cell decides its conductivity. -/
def LastSolidConductivity (K : Type _) [Field K] [LinearOrder K] : Prop :=
  ∀ (Nx Ny Nz : ℕ) (eps0 mu0 : K) (use0 : Bool) (bg : MatSpec K) (dict : String → Option (MatSpec K))
    (solids : List Solid) (t : Mats K), materials Nx Ny Nz eps0 mu0 use0 bg dict solids = .ok t →
    ∀ i < Nx, ∀ j < Ny, ∀ k < Nz, ∀ s, Governs solids i j k s → ∀ spec m, dict s.1 = some spec →
      MeansMaterial spec m → CellCond t i j k (m.sigma.getD 0)

/-- **C29 is false of the code for the conductivity.** In a vacuum background, a vacuum solid listed
after a lossy one that it overlaps keeps the conductivity of the lossy one. -/
theorem C29_refuted : ¬ LastSolidConductivity ℚ := by
  intro hall
  obtain ⟨t, ht⟩ := demo_ok
  have h1 := hall 2 1 1 2 3 false (.name "vacuum") demoDict demoSolids t ht 1 (by omega) 0 (by omega) 0 (by omega)
    _ demo_governs (.vals ⟨.fin 1, .fin 1, none⟩) ⟨.fin 1, .fin 1, none⟩ rfl rfl (.str "x") 0 (Fld.names_iff.2 (by decide))
  have h2 := C29_conductivity_actual (before := []) (after := [("b", fun i _ _ => i == 1)])
    (s := ("a", fun _ _ _ => true)) ht (i := 1) (j := 0) (k := 0) (by omega) (by omega) (by omega) rfl rfl
    (spec := .name "Lossy Metal") (m := ⟨.fin 10, .fin 1, some 10⟩) (mb := ⟨.fin 1, .fin 1, none⟩) (v := 10)
    rfl lossy_means rfl vacuum_means (by decide)
    (by
      intro s' hs' _
      simp only [List.mem_cons, List.not_mem_nil, or_false] at hs'
      subst hs'
      exact ⟨.vals ⟨.fin 1, .fin 1, none⟩, ⟨.fin 1, .fin 1, none⟩, rfl, rfl, rfl⟩) (.str "x") 0 (Fld.names_iff.2 (by decide))
  rw [h1] at h2
  simp at h2

end Sol
end Wakis
