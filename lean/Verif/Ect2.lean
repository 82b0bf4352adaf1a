import Verif.Fdtd2

/-!
# C91: a step of the enlarged cell technique

Model of `compute_v_and_rho`, `one_step_ect` and the 'ECT' branch of `one_step` in `wakis/solver2D.py` without absorbing layers
(`wakis/solver3D.py` calls `one_step_ect` plane by plane).
-/

namespace Wakis
namespace S2
noncomputable section
open Classical Finset Cond

/-! ### Model -/

/-- What `one_step_ect` reads (solver2D.py:505-521). -/
structure EctIn where
  nx : ℕ
  ny : ℕ
  int : ℕ × ℕ → Prop
  unst : ℕ × ℕ → Prop
  intr : ℕ × ℕ → Prop
  S : ℕ × ℕ → ℝ
  enl : ℕ × ℕ → ℝ
  red : ℕ × ℕ → ℝ
  bor : ℕ × ℕ → List ((ℤ × ℤ) × ℝ)
  rho : ℕ × ℕ → ℝ

/-- The cell of an entry of `borrowing`. An entry was an index into arrays of the same shape when it was stored (`C88_success_partial`), so
that it is valid here; the value for other entries is irrelevant. -/
def cellOf (nx ny : ℕ) (q : ℤ × ℤ) : ℕ × ℕ :=
  match cellAt nx ny q with
  | .ok n => n
  | .error _ => (0, 0)

/-- `V_enl[ip, jp] += rho_enl * patch` for one entry (solver2D.py:539-540). -/
def spread (I : EctIn) (r : ℝ) (V : ℕ × ℕ → ℝ) (e : (ℤ × ℤ) × ℝ) : ℕ × ℕ → ℝ :=
  Function.update V (cellOf I.nx I.ny e.1) (V (cellOf I.nx I.ny e.1) + r * e.2)

/-- Body of the loop over unstable cells (solver2D.py:529-542); the state is `(V_enl, Hz)`. `k` is `dt / mu_0`. -/
def unstBody (I : EctIn) (k : ℝ) (s : (ℕ × ℕ → ℝ) × (ℕ × ℕ → ℝ)) (c : ℕ × ℕ) : (ℕ × ℕ → ℝ) × (ℕ × ℕ → ℝ) :=
  if I.int c ∧ I.unst c then
    let V := Function.update s.1 c (I.rho c * I.S c)
    let V := (I.bor c).foldl (fun V e => Function.update V c (V c + I.rho (cellOf I.nx I.ny e.1) * e.2)) V
    let r := V c / I.enl c
    ((I.bor c).foldl (spread I r) V, Function.update s.2 c (s.2 c - k * r))
  else s

/-- The loop over stable cells (solver2D.py:545-554), where an iteration reads and writes only the entries of its own cell. -/
def stableH (I : EctIn) (k : ℝ) (s : (ℕ × ℕ → ℝ) × (ℕ × ℕ → ℝ)) (c : ℕ × ℕ) : ℝ :=
  if c ∈ cells I.nx I.ny ∧ I.int c ∧ ¬ I.unst c then
    if ¬ I.intr c then s.2 c - k * I.rho c
    else s.2 c - k * (s.1 c + I.rho c * I.red c) / I.S c
  else s.2 c

/-- `one_step_ect` (solver2D.py:505-554): the new `Hz`. `V_enl` starts as zero; the message about an empty list is left out. -/
def ectH (I : EctIn) (k : ℝ) (H : ℕ × ℕ → ℝ) : ℕ × ℕ → ℝ :=
  stableH I k ((cells I.nx I.ny).foldl (unstBody I k) (fun _ => 0, H))

/-- The input of `one_step_ect` in a step (solver2D.py:389-406, 556-573): `rho` is the voltage around the cell over its area. -/
def ectOf (g : Grid) (unst : ℕ × ℕ → Prop) (x : ExtSt) (f : Fields) : EctIn where
  nx := g.nx
  ny := g.ny
  int c := g.int c.1 c.2
  unst := unst
  intr := x.intr
  S c := g.S c.1 c.2
  enl := x.enl
  red := x.red
  bor := x.bor
  rho c := voltage g f c.1 c.2 / g.S c.1 c.2

/-- A step of the enlarged cell technique (solver2D.py:387-419). -/
def stepEct (p : Phys) (g : Grid) (dt : ℝ) (unst : ℕ × ℕ → Prop) (x : ExtSt) (J : Curr) (f : Fields) : Fields :=
  advEDm p g dt J { f with Hz := fun i j => ectH (ectOf g unst x f) (dt / p.mu) (fun c => f.Hz c.1 c.2) (i, j) }

/-! ### Proof -/

/-- The density of an enlarged cell. -/
def rhoEnl (I : EctIn) (c : ℕ × ℕ) : ℝ := (I.rho c * I.S c + ((I.bor c).map fun e => I.rho (cellOf I.nx I.ny e.1) * e.2).sum) / I.enl c

lemma gather_fold (I : EctIn) (c : ℕ × ℕ) : ∀ (l : List ((ℤ × ℤ) × ℝ)) (V : ℕ × ℕ → ℝ),
    l.foldl (fun V e => Function.update V c (V c + I.rho (cellOf I.nx I.ny e.1) * e.2)) V =
      Function.update V c (V c + (l.map fun e => I.rho (cellOf I.nx I.ny e.1) * e.2).sum)
  | [], V => by simp
  | e :: l, V => by
    rw [List.foldl_cons, gather_fold I c l]
    simp only [Function.update_self, Function.update_idem, List.map_cons, List.sum_cons, add_assoc]

lemma spread_fold (I : EctIn) (r : ℝ) : ∀ (l : List ((ℤ × ℤ) × ℝ)) (V : ℕ × ℕ → ℝ) (n : ℕ × ℕ),
    l.foldl (spread I r) V n = V n + (l.map fun e => if cellOf I.nx I.ny e.1 = n then r * e.2 else 0).sum
  | [], V, n => by simp
  | e :: l, V, n => by
    rw [List.foldl_cons, spread_fold I r l]
    simp only [List.map_cons, List.sum_cons, ← add_assoc]
    congr 1
    unfold spread
    by_cases h : n = cellOf I.nx I.ny e.1
    · subst h; rw [Function.update_self, if_pos rfl]
    · rw [Function.update_of_ne h, if_neg (fun h' => h h'.symm), add_zero]

lemma unstBody_eq (I : EctIn) (k : ℝ) (s : (ℕ × ℕ → ℝ) × (ℕ × ℕ → ℝ)) (c : ℕ × ℕ) (h : I.int c ∧ I.unst c) :
    (unstBody I k s c).2 = Function.update s.2 c (s.2 c - k * rhoEnl I c) ∧
    ∀ n, n ≠ c → (unstBody I k s c).1 n = s.1 n + ((I.bor c).map fun e => if cellOf I.nx I.ny e.1 = n then rhoEnl I c * e.2 else 0).sum := by
  unfold unstBody
  rw [if_pos h]
  dsimp only
  rw [gather_fold]
  simp only [Function.update_self, Function.update_idem]
  have hr : (I.rho c * I.S c + ((I.bor c).map fun e => I.rho (cellOf I.nx I.ny e.1) * e.2).sum) / I.enl c = rhoEnl I c := rfl
  rw [hr]
  refine ⟨rfl, fun n hn => ?_⟩
  rw [spread_fold, Function.update_of_ne hn]

lemma unst_fold (I : EctIn) (k : ℝ) : ∀ (l : List (ℕ × ℕ)) (s : (ℕ × ℕ → ℝ) × (ℕ × ℕ → ℝ)), l.Nodup →
    (∀ c, (l.foldl (unstBody I k) s).2 c = if c ∈ l ∧ I.int c ∧ I.unst c then s.2 c - k * rhoEnl I c else s.2 c) ∧
    ∀ n, ¬ I.unst n → (l.foldl (unstBody I k) s).1 n = s.1 n + (l.map fun c => if I.int c ∧ I.unst c then
      ((I.bor c).map fun e => if cellOf I.nx I.ny e.1 = n then rhoEnl I c * e.2 else 0).sum else 0).sum
  | [], s, _ => by simp
  | a :: l, s, hl => by
    rw [List.nodup_cons] at hl
    have ih := unst_fold I k l (unstBody I k s a) hl.2
    rw [List.foldl_cons]
    by_cases h : I.int a ∧ I.unst a
    · obtain ⟨e1, e2⟩ := unstBody_eq I k s a h
      refine ⟨fun c => ?_, fun n hn => ?_⟩
      · rw [ih.1 c, e1]
        by_cases hc : c = a
        · subst hc
          rw [Function.update_self, if_neg (fun hh => hl.1 hh.1), if_pos ⟨by simp, h⟩]
        · rw [Function.update_of_ne hc]
          simp [hc]
      · rw [ih.2 n hn, e2 n (fun hna => hn (hna ▸ h.2))]
        simp only [List.map_cons, List.sum_cons, if_pos h, add_assoc]
    · have e0 : unstBody I k s a = s := if_neg h
      rw [e0] at ih ⊢
      refine ⟨fun c => ?_, fun n hn => ?_⟩
      · rw [ih.1 c]
        by_cases hc : c = a
        · subst hc; rw [if_neg (fun hh => h hh.2), if_neg (fun hh => h hh.2)]
        · simp [hc]
      · rw [ih.2 n hn]
        simp only [List.map_cons, List.sum_cons, if_neg h, zero_add]

lemma cells_nodup (nx ny : ℕ) : (cells nx ny).Nodup := List.nodup_range.product List.nodup_range

/-- The cells of the grid. -/
def all (nx ny : ℕ) : Finset (ℕ × ℕ) := range nx ×ˢ range ny

lemma mem_all {nx ny : ℕ} {c : ℕ × ℕ} : c ∈ all nx ny ↔ c ∈ cells nx ny := by simp [all, mem_cells]

lemma cells_sum (nx ny : ℕ) (F : ℕ × ℕ → ℝ) : ((cells nx ny).map F).sum = ∑ c ∈ all nx ny, F c := by
  rw [← List.sum_toFinset F (cells_nodup nx ny)]
  refine sum_congr ?_ fun _ _ => rfl
  ext c
  rw [List.mem_toFinset, mem_all]

/-- The new magnetic field in closed form. -/
lemma ectH_eq (I : EctIn) (k : ℝ) (H : ℕ × ℕ → ℝ) (c : ℕ × ℕ) (hc : c ∈ all I.nx I.ny) (hi : I.int c) :
    ectH I k H c - H c = -k * (if I.unst c then rhoEnl I c else if I.intr c then
      ((∑ d ∈ all I.nx I.ny, if I.int d ∧ I.unst d then ((I.bor d).map fun e => if cellOf I.nx I.ny e.1 = c then rhoEnl I d * e.2 else 0).sum else 0) +
        I.rho c * I.red c) / I.S c else I.rho c) := by
  have hf := unst_fold I k (cells I.nx I.ny) (fun _ => 0, H) (cells_nodup _ _)
  unfold ectH stableH
  rw [mem_all] at hc
  by_cases hu : I.unst c
  · rw [if_neg (fun h => h.2.2 hu), if_pos hu, hf.1 c, if_pos ⟨hc, hi, hu⟩]
    ring
  · have h1 := hf.1 c
    rw [if_neg (fun h => hu h.2.2)] at h1
    rw [if_pos ⟨hc, hi, hu⟩, if_neg hu, h1]
    by_cases hx : I.intr c
    · rw [if_neg (not_not.2 hx), if_pos hx, hf.2 c hu, cells_sum]
      dsimp only
      ring
    · rw [if_pos hx, if_neg hx]
      ring

lemma cellOf_ok {nx ny : ℕ} {q : ℤ × ℤ} {n : ℕ × ℕ} (h : cellAt nx ny q = .ok n) : cellOf nx ny q = n := by
  unfold cellOf; rw [h]

lemma swap_sum (G : Finset (ℕ × ℕ)) (t : ℤ × ℤ → ℕ × ℕ) (F : ℕ × ℕ → ℝ) (w : ℝ) : ∀ l : List ((ℤ × ℤ) × ℝ), (∀ e ∈ l, t e.1 ∈ G) →
    ∑ n ∈ G, F n * (l.map fun e => if t e.1 = n then w * e.2 else 0).sum = w * (l.map fun e => F (t e.1) * e.2).sum
  | [], _ => by simp
  | e :: l, h => by
    have ih := swap_sum G t F w l (fun x hx => h x (by simp [hx]))
    simp only [List.map_cons, List.sum_cons, mul_add, sum_add_distrib, ih]
    congr 1
    rw [sum_eq_single (t e.1)]
    · rw [if_pos rfl]; ring
    · intro m _ hm; rw [if_neg (fun h => hm h.symm), mul_zero]
    · intro hn; exact absurd (h e (by simp)) hn

/-- **C91, flux.** On a grid whose extension succeeded with cells that can lend their area, one step changes the total magnetic flux
exactly by minus `dt / mu_0` times the sum of the voltages around the interior cells, whatever was borrowed. (This is Faraday's law for the whole
free region. Missing: that such a grid can be made, which `C88_constructor_refuted` disproves unless no cell is unstable.) -/
theorem C91_flux_partial (I : ExtIn) (hM : Marked I) (hint : ∀ c, I.avail c → I.int c ∧ ¬ I.unst c) (st₀ st : ExtSt) (hext : st₀.ext = I.unst)
    (hbor : ∀ c, st₀.bor c = []) (hintr : ∀ c, ¬ st₀.intr c) (hred : st₀.red = I.S) (hok : extensions I st₀ = .ok st)
    (hS : ∀ c, I.int c → 0 < I.S c) (V H : ℕ × ℕ → ℝ) (k : ℝ) :
    let E : EctIn := ⟨I.nx, I.ny, I.int, I.unst, st.intr, I.S, st.enl, st.red, st.bor, fun c => V c / I.S c⟩
    ∑ c ∈ all I.nx I.ny, (if I.int c then I.S c * (ectH E k H c - H c) else 0) = -k * ∑ c ∈ all I.nx I.ny, (if I.int c then V c else 0) := by
  intro E
  obtain ⟨h1, h2, h3, h4, h5, -⟩ := C88_success_partial I hM st₀ st hext hbor hintr hok
  have hcell : ∀ c, ∀ e ∈ st.bor c, cellOf I.nx I.ny e.1 ∈ all I.nx I.ny ∧ I.int (cellOf I.nx I.ny e.1) ∧ ¬ I.unst (cellOf I.nx I.ny e.1) ∧
      st.intr (cellOf I.nx I.ny e.1) ∧ ∀ n, (cellAt I.nx I.ny e.1 = .ok n ↔ cellOf I.nx I.ny e.1 = n) := by
    intro c e he
    obtain ⟨-, -, n, hn, hav⟩ := h3 c e he
    have hn' := cellAt_ok hn
    rw [cellOf_ok hn]
    refine ⟨?_, (hint n hav).1, (hint n hav).2, (h5 n).2 ⟨c, e, he, hn⟩, fun m => ?_⟩
    · exact mem_product.2 ⟨mem_range.2 (pyIndex_lt hn'.1), mem_range.2 (pyIndex_lt hn'.2)⟩
    · rw [hn]; exact ⟨fun h => Except.ok.inj h, fun h => by rw [h]⟩
  have hlent : ∀ n, lent I st.bor n = ∑ d ∈ all I.nx I.ny, ((st.bor d).map fun e => if cellOf I.nx I.ny e.1 = n then 1 * e.2 else 0).sum := by
    intro n
    unfold lent
    refine sum_congr rfl fun d _ => ?_
    congr 1
    refine List.map_congr_left fun e he => ?_
    rw [one_mul]
    exact if_congr ((hcell d e he).2.2.2.2 n) rfl rfl
  have hnolend : ∀ n, ¬ st.intr n → lent I st.bor n = 0 := by
    intro n hn
    rw [hlent]
    refine sum_eq_zero fun d _ => ?_
    rw [List.sum_eq_zero]
    intro x hx
    obtain ⟨e, he, rfl⟩ := List.mem_map.1 hx
    rw [if_neg]
    intro h
    exact hn (h ▸ (hcell d e he).2.2.2.1)
  -- the gain of the unstable cells in terms of what the stable cells lose
  have term : ∀ c ∈ all I.nx I.ny, (if I.int c then I.S c * (ectH E k H c - H c) else 0) =
      -k * ((if I.int c then V c else 0) + (if I.unst c then rhoEnl E c * I.S c - V c else 0) +
        ((if I.int c ∧ ¬ I.unst c ∧ st.intr c then 1 else 0) *
          (∑ d ∈ all I.nx I.ny, if I.int d ∧ I.unst d then ((st.bor d).map fun e => if cellOf I.nx I.ny e.1 = c then rhoEnl E d * e.2 else 0).sum else 0) -
         (V c / I.S c) * ∑ d ∈ all I.nx I.ny, ((st.bor d).map fun e => if cellOf I.nx I.ny e.1 = c then 1 * e.2 else 0).sum)) := by
    intro c hc
    rw [← hlent c]
    by_cases hi : I.int c
    · have hSc := (hS c hi).ne'
      have he : ectH E k H c - H c = -k * (if I.unst c then rhoEnl E c else if st.intr c then
          ((∑ d ∈ all I.nx I.ny, if I.int d ∧ I.unst d then ((st.bor d).map fun e => if cellOf I.nx I.ny e.1 = c then rhoEnl E d * e.2 else 0).sum else 0) +
            V c / I.S c * st.red c) / I.S c else V c / I.S c) := ectH_eq E k H c hc hi
      rw [if_pos hi, if_pos hi, he]
      by_cases hu : I.unst c
      · have hni : ¬ st.intr c := by
          intro hx
          obtain ⟨d, e, hde, hce⟩ := (h5 c).1 hx
          have := hcell d e hde
          rw [(this.2.2.2.2 c).1 hce] at this
          exact this.2.2.1 hu
        rw [if_pos hu, if_pos hu, if_neg (by tauto), hnolend c hni]
        ring
      · rw [if_neg hu, if_neg hu]
        by_cases hx : st.intr c
        · rw [if_pos hx, if_pos ⟨hi, hu, hx⟩, h4 c, hred]
          generalize (∑ d ∈ all I.nx I.ny, if I.int d ∧ I.unst d then ((st.bor d).map fun e => if cellOf I.nx I.ny e.1 = c then rhoEnl E d * e.2 else 0).sum else 0) = A
          field_simp
          ring
        · rw [if_neg hx, if_neg (by tauto), hnolend c hx]
          field_simp
          ring
    · have hu : ¬ I.unst c := fun h => hi (hM.unst c h).1
      have hni : ¬ st.intr c := by
        intro hx
        obtain ⟨d, e, hde, hce⟩ := (h5 c).1 hx
        have := hcell d e hde
        rw [(this.2.2.2.2 c).1 hce] at this
        exact hi this.2.1
      rw [if_neg hi, if_neg hi, if_neg hu, if_neg (by tauto), hnolend c hni]
      ring
  rw [sum_congr rfl term, ← mul_sum]
  congr 1
  rw [sum_add_distrib, sum_add_distrib, sum_sub_distrib, add_assoc]
  have s1 : ∑ c ∈ all I.nx I.ny, ((if I.int c ∧ ¬ I.unst c ∧ st.intr c then (1 : ℝ) else 0) *
      (∑ d ∈ all I.nx I.ny, if I.int d ∧ I.unst d then ((st.bor d).map fun e => if cellOf I.nx I.ny e.1 = c then rhoEnl E d * e.2 else 0).sum else 0)) =
      ∑ d ∈ all I.nx I.ny, if I.unst d then rhoEnl E d * (I.stab d - I.S d) else 0 := by
    simp only [mul_sum]
    rw [sum_comm]
    refine sum_congr rfl fun d hd => ?_
    by_cases hu : I.unst d
    · rw [if_pos hu]
      simp only [if_pos (show I.int d ∧ I.unst d from ⟨(hM.unst d hu).1, hu⟩)]
      rw [swap_sum (all I.nx I.ny) (cellOf I.nx I.ny) (fun c => if I.int c ∧ ¬ I.unst c ∧ st.intr c then (1 : ℝ) else 0) (rhoEnl E d) (st.bor d)
        (fun e he => (hcell d e he).1), ← (h1 d (mem_all.1 hd) hu).2]
      congr 2
      refine List.map_congr_left fun e he => ?_
      have := hcell d e he
      rw [if_pos ⟨this.2.1, this.2.2.1, this.2.2.2.1⟩, one_mul]
    · rw [if_neg hu]
      refine sum_eq_zero fun c _ => ?_
      rw [if_neg (fun h : I.int d ∧ I.unst d => hu h.2), mul_zero]
  have s2 : ∑ c ∈ all I.nx I.ny, (V c / I.S c) * ∑ d ∈ all I.nx I.ny, ((st.bor d).map fun e => if cellOf I.nx I.ny e.1 = c then 1 * e.2 else 0).sum =
      ∑ d ∈ all I.nx I.ny, if I.unst d then ((st.bor d).map fun e => V (cellOf I.nx I.ny e.1) / I.S (cellOf I.nx I.ny e.1) * e.2).sum else 0 := by
    simp only [mul_sum]
    rw [sum_comm]
    refine sum_congr rfl fun d _ => ?_
    rw [swap_sum (all I.nx I.ny) (cellOf I.nx I.ny) (fun c => V c / I.S c) 1 (st.bor d) (fun e he => (hcell d e he).1), one_mul]
    by_cases hu : I.unst d
    · rw [if_pos hu]
    · rw [if_neg hu, h2 d hu]; rfl
  rw [s1, s2, ← sum_sub_distrib, ← sum_add_distrib]
  refine add_eq_left.2 (sum_eq_zero fun c hc => ?_)
  by_cases hu : I.unst c
  · simp only [if_pos hu]
    obtain ⟨he, -⟩ := h1 c (mem_all.1 hc) hu
    have hSc := hS c (hM.unst c hu).1
    have hstab : I.stab c ≠ 0 := ne_of_gt (lt_trans hSc (hM.unst c hu).2)
    have hr : rhoEnl E c = (V c / I.S c * I.S c + ((st.bor c).map fun e => V (cellOf I.nx I.ny e.1) / I.S (cellOf I.nx I.ny e.1) * e.2).sum) / st.enl c := rfl
    rw [he] at hr
    have hr2 : rhoEnl E c * I.stab c = V c / I.S c * I.S c + ((st.bor c).map fun e => V (cellOf I.nx I.ny e.1) / I.S (cellOf I.nx I.ny e.1) * e.2).sum := by
      rw [hr]; field_simp
    rw [div_mul_cancel₀ _ hSc.ne'] at hr2
    linarith
  · simp only [if_neg hu]; ring

/-- The grid `demo` meets the hypotheses: its middle cell borrows from a neighbour. -/
example : ∃ st, extensions demo demoStart = .ok st ∧ Marked demo ∧ (∀ c, demo.avail c → demo.int c ∧ ¬ demo.unst c) ∧
    demoStart.ext = demo.unst ∧ (∀ c, demoStart.bor c = []) ∧ (∀ c, ¬ demoStart.intr c) ∧ demoStart.red = demo.S ∧ ∀ c, demo.int c → 0 < demo.S c := by
  obtain ⟨hM, ⟨st, h⟩, -⟩ := demo_ok
  refine ⟨st, h, hM, fun c hc => ⟨trivial, hc⟩, rfl, fun _ => rfl, fun _ h => h, rfl, fun c _ => ?_⟩
  by_cases hc : c = (1, 1)
  · show 0 < (if c = (1, 1) then (0.1 : ℝ) else 1)
    rw [if_pos hc]; norm_num
  · exact hM.avail c hc

/-- **C91, agreement.** Without unstable cells a step of the enlarged cell technique is a step of the conformal scheme. -/
theorem C91_dm (p : Phys) (g : Grid) (dt : ℝ) (unst : ℕ × ℕ → Prop) (x : ExtSt) (hu : ∀ c, ¬ unst c) (hx : ∀ c, ¬ x.intr c) (J : Curr) (f : Fields) :
    stepEct p g dt unst x J f = stepDm p g dt J f := by
  unfold stepEct stepDm
  congr 1
  unfold advHDm
  congr 1
  funext i j
  have hf := unst_fold (ectOf g unst x f) (dt / p.mu) (cells g.nx g.ny) (fun _ => 0, fun c => f.Hz c.1 c.2) (cells_nodup _ _)
  have h2 : ∀ c, (List.foldl (unstBody (ectOf g unst x f) (dt / p.mu)) (fun _ => 0, fun c => f.Hz c.1 c.2) (cells g.nx g.ny)).2 c = f.Hz c.1 c.2 := by
    intro c
    rw [hf.1 c, if_neg (fun h => hu c h.2.2)]
  unfold ectH stableH
  by_cases hc : i < g.nx ∧ j < g.ny ∧ g.int i j
  · rw [if_pos ⟨mem_cells.2 ⟨hc.1, hc.2.1⟩, hc.2.2, hu (i, j)⟩, if_pos hc, if_pos (show ¬ (ectOf g unst x f).intr (i, j) from hx (i, j)), show (ectOf g unst x f).nx = g.nx from rfl,
      show (ectOf g unst x f).ny = g.ny from rfl, h2]
    show f.Hz i j - dt / p.mu * (voltage g f i j / g.S i j) = _
    by_cases hS : g.S i j = 0
    · simp [hS]
    · by_cases hm : p.mu = 0
      · simp [hm]
      · field_simp
  · rw [if_neg hc, if_neg (fun h => hc ⟨(mem_cells.1 h.1).1, (mem_cells.1 h.1).2, h.2.1⟩)]
    exact h2 (i, j)

/-- **C91, what can be run.** Whenever the constructor of an enlarged cell grid succeeds, the solver on it is the conformal solver. -/
theorem C91_constructed (lx ly : ℕ → ℕ → ℝ) (dx dy : ℝ) (hx : 0 < dx) (hy : 0 < dy) (hlx : ∀ i j, 0 ≤ lx i j ∧ lx i j ≤ dx)
    (hly : ∀ i j, 0 ≤ ly i j ∧ ly i j ≤ dy) (nx ny : ℕ) (st : ExtSt)
    (hok : extensions (ectIn lx ly dx dy nx ny) (ectStart (ectIn lx ly dx dy nx ny)) = .ok st) (p : Phys) (dt : ℝ) (J : Curr) (f : Fields) :
    let g : Grid := ⟨nx, ny, dx, dy, lx, ly, areas lx ly dx dy, fun i j => (markCell lx ly (areas lx ly dx dy) dx dy i j).int⟩
    stepEct p g dt (fun c => c ∈ cells nx ny ∧ (ectIn lx ly dx dy nx ny).unst c) st J f = stepDm p g dt J f := by
  intro g
  have hM := ectIn_marked lx ly dx dy hx hy hlx hly nx ny
  rw [C88_constructor_refuted _ hM] at hok
  split_ifs at hok with h1 h2
  have : ectStart (ectIn lx ly dx dy nx ny) = st := Except.ok.inj hok
  subst this
  refine C91_dm p g dt _ _ (fun c hc => h2 ⟨c, hc.1, hc.2⟩) (fun c h => h) J f

/-- Such grids exist: an empty box of unit cells. -/
example (nx ny : ℕ) : ∃ st, extensions (ectIn (fun _ _ => 1) (fun _ _ => 1) 1 1 nx ny) (ectStart (ectIn (fun _ _ => 1) (fun _ _ => 1) 1 1 nx ny)) = .ok st := by
  have hn : ∀ c, ¬ (ectIn (fun _ _ => 1) (fun _ _ => 1) 1 1 nx ny).unst c := by
    intro c
    have hA := (C86_ends (fun _ _ => 1) (fun _ _ => 1) 1 1 one_pos one_pos c.1 c.2).1 rfl rfl rfl rfl
    show ¬ (areas (fun _ _ => 1) (fun _ _ => 1) 1 1 c.1 c.2 < if areas (fun _ _ => 1) (fun _ _ => 1) 1 1 c.1 c.2 > 0 then _ else _)
    rw [hA, if_pos (by norm_num), max_self, max_self]
    norm_num
  rw [C88_constructor_refuted _ (ectIn_marked _ _ 1 1 one_pos one_pos (fun _ _ => ⟨zero_le_one, le_rfl⟩) (fun _ _ => ⟨zero_le_one, le_rfl⟩) nx ny),
    if_neg (fun ⟨c, _, h, _⟩ => hn c h), if_neg (fun ⟨c, _, h⟩ => hn c h)]
  exact ⟨_, rfl⟩

end
end S2
end Wakis
