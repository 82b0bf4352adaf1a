import Verif.WakeProps4
import Mathlib.Algebra.Order.Field.Basic
import Mathlib.Tactic.FieldSimp
import Mathlib.Tactic.Positivity

/-!
# C72: a charge distribution given by the user
-/

namespace Wakis
namespace Wake

section
variable {K : Type} [Field K] [LinearOrder K]

/-- numpy `interp` at `x`, from the node `(x0, f0) ≤ x` on: the value on the segment that contains `x`, the last value beyond the last node. -/
def interpFrom : K × K → List (K × K) → K → K
  | p, [], _ => p.2
  | p, q :: l, x => if x < q.1 then (q.2 - p.2) / (q.1 - p.1) * (x - p.1) + p.2 else interpFrom q l x

/-- numpy `interp(x, xp, fp)` for ascending `xp` (numpy does not check the order; for other `xp` its result is unspecified and this definition says nothing about it). -/
def interp1 (p : K × K) (l : List (K × K)) (x : K) : K := if x < p.1 then p.2 else interpFrom p l x

/-- numpy `interp` on a vector of points: `ValueError` for no nodes or for columns of different lengths. -/
def interp (xs xp fp : List K) : Py (List K) :=
  if xp.length = fp.length then
    match xp.zip fp with
    | [] => .error .valueError
    | p :: l => .ok (xs.map (interp1 p l))
  else .error .valueError

/-- The kinds of value of the parameter `chargedist` (wakeSolver.py:69-72): the name of a text file with two columns, a dictionary with two entries, an array. -/
inductive Charge (K : Type)
  | file (z lam : List K)
  | dict (z lam : List K)
  | arr (lam : List K)

/-- wakeSolver.py:771-814 `calc_lambdas`: `z` and `zf` are the z coordinates of the domain and of the recording, if known. The test `self.chargedist is dict` (line 800) compares the
value with the class `dict` and is false for every dictionary, so that a dictionary goes through the last branch: there its length is 2, and dividing it by the charge raises `TypeError`;
if no length fits, `z` is unassigned at line 814. Saving the file (816-825) is in `ResultFiles`. Simplified: the file has its two columns already separated (`readTxt`). -/
def calcLambdas (c : Charge K) (q : K) (z zf : Option (List K)) (s : List K) : Py (List K) :=
  match c with
  | .file zc lam => interp s zc (lam.map (· / q))
  | .dict _ _ =>
    match z with
    | none => .error .typeError
    | some z => if z.length = 2 then .error .typeError else
      match zf with
      | none => .error .typeError
      | some zf => if zf.length = 2 then .error .typeError else .error .unboundLocalError
  | .arr lam =>
    match z with
    | none => .error .typeError
    | some z => if z.length = lam.length then interp s z (lam.map (· / q)) else
      match zf with
      | none => .error .typeError
      | some zf => if zf.length = lam.length then interp s zf (lam.map (· / q)) else .error .unboundLocalError

/-! ### Specification -/

/-- The profile `(zs, lam)` has the value `v` at `x` by straight lines between its points. -/
def OnProfile (zs lam : List K) (x v : K) : Prop :=
  ∃ i a b fa fb, zs[i]? = some a ∧ zs[i + 1]? = some b ∧ lam[i]? = some fa ∧ lam[i + 1]? = some fb ∧ a ≤ x ∧ x ≤ b ∧ (v - fa) * (b - a) = (fb - fa) * (x - a)

variable [IsStrictOrderedRing K]

theorem interpFrom_at : ∀ (l : List (K × K)) (p : K × K), ((p :: l).map Prod.fst).Pairwise (· < ·) → ∀ (i : ℕ) (a b : K × K), (p :: l)[i]? = some a → (p :: l)[i + 1]? = some b →
    ∀ x, a.1 ≤ x → x ≤ b.1 → (interpFrom p l x - a.2) * (b.1 - a.1) = (b.2 - a.2) * (x - a.1)
  | [], p, _, i, a, b, _, h2, _, _, _ => by simp at h2
  | q :: l, p, hs, i, a, b, h1, h2, x, h3, h4 => by
    have hs' : ((q :: l).map Prod.fst).Pairwise (· < ·) := by
      rw [List.map_cons, List.pairwise_cons] at hs; exact hs.2
    have hpq : p.1 < q.1 := by
      rw [List.map_cons, List.pairwise_cons] at hs; exact hs.1 _ (by simp)
    unfold interpFrom
    cases i with
    | zero =>
      simp only [List.getElem?_cons_zero, Option.some.injEq, zero_add, List.getElem?_cons_succ] at h1 h2
      subst h1; subst h2
      split_ifs with h
      · have : q.1 - p.1 ≠ 0 := sub_ne_zero.2 hpq.ne'
        field_simp
        ring
      · have hx : x = q.1 := le_antisymm h4 (not_lt.1 h)
        have : interpFrom q l x = q.2 := by
          subst hx
          cases l with
          | nil => rfl
          | cons r l =>
            have : q.1 < r.1 := by
              rw [List.map_cons, List.pairwise_cons] at hs'; exact hs'.1 _ (by simp)
            rw [interpFrom, if_pos this]; ring
        rw [this, hx]
    | succ i =>
      simp only [List.getElem?_cons_succ] at h1 h2
      have hqa : q.1 ≤ a.1 := by
        cases i with
        | zero => simp only [List.getElem?_cons_zero, Option.some.injEq] at h1; rw [h1]
        | succ i =>
          simp only [List.getElem?_cons_succ] at h1
          rw [List.map_cons, List.pairwise_cons] at hs'
          exact (hs'.1 _ (List.mem_map_of_mem (List.mem_of_getElem? h1))).le
      rw [if_neg (not_lt.2 (hqa.trans h3))]
      exact interpFrom_at l q hs' i a b h1 (by simpa using h2) x h3 h4

theorem interpFrom_ge : ∀ (l : List (K × K)) (p : K × K) (x : K), (∀ a ∈ p :: l, a.1 ≤ x) → interpFrom p l x = ((p :: l).getLast (by simp)).2
  | [], p, x, _ => rfl
  | q :: l, p, x, h => by
    rw [interpFrom, if_neg (not_lt.2 (h q (by simp))), interpFrom_ge l q x fun a ha => h a (by simp [List.mem_cons.1 ha])]
    rfl

/-- `interp` succeeds on equal, non-empty columns. -/
theorem interp_ok {xs xp fp : List K} (hl : xp.length = fp.length) (hn : xp ≠ []) :
    ∃ p l, xp.zip fp = p :: l ∧ interp xs xp fp = .ok (xs.map (interp1 p l)) := by
  unfold interp
  rw [if_pos hl]
  match h : xp.zip fp with
  | [] =>
    exfalso
    have := congrArg List.length h
    simp only [List.length_zip, List.length_nil] at this
    have : xp.length ≠ 0 := fun h0 => hn (List.length_eq_zero_iff.1 h0)
    omega
  | p :: l => exact ⟨p, l, rfl, rfl⟩

/-- The value interpolated at a point inside the range of the nodes is on the profile. -/
theorem interp1_on {zs lam : List K} (hl : zs.length = lam.length) (hs : zs.Pairwise (· < ·)) {p l} (hp : zs.zip lam = p :: l) {i : ℕ} {a b fa fb : K}
    (ha : zs[i]? = some a) (hb : zs[i + 1]? = some b) (hfa : lam[i]? = some fa) (hfb : lam[i + 1]? = some fb) {x : K} (h1 : a ≤ x) (h2 : x ≤ b) :
    (interp1 p l x - fa) * (b - a) = (fb - fa) * (x - a) := by
  have hf : (p :: l).map Prod.fst = zs := by rw [← hp, List.map_fst_zip hl.le]
  have ea : (p :: l)[i]? = some (a, fa) := by rw [← hp, List.getElem?_zip_eq_some]; exact ⟨ha, hfa⟩
  have eb : (p :: l)[i + 1]? = some (b, fb) := by rw [← hp, List.getElem?_zip_eq_some]; exact ⟨hb, hfb⟩
  have hpa : p.1 ≤ a := by
    cases i with
    | zero => simp only [List.getElem?_cons_zero, Option.some.injEq] at ea; rw [ea]
    | succ i =>
      simp only [List.getElem?_cons_succ] at ea
      rw [← hf, List.map_cons, List.pairwise_cons] at hs
      exact (hs.1 _ (List.mem_map_of_mem (List.mem_of_getElem? ea))).le
  rw [interp1, if_neg (not_lt.2 (hpa.trans h1))]
  exact interpFrom_at l p (by rw [hf]; exact hs) i _ _ ea eb x h1 h2

omit [LinearOrder K] [IsStrictOrderedRing K] in
theorem map_div_get {lam : List K} {q : K} {i : ℕ} {f : K} (h : lam[i]? = some f) : (lam.map (· / q))[i]? = some (f / q) := by rw [List.getElem?_map, h]; rfl

omit [LinearOrder K] [IsStrictOrderedRing K] in
theorem get_of_lt {zs lam : List K} (hl : zs.length = lam.length) {i : ℕ} {a : K} (h : zs[i]? = some a) : ∃ f, lam[i]? = some f := by
  have : i < lam.length := hl ▸ (List.getElem?_eq_some_iff.1 h).1
  exact ⟨_, List.getElem?_eq_getElem this⟩

/-- An array that fits the z axis, or a file, is a profile: positions, values. -/
def Charge.Gives (c : Charge K) (z zf : Option (List K)) (zs lam : List K) : Prop :=
  c = .file zs lam ∨ (c = .arr lam ∧ z = some zs) ∨ (c = .arr lam ∧ (∃ z0, z = some z0 ∧ z0.length ≠ lam.length) ∧ zf = some zs)

omit [IsStrictOrderedRing K] in
theorem calcLambdas_eq {c : Charge K} {z zf : Option (List K)} {zs lam : List K} (h : c.Gives z zf zs lam) (hl : zs.length = lam.length) (q : K) (s : List K) :
    calcLambdas c q z zf s = interp s zs (lam.map (· / q)) := by
  rcases h with rfl | ⟨rfl, rfl⟩ | ⟨rfl, ⟨z0, rfl, h⟩, rfl⟩
  · rfl
  · simp [calcLambdas, hl]
  · simp [calcLambdas, hl, h]

/-- **C72 (values, partial).** For every profile with ascending positions given as a file, or as an array over the z axis of the domain or of the recording, every charge `q ≠ 0` and every
s axis: the calculation succeeds, gives one value for each s, and wherever s lies within the profile the value times the charge lies on the straight line between the two neighbouring
points of the profile. Missing: a dictionary is never accepted (`C72_dict_refuted`), and outside the profile the density does not vanish (`C72_outside`, `C72_outside_refuted`). -/
theorem C72_values_partial {c : Charge K} {z zf : Option (List K)} {zs lam : List K} (h : c.Gives z zf zs lam) (hl : zs.length = lam.length) (hn : zs ≠ []) (hs : zs.Pairwise (· < ·))
    {q : K} (hq : q ≠ 0) (s : List K) :
    ∃ out, calcLambdas c q z zf s = .ok out ∧ out.length = s.length ∧
      ∀ (m : ℕ) (x v : K), s[m]? = some x → out[m]? = some v → ∀ (i : ℕ) (a b : K), zs[i]? = some a → zs[i + 1]? = some b → a ≤ x → x ≤ b → OnProfile zs lam x (q * v) := by
  rw [calcLambdas_eq h hl]
  obtain ⟨p, l, hp, e⟩ := interp_ok (xs := s) (xp := zs) (fp := lam.map (· / q)) (by rw [List.length_map, hl]) hn
  refine ⟨_, e, by rw [List.length_map], ?_⟩
  intro m x v hx hv i a b ha hb h1 h2
  obtain ⟨fa, hfa⟩ := get_of_lt hl ha
  obtain ⟨fb, hfb⟩ := get_of_lt hl hb
  refine ⟨i, a, b, fa, fb, ha, hb, hfa, hfb, h1, h2, ?_⟩
  have key := interp1_on (lam := lam.map (· / q)) (by rw [List.length_map, hl]) hs hp ha hb (map_div_get hfa) (map_div_get hfb) h1 h2
  rw [List.getElem?_map, hx] at hv
  simp only [Option.map_some, Option.some.injEq] at hv
  rw [hv] at key
  field_simp at key
  linear_combination key

/-- **C72 (at the given positions).** At an s that is one of the positions of the profile the density is the given value divided by the charge. -/
theorem C72_nodes {c : Charge K} {z zf : Option (List K)} {zs lam : List K} (h : c.Gives z zf zs lam) (hl : zs.length = lam.length) (hs : zs.Pairwise (· < ·))
    (hn : 2 ≤ zs.length) {q : K} (s : List K) {out : List K} (ho : calcLambdas c q z zf s = .ok out) {m i : ℕ} {x f : K}
    (hm : s[m]? = some x) (hx : zs[i]? = some x) (hf : lam[i]? = some f) : out[m]? = some (f / q) := by
  rw [calcLambdas_eq h hl] at ho
  have hne : zs ≠ [] := by rintro rfl; simp at hn
  obtain ⟨p, l, hp, e⟩ := interp_ok (xs := s) (xp := zs) (fp := lam.map (· / q)) (by rw [List.length_map, hl]) hne
  rw [e] at ho
  cases ho
  rw [List.getElem?_map, hm, Option.map_some, Option.some.injEq]
  have hi : i < zs.length := (List.getElem?_eq_some_iff.1 hx).1
  have lt : ∀ {j k : ℕ} {a b : K}, zs[j]? = some a → zs[k]? = some b → j < k → a < b := by
    intro j k a b ha hb hjk
    obtain ⟨h1, rfl⟩ := List.getElem?_eq_some_iff.1 ha
    obtain ⟨h2, rfl⟩ := List.getElem?_eq_some_iff.1 hb
    exact List.pairwise_iff_getElem.1 hs j k h1 h2 hjk
  by_cases hlast : i + 1 < zs.length
  · have hb : zs[i + 1]? = some zs[i + 1] := List.getElem?_eq_getElem hlast
    obtain ⟨fb, hfb⟩ := get_of_lt hl hb
    have hab := lt hx hb (Nat.lt_succ_self i)
    have key := interp1_on (lam := lam.map (· / q)) (by rw [List.length_map, hl]) hs hp hx hb (map_div_get hf) (map_div_get hfb) le_rfl hab.le
    rw [sub_self, mul_zero] at key
    exact sub_eq_zero.1 ((mul_eq_zero.1 key).resolve_right (sub_ne_zero.2 hab.ne'))
  · obtain ⟨j, rfl⟩ : ∃ j, i = j + 1 := ⟨i - 1, by omega⟩
    have ha : zs[j]? = some zs[j] := List.getElem?_eq_getElem (by omega)
    obtain ⟨fa, hfa⟩ := get_of_lt hl ha
    have hab := lt ha hx (Nat.lt_succ_self j)
    have key := interp1_on (lam := lam.map (· / q)) (by rw [List.length_map, hl]) hs hp ha hx (map_div_get hfa) (map_div_get hf) hab.le le_rfl
    have : (interp1 p l x - f / q) * (x - zs[j]) = 0 := by linear_combination key
    exact sub_eq_zero.1 ((mul_eq_zero.1 this).resolve_right (sub_ne_zero.2 hab.ne'))

/-- **C72 (outside the profile).** Before the first position the density is that of the first point, after the last position that of the last point: it is zero there only if the profile
ends with zeros. -/
theorem C72_outside {c : Charge K} {z zf : Option (List K)} {zs lam : List K} (h : c.Gives z zf zs lam) (hl : zs.length = lam.length) {q : K} (s : List K) {out : List K}
    (ho : calcLambdas c q z zf s = .ok out) {m : ℕ} {x : K} (hm : s[m]? = some x) :
    ((∀ a ∈ zs, x < a) → out[m]? = lam.head?.map (· / q)) ∧ ((∀ a ∈ zs, a < x) → out[m]? = lam.getLast?.map (· / q)) := by
  rw [calcLambdas_eq h hl] at ho
  have hne : zs ≠ [] := by
    rintro rfl
    cases lam with
    | nil => simp [interp] at ho
    | cons a l => simp at hl
  obtain ⟨p, l, hp, e⟩ := interp_ok (xs := s) (xp := zs) (fp := lam.map (· / q)) (by rw [List.length_map, hl]) hne
  rw [e] at ho
  cases ho
  rw [List.getElem?_map, hm, Option.map_some]
  have hf : (p :: l).map Prod.fst = zs := by rw [← hp, List.map_fst_zip (by rw [List.length_map, hl])]
  have hg : (p :: l).map Prod.snd = lam.map (· / q) := by rw [← hp, List.map_snd_zip (by rw [List.length_map, hl])]
  constructor
  · intro hx
    rw [interp1, if_pos (hx p.1 (by rw [← hf]; simp))]
    rw [← List.head?_map, ← hg]
    rfl
  · intro hx
    have hle : ∀ a ∈ p :: l, a.1 < x := fun a ha => hx _ (by rw [← hf]; exact List.mem_map_of_mem ha)
    rw [interp1, if_neg (not_lt.2 (hle p (by simp)).le), interpFrom_ge l p x fun a ha => (hle a ha).le]
    rw [← List.getLast?_map, ← hg, List.getLast?_map, List.getLast?_eq_some_getLast (List.cons_ne_nil p l)]
    rfl

/-- **C72 (bounds).** The densities computed are never outside the range of the given ones: a profile with values between `lo` and `hi` gives densities between `lo / q` and `hi / q`. -/
theorem C72_bounds {c : Charge K} {z zf : Option (List K)} {zs lam : List K} (h : c.Gives z zf zs lam) (hl : zs.length = lam.length) (hs : zs.Pairwise (· < ·)) {q : K} (hq : 0 < q)
    {lo hi : K} (hb : ∀ f ∈ lam, lo ≤ f ∧ f ≤ hi) (s : List K) {out : List K} (ho : calcLambdas c q z zf s = .ok out) : ∀ v ∈ out, lo / q ≤ v ∧ v ≤ hi / q := by
  rw [calcLambdas_eq h hl] at ho
  have hne : zs ≠ [] := by
    rintro rfl
    cases lam with
    | nil => simp [interp] at ho
    | cons a l => simp at hl
  obtain ⟨p, l, hp, e⟩ := interp_ok (xs := s) (xp := zs) (fp := lam.map (· / q)) (by rw [List.length_map, hl]) hne
  rw [e] at ho
  cases ho
  have hf : (p :: l).map Prod.fst = zs := by rw [← hp, List.map_fst_zip (by rw [List.length_map, hl])]
  have hg : (p :: l).map Prod.snd = lam.map (· / q) := by rw [← hp, List.map_snd_zip (by rw [List.length_map, hl])]
  have hv : ∀ a ∈ p :: l, lo / q ≤ a.2 ∧ a.2 ≤ hi / q := by
    intro a ha
    have : a.2 ∈ lam.map (· / q) := by rw [← hg]; exact List.mem_map_of_mem ha
    obtain ⟨f, hf', e⟩ := List.mem_map.1 this
    rw [← e]
    exact ⟨div_le_div_of_nonneg_right (hb f hf').1 hq.le, div_le_div_of_nonneg_right (hb f hf').2 hq.le⟩
  have hs' : ((p :: l).map Prod.fst).Pairwise (· < ·) := hf ▸ hs
  clear hp hf hg
  have go : ∀ (l : List (K × K)) (p : K × K), ((p :: l).map Prod.fst).Pairwise (· < ·) → (∀ a ∈ p :: l, lo / q ≤ a.2 ∧ a.2 ≤ hi / q) → ∀ x, p.1 ≤ x →
      lo / q ≤ interpFrom p l x ∧ interpFrom p l x ≤ hi / q := by
    intro l
    induction l with
    | nil => intro p _ hv x _; exact hv p (by simp)
    | cons r l ih =>
      intro p hs hv x hx
      unfold interpFrom
      rw [List.map_cons, List.pairwise_cons] at hs
      have hpr : p.1 < r.1 := hs.1 _ (by simp)
      split_ifs with hxr
      · have h1 := hv p (by simp)
        have h2 := hv r (by simp)
        have hd : 0 < r.1 - p.1 := sub_pos.2 hpr
        have e : (r.2 - p.2) / (r.1 - p.1) * (x - p.1) + p.2 = (p.2 * (r.1 - x) + r.2 * (x - p.1)) / (r.1 - p.1) := by field_simp; ring
        rw [e, le_div_iff₀ hd, div_le_iff₀ hd]
        have := sub_nonneg.2 hx
        have := (sub_pos.2 hxr).le
        constructor <;> nlinarith
      · exact ih r hs.2 (fun a ha => hv a (by simp [List.mem_cons.1 ha])) x (not_lt.1 hxr)
  intro v hmem
  obtain ⟨x, _, rfl⟩ := List.mem_map.1 hmem
  unfold interp1
  split_ifs with hx
  · exact hv p (by simp)
  · exact go l p hs' hv x (not_lt.1 hx)

omit [IsStrictOrderedRing K] in
/-- **C72 (only the shape matters).** Multiplying the profile and the charge by the same non-zero factor changes nothing. -/
theorem C72_normalised {c c' : Charge K} {z zf : Option (List K)} {zs lam : List K} {a : K} (ha : a ≠ 0) (h : c.Gives z zf zs lam) (h' : c'.Gives z zf zs (lam.map (a * ·)))
    (hl : zs.length = lam.length) (q : K) (s : List K) : calcLambdas c' (a * q) z zf s = calcLambdas c q z zf s := by
  rw [calcLambdas_eq h hl, calcLambdas_eq h' (by rw [List.length_map, hl]), List.map_map]
  congr 1
  refine List.map_congr_left fun f _ => ?_
  simp only [Function.comp_apply]
  rw [mul_div_mul_left _ _ ha]

omit [IsStrictOrderedRing K] in
/-- **C72 (a dictionary is accepted; refuted).** The documented form of the parameter, a dictionary with the positions and the values, raises for every content, every charge, every axis. -/
theorem C72_dict_refuted (zs lam : List K) (q : K) (z zf : Option (List K)) (s : List K) : ∀ out, calcLambdas (.dict zs lam) q z zf s ≠ .ok out := by
  intro out
  unfold calcLambdas
  cases z with
  | none => simp
  | some z =>
    cases zf with
    | none => simp only; split_ifs <;> simp
    | some zf => simp only; split_ifs <;> simp

end

/-- **C72 (no charge outside the profile; refuted).** A uniform profile over two cells: the density is the same at every distance behind it. -/
theorem C72_outside_refuted : ∃ (zs lam : List ℚ), zs.Pairwise (· < ·) ∧ ∀ x : ℚ, 1 < x → calcLambdas (.file zs lam) 2 none none [x] = .ok [3] := by
  refine ⟨[0, 1], [6, 6], by decide, fun x hx => ?_⟩
  have h1 : ¬x < 0 := by linarith
  have h2 : ¬x < 1 := by linarith
  simp only [calcLambdas, interp, List.map_cons, List.map_nil, List.length_cons, List.length_nil, if_true, List.zip_cons_cons, List.zip_nil_right, interp1, interpFrom, h1, h2, if_false]
  norm_num

/-- The hypotheses of C72 on a triangular profile over the z axis. -/
example : ∃ out, calcLambdas (.arr [0, 4, 0]) 2 (some [-1, 0, 1]) none [-1, -1/2, 0, 1/4, (5 : ℚ)] = .ok out ∧ out.length = 5 ∧
    ∀ (m : ℕ) (x v : ℚ), [-1, -1/2, 0, 1/4, (5 : ℚ)][m]? = some x → out[m]? = some v → ∀ (i : ℕ) (a b : ℚ), [-1, 0, (1 : ℚ)][i]? = some a → [-1, 0, (1 : ℚ)][i + 1]? = some b → a ≤ x → x ≤ b →
      OnProfile [-1, 0, (1 : ℚ)] [0, 4, 0] x (2 * v) :=
  C72_values_partial (c := .arr [0, 4, 0]) (z := some [-1, 0, 1]) (zf := none) (zs := [-1, 0, 1]) (lam := [0, 4, 0]) (q := 2) (.inr (.inl ⟨rfl, rfl⟩)) rfl (by simp) (by decide) (by norm_num) _

example : calcLambdas (.arr [0, 4, 0]) 2 (some [-1, 0, 1]) none [-1, -1/2, 0, 1/4, (5 : ℚ)] = .ok [0, 1, 2, 3/2, 0] := by
  norm_num [calcLambdas, interp, interp1, interpFrom]

example : ∀ v ∈ [0, 1, 2, 3/2, (0 : ℚ)], 0 / 2 ≤ v ∧ v ≤ 4 / 2 :=
  C72_bounds (c := .arr [0, 4, 0]) (z := some [-1, 0, 1]) (zf := none) (.inr (.inl ⟨rfl, rfl⟩)) rfl (by decide) (q := 2) (by norm_num) (lo := 0) (hi := 4) (by decide)
    [-1, -1/2, 0, 1/4, 5] (by norm_num [calcLambdas, interp, interp1, interpFrom])

noncomputable section

/-- wakeSolver.py:660-663: the charge distribution used by `calc_long_Z` and `calc_trans_Z`: a cached one, else the given one, else the Gaussian. -/
def chooseLambdas (cached : Option (List ℝ)) (given : Option (Charge ℝ)) (q : ℝ) (z zf : Option (List ℝ)) (sigmaz : ℝ) (s : List ℝ) : Py (List ℝ) :=
  match cached, given with
  | some l, _ => .ok l
  | none, some c => calcLambdas c q z zf s
  | none, none => .ok (gaussLambda sigmaz s)

/-- wakeSolver.py:621-709 `calc_long_Z` with all three sources of the charge distribution. -/
def calcLongZGiven (w : WState) (given : Option (Charge ℝ)) (q : ℝ) (z zf : Option (List ℝ)) (samples : ℕ) (fmax : Option ℝ) : Py WState := do
  let lam ← chooseLambdas w.lambdas given q z zf w.sigmaz w.s
  let imp ← impedance (-1) w.v (fmax.getD w.fmax) samples w.s w.WP lam
  return { w with lambdas := some lam, imp := some imp }

/-- Without a given distribution this is `calcLongZ`, the function of C52. -/
theorem calcLongZGiven_none (w : WState) (q : ℝ) (z zf : Option (List ℝ)) (samples : ℕ) (fmax : Option ℝ) : calcLongZGiven w none q z zf samples fmax = calcLongZ w samples fmax := by
  unfold calcLongZGiven calcLongZ chooseLambdas
  cases w.lambdas <;> rfl

/-- **C72 (the given distribution is the one used).** On a solver that has no distribution cached, the impedance is that of the given profile: the bunch length plays no role. -/
theorem C72_used (w : WState) (hw : w.lambdas = none) (c : Charge ℝ) (q : ℝ) (z zf : Option (List ℝ)) (samples : ℕ) (fmax : Option ℝ) {w' : WState}
    (h : calcLongZGiven w (some c) q z zf samples fmax = .ok w') (σ : ℝ) :
    ∃ lam imp, calcLambdas c q z zf w.s = .ok lam ∧ impedance (-1) w.v (fmax.getD w.fmax) samples w.s w.WP lam = .ok imp ∧ w'.imp = some imp ∧
      calcLongZGiven { w with sigmaz := σ } (some c) q z zf samples fmax = .ok { w' with sigmaz := σ } := by
  unfold calcLongZGiven chooseLambdas at *
  simp only [hw] at *
  cases hl : calcLambdas c q z zf w.s with
  | error e => rw [hl] at h; cases h
  | ok lam =>
    rw [hl] at h
    simp only [bind, Except.bind] at h ⊢
    cases hi : impedance (-1) w.v (fmax.getD w.fmax) samples w.s w.WP lam with
    | error e => rw [hi] at h; cases h
    | ok imp =>
      rw [hi] at h
      cases h
      refine ⟨lam, imp, rfl, hi, rfl, ?_⟩
      rfl

/-- The hypotheses of `C72_used`: the two-sample axis of `small_impedance`. -/
example : ∃ w w' : WState, w.lambdas = none ∧ calcLongZGiven w (some (.file [0, 1] [2, 4])) 2 none none 1 none = .ok w' := by
  have e : calcLambdas (.file [0, 1] [2, 4]) 2 none none (axis 0 1 2) = .ok [1, (2 : ℝ)] := by
    norm_num [calcLambdas, interp, interp1, interpFrom, axis, List.range_succ]
  refine ⟨⟨1, 1/2, 1, axis 0 1 2, [1, 2], none, none⟩, ?_⟩
  unfold calcLongZGiven chooseLambdas
  simp only [e, bind, Except.bind]
  rw [Option.getD_none, small_impedance]
  exact ⟨_, trivial, rfl⟩

end

end Wake
end Wakis
