import Verif.Scale5
import Verif.Stability2

/-!
# C115: concrete cases
-/

namespace Wakis
namespace Sol
open Finset Sparse Grid

/-- Empty space, 4×4×5 cells on the axes 0, 1, 4, 9, …, PML at one face. -/
theorem pml_case : ∃ t d, setUp 1 1 1 (1 / 2) (some 1) 2 4 4 5 (fun i => (i : ℝ) ^ 2) (fun i => (i : ℝ) ^ 2) (fun i => (i : ℝ) ^ 2) wBc (.vals ⟨.fin 1, .fin 1, none⟩) (fun _ => none) [] = .ok (t, d) ∧ d ≠ 0 ∧
    t.sigma.array 0 ≠ 0 ∧ t.ieps.array 0 ≠ 0 := by
  have hpml : anyFace isPml wBc = true := by decide
  have hmean : MeansMaterial (.vals (⟨.fin 1, .fin 1, none⟩ : Material ℝ)) ⟨.fin 1, .fin 1, none⟩ := rfl
  have hpas : ∀ m : Material ℝ, MeansMaterial (.vals ⟨.fin 1, .fin 1, none⟩) m → m.Passive := by
    intro m hm
    obtain rfl : (⟨.fin 1, .fin 1, none⟩ : Material ℝ) = m := hm
    refine ⟨le_rfl, le_rfl, ?_⟩
    rintro s h
    cases h
  obtain ⟨t0, ht0, hs0, hu0, hc0⟩ := materials_ok (Nx := 4) (Ny := 4) (Nz := 5) (eps0 := (1 : ℝ)) (mu0 := 1)
      (use0 := true) (bg := .vals ⟨.fin 1, .fin 1, none⟩) (dict := fun _ => none) (solids := []) hmean (by simp)
  obtain ⟨t1, ht1⟩ := (C31_single_face_succeeds_iff (t := t0) (bc := wBc) (n := 2) (Nx := 4) (Ny := 4) (Nz := 5) (by decide) (by decide) (by decide) hs0
    (axis := 2) (side := .lo) (by decide) (by
      intro a ha s
      have : a = 0 ∨ a = 1 ∨ a = 2 := by omega
      rcases this with rfl | rfl | rfl <;> cases s <;> decide)).2 (by decide)
  have ht1' := ht1
  rw [fillPml_eq] at ht1'
  obtain ⟨g1, g2, g3, g4, g5, g6⟩ := fillFaces_ok geomspace (5 / 1000) 10 wBc (fun s d _ => geom_pos s d) (by decide) (by decide) (by decide) pmlOrder
          t0 t1 order_lt hs0 ht1'
  have hu1 : t1.useCond = true := by rw [g3, hu0]; rfl
  have he1 : ∀ c < 3, ∀ i < 4, ∀ j < 4, ∀ k < 5, t1.ieps.at3 c i j k = 1 :=
    g6 (fun a => a = 1) (fun c hc i hi j hj k hk => by rw [(hc0 c hc i hi j hj k hk).1]; simp [lastHit, RelC.over])
  have hs1 := g5 (fun c hc i hi j hj k hk => by rw [(hc0 c hc i hi j hj k hk).2.2]; simp [lastHit])
  have hNe : t1.ieps.N = 4 * 4 * 5 := by obtain ⟨e1, e2, e3⟩ := g1.e; simp [Fld.N, e1, e2, e3]
  have he : ∀ r < 240, t1.ieps.array r = 1 := fun r hr =>
    entry_of_cell (P := fun a _ => a = 1) g1.e g1.e he1 r (by rw [hNe]; exact hr)
  have hs00 : t1.sigma.array 0 ≠ 0 := by
    have h := (hs1 0 (by decide) 0 (by decide) 0 (by decide) 0 (by decide)).2
      ⟨(2, .lo), by decide, by decide, by decide⟩
    have e : t1.sigma.at3 0 0 0 0 = t1.sigma.array 0 := by simp [Fld.at3]
    rw [e] at h; exact h.ne'
  have hmem : 1 / t1.ieps.array 0 / t1.sigma.array 0 ∈ taus t1 := by
    unfold taus
    refine List.mem_map.2 ⟨0, List.mem_filter.2 ⟨List.mem_range.2 (by rw [hNe]; decide), ?_⟩, rfl⟩
    have := he 0 (by decide)
    simp [hs00, this]
  obtain ⟨dt, hdt⟩ : ∃ dt, chooseDt 1 (1 / 2) (some 1) (diffs (fun i => (i : ℝ) ^ 2) 4) (diffs (fun i => (i : ℝ) ^ 2) 4) (diffs (fun i => (i : ℝ) ^ 2) 5) t1 = .ok dt := by
    cases hl : taus t1 with
    | nil => rw [hl] at hmem; simp at hmem
    | cons a l => simp [chooseDt, cflDt, diffs, limitDt, hu1, hl, pyMin, bind, Except.bind, pure, Except.pure, List.range, List.range.loop]
  have hset : setUp 1 1 1 (1 / 2) (some 1) 2 4 4 5 (fun i => (i : ℝ) ^ 2) (fun i => (i : ℝ) ^ 2) (fun i => (i : ℝ) ^ 2) wBc
    (.vals ⟨.fin 1, .fin 1, none⟩) (fun _ => none) [] = .ok (t1, dt) := by
    simp only [setUp, hpml, ht0, bind, Except.bind, pmlStage, if_true, ht1, hdt, pure, Except.pure]
  refine ⟨t1, dt, hset, ?_, hs00, by rw [he 0 (by decide)]; exact one_ne_zero⟩
  obtain ⟨d0, hr, -, -, hor⟩ := C30_limits hdt
  obtain rfl : (1 : ℝ) = d0 := Except.ok.inj hr
  rcases hor with rfl | ⟨-, n, -, h1, h2, rfl⟩
  · exact one_ne_zero
  · exact div_ne_zero (div_ne_zero one_ne_zero h2) h1

example {a : ℝ} (ha : 0 < a) (ha1 : a ≠ 1) : ∃ (t : Mats ℝ) (d : ℝ),
    setUp 1 1 1 (1 / 2) (some 1) 2 4 4 5 (fun i => (i : ℝ) ^ 2) (fun i => (i : ℝ) ^ 2) (fun i => (i : ℝ) ^ 2) wBc (.vals ⟨.fin 1, .fin 1, none⟩) (fun _ => none) [] = .ok (t, d) ∧
    ¬ ∃ t', setUp 1 1 1 (1 / 2) ((some 1).map fun d => a * d) 2 4 4 5 (fun i => a * (i : ℝ) ^ 2) (fun i => a * (i : ℝ) ^ 2) (fun i => a * (i : ℝ) ^ 2) wBc (scaleSpec a (.vals ⟨.fin 1, .fin 1, none⟩)) (fun _ => none) [] = .ok (t', a * d) ∧
      let s := build (computeGrid 4 4 5 (fun i => (i : ℝ) ^ 2) (fun i => (i : ℝ) ^ 2) (fun i => (i : ℝ) ^ 2)) wBc t.ieps.array t.imu.array t.sigma.array d t.useCond
      let s' := build (computeGrid 4 4 5 (fun i => a * (i : ℝ) ^ 2) (fun i => a * (i : ℝ) ^ 2) (fun i => a * (i : ℝ) ^ 2)) wBc t'.ieps.array t'.imu.array t'.sigma.array (a * d) t'.useCond
      ∀ (evs : List (Ev ℝ)) (q : ℕ), (runEv s' initState (evs.map (scaleEv 1 a))).E q = 1 * (runEv s initState evs).E q := by
  obtain ⟨t, d, h, hd, hs, hi⟩ := pml_case
  exact ⟨t, d, h, C115_pml_refuted ha ha1 one_ne_zero (by decide) hd h hs hi⟩

/-- A conducting background (ε = 2, σ = 3) in a closed box of 4×4×5 cells on the axes 0, 1, 4, 9, …, time step 10⁻⁹. -/
theorem box_case : ∃ t, setUp 1 1 1 (1 / 2) (some (1 / 10 ^ 9)) 0 4 4 5 (fun i => (i : ℝ) ^ 2) (fun i => (i : ℝ) ^ 2) (fun i => (i : ℝ) ^ 2) ⟨"pec", "pec", "pmc", "pec", "periodic", "periodic"⟩
    (.vals ⟨.fin 2, .fin 1, some 3⟩) (fun _ => none) [] = .ok (t, 1 / 10 ^ 9) := by
  have hpml : anyFace isPml (⟨"pec", "pec", "pmc", "pec", "periodic", "periodic"⟩ : Faces String) = false := by decide
  have hmean : MeansMaterial (.vals (⟨.fin 2, .fin 1, some 3⟩ : Material ℝ)) ⟨.fin 2, .fin 1, some 3⟩ := rfl
  obtain ⟨t1, ht1, g1, hu0, hc0⟩ := materials_ok (Nx := 4) (Ny := 4) (Nz := 5) (eps0 := (1 : ℝ)) (mu0 := 1)
      (use0 := false) (bg := .vals ⟨.fin 2, .fin 1, some 3⟩) (dict := fun _ => none) (solids := []) hmean (by simp)
  have hu1 : t1.useCond = true := by rw [hu0]; rfl
  have he1 : ∀ c < 3, ∀ i < 4, ∀ j < 4, ∀ k < 5, t1.ieps.at3 c i j k = 1 / 2 ∧ t1.sigma.at3 c i j k = 3 :=
    fun c hc i hi j hj k hk => by rw [(hc0 c hc i hi j hj k hk).1, (hc0 c hc i hi j hj k hk).2.2]; simp [lastHit, RelC.over]
  have hNe : t1.ieps.N = 4 * 4 * 5 := by obtain ⟨e1, e2, e3⟩ := g1.e; simp [Fld.N, e1, e2, e3]
  have he : ∀ r < 240, t1.ieps.array r = 1 / 2 ∧ t1.sigma.array r = 3 := fun r hr =>
    entry_of_cell (P := fun a b => a = 1 / 2 ∧ b = 3) g1.e g1.s he1 r (by rw [hNe]; exact hr)
  have hmem : 1 / t1.ieps.array 0 / t1.sigma.array 0 ∈ taus t1 := by
    unfold taus
    refine List.mem_map.2 ⟨0, List.mem_filter.2 ⟨List.mem_range.2 (by rw [hNe]; decide), ?_⟩, rfl⟩
    have := he 0 (by decide)
    simp [this.1, this.2]
  obtain ⟨dt, hdt⟩ : ∃ dt, chooseDt 1 (1 / 2) (some (1 / 10 ^ 9)) (diffs (fun i => (i : ℝ) ^ 2) 4) (diffs (fun i => (i : ℝ) ^ 2) 4) (diffs (fun i => (i : ℝ) ^ 2) 5) t1 = .ok dt := by
    cases hl : taus t1 with
    | nil => rw [hl] at hmem; simp at hmem
    | cons a l => simp [chooseDt, cflDt, diffs, limitDt, hu1, hl, pyMin, bind, Except.bind, pure, Except.pure, List.range, List.range.loop]
  have hset : setUp 1 1 1 (1 / 2) (some (1 / 10 ^ 9)) 0 4 4 5 (fun i => (i : ℝ) ^ 2) (fun i => (i : ℝ) ^ 2) (fun i => (i : ℝ) ^ 2) ⟨"pec", "pec", "pmc", "pec", "periodic", "periodic"⟩
    (.vals ⟨.fin 2, .fin 1, some 3⟩) (fun _ => none) [] = .ok (t1, dt) := by
    simp only [setUp, hpml, ht1, bind, Except.bind, pmlStage, Bool.false_eq_true, if_false, hdt, pure, Except.pure]
  refine ⟨t1, ?_⟩
  obtain ⟨d0, hr, hle, -, hor⟩ := C30_limits hdt
  obtain rfl : (1 / 10 ^ 9 : ℝ) = d0 := Except.ok.inj hr
  rcases hor with rfl | ⟨-, n, hn, -, -, rfl⟩
  · exact hset
  · rw [hNe] at hn
    rw [(he n hn).1, (he n hn).2] at hle
    norm_num at hle

/-- The wake run of the example has 100 steps: wake length 26, cell centres from 0 to 4, injection at 0, v = c. -/
example : Wake.stepsFor 26 0 Src.cLight 0 4 (1 / 10 ^ 9 : ℝ) = 100 := by
  unfold Wake.stepsFor Wake.pyInt Src.cLight
  norm_num

open Wake in
example {a : ℝ} (ha : 0 < a) : ∃ t t', setUp 1 1 1 (1 / 2) (some (1 / 10 ^ 9)) 0 4 4 5 (fun i => (i : ℝ) ^ 2) (fun i => (i : ℝ) ^ 2) (fun i => (i : ℝ) ^ 2) ⟨"pec", "pec", "pmc", "pec", "periodic", "periodic"⟩
      (.vals ⟨.fin 2, .fin 1, some 3⟩) (fun _ => none) [] = .ok (t, 1 / 10 ^ 9) ∧
    setUp 1 1 1 (1 / 2) (some (a * (1 / 10 ^ 9))) 0 4 4 5 (fun i => a * (i : ℝ) ^ 2) (fun i => a * (i : ℝ) ^ 2) (fun i => a * (i : ℝ) ^ 2) ⟨"pec", "pec", "pmc", "pec", "periodic", "periodic"⟩
      (.vals ⟨.fin 2, .fin 1, some (3 / a)⟩) (fun _ => none) [] = .ok (t', a * (1 / 10 ^ 9)) := by
  obtain ⟨t, h⟩ := box_case
  obtain ⟨t', h', -⟩ := C115_wake ha (by decide) (by norm_num) h
    (g := ⟨4, 4, 5, fun i => i, fun i => i, fun i => i, fun _ => 1, fun _ => 1, fun _ => 1, 1 / 10 ^ 9, none⟩) ⟨rfl, rfl, rfl, show 0 < 4 by decide, show 0 < 4 by decide, show 0 < 5 by decide, rfl⟩
    (w := ⟨1, 1, 1, 1, 1, 1, 1, some 0, 0⟩) rfl one_pos 26 (fun _ => .d1 0 0) (fun _ => .d1 0 0)
  exact ⟨t, t', h, h'⟩

end Sol
end Wakis
