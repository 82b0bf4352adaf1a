import Verif.Emsolve

/-!
# C38, C40: the first step of a run with absorbing faces, and when `save=True` matters
-/

namespace Wakis
namespace Sol

open Sparse


variable {K : Type _} [Field K]

/-- What `updateAbc` with stored copies leaves on a face. -/
theorem gpu_layer {s : Solver K} {bc : Faces String} (h1 : ¬ TwoSided bc) (hN : 2 ≤ s.Nx ∧ 2 ≤ s.Ny ∧ 2 ≤ s.Nz) {ax : ℕ} (hax : ax < 3) {side : Side} (habc : isAbc (faceName bc ax side) = true)
    {d i j k : ℕ} (hd : d < 3) (hi : i < s.Nx) (hj : j < s.Ny) (hk : k < s.Nz) (hon : OnFace s.Nx s.Ny s.Nz ax side i j k)
    (hlast : ∀ b < 3, ∀ t, isAbc (faceName bc b t) = true → OnFace s.Nx s.Ny s.Nz b t i j k → faceRank b t ≤ faceRank ax side) {v w : Vec K} {X : Fld K}
    (hX : updateAbc bc (getAbc true bc (s.fld v)) (s.fld w) = .ok X) : s.cellOf X.array d i j k = layer (s.fld v) ax (storedLayer (s.fld v) ax side) d i j k := by
  obtain ⟨f', r1, r2, r3, r4, r5⟩ := updateAbc_gpu h1 (f0 := s.fld v) faceOrder (by decide) (f := s.fld w) rfl rfl rfl hN
  unfold updateAbc at hX
  rw [r1] at hX; cases hX
  unfold Solver.cellOf
  rw [← fld_array r2 r3 r4, r5 d i j k hd hi hj hk]
  have hon' : coord ax i j k = edgeOf (s.fld v) ax side := by cases side <;> exact hon
  have hl : ∀ b < 3, ∀ t, faceRank ax side < faceRank b t → ¬ (isAbc (faceName bc b t) = true ∧ coord b i j k = edgeOf (s.fld v) b t) := by
    intro b hb t hr h
    have := hlast b hb t h.1 (by cases t <;> exact h.2)
    omega
  have h3 : ax = 0 ∨ ax = 1 ∨ ax = 2 := by omega
  unfold faceOrder
  simp only [List.foldl_cons, List.foldl_nil]
  rcases h3 with h | h | h <;> subst h <;> cases side
  · rw [if_neg (hl 2 (by decide) .hi (by decide)), if_neg (hl 1 (by decide) .hi (by decide)), if_neg (hl 0 (by decide) .hi (by decide)),
      if_neg (hl 2 (by decide) .lo (by decide)), if_neg (hl 1 (by decide) .lo (by decide)), if_pos ⟨habc, hon'⟩]
  · rw [if_neg (hl 2 (by decide) .hi (by decide)), if_neg (hl 1 (by decide) .hi (by decide)), if_pos ⟨habc, hon'⟩]
  · rw [if_neg (hl 2 (by decide) .hi (by decide)), if_neg (hl 1 (by decide) .hi (by decide)), if_neg (hl 0 (by decide) .hi (by decide)),
      if_neg (hl 2 (by decide) .lo (by decide)), if_pos ⟨habc, hon'⟩]
  · rw [if_neg (hl 2 (by decide) .hi (by decide)), if_pos ⟨habc, hon'⟩]
  · rw [if_neg (hl 2 (by decide) .hi (by decide)), if_neg (hl 1 (by decide) .hi (by decide)), if_neg (hl 0 (by decide) .hi (by decide)),
      if_pos ⟨habc, hon'⟩]
  · rw [if_pos ⟨habc, hon'⟩]

/-- **C38 (GPU, first step).** On the GPU, after the *first* step of a run the layer of an ABC face holds the layer the fields had when the run was called (the electric field from the electric field, the
magnetic from the magnetic): there being no older one, the claim's "two steps before" is replaced by "the start". -/
theorem C38_gpu_first {s : Solver K} {bc : Faces String} (h1 : ¬ TwoSided bc) (hN : 2 ≤ s.Nx ∧ 2 ≤ s.Ny ∧ 2 ≤ s.Nz) {a : EmArgs K} (hgpu : a.gpu = true) (hcb : a.callback = none) {st : State K}
    {L1 : Loop K} (hL1 : emsolve s bc a 1 st = .ok L1) {ax : ℕ} (hax : ax < 3) {side : Side} (habc : isAbc (faceName bc ax side) = true) {d i j k : ℕ} (hd : d < 3) (hi : i < s.Nx) (hj : j < s.Ny)
    (hk : k < s.Nz) (hon : OnFace s.Nx s.Ny s.Nz ax side i j k)
    (hlast : ∀ b < 3, ∀ t, isAbc (faceName bc b t) = true → OnFace s.Nx s.Ny s.Nz b t i j k → faceRank b t ≤ faceRank ax side) :
    s.cellOf L1.st.E d i j k = layer (s.fld st.E) ax (storedLayer (s.fld st.E) ax side) d i j k ∧
      s.cellOf L1.st.H d i j k = layer (s.fld st.H) ax (storedLayer (s.fld st.H) ax side) d i j k := by
  have hany : anyFace isAbc bc = true := by
    have : ax = 0 ∨ ax = 1 ∨ ax = 2 := by omega
    unfold anyFace
    rcases this with h | h | h <;> subst h <;> cases side <;>
      simp only [faceName, Faces.lo, Faces.hi, one_ne_zero, if_true, if_false, OfNat.ofNat_ne_zero, OfNat.ofNat_ne_one] at habc <;> simp [habc]
  obtain ⟨L0, p0, q0⟩ := emsolve_succ (show emsolve s bc a (0 + 1) st = .ok L1 from hL1)
  obtain ⟨E, H, u1, u2, u3, -, -, -, -⟩ := emBody_abc hany hcb q0
  have i1 : L0.E2 = getAbc a.gpu bc (s.fld st.E) := by cases p0; rfl
  have i2 : L0.H2 = getAbc a.gpu bc (s.fld st.H) := by cases p0; rfl
  rw [i1, hgpu] at u1
  rw [i2, hgpu] at u2
  rw [u3]
  exact ⟨gpu_layer h1 hN hax habc hd hi hj hk hon hlast u1, gpu_layer h1 hN hax habc hd hi hj hk hon hlast u2⟩

/-- **C38 (GPU, low faces, first step).** -/
theorem C38_gpu_low_first {s : Solver K} {bc : Faces String} (h1 : ¬ TwoSided bc) (hN : 2 ≤ s.Nx ∧ 2 ≤ s.Ny ∧ 2 ≤ s.Nz) {a : EmArgs K} (hgpu : a.gpu = true) (hcb : a.callback = none) {st : State K}
    {L1 : Loop K} (hL1 : emsolve s bc a 1 st = .ok L1) (h : isAbc (faceName bc 0 .lo) = true) (hy : isAbc (faceName bc 1 .lo) = false ∧ isAbc (faceName bc 1 .hi) = false)
    (hz : isAbc (faceName bc 2 .lo) = false ∧ isAbc (faceName bc 2 .hi) = false) {d j k : ℕ} (hd : d < 3) (hj : j < s.Ny) (hk : k < s.Nz) :
    s.cellOf L1.st.E d 0 j k = s.cellOf st.E d 1 j k ∧ s.cellOf L1.st.H d 0 j k = s.cellOf st.H d 1 j k := by
  refine C38_gpu_first h1 hN hgpu hcb hL1 (ax := 0) (by decide) h hd (by omega) hj hk rfl fun b hb t hbt _ => ?_
  have : b = 0 ∨ b = 1 ∨ b = 2 := by omega
  rcases this with rfl | rfl | rfl <;> cases t
  · exact le_rfl
  · exact absurd ⟨0, by decide, h, hbt⟩ h1
  · rw [hy.1] at hbt; cases hbt
  · rw [hy.2] at hbt; cases hbt
  · rw [hz.1] at hbt; cases hbt
  · rw [hz.2] at hbt; cases hbt

/-- There is nothing to save: every field asked for is a single letter (`"E"`, `"H"`, `"J"`) and no component is. -/
def NothingToSave (fields components : List String) : Prop := ∀ f ∈ fields, f.length = 1 ∧ components = []

theorem saveNames_nil {fields components : List String} : saveNames fields components = [] ↔ NothingToSave fields components := by
  unfold saveNames NothingToSave
  rw [List.flatMap_eq_nil_iff]
  refine forall_congr' fun f => forall_congr' fun _ => ?_
  split_ifs with h
  · rw [List.map_eq_nil_iff]
    exact (and_iff_right h).symm
  · exact ⟨fun e => (by cases e), fun e => absurd e.1 h⟩

/-- **C40 (exactly when).** `save=True` raises `TypeError` exactly when there is anything to save; otherwise it is the run without saving. -/
theorem C40_exact (s : Solver K) (bc : Faces String) (a : EmArgs K) (fields components : List String) (Nt : ℕ) (st : State K) :
    (¬ NothingToSave fields components → emsolveSave s bc a true fields components Nt st = .error .typeError) ∧
      (NothingToSave fields components → emsolveSave s bc a true fields components Nt st = emsolve s bc a Nt st) := by
  refine ⟨fun h => C40_refuted s bc a (fun e => h (saveNames_nil.1 e)) Nt st, fun h => ?_⟩
  have := saveNames_nil.2 h
  unfold emsolveSave
  rw [this]
  rfl

example : NothingToSave ["E", "H"] [] ∧ ¬ NothingToSave ["E"] ["Abs"] := ⟨by unfold NothingToSave; decide, by unfold NothingToSave; decide⟩
example : isAbc (faceName bcAbcLo 0 .lo) = true ∧ isAbc (faceName bcAbcLo 1 .lo) = false ∧ isAbc (faceName bcAbcLo 1 .hi) = false ∧ isAbc (faceName bcAbcLo 2 .lo) = false ∧
    isAbc (faceName bcAbcLo 2 .hi) = false := by decide

/-- On the GPU the first step of a run with an absorbing face copies the layer next to it as it was at the start. -/
example : ∃ L, emsolve (sol2 bcAbcLo) bcAbcLo ⟨none, none, true⟩ 1 (stEH (delta 9) fun _ => 0) = .ok L ∧ (sol2 bcAbcLo).cellOf L.st.E 1 0 0 0 = 1 := by
  have hN : 2 ≤ (sol2 bcAbcLo).Nx ∧ 2 ≤ (sol2 bcAbcLo).Ny ∧ 2 ≤ (sol2 bcAbcLo).Nz := by decide
  obtain ⟨L, p, -⟩ := C38_completes notTwo_lo hN ⟨none, none, true⟩ 1 (stEH (delta 9) fun _ => 0)
  refine ⟨L, p, ?_⟩
  rw [(C38_gpu_low_first notTwo_lo hN rfl rfl p (by decide) ⟨by decide, by decide⟩ ⟨by decide, by decide⟩ (by decide) (by decide) (by decide)).1]
  rfl

end Sol
end Wakis
