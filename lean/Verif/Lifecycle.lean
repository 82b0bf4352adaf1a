import Verif.SolverBC2

/-!
# Checkpoints (C35) and edits of the material tensors (C36)

`wakis/solverFIT3D.py`: `save_state` / `load_state` (1239-1311), `update_tensors` (331-377),
`_attrcleanup` (1227-1237).
-/

namespace Wakis
namespace Sol
open Sparse Finset
variable {K : Type _} [Field K]

/-! ### Model: checkpoint file -/

/-- The datasets `E`, `H`, `J` of the file, each of length `len`. -/
structure Snap (K : Type _) where
  len : ℕ
  E : Vec K
  H : Vec K
  J : Vec K

/-- solverFIT3D.py:1259-1287 `save_state` without MPI: the flat arrays are written. -/
def saveState (s : Solver K) (st : State K) : Snap K := ⟨s.n3, st.E, st.H, st.J⟩

/-- solverFIT3D.py:1259-1287 `save_state` under MPI.  On the root, `create_dataset(data=H)` receives a
`Field`, which h5py cannot store (`TypeError`); on the other ranks `state` was never assigned when it is
closed or returned (`UnboundLocalError`). -/
def saveStateMpi (rank : ℕ) : Py (Snap K) := if rank = 0 then .error .typeError else .error .unboundLocalError

/-- solverFIT3D.py:1303-1307 `load_state`: `array[:] = data` needs equal lengths.  Nothing else is
restored, in particular not `step_0`. -/
def loadState (s : Solver K) (f : Snap K) (st : State K) : Py (State K) :=
  if f.len = s.n3 then .ok { st with E := f.E, H := f.H, J := f.J } else .error .valueError

/-! ### C35 -/

/-- **C35 (restore).** Loading a saved state into a solver of the same size restores E, H and J entry by
entry; a different size is refused. -/
theorem C35_restore (s s' : Solver K) (st st' : State K) :
    (s.n3 = s'.n3 → ∃ r, loadState s' (saveState s st) st' = .ok r ∧ r.E = st.E ∧ r.H = st.H ∧ r.J = st.J) ∧
    (s.n3 ≠ s'.n3 → loadState s' (saveState s st) st' = .error .valueError) :=
  ⟨fun h => ⟨_, if_pos h, rfl, rfl, rfl⟩, fun h => if_neg h⟩

/-- **C35 (resume, started solver).** Checkpoint after any history, let the solver run on through any
history containing at least one step (or resume a solver that has stepped before), load, and
continue: same run as without interruption. -/
theorem C35_resume_partial (s : Solver K) (st0 : State K) (pre post : List (Ev K)) (st' : State K)
    (h0 : (runEv s st0 pre).step0 = st'.step0) :
    ∃ r, loadState s (saveState s (runEv s st0 pre)) st' = .ok r ∧ runEv s r post = runEv s st0 (pre ++ post) := by
  refine ⟨_, if_pos rfl, ?_⟩
  unfold runEv
  rw [List.foldl_append]
  congr 1
  show State.mk _ _ _ st'.step0 = _
  rw [← h0]
  rfl

/-- The flag is down after any history with a step. -/
theorem step0_after (s : Solver K) (st : State K) (evs : List (Ev K)) (h : Ev.step ∈ evs ∨ st.step0 = false) :
    (runEv s st evs).step0 = false := by
  induction evs generalizing st with
  | nil => simpa [runEv] using h
  | cons e es ih =>
    refine ih (event s st e) ?_
    have hstep : ∀ t : State K, (oneStep s t).step0 = false := by
      intro t; unfold oneStep
      cases ht : t.step0
      · exact ht
      · rfl
    cases e with
    | step => exact .inr (hstep st)
    | write f n v =>
      rcases h with h | h
      · rcases List.mem_cons.1 h with h | h
        · cases h
        · exact .inl h
      · right; cases f <;> exact h

/-- The full claim for one set-up: resuming in a freshly constructed identical solver continues the run. -/
def ResumesFresh (s : Solver K) (st0 : State K) (pre post : List (Ev K)) : Prop :=
  ∀ r, loadState s (saveState s (runEv s st0 pre)) initState = .ok r →
    ∀ n < s.n3, (runEv s r post).E n = (runEv s st0 (pre ++ post)).E n ∧ (runEv s r post).H n = (runEv s st0 (pre ++ post)).H n ∧
      (runEv s r post).J n = (runEv s st0 (pre ++ post)).J n

section
variable (g : Grid.Geom K) (bc : Faces String) (ieps imu sigma : Vec K) (dt : K) (uc : Bool)

/-- Tangential H and normal E, J vanish in the last layer of every axis; tangential E, J vanish on PEC faces. -/
structure Quiet (st : State K) : Prop where
  H : ∀ a c i j k, a < 3 → c < 3 → a ≠ c → i < g.Nx → j < g.Ny → k < g.Nz → OnFace g.Nx g.Ny g.Nz a .hi i j k →
    st.H (pos g.Nx g.Ny g.Nz c i j k) = 0
  E : ∀ c i j k, c < 3 → i < g.Nx → j < g.Ny → k < g.Nz → OnFace g.Nx g.Ny g.Nz c .hi i j k →
    st.E (pos g.Nx g.Ny g.Nz c i j k) = 0 ∧ st.J (pos g.Nx g.Ny g.Nz c i j k) = 0
  pecE : PecClean g bc st.E
  pecJ : PecClean g bc st.J

/-- The event assigns nothing in the last layers (tangential H, normal E and J) and no tangential E or J of a
PEC face. -/
def Ev.Inside (e : Ev K) : Prop := e.KeepsPec g bc ∧
  (∀ a c i j k, a < 3 → c < 3 → a ≠ c → i < g.Nx → j < g.Ny → k < g.Nz → OnFace g.Nx g.Ny g.Nz a .hi i j k →
    e.NotHAt (pos g.Nx g.Ny g.Nz c i j k)) ∧
  (∀ c i j k, c < 3 → i < g.Nx → j < g.Ny → k < g.Nz → OnFace g.Nx g.Ny g.Nz c .hi i j k →
    e.NotEJAt (pos g.Nx g.Ny g.Nz c i j k))

/-- Agreement of the used entries. -/
def SameOn (n : ℕ) (a b : State K) : Prop := ∀ r < n, a.E r = b.E r ∧ a.H r = b.H r ∧ a.J r = b.J r

theorem advance_same (s : Solver K) {a b : State K} (h : SameOn s.n3 a b) : SameOn s.n3 (advance s a) (advance s b) := by
  have hH : ∀ r < s.n3, (advance s a).H r = (advance s b).H r := by
    intro r hr
    show a.H r - s.dt * mulVec s.n3 s.M1 a.E r = b.H r - s.dt * mulVec s.n3 s.M1 b.E r
    rw [(h r hr).2.1, mulVec_congr (fun _ _ => rfl) (fun q hq => (h q hq).1)]
  have hE : ∀ r < s.n3, (advance s a).E r = (advance s b).E r := by
    intro r hr
    show a.E r + s.dt * (mulVec s.n3 s.M2 (advance s a).H r - s.ieps r * a.J r) =
      b.E r + s.dt * (mulVec s.n3 s.M2 (advance s b).H r - s.ieps r * b.J r)
    rw [(h r hr).1, (h r hr).2.2, mulVec_congr (fun _ _ => rfl) hH]
  intro r hr
  refine ⟨hE r hr, hH r hr, ?_⟩
  show (if s.useConductivity then fun i => s.sigma i * (advance s a).E i else a.J) r =
    (if s.useConductivity then fun i => s.sigma i * (advance s b).E i else b.J) r
  split_ifs
  · simp only; rw [hE r hr]
  · exact (h r hr).2.2

variable {g bc}

theorem flat_decode {r : ℕ} (hr : r < 3 * (g.Nx * g.Ny * g.Nz)) :
    ∃ c i j k, c < 3 ∧ i < g.Nx ∧ j < g.Ny ∧ k < g.Nz ∧ r = pos g.Nx g.Ny g.Nz c i j k := by
  have hN : 0 < g.Nx * g.Ny * g.Nz := by omega
  obtain ⟨i, j, k, hi, hj, hk, he⟩ := pos_decode (Nat.mod_lt r hN)
  refine ⟨r / (g.Nx * g.Ny * g.Nz), i, j, k, ?_, hi, hj, hk, ?_⟩
  · rw [Nat.div_lt_iff_lt_mul hN]; exact hr
  · unfold pos; rw [← he, Nat.div_add_mod']

/-- In a quiet state zeroing the ghosts changes nothing. -/
theorem Quiet.ghosts {st : State K} (h : Quiet g bc st) (b : Bool) :
    SameOn (3 * (g.Nx * g.Ny * g.Nz)) { setGhostsTo0 (build g bc ieps imu sigma dt uc) st with step0 := b } st := by
  intro r hr
  obtain ⟨c, i, j, k, hc, hi, hj, hk, rfl⟩ := flat_decode hr
  refine ⟨?_, ?_, rfl⟩
  · show (ghostE ((build g bc ieps imu sigma dt uc).fld st.E)).at3 c i j k = _
    rw [ghostE_at3 (f := (build g bc ieps imu sigma dt uc).fld st.E) hi hj hk hc]
    split_ifs with hg
    · refine ((h.E c i j k hc hi hj hk ?_).1).symm
      rcases hg with ⟨rfl, h⟩ | ⟨rfl, h⟩ | ⟨rfl, h⟩ <;> exact h
    · rfl
  · show (ghostH ((build g bc ieps imu sigma dt uc).fld st.H)).at3 c i j k = _
    rw [ghostH_at3 (f := (build g bc ieps imu sigma dt uc).fld st.H) hi hj hk hc]
    split_ifs with hg
    · rcases hg with ⟨h1, h2⟩ | ⟨h1, h2⟩ | ⟨h1, h2⟩
      · exact (h.H 0 c i j k (by decide) hc (Ne.symm h1) hi hj hk h2).symm
      · exact (h.H 1 c i j k (by decide) hc (Ne.symm h1) hi hj hk h2).symm
      · exact (h.H 2 c i j k (by decide) hc (Ne.symm h1) hi hj hk h2).symm
    · rfl

theorem Quiet.congr {a b : State K} (hs : SameOn (3 * (g.Nx * g.Ny * g.Nz)) a b) (h : Quiet g bc b) : Quiet g bc a := by
  refine ⟨?_, ?_, ?_, ?_⟩
  · intro x c i j k hx hc hn hi hj hk hf
    rw [(hs _ (pos_lt hc hi hj hk)).2.1]; exact h.H x c i j k hx hc hn hi hj hk hf
  · intro c i j k hc hi hj hk hf
    rw [(hs _ (pos_lt hc hi hj hk)).1, (hs _ (pos_lt hc hi hj hk)).2.2]; exact h.E c i j k hc hi hj hk hf
  · intro x s c i j k hx hc hn hi hj hk hf hp
    rw [(hs _ (pos_lt hc hi hj hk)).1]; exact h.pecE x s c i j k hx hc hn hi hj hk hf hp
  · intro x s c i j k hx hc hn hi hj hk hf hp
    rw [(hs _ (pos_lt hc hi hj hk)).2.2]; exact h.pecJ x s c i j k hx hc hn hi hj hk hf hp

theorem closed_no_pmc (h : ∀ a s, a < 3 → isPec (faceName bc a s) = true) : anyFace isPmcAny bc = false := by
  have key : ∀ t : String, isPec t = true → isPmcAny t = false := by
    intro t ht
    simp only [isPec, isPmcAny, Bool.or_eq_true, decide_eq_true_eq] at ht ⊢
    rcases ht with (ht | ht) | ht <;> rw [ht] <;> decide
  have e : ∀ a s, a < 3 → isPmcAny (faceName bc a s) = false := fun a s ha => key _ (h a s ha)
  have a := e 0 .lo (by decide); have b := e 1 .lo (by decide); have c := e 2 .lo (by decide)
  have a' := e 0 .hi (by decide); have b' := e 1 .hi (by decide); have c' := e 2 .hi (by decide)
  simp only [faceName, Faces.lo, Faces.hi] at a b c a' b' c'
  simp only [if_true, if_neg (show ¬ (1 : ℕ) = 0 by decide), if_neg (show ¬ (2 : ℕ) = 0 by decide), if_neg (show ¬ (2 : ℕ) = 1 by decide)] at a b c a' b' c'
  simp [anyFace, a, b, c, a', b', c']

/-- A step of the closed PEC box keeps quiet states quiet. -/
theorem Quiet.advance (hpec : ∀ a s, a < 3 → isPec (faceName bc a s) = true) {st : State K} (h : Quiet g bc st) (hst : st.step0 = false) :
    Quiet g bc (advance (build g bc ieps imu sigma dt uc) st) := by
  have hone := oneStep_started (build g bc ieps imu sigma dt uc) st hst
  have hpmc := closed_no_pmc hpec
  -- the electric field vanishes in the last layers altogether
  have hlast : ∀ a c i j k, a < 3 → c < 3 → coord a g.Nx g.Ny g.Nz - 1 ≤ coord a i j k →
      view0 g.Nx g.Ny g.Nz (fun q => g.L.array q * st.E q) c i j k = 0 := by
    intro a c i j k ha hc hl
    unfold view0
    split_ifs with hin
    · have hon : OnFace g.Nx g.Ny g.Nz a .hi i j k := by
        have : a = 0 ∨ a = 1 ∨ a = 2 := by omega
        rcases this with rfl | rfl | rfl <;> simp only [OnFace, coord] at hl ⊢ <;> simp at hl ⊢ <;> omega
      by_cases hac : a = c
      · subst hac; simp only [(h.E a i j k hc hin.1 hin.2.1 hin.2.2 hon).1, mul_zero]
      · simp only [h.pecE a .hi c i j k ha hc hac hin.1 hin.2.1 hin.2.2 hon (hpec a .hi ha), mul_zero]
    · rfl
  have newH : ∀ a c i j k, a < 3 → c < 3 → a ≠ c → i < g.Nx → j < g.Ny → k < g.Nz → OnFace g.Nx g.Ny g.Nz a .hi i j k →
      (Sol.advance (build g bc ieps imu sigma dt uc) st).H (pos g.Nx g.Ny g.Nz c i j k) = 0 := by
    intro a c i j k ha hc hac hi hj hk hon
    have hu := C25_H_update g bc ieps imu sigma dt uc (hpec 0 .lo (by decide)) (hpec 1 .lo (by decide)) hpmc st hst h.pecE hc hi hj hk
    rw [hone] at hu
    rw [hu, h.H a c i j k ha hc hac hi hj hk hon]
    have z : ∀ c' i' j' k', c' < 3 → coord a i j k ≤ coord a i' j' k' →
        view0 g.Nx g.Ny g.Nz (fun q => g.L.array q * st.E q) c' i' j' k' = 0 := by
      intro c' i' j' k' hc' hle
      refine hlast a c' i' j' k' ha hc' ?_
      have : coord a i j k = coord a g.Nx g.Ny g.Nz - 1 := hon
      omega
    have hcirc : circ (view0 g.Nx g.Ny g.Nz fun q => g.L.array q * st.E q) c i j k = 0 := by
      have : a = 0 ∨ a = 1 ∨ a = 2 := by omega
      unfold circ
      rw [z 2 i (j + 1) k (by decide) (by rcases this with rfl | rfl | rfl <;> simp [coord]),
        z 2 i j k (by decide) (le_refl _), z 1 i j (k + 1) (by decide) (by rcases this with rfl | rfl | rfl <;> simp [coord]),
        z 1 i j k (by decide) (le_refl _), z 0 i j (k + 1) (by decide) (by rcases this with rfl | rfl | rfl <;> simp [coord]),
        z 0 i j k (by decide) (le_refl _), z 2 (i + 1) j k (by decide) (by rcases this with rfl | rfl | rfl <;> simp [coord]),
        z 1 (i + 1) j k (by decide) (by rcases this with rfl | rfl | rfl <;> simp [coord]),
        z 0 i (j + 1) k (by decide) (by rcases this with rfl | rfl | rfl <;> simp [coord])]
      simp
    rw [hcirc]; ring
  have one : ∀ r < 3 * (g.Nx * g.Ny * g.Nz), colMask g bc r = 0 → st.E r = 0 → st.J r = 0 →
      (Sol.advance (build g bc ieps imu sigma dt uc) st).E r = 0 ∧ (Sol.advance (build g bc ieps imu sigma dt uc) st).J r = 0 := by
    intro r hr hm h1 h2
    have := masked_E_zero g bc ieps imu sigma dt uc hr hm st ⟨h1, h2⟩ [.step] (fun e he => by
      rw [List.mem_singleton.1 he]; trivial)
    simp only [runEv, List.foldl_cons, List.foldl_nil, event, hone] at this
    exact this
  have mask : ∀ a s c i j k, a < 3 → c < 3 → a ≠ c → i < g.Nx → j < g.Ny → k < g.Nz → OnFace g.Nx g.Ny g.Nz a s i j k →
      colMask g bc (pos g.Nx g.Ny g.Nz c i j k) = 0 := by
    intro a s c i j k ha hc hac hi hj hk hon
    rw [colMask_pos g bc hc hi hj hk]
    refine maskVal_zero _ _ _ _ hc ha hac hon fun a' ha3 hac' => ⟨fun h0 => ?_, fun h1 => ?_⟩
    · rw [pecFaces_lo]; exact if_pos (hpec a' .lo ha3)
    · rw [pecFaces_hi]; exact if_pos (hpec a' .hi ha3)
  have hJ : ∀ r, (Sol.advance (build g bc ieps imu sigma dt uc) st).E r = 0 → st.J r = 0 →
      (Sol.advance (build g bc ieps imu sigma dt uc) st).J r = 0 := by
    intro r h1 h2
    have e : (Sol.advance (build g bc ieps imu sigma dt uc) st).J = if (build g bc ieps imu sigma dt uc).useConductivity then
      fun i => sigma i * (Sol.advance (build g bc ieps imu sigma dt uc) st).E i else st.J := rfl
    rw [e]
    split_ifs
    · simp only; rw [h1, mul_zero]
    · exact h2
  refine ⟨newH, ?_, ?_, ?_⟩
  · intro c i j k hc hi hj hk hon
    obtain ⟨h1, h2⟩ := h.E c i j k hc hi hj hk hon
    by_cases hfree : ∃ a s, a < 3 ∧ a ≠ c ∧ OnFace g.Nx g.Ny g.Nz a s i j k
    · obtain ⟨a, s, ha, hac, ho⟩ := hfree
      exact one _ (pos_lt hc hi hj hk) (mask a s c i j k ha hc hac hi hj hk ho) h1 h2
    · have hu := C25_E_update g bc ieps imu sigma dt uc (hpec 0 .lo (by decide)) (hpec 1 .lo (by decide)) (hpec 2 .lo (by decide))
        hpmc st hst hc hi hj hk (fun a s ha hac ho => absurd ⟨a, s, ha, hac, ho⟩ hfree)
      rw [hone] at hu
      have hE : (Sol.advance (build g bc ieps imu sigma dt uc) st).E (pos g.Nx g.Ny g.Nz c i j k) = 0 := by
        rw [hu, h1, h2]
        have z : ∀ c' i' j' k', c' < 3 → c' ≠ c → i' ≤ i → j' ≤ j → k' ≤ k → coord c i' j' k' = coord c i j k →
            view3 g.Nx g.Ny g.Nz (fun q => (applyBC g bc (C0 g.Nx g.Ny g.Nz)).tL.array q *
              (Sol.advance (build g bc ieps imu sigma dt uc) st).H q) c' i' j' k' = 0 := by
          intro c' i' j' k' hc' hne hi' hj' hk' he
          show _ * (Sol.advance (build g bc ieps imu sigma dt uc) st).H (pos g.Nx g.Ny g.Nz c' i' j' k') = 0
          rw [newH c c' i' j' k' hc hc' (Ne.symm hne) (by omega) (by omega) (by omega) (he.trans hon), mul_zero]
        have hcc : cocirc (view3 g.Nx g.Ny g.Nz fun q => (applyBC g bc (C0 g.Nx g.Ny g.Nz)).tL.array q *
              (Sol.advance (build g bc ieps imu sigma dt uc) st).H q) c i j k = 0 := by
          have : c = 0 ∨ c = 1 ∨ c = 2 := by omega
          unfold cocirc
          rcases this with rfl | rfl | rfl
          · rw [if_pos rfl, z 2 i j k (by decide) (by decide) (le_refl _) (le_refl _) (le_refl _) rfl,
              z 2 i (j - 1) k (by decide) (by decide) (le_refl _) (by omega) (le_refl _) rfl,
              z 1 i j k (by decide) (by decide) (le_refl _) (le_refl _) (le_refl _) rfl,
              z 1 i j (k - 1) (by decide) (by decide) (le_refl _) (le_refl _) (by omega) rfl]
            ring
          · rw [if_neg (by decide), if_pos rfl, z 0 i j k (by decide) (by decide) (le_refl _) (le_refl _) (le_refl _) rfl,
              z 0 i j (k - 1) (by decide) (by decide) (le_refl _) (le_refl _) (by omega) rfl,
              z 2 i j k (by decide) (by decide) (le_refl _) (le_refl _) (le_refl _) rfl,
              z 2 (i - 1) j k (by decide) (by decide) (by omega) (le_refl _) (le_refl _) rfl]
            ring
          · rw [if_neg (by decide), if_neg (by decide), z 1 i j k (by decide) (by decide) (le_refl _) (le_refl _) (le_refl _) rfl,
              z 1 (i - 1) j k (by decide) (by decide) (by omega) (le_refl _) (le_refl _) rfl,
              z 0 i j k (by decide) (by decide) (le_refl _) (le_refl _) (le_refl _) rfl,
              z 0 i (j - 1) k (by decide) (by decide) (le_refl _) (by omega) (le_refl _) rfl]
            ring
        rw [hcc]; ring
      exact ⟨hE, hJ _ hE h2⟩
  · intro a s c i j k ha hc hac hi hj hk hon hp
    exact (one _ (pos_lt hc hi hj hk) (mask a s c i j k ha hc hac hi hj hk hon) (h.pecE a s c i j k ha hc hac hi hj hk hon hp)
      (h.pecJ a s c i j k ha hc hac hi hj hk hon hp)).1
  · intro a s c i j k ha hc hac hi hj hk hon hp
    exact (one _ (pos_lt hc hi hj hk) (mask a s c i j k ha hc hac hi hj hk hon) (h.pecE a s c i j k ha hc hac hi hj hk hon hp)
      (h.pecJ a s c i j k ha hc hac hi hj hk hon hp)).2

/-- One step from two quiet states that agree, whatever their flags. -/
theorem Quiet.step (hpec : ∀ a s, a < 3 → isPec (faceName bc a s) = true) {a b : State K} (hs : SameOn (3 * (g.Nx * g.Ny * g.Nz)) a b)
    (h : Quiet g bc b) : SameOn (3 * (g.Nx * g.Ny * g.Nz)) (oneStep (build g bc ieps imu sigma dt uc) a) (oneStep (build g bc ieps imu sigma dt uc) b) ∧
      Quiet g bc (oneStep (build g bc ieps imu sigma dt uc) b) := by
  have key : ∀ t : State K, SameOn (3 * (g.Nx * g.Ny * g.Nz)) t b →
      SameOn (3 * (g.Nx * g.Ny * g.Nz)) (oneStep (build g bc ieps imu sigma dt uc) t) (Sol.advance (build g bc ieps imu sigma dt uc) { b with step0 := false }) := by
    intro t ht
    unfold oneStep
    split_ifs
    · refine advance_same (build g bc ieps imu sigma dt uc) fun r hr => ?_
      have := (h.congr ht).ghosts (g := g) (bc := bc) ieps imu sigma dt uc false r hr
      have h2 := ht r hr
      exact ⟨this.1.trans h2.1, this.2.1.trans h2.2.1, this.2.2.trans h2.2.2⟩
    · exact advance_same (build g bc ieps imu sigma dt uc) (b := { b with step0 := false }) ht
  have hb := key b (fun _ _ => ⟨rfl, rfl, rfl⟩)
  refine ⟨fun r hr => ?_, ?_⟩
  · have := key a hs r hr
    have h2 := hb r hr
    exact ⟨this.1.trans h2.1.symm, this.2.1.trans h2.2.1.symm, this.2.2.trans h2.2.2.symm⟩
  · exact (Quiet.advance ieps imu sigma dt uc hpec (st := { b with step0 := false }) ⟨h.H, h.E, h.pecE, h.pecJ⟩ rfl).congr hb

theorem Quiet.write {a b : State K} (s : Solver K) (hs : SameOn (3 * (g.Nx * g.Ny * g.Nz)) a b) (h : Quiet g bc b) {f : Which} {n : ℕ} {v : K}
    (he : (Ev.write f n v).Inside g bc) :
    SameOn (3 * (g.Nx * g.Ny * g.Nz)) (event s a (.write f n v)) (event s b (.write f n v)) ∧ Quiet g bc (event s b (.write f n v)) := by
  obtain ⟨e1, e2, e3⟩ := he
  constructor
  · intro r hr
    obtain ⟨h1, h2, h3⟩ := hs r hr
    cases f <;> refine ⟨?_, ?_, ?_⟩ <;> simp only [event] <;> first | assumption | (unfold Function.update; split_ifs <;> first | rfl | assumption)
  · cases f with
    | E =>
      refine ⟨h.H, ?_, ?_, h.pecJ⟩
      · intro c i j k hc hi hj hk hon
        exact ⟨(Function.update_of_ne (Ne.symm (e3 c i j k hc hi hj hk hon)) _ _).trans (h.E c i j k hc hi hj hk hon).1, (h.E c i j k hc hi hj hk hon).2⟩
      · intro a s c i j k ha hc hac hi hj hk hon hp
        exact (Function.update_of_ne (Ne.symm (e1 a s c i j k ha hc hac hi hj hk hon hp)) _ _).trans (h.pecE a s c i j k ha hc hac hi hj hk hon hp)
    | H =>
      refine ⟨?_, h.E, h.pecE, h.pecJ⟩
      intro a c i j k ha hc hac hi hj hk hon
      exact (Function.update_of_ne (Ne.symm (e2 a c i j k ha hc hac hi hj hk hon)) _ _).trans (h.H a c i j k ha hc hac hi hj hk hon)
    | J =>
      refine ⟨h.H, ?_, h.pecE, ?_⟩
      · intro c i j k hc hi hj hk hon
        exact ⟨(h.E c i j k hc hi hj hk hon).1, (Function.update_of_ne (Ne.symm (e3 c i j k hc hi hj hk hon)) _ _).trans (h.E c i j k hc hi hj hk hon).2⟩
      · intro a s c i j k ha hc hac hi hj hk hon hp
        exact (Function.update_of_ne (Ne.symm (e1 a s c i j k ha hc hac hi hj hk hon hp)) _ _).trans (h.pecJ a s c i j k ha hc hac hi hj hk hon hp)

theorem Quiet.run (hpec : ∀ a s, a < 3 → isPec (faceName bc a s) = true) (evs : List (Ev K)) (hev : ∀ e ∈ evs, e.Inside g bc) {a b : State K}
    (hs : SameOn (3 * (g.Nx * g.Ny * g.Nz)) a b) (h : Quiet g bc b) :
    SameOn (3 * (g.Nx * g.Ny * g.Nz)) (runEv (build g bc ieps imu sigma dt uc) a evs) (runEv (build g bc ieps imu sigma dt uc) b evs) ∧
      Quiet g bc (runEv (build g bc ieps imu sigma dt uc) b evs) := by
  induction evs generalizing a b with
  | nil => exact ⟨hs, h⟩
  | cons e es ih =>
    have he := hev e (List.mem_cons_self ..)
    have hes := fun e he => hev e (List.mem_cons_of_mem _ he)
    show SameOn _ (runEv _ (event _ a e) es) (runEv _ (event _ b e) es) ∧ Quiet g bc (runEv _ (event _ b e) es)
    cases e with
    | step => obtain ⟨h1, h2⟩ := Quiet.step ieps imu sigma dt uc hpec hs h; exact ih hes h1 h2
    | write f n v => obtain ⟨h1, h2⟩ := Quiet.write (build g bc ieps imu sigma dt uc) hs h he; exact ih hes h1 h2

variable (g bc)

/-- **C35 (resume in a fresh solver, closed box).** With six PEC faces, when the run was started from zero
fields and nothing assigns the outermost ghost entries, a checkpoint taken after any history and
loaded into a newly constructed identical solver continues the run exactly, for every later history.
Missing: other boundary types, where the first step of the new solver erases values,
`C35_refuted`. -/
theorem C35_resume_fresh_partial (hpec : ∀ a s, a < 3 → isPec (faceName bc a s) = true) (pre post : List (Ev K))
    (hpre : ∀ e ∈ pre, e.Inside g bc) (hpost : ∀ e ∈ post, e.Inside g bc) :
    ResumesFresh (build g bc ieps imu sigma dt uc) initState pre post := by
  intro r hr n hn
  have hq : Quiet g bc (initState : State K) := ⟨fun _ _ _ _ _ _ _ _ _ _ _ _ => rfl, fun _ _ _ _ _ _ _ _ _ => ⟨rfl, rfl⟩,
    fun _ _ _ _ _ _ _ _ _ _ _ _ _ _ => rfl, fun _ _ _ _ _ _ _ _ _ _ _ _ _ _ => rfl⟩
  have h1 := (Quiet.run ieps imu sigma dt uc hpec pre hpre (a := initState) (b := initState) (fun _ _ => ⟨rfl, rfl, rfl⟩) hq).2
  have e := hr
  unfold loadState saveState at e
  rw [if_pos rfl] at e
  have e := Except.ok.inj e
  have h2 := (Quiet.run ieps imu sigma dt uc hpec post hpost (a := r) (b := runEv (build g bc ieps imu sigma dt uc) initState pre)
    (fun q _ => by rw [← e]; exact ⟨rfl, rfl, rfl⟩) h1).1 n hn
  have e3 : runEv (build g bc ieps imu sigma dt uc) initState (pre ++ post) =
    runEv (build g bc ieps imu sigma dt uc) (runEv (build g bc ieps imu sigma dt uc) initState pre) post := List.foldl_append
  rw [e3]
  exact h2

end

omit [Field K] in
/-- **C35 (MPI).** Under MPI `save_state` fails on every rank. -/
theorem C35_mpi_refuted (rank : ℕ) : ∃ e, (saveStateMpi rank : Py (Snap K)) = .error e := by
  unfold saveStateMpi; split_ifs <;> exact ⟨_, rfl⟩

/-! ### The hypotheses are met -/

/-- All faces PEC. -/
def bcPec : Faces String := ⟨"pec", "PEC", "electric", "pec", "pml", "Pec"⟩

theorem bcPec_all : ∀ a s, a < 3 → isPec (faceName bcPec a s) = true := by
  intro a s ha
  have : a = 0 ∨ a = 1 ∨ a = 2 := by omega
  rcases this with rfl | rfl | rfl <;> cases s <;> decide

set_option synthInstance.maxSize 2000 in
set_option synthInstance.maxHeartbeats 200000 in
theorem centre_inside1 : ∀ a < 3, ∀ c < 3, ∀ i < 3, ∀ j < 3, ∀ k < 3, a ≠ c →
    (coord a i j k = 0 ∨ coord a i j k = 2) → pos 3 3 3 2 1 1 1 ≠ pos 3 3 3 c i j k := by decide +kernel
theorem centre_inside2 : ∀ c < 3, ∀ i < 3, ∀ j < 3, ∀ k < 3, coord c i j k = 2 → pos 3 3 3 2 1 1 1 ≠ pos 3 3 3 c i j k := by
  decide +kernel
theorem onface3 {a i j k : ℕ} {s : Side} (ha : a < 3) (h : OnFace 3 3 3 a s i j k) :
    (coord a i j k = 0 ∨ coord a i j k = 2) ∧ (s = .hi → coord a i j k = 2) := by
  have : a = 0 ∨ a = 1 ∨ a = 2 := by omega
  cases s
  · exact ⟨.inl h, fun h => by cases h⟩
  · have : coord a i j k = 2 := by rcases this with rfl | rfl | rfl <;> exact h
    exact ⟨.inr this, fun _ => this⟩

/-- Non-vacuity of `C35_resume_fresh_partial`: a 3×3×3 PEC box driven by a current in its centre. -/
example : (∀ a s, a < 3 → isPec (faceName bcPec a s) = true) ∧
    ∀ e ∈ [Ev.write .J (pos 3 3 3 2 1 1 1) (5 : ℚ), .step, .write .H (pos 3 3 3 2 1 1 1) 1, .step], e.Inside unit3 bcPec := by
  refine ⟨bcPec_all, ?_⟩
  have hJ : (Ev.write .J (pos 3 3 3 2 1 1 1) (5 : ℚ)).Inside unit3 bcPec := by
    refine ⟨fun a s c i j k ha hc hac hi hj hk hon _ => ?_, fun _ _ _ _ _ _ _ _ _ _ _ _ => trivial, fun c i j k hc hi hj hk hon => ?_⟩
    · exact centre_inside1 a ha c hc i hi j hj k hk hac (onface3 ha hon).1
    · exact centre_inside2 c hc i hi j hj k hk ((onface3 hc hon).2 rfl)
  have hH : (Ev.write .H (pos 3 3 3 2 1 1 1) (1 : ℚ)).Inside unit3 bcPec := by
    refine ⟨fun _ _ _ _ _ _ _ _ _ _ _ _ _ _ => trivial, fun a c i j k ha hc hac hi hj hk hon => ?_, fun _ _ _ _ _ _ _ _ _ => trivial⟩
    exact centre_inside1 a ha c hc i hi j hj k hk hac (onface3 ha hon).1
  have hs : (Ev.step : Ev ℚ).Inside unit3 bcPec :=
    ⟨fun _ _ _ _ _ _ _ _ _ _ _ _ _ _ => trivial, fun _ _ _ _ _ _ _ _ _ _ _ _ => trivial, fun _ _ _ _ _ _ _ _ _ => trivial⟩
  intro e he
  simp only [List.mem_cons, List.not_mem_nil, or_false] at he
  rcases he with rfl | rfl | rfl | rfl
  exacts [hJ, hs, hH, hs]

/-- Non-vacuity of `C35_resume_partial`: any solver that has stepped before and after. -/
example (s : Solver ℚ) : (runEv s initState [.step]).step0 = (runEv s initState [.step, .step, .write .E 0 1]).step0 := by
  rw [step0_after s _ _ (.inl (by simp)), step0_after s _ _ (.inl (by simp))]

/-! ### C35: other boundary types -/

/-- Names that switch nothing on. -/
def bcOpen : Faces String := ⟨"open", "open", "open", "open", "open", "open"⟩

theorem open_H (E H : Vec ℚ) (b : Bool) {r : ℕ} (hr : r < 24) :
    (advance (sol2 bcOpen) ⟨E, H, fun _ => 0, b⟩).H r = H r - mulVec 24 (C0 2 2 2) E r := by
  unfold sol2
  rw [advance_H _ _ _ _ _ _ _ _ hr, unit2_iA r hr, one_mul, one_mul, rowMask_one _ _ (by decide), one_mul, one_mul]
  congr 1
  refine mulVec_congr (fun _ _ => rfl) fun q hq => ?_
  simp only [unit2_L q hq, one_mul, colMask_one _ _ (show anyFace isPec bcOpen = false by decide)]

theorem open_metric : (applyBC unit2 bcOpen (C0 2 2 2)).itA = unit2.itA ∧ (applyBC unit2 bcOpen (C0 2 2 2)).tL = unit2.tL := ⟨rfl, rfl⟩

theorem open_E (E H : Vec ℚ) (b : Bool) {r : ℕ} (hr : r < 24) :
    (advance (sol2 bcOpen) ⟨E, H, fun _ => 0, b⟩).E r =
      E r + unit2.itA.array r * mulVec 24 (transpose (C0 2 2 2)) (fun q => unit2.tL.array q * (H q - mulVec 24 (C0 2 2 2) E q)) r := by
  have h := advance_E unit2 bcOpen (fun _ => 1) (fun _ => 1) (fun _ => 0) 1 false ⟨E, H, fun _ => 0, b⟩ (r := r) hr
  have : (advance (sol2 bcOpen) ⟨E, H, fun _ => 0, b⟩).E r = _ := h
  rw [this, colMask_one _ _ (show anyFace isPec bcOpen = false by decide)]
  have e : mulVec (3 * (unit2.Nx * unit2.Ny * unit2.Nz)) (transpose (C0 unit2.Nx unit2.Ny unit2.Nz))
      (fun q => rowMask unit2 bcOpen q * ((applyBC unit2 bcOpen (C0 unit2.Nx unit2.Ny unit2.Nz)).tL.array q *
        (advance (build unit2 bcOpen (fun _ => 1) (fun _ => 1) (fun _ => 0) 1 false) ⟨E, H, fun _ => 0, b⟩).H q)) r =
      mulVec 24 (transpose (C0 2 2 2)) (fun q => unit2.tL.array q * (H q - mulVec 24 (C0 2 2 2) E q)) r := by
    refine mulVec_congr (fun _ _ => rfl) fun q hq => ?_
    rw [rowMask_one _ _ (by decide), one_mul]
    have := open_H E H b hq
    unfold sol2 at this
    rw [this]
    rfl
  rw [e]
  show E r + 1 * (1 * unit2.itA.array r * _ - 1 * 0) = _
  ring

/-- The run of the counterexample: E_z of cell (1,1,0) is set, one step, checkpoint, one more step. -/
def preC : List (Ev ℚ) := [.write .E 19 1, .step]

/-- E and H after the first step. -/
def h1C : Vec ℚ := fun r => 0 - mulVec 24 (C0 2 2 2) (delta 19) r
def e1C : Vec ℚ := fun r => delta 19 r + unit2.itA.array r * mulVec 24 (transpose (C0 2 2 2)) (fun q => unit2.tL.array q * h1C q) r

theorem ghostE_congr {s : Solver K} {a b : Vec K} {n : ℕ} (h : a n = b n) : (ghostE (s.fld a)).array n = (ghostE (s.fld b)).array n := by
  obtain ⟨Z, hZ⟩ := ghostE_mask (K := K) s.Nx s.Ny s.Nz
  simp only [Solver.fld, hZ, h]

theorem ghostH_congr {s : Solver K} {a b : Vec K} {n : ℕ} (h : a n = b n) : (ghostH (s.fld a)).array n = (ghostH (s.fld b)).array n := by
  obtain ⟨Z, hZ⟩ := ghostH_mask (K := K) s.Nx s.Ny s.Nz
  simp only [Solver.fld, hZ, h]

theorem ghosts_start : ∀ r < 24, (ghostE ((sol2 bcOpen).fld (Function.update (fun _ => 0) 19 1))).array r = delta 19 r ∧
    (ghostH ((sol2 bcOpen).fld (fun _ => 0))).array r = 0 := by
  show ∀ r < 24, (ghostE (⟨2, 2, 2, Function.update (fun _ => (0 : ℚ)) 19 1⟩ : Fld ℚ)).array r = delta 19 r ∧
    (ghostH (⟨2, 2, 2, fun _ => (0 : ℚ)⟩ : Fld ℚ)).array r = 0
  decide +kernel

theorem diffC : h1C 3 - mulVec 24 (C0 2 2 2) e1C 3 ≠
    (ghostH (⟨2, 2, 2, h1C⟩ : Fld ℚ)).array 3 - mulVec 24 (C0 2 2 2) (ghostE (⟨2, 2, 2, e1C⟩ : Fld ℚ)).array 3 := by
  decide +kernel

/-- **C35 (full claim refuted).** With non-PEC faces, in vacuum, from zero fields and without touching ghost
entries, resuming in a fresh solver gives a different run: `step_0` is not part of the checkpoint. -/
theorem C35_refuted : ¬ ResumesFresh (sol2 bcOpen) initState preC [.step] := by
  intro hall
  -- the state at the checkpoint
  have hmid : ∃ st : State ℚ, runEv (sol2 bcOpen) initState preC = st ∧ st.step0 = false ∧ (st.J = fun _ => 0) ∧
      (∀ r < 24, st.H r = h1C r) ∧ ∀ r < 24, st.E r = e1C r := by
    have hs : runEv (sol2 bcOpen) initState preC = advance (sol2 bcOpen)
        ⟨(ghostE ((sol2 bcOpen).fld (Function.update (fun _ => 0) 19 1))).array, (ghostH ((sol2 bcOpen).fld (fun _ => 0))).array, fun _ => 0, false⟩ := rfl
    refine ⟨_, hs, rfl, rfl, ?_, ?_⟩
    · intro r hr
      rw [open_H _ _ _ hr, (ghosts_start r hr).2]
      unfold h1C
      rw [mulVec_congr (fun _ _ => rfl) fun q hq => (ghosts_start q hq).1]
    · intro r hr
      rw [open_E _ _ _ hr, (ghosts_start r hr).1]
      unfold e1C
      congr 2
  obtain ⟨st, hst, h0, hJ, hH, hE⟩ := hmid
  have hres := (hall ⟨st.E, st.H, st.J, true⟩ (by rw [hst]; exact if_pos rfl) 3 (by decide)).2.1
  rw [show runEv (sol2 bcOpen) initState (preC ++ [.step]) = oneStep (sol2 bcOpen) (runEv (sol2 bcOpen) initState preC) from rfl, hst,
    oneStep_started _ _ h0] at hres
  have eU : (advance (sol2 bcOpen) st).H 3 = h1C 3 - mulVec 24 (C0 2 2 2) e1C 3 := by
    have : st = ⟨st.E, st.H, fun _ => 0, st.step0⟩ := by rw [← hJ]
    rw [this, open_H _ _ _ (by decide), hH 3 (by decide), mulVec_congr (fun _ _ => rfl) hE]
  have eR : (runEv (sol2 bcOpen) ⟨st.E, st.H, st.J, true⟩ [.step]).H 3 =
      (ghostH (⟨2, 2, 2, h1C⟩ : Fld ℚ)).array 3 - mulVec 24 (C0 2 2 2) (ghostE (⟨2, 2, 2, e1C⟩ : Fld ℚ)).array 3 := by
    have : runEv (sol2 bcOpen) ⟨st.E, st.H, st.J, true⟩ [.step] = advance (sol2 bcOpen)
      ⟨(ghostE ((sol2 bcOpen).fld st.E)).array, (ghostH ((sol2 bcOpen).fld st.H)).array, st.J, false⟩ := rfl
    rw [this, hJ, open_H _ _ _ (by decide), ghostH_congr (hH 3 (by decide)),
      mulVec_congr (fun _ _ => rfl) fun q hq => ghostE_congr (hE q hq)]
    rfl
  rw [eU, eR] at hres
  exact diffC hres.symm

/-! ### Model: the solver object with its materials -/

/-- The attributes of a `SolverFIT3D` object that time stepping and `update_tensors` use. -/
structure Obj (K : Type _) where
  /-- `tDsiDmuiDaC`, `itDaiDepsDstC`, the material fields `ieps` and `sigma` (read in every step), `dt`, `use_conductivity` -/
  s : Solver K
  /-- the material field `imu` -/
  imu : Vec K
  /-- diagonal matrices made from the material fields -/
  iDeps : Vec K
  iDmu : Vec K
  /-- the attributes removed by `_attrcleanup`: `L`/`Ds`, `iA`/`iDa`, `tL`/`tDs`, `itA`/`itDa`, `C`, if present -/
  ops : Option (Vec K × Vec K × Vec K × Vec K × Mat K)
  st : State K

/-- solverFIT3D.py:111-329: a new object. -/
def construct (g : Grid.Geom K) (bc : Faces String) (ieps imu sigma : Vec K) (dt : K) (uc : Bool) : Obj K :=
  let b := applyBC g bc (C0 g.Nx g.Ny g.Nz)
  { s := build g bc ieps imu sigma dt uc, imu, iDeps := ieps, iDmu := imu
    ops := some (g.L.toarray, g.iA.toarray, b.tL.toarray, b.itA.toarray, b.C), st := initState }

/-- What a user does with the object: steps, assignments to E, H, J, assignments to entries of a
material field, `update_tensors(tensor)`. -/
inductive Op (K : Type _)
  | ev (e : Ev K)
  | ieps (n : ℕ) (v : K)
  | imu (n : ℕ) (v : K)
  | sigma (n : ℕ) (v : K)
  | update (tensor : String)

/-- solverFIT3D.py:331-377 `update_tensors`: first the named diagonal matrices (an unknown name does nothing),
then both operators, then `step_0 = False`.  When the attributes are gone the products raise
`AttributeError` (after the first part has been done). -/
def updateTensors (o : Obj K) (tensor : String) : Obj K × Option PyErr :=
  let o := { o with iDeps := if tensor = "ieps" ∨ tensor = "all" then o.s.ieps else o.iDeps
                    iDmu := if tensor = "imu" ∨ tensor = "all" then o.imu else o.iDmu }
  match o.ops with
  | some (L, iA, tL, itA, C) =>
    ({ o with s := { o.s with M1 := opH o.s.n3 iA o.iDmu C L, M2 := opE o.s.n3 o.iDeps itA C tL }, st := { o.st with step0 := false } }, none)
  | none => (o, some .attributeError)

/-- One operation; the object after it and the exception raised, if any. -/
def exec (o : Obj K) : Op K → Obj K × Option PyErr
  | .ev .step => ({ o with st := oneStep o.s o.st, ops := if o.st.step0 then none else o.ops }, none)
  | .ev e => ({ o with st := event o.s o.st e }, none)
  | .ieps n v => ({ o with s := { o.s with ieps := Function.update o.s.ieps n v } }, none)
  | .imu n v => ({ o with imu := Function.update o.imu n v }, none)
  | .sigma n v => ({ o with s := { o.s with sigma := Function.update o.s.sigma n v } }, none)
  | .update t => updateTensors o t

/-- A history (exceptions are caught and the program goes on). -/
def execs (o : Obj K) (l : List (Op K)) : Obj K := l.foldl (fun o op => (exec o op).1) o

/-! ### C36 specification -/

/-- The value of a material array after the edits of a history. -/
def editedEps (a : Vec K) : List (Op K) → Vec K := List.foldl (fun a op => match op with | .ieps n v => Function.update a n v | _ => a) a
def editedMu (a : Vec K) : List (Op K) → Vec K := List.foldl (fun a op => match op with | .imu n v => Function.update a n v | _ => a) a
def editedSigma (a : Vec K) : List (Op K) → Vec K := List.foldl (fun a op => match op with | .sigma n v => Function.update a n v | _ => a) a

/-- `update_tensors` was called before the first time step of the history. -/
def UpdatedFirst : List (Op K) → Prop
  | [] => True
  | .ev .step :: _ => False
  | .update _ :: _ => True
  | _ :: l => UpdatedFirst l

/-- The full claim for one set-up: at any point of any history, `update_tensors("all")` succeeds, leaves E, H, J
alone, and from then on the object steps like a solver built from the edited materials. -/
def UpdateWorks (g : Grid.Geom K) (bc : Faces String) (ieps imu sigma : Vec K) (dt : K) (uc uc' : Bool) (l : List (Op K)) : Prop :=
  let o := execs (construct g bc ieps imu sigma dt uc) l
  (exec o (.update "all")).2 = none ∧
  ((exec o (.update "all")).1.st.E = o.st.E ∧ (exec o (.update "all")).1.st.H = o.st.H ∧ (exec o (.update "all")).1.st.J = o.st.J) ∧
  ∀ evs : List (Ev K), (execs (exec o (.update "all")).1 (evs.map .ev)).st =
    runEv (build g bc (editedEps ieps l) (editedMu imu l) (editedSigma sigma l) dt uc') (exec o (.update "all")).1.st evs

/-! ### C36 proofs -/

section
variable (g : Grid.Geom K) (bc : Faces String) (ieps imu sigma : Vec K) (dt : K) (uc : Bool)

/-- What is constant or tracks the edits. -/
structure Tracks (e m sg : Vec K) (o : Obj K) : Prop where
  eqE : o.s.ieps = e
  eqM : o.imu = m
  eqS : o.s.sigma = sg
  same : o.s = { build g bc ieps imu sigma dt uc with M1 := o.s.M1, M2 := o.s.M2, ieps := e, sigma := sg }
  ops : o.ops = none ∨ o.ops = (construct g bc ieps imu sigma dt uc).ops

theorem tracks (l : List (Op K)) {e m sg : Vec K} {o : Obj K} (h : Tracks g bc ieps imu sigma dt uc e m sg o) :
    Tracks g bc ieps imu sigma dt uc (editedEps e l) (editedMu m l) (editedSigma sg l) (execs o l) := by
  induction l generalizing e m sg o with
  | nil => exact h
  | cons op l ih =>
    obtain ⟨h1, h2, h3, h4, h5⟩ := h
    have hs : ∀ (X Y : Mat K) (a b : Vec K), { o.s with M1 := X, M2 := Y, ieps := a, sigma := b } =
        { build g bc ieps imu sigma dt uc with M1 := X, M2 := Y, ieps := a, sigma := b } := by
      intro X Y a b; rw [h4]
    show Tracks g bc ieps imu sigma dt uc (editedEps _ l) (editedMu _ l) (editedSigma _ l) (execs (exec o op).1 l)
    apply ih
    cases op with
    | ev ev =>
      cases ev with
      | step =>
        refine ⟨h1, h2, h3, h4, ?_⟩
        simp only [exec]
        split_ifs
        · exact .inl rfl
        · exact h5
      | write f n v => exact ⟨h1, h2, h3, h4, h5⟩
    | ieps n v =>
      refine ⟨by simp only [exec]; rw [h1], h2, h3, ?_, h5⟩
      simp only [exec]; rw [← hs, h1, ← h3]
    | imu n v => exact ⟨h1, by simp only [exec]; rw [h2], h3, h4, h5⟩
    | sigma n v =>
      refine ⟨h1, h2, by simp only [exec]; rw [h3], ?_, h5⟩
      simp only [exec]; rw [← hs, h3, ← h1]
    | update t =>
      rcases hops : o.ops with _ | ⟨L, iA, tL, itA, C⟩
      · have : exec o (.update t) = ({ o with iDeps := if t = "ieps" ∨ t = "all" then o.s.ieps else o.iDeps
                                              iDmu := if t = "imu" ∨ t = "all" then o.imu else o.iDmu }, some .attributeError) := by
          simp only [exec, updateTensors, hops]
        rw [this]
        exact ⟨h1, h2, h3, h4, h5⟩
      · simp only [exec, updateTensors, hops]
        refine ⟨h1, h2, h3, ?_, by rw [← hops]; exact h5⟩
        simp only
        rw [← hs, ← h1, ← h3]

/-- Once `update_tensors` has run before the first step, the operators are never deleted. -/
theorem kept (l : List (Op K)) {o : Obj K} (h0 : o.st.step0 = false) {x} (hx : o.ops = some x) :
    (execs o l).ops = some x := by
  induction l generalizing o with
  | nil => exact hx
  | cons op l ih =>
    show (execs (exec o op).1 l).ops = some x
    cases op with
    | ev ev =>
      cases ev with
      | step =>
        refine ih (o := (exec o (.ev .step)).1) ?_ (by simp only [exec, h0]; exact hx)
        simp only [exec]; rw [oneStep_started _ _ h0]; exact h0
      | write f n v => exact ih (by cases f <;> exact h0) hx
    | ieps n v => exact ih h0 hx
    | imu n v => exact ih h0 hx
    | sigma n v => exact ih h0 hx
    | update t =>
      obtain ⟨L, iA, tL, itA, C⟩ := x
      have : (exec o (.update t)).1.ops = some (L, iA, tL, itA, C) ∧ (exec o (.update t)).1.st.step0 = false := by
        simp only [exec, updateTensors, hx, and_self]
      exact ih this.2 this.1

theorem kept_first (l : List (Op K)) {o : Obj K} (h : UpdatedFirst l) {x} (hx : o.ops = some x) :
    (execs o l).ops = some x := by
  induction l generalizing o with
  | nil => exact hx
  | cons op l ih =>
    show (execs (exec o op).1 l).ops = some x
    cases op with
    | ev ev =>
      cases ev with
      | step => exact h.elim
      | write f n v => exact ih h hx
    | ieps n v => exact ih h hx
    | imu n v => exact ih h hx
    | sigma n v => exact ih h hx
    | update t =>
      obtain ⟨L, iA, tL, itA, C⟩ := x
      have : (exec o (.update t)).1.ops = some (L, iA, tL, itA, C) ∧ (exec o (.update t)).1.st.step0 = false := by
        simp only [exec, updateTensors, hx, and_self]
      exact kept l this.2 this.1

theorem execs_ev (o : Obj K) (evs : List (Ev K)) : (execs o (evs.map .ev)).st = runEv o.s o.st evs := by
  induction evs generalizing o with
  | nil => rfl
  | cons e es ih =>
    show (execs (exec o (.ev e)).1 (es.map .ev)).st = runEv o.s (event o.s o.st e) es
    rw [ih]
    cases e <;> rfl

/-- **C36 (partial).** If `update_tensors` was called (with any argument) before the first time step, or no step has
been made yet, then at every later point of the history `update_tensors("all")` succeeds, leaves E, H
and J alone, and from then on the object steps exactly like a solver built from the edited ieps, imu and
sigma - with the `use_conductivity` decision of the original construction.  Missing: objects that
stepped first (`C36_after_step`), sigma edits when no conductor existed at construction
(`C36_sigma_ignored`), and the ghost layers of the initial state (`C36_ghosts_refuted`). -/
theorem C36_update_partial (l : List (Op K)) (h : UpdatedFirst l) :
    UpdateWorks g bc ieps imu sigma dt uc uc l := by
  unfold UpdateWorks
  intro o
  have ht : Tracks g bc ieps imu sigma dt uc (editedEps ieps l) (editedMu imu l) (editedSigma sigma l) o :=
    tracks g bc ieps imu sigma dt uc l ⟨rfl, rfl, rfl, rfl, .inr rfl⟩
  have ho : o.ops = (construct g bc ieps imu sigma dt uc).ops := kept_first l h rfl
  obtain ⟨h1, h2, h3, h4, -⟩ := ht
  have hx : exec o (.update "all") = ({ o with
      iDeps := o.s.ieps, iDmu := o.imu,
      s := build g bc (editedEps ieps l) (editedMu imu l) (editedSigma sigma l) dt uc,
      st := { o.st with step0 := false } }, none) := by
    simp only [exec, updateTensors, ho, construct, or_true, if_true]
    congr 1
    rw [h1, h2, h4]
    rfl
  rw [hx]
  exact ⟨rfl, ⟨rfl, rfl, rfl⟩, fun evs => execs_ev _ evs⟩

/-- Specification: the permittivity the curl operator of E has been made with: the values (after the edits so far) at the last `update_tensors` that names it or `all`, those of the construction before that. -/
def usedEps (a : Vec K) (l : List (Op K)) : Vec K :=
  (l.foldl (fun p op => match op with | .ieps n v => (Function.update p.1 n v, p.2) | .update t => (p.1, if t = "ieps" ∨ t = "all" then p.1 else p.2) | _ => p) (a, a)).2

/-- The same for the permeability and the operator of H. -/
def usedMu (a : Vec K) (l : List (Op K)) : Vec K :=
  (l.foldl (fun p op => match op with | .imu n v => (Function.update p.1 n v, p.2) | .update t => (p.1, if t = "imu" ∨ t = "all" then p.1 else p.2) | _ => p) (a, a)).2

theorem exec_used (l : List (Op K)) {o : Obj K} {x} (hx : o.ops = some x) (h : UpdatedFirst l ∨ o.st.step0 = false) :
    let e := l.foldl (fun p op => match op with | .ieps n v => (Function.update p.1 n v, p.2) | .update t => (p.1, if t = "ieps" ∨ t = "all" then p.1 else p.2) | _ => p) (o.s.ieps, o.iDeps)
    let m := l.foldl (fun p op => match op with | .imu n v => (Function.update p.1 n v, p.2) | .update t => (p.1, if t = "imu" ∨ t = "all" then p.1 else p.2) | _ => p) (o.imu, o.iDmu)
    ((execs o l).s.ieps, (execs o l).iDeps) = e ∧ ((execs o l).imu, (execs o l).iDmu) = m := by
  induction l generalizing o with
  | nil => exact ⟨rfl, rfl⟩
  | cons op l ih =>
    intro e m
    show ((execs (exec o op).1 l).s.ieps, _) = e ∧ _ = m
    cases op with
    | ev ev =>
      cases ev with
      | step =>
        have h0 : o.st.step0 = false := h.resolve_left fun h => h
        refine ih (o := (exec o (.ev .step)).1) (by simp only [exec, h0]; exact hx) (.inr ?_)
        simp only [exec]; rw [oneStep_started _ _ h0]; exact h0
      | write f n v => exact ih (o := (exec o (.ev (.write f n v))).1) hx (h.imp id fun h0 => by cases f <;> exact h0)
    | ieps n v => exact ih (o := (exec o (.ieps n v)).1) hx h
    | imu n v => exact ih (o := (exec o (.imu n v)).1) hx h
    | sigma n v => exact ih (o := (exec o (.sigma n v)).1) hx h
    | update t =>
      obtain ⟨L, iA, tL, itA, C⟩ := x
      have hh : (exec o (.update t)).1.ops = some (L, iA, tL, itA, C) ∧ (exec o (.update t)).1.st.step0 = false ∧ (exec o (.update t)).1.s.ieps = o.s.ieps ∧ (exec o (.update t)).1.imu = o.imu ∧
          (exec o (.update t)).1.iDeps = (if t = "ieps" ∨ t = "all" then o.s.ieps else o.iDeps) ∧ (exec o (.update t)).1.iDmu = (if t = "imu" ∨ t = "all" then o.imu else o.iDmu) := by
        simp only [exec, updateTensors, hx, and_self]
      have := ih hh.1 (.inr hh.2.1)
      rw [hh.2.2.1, hh.2.2.2.1, hh.2.2.2.2.1, hh.2.2.2.2.2] at this
      exact this

/-- **C36 (named tensor, partial as `C36_update_partial`).** `update_tensors(t)` for any name `t`, at any point of a history that called it before the first step: it succeeds, leaves E, H and J alone, and afterwards the
object steps with the curl operators of a solver built from the permittivity at the last update that named it (or `all`) and the permeability at the last update that named that: naming one tensor
leaves the other as it was. -/
theorem C36_named_partial (l : List (Op K)) (h : UpdatedFirst l) (t : String) :
    let o := execs (construct g bc ieps imu sigma dt uc) l
    let o' := (exec o (.update t)).1
    let l' := l ++ [.update t]
    (exec o (.update t)).2 = none ∧ (o'.st.E = o.st.E ∧ o'.st.H = o.st.H ∧ o'.st.J = o.st.J) ∧
    ∀ evs : List (Ev K), (execs o' (evs.map .ev)).st =
      runEv { build g bc (usedEps ieps l') (usedMu imu l') (editedSigma sigma l) dt uc with ieps := editedEps ieps l } o'.st evs := by
  intro o o' l'
  have ht : Tracks g bc ieps imu sigma dt uc (editedEps ieps l) (editedMu imu l) (editedSigma sigma l) o :=
    tracks g bc ieps imu sigma dt uc l ⟨rfl, rfl, rfl, rfl, .inr rfl⟩
  have ho : o.ops = (construct g bc ieps imu sigma dt uc).ops := kept_first l h rfl
  have hu := exec_used (o := construct g bc ieps imu sigma dt uc) l rfl (.inl h)
  obtain ⟨h1, h2, h3, h4, -⟩ := ht
  have ue : usedEps ieps l' = if t = "ieps" ∨ t = "all" then o.s.ieps else o.iDeps := by
    unfold usedEps
    rw [List.foldl_append]
    have := hu.1
    change (o.s.ieps, o.iDeps) = List.foldl _ (ieps, ieps) l at this
    rw [← this]
    rfl
  have um : usedMu imu l' = if t = "imu" ∨ t = "all" then o.imu else o.iDmu := by
    unfold usedMu
    rw [List.foldl_append]
    have := hu.2
    change (o.imu, o.iDmu) = List.foldl _ (imu, imu) l at this
    rw [← this]
    rfl
  have hx : exec o (.update t) = ({ o with
      iDeps := usedEps ieps l', iDmu := usedMu imu l',
      s := { build g bc (usedEps ieps l') (usedMu imu l') (editedSigma sigma l) dt uc with ieps := editedEps ieps l },
      st := { o.st with step0 := false } }, none) := by
    rw [ue, um]
    simp only [exec, updateTensors, ho, construct]
    congr 2
    rw [h4]
    rfl
  show (exec o (.update t)).2 = none ∧ ((exec o (.update t)).1.st.E = _ ∧ (exec o (.update t)).1.st.H = _ ∧ (exec o (.update t)).1.st.J = _) ∧ ∀ evs : List (Ev K), (execs (exec o (.update t)).1 (evs.map .ev)).st = runEv _ (exec o (.update t)).1.st evs
  rw [hx]
  exact ⟨rfl, ⟨rfl, rfl, rfl⟩, fun evs => execs_ev _ evs⟩

/-- Editing both fields and naming only the permittivity: the permeability used is the original one. -/
example : UpdatedFirst [Op.ieps 0 (2 : ℚ), .imu 0 3] ∧ usedEps (fun _ => (1 : ℚ)) ([Op.ieps 0 2, .imu 0 3] ++ [.update "ieps"]) 0 = 2 ∧ usedMu (fun _ => (1 : ℚ)) ([Op.ieps 0 2, .imu 0 3] ++ [.update "ieps"]) 0 = 1 := by
  refine ⟨trivial, ?_, ?_⟩ <;> simp [usedEps, usedMu]

/-- **C36 (after a step).** If the history makes a step before any `update_tensors`, every later call raises
`AttributeError` and leaves the step operators as they were. -/
theorem C36_after_step (l1 l2 : List (Op K)) (h : ∀ op ∈ l1, ∀ t, op ≠ .update t) (t : String) :
    let o := execs (construct g bc ieps imu sigma dt uc) (l1 ++ .ev .step :: l2)
    (exec o (.update t)).2 = some .attributeError ∧ (exec o (.update t)).1.s = o.s ∧
      o.s.M1 = (build g bc ieps imu sigma dt uc).M1 ∧ o.s.M2 = (build g bc ieps imu sigma dt uc).M2 := by
  intro o
  -- after `l1` the flag is still up or the operators are gone
  have main : ∀ (l : List (Op K)) (o : Obj K), o.ops = none → (execs o l).ops = none ∧ (execs o l).s.M1 = o.s.M1 ∧ (execs o l).s.M2 = o.s.M2 := by
    intro l
    induction l with
    | nil => intro o ho; exact ⟨ho, rfl, rfl⟩
    | cons op l ih =>
      intro o ho
      have hstep : (exec o op).1.ops = none ∧ (exec o op).1.s.M1 = o.s.M1 ∧ (exec o op).1.s.M2 = o.s.M2 := by
        cases op with
        | ev e => cases e <;> simp [exec, ho]
        | ieps n v => exact ⟨ho, rfl, rfl⟩
        | imu n v => exact ⟨ho, rfl, rfl⟩
        | sigma n v => exact ⟨ho, rfl, rfl⟩
        | update t => simp [exec, updateTensors, ho]
      obtain ⟨a, b, c⟩ := ih (exec o op).1 hstep.1
      exact ⟨a, b.trans hstep.2.1, c.trans hstep.2.2⟩
  have pre : ∀ (l : List (Op K)) (o : Obj K), (∀ op ∈ l, ∀ t, op ≠ .update t) → (o.ops = none ∨ o.st.step0 = true) →
      ((execs o l).ops = none ∨ (execs o l).st.step0 = true) ∧ (execs o l).s.M1 = o.s.M1 ∧ (execs o l).s.M2 = o.s.M2 := by
    intro l
    induction l with
    | nil => intro o _ ho; exact ⟨ho, rfl, rfl⟩
    | cons op l ih =>
      intro o hl ho
      have hop := hl op (List.mem_cons_self ..)
      have hstep : ((exec o op).1.ops = none ∨ (exec o op).1.st.step0 = true) ∧ (exec o op).1.s.M1 = o.s.M1 ∧ (exec o op).1.s.M2 = o.s.M2 := by
        cases op with
        | ev e =>
          cases e with
          | step =>
            refine ⟨.inl ?_, rfl, rfl⟩
            simp only [exec]
            rcases ho with ho | ho
            · rw [ho, ite_self]
            · rw [if_pos ho]
          | write f n v => exact ⟨by rcases ho with ho | ho; exacts [.inl ho, .inr (by cases f <;> exact ho)], rfl, rfl⟩
        | ieps n v => exact ⟨ho, rfl, rfl⟩
        | imu n v => exact ⟨ho, rfl, rfl⟩
        | sigma n v => exact ⟨ho, rfl, rfl⟩
        | update t => exact absurd rfl (hop t)
      obtain ⟨a, b, c⟩ := ih (exec o op).1 (fun op h => hl op (List.mem_cons_of_mem _ h)) hstep.1
      exact ⟨a, b.trans hstep.2.1, c.trans hstep.2.2⟩
  have e : o = execs (exec (execs (construct g bc ieps imu sigma dt uc) l1) (.ev .step)).1 l2 := by
    show execs _ _ = _
    unfold execs
    rw [List.foldl_append]
    rfl
  obtain ⟨p1, p2, p3⟩ := pre l1 (construct g bc ieps imu sigma dt uc) h (.inr rfl)
  have hnone : (exec (execs (construct g bc ieps imu sigma dt uc) l1) (.ev .step)).1.ops = none := by
    simp only [exec]
    rcases p1 with ho | ho
    · rw [ho, ite_self]
    · rw [if_pos ho]
  obtain ⟨m1, m2, m3⟩ := main l2 _ hnone
  rw [← e] at m1 m2 m3
  refine ⟨?_, ?_, m2.trans p2, m3.trans p3⟩
  · simp only [exec, updateTensors, m1]
  · simp only [exec, updateTensors, m1]

/-- **C36 (conductivity).** If the object was built without conductivity, edits of sigma followed by
`update_tensors` change nothing in any later run. -/
theorem C36_sigma_ignored (hpml : anyFace isPml bc = false) (l : List (Op K)) (h : UpdatedFirst l) (evs : List (Ev K)) :
    let o := (exec (execs (construct g bc ieps imu sigma dt false) l) (.update "all")).1
    (execs o (evs.map .ev)).st = runEv (build g bc (editedEps ieps l) (editedMu imu l) sigma dt false) o.st evs := by
  intro o
  rw [(C36_update_partial g bc ieps imu sigma dt false l h).2.2 evs]
  have hadv : ∀ st, oneStep (build g bc (editedEps ieps l) (editedMu imu l) (editedSigma sigma l) dt false) st =
      oneStep (build g bc (editedEps ieps l) (editedMu imu l) sigma dt false) st := by
    have hu : ∀ sg, (build g bc (editedEps ieps l) (editedMu imu l) sg dt false).useConductivity = false := by
      intro sg; show (anyFace isPml bc || false) = false; rw [hpml]; rfl
    have ha : ∀ st, advance (build g bc (editedEps ieps l) (editedMu imu l) (editedSigma sigma l) dt false) st =
      advance (build g bc (editedEps ieps l) (editedMu imu l) sigma dt false) st := by
      intro st
      unfold advance
      rw [hu, hu]
      rfl
    intro st
    unfold oneStep
    split_ifs
    · rw [ha]; rfl
    · rw [ha]
  show runEv _ o.st evs = _
  generalize o.st = st
  induction evs generalizing st with
  | nil => rfl
  | cons e es ih =>
    show runEv _ (event _ st e) es = runEv _ (event _ st e) es
    rw [ih]
    cases e with
    | step => show runEv _ (oneStep _ st) es = runEv _ (oneStep _ st) es; rw [hadv]
    | write f n v => cases f <;> rfl

/-- **C36 (full claim refuted).** For every set-up the claim fails, after a single step. -/
theorem C36_refuted : ¬ ∀ l, UpdateWorks g bc ieps imu sigma dt uc uc l := by
  intro h
  have h1 := (h [.ev .step]).1
  have h2 := (C36_after_step g bc ieps imu sigma dt uc [] [] (fun _ h => by cases h) "all").1
  simp only [List.nil_append] at h2
  rw [h2] at h1
  cases h1

end

/-- Calling `update_tensors` without any edit does not change the run. -/
def NoSideEffect (g : Grid.Geom K) (bc : Faces String) (ieps imu sigma : Vec K) (dt : K) (uc : Bool) : Prop :=
  ∀ (l evs : List (Ev K)), ∀ n < 3 * (g.Nx * g.Ny * g.Nz),
    (execs (construct g bc ieps imu sigma dt uc) (l.map .ev ++ .update "all" :: evs.map .ev)).st.H n =
      (execs (construct g bc ieps imu sigma dt uc) (l.map .ev ++ evs.map .ev)).st.H n

theorem ghost11 : (ghostH (⟨2, 2, 2, Function.update (fun _ => (0 : ℚ)) 11 1⟩ : Fld ℚ)).array 11 = 0 := by decide +kernel

/-- **C36 (side effect).** `update_tensors` before the first step clears `step_0`, so initial values in the ghost
layers are no longer erased: a run without any material edit changes. -/
theorem C36_ghosts_refuted : ¬ NoSideEffect unit2 bcOpen (fun _ => (1 : ℚ)) (fun _ => 1) (fun _ => 0) 1 false := by
  intro h
  have := h [.write .H 11 1] [.step] 11 (by decide)
  have e1 : (execs (construct unit2 bcOpen (fun _ => (1 : ℚ)) (fun _ => 1) (fun _ => 0) 1 false)
      ([Ev.write .H 11 1].map .ev ++ .update "all" :: [Ev.step].map .ev)).st.H 11 =
      (advance (sol2 bcOpen) ⟨fun _ => 0, Function.update (fun _ => 0) 11 1, fun _ => 0, false⟩).H 11 := rfl
  have e2 : (execs (construct unit2 bcOpen (fun _ => (1 : ℚ)) (fun _ => 1) (fun _ => 0) 1 false)
      ([Ev.write .H 11 1].map .ev ++ [Ev.step].map .ev)).st.H 11 =
      (advance (sol2 bcOpen) ⟨(ghostE ((sol2 bcOpen).fld (fun _ => 0))).array, (ghostH ((sol2 bcOpen).fld (Function.update (fun _ => 0) 11 1))).array,
        fun _ => 0, false⟩).H 11 := rfl
  have z : mulVec 24 (C0 2 2 2) (fun _ => (0 : ℚ)) 11 = 0 := mulVec_zero_below _ _ _ (fun _ _ => rfl) _
  have z' : mulVec 24 (C0 2 2 2) ((ghostE ((sol2 bcOpen).fld (fun _ => 0))).array) 11 = 0 :=
    mulVec_zero_below _ _ _ (fun n _ => ghostE_zero _ (fun _ => rfl) n) _
  rw [e1, e2, open_H _ _ _ (by decide), open_H _ _ _ (by decide), z, z'] at this
  have g11 : (ghostH ((sol2 bcOpen).fld (Function.update (fun _ => 0) 11 1))).array 11 = 0 := ghost11
  rw [g11] at this
  simp at this

/-- Non-vacuity of `C36_update_partial`: edits, an update before the first step, steps, more edits. -/
example : UpdatedFirst [Op.ieps 3 (2 : ℚ), .update "ieps", .ev .step, .imu 4 5, .sigma 1 1, .ev .step] := trivial
/-- Non-vacuity of `C36_after_step`. -/
example : ∀ op ∈ [Op.ieps 3 (2 : ℚ), .ev (.write .E 0 1)], ∀ t, op ≠ .update t := by
  intro op h t; simp at h; rcases h with rfl | rfl <;> simp

end Sol
end Wakis
