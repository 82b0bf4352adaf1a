import Verif.MpiJob

/-!
# C34 with PML on the z faces
-/

namespace Wakis
namespace Mpi
open Sol Sparse
variable {K : Type _} [Field K] [DecidableEq K]

/-- **C34 (any material tensors).** The same refinement for ranks and serial solver given by their tensors:
it is enough that the tensors of the ranks are restrictions of the serial ones and that all agree on
whether conduction currents are computed.  This covers PML on z faces as long as the flag agrees. -/
theorem C34_tensors_partial (D : Dist K) (hD : D.Ok) (evs : List (DEv K))
    (hev : ∀ e ∈ evs, e.Allowed D.Nx D.Ny D.NZ D.bc) (eager : ℕ → ℕ → Bool) (l : List Act) (net : Net (State K) (ℕ → ℕ → K))
    (hl : run eager (start (runProg D.rank D.size D.n evs) (fun _ => initState)) l = some net) (hd : net.Done) :
    ∀ r < D.size, ∀ w c i j k, c < 3 → i < D.Nx → j < D.Ny → k < D.m r →
      cell (D.rank r) w (net.proc r).loc c i j k =
        cell D.serial w (runEv D.serial initState (evs.map (DEv.serial D.serial))) c i j (D.o r + k) := by
  intro r hlt w c i j k hc hi hj hk
  obtain ⟨total, ht⟩ := every_schedule (fun r => runProg_ok hD.slabs D.n evs r)
    (run_reach (eager := eager) hD.slabs (by have := hD.ranks; omega) D.n evs (fun _ => initState))
  rw [(ht l net hl).2.2 hd]
  have hrel := hD.run evs (initState_rel D) (fun e he => Dist.admissible_of_allowed (hev e he))
  cases w with
  | E => exact hrel.E r hlt c i j k hc hi hj hk
  | H => exact hrel.H r hlt c i j k hc hi hj hk
  | J => exact hrel.J r hlt c i j k hc hi hj hk

/-! ### PML on z and three ranks: the middle rank keeps a written current -/

/-- Three ranks of two layers, PML at the low z face with one layer (`n_pml = 1`: conductivity 10 in layer 0,
solverFIT3D.py:929-943), vacuum-like background without conductivity. -/
def pmlDist : Dist ℚ :=
  { size := 3, n := 2, Nx := 3, Ny := 3, x := fun n => n, y := fun n => n, z := fun n => n, zr := fun r l => (off 2 r + l : ℕ),
    bc := ⟨"pec", "pec", "pec", "pec", "pml", "pec"⟩, ieps := fun _ => 1, imu := fun _ => 1,
    sigma := fun q => if q / 9 % 6 = 0 then 10 else 0, iepsr := fun _ _ => 1, imur := fun _ _ => 1,
    sigmar := fun r q => if r = 0 ∧ q / 9 % 3 = 0 then 10 else 0, dt := 1 / 20, uc := false, ucr := fun _ => false }

/-- Everything `C34_tensors_partial` asks for except agreement on the conductivity flag holds for `pmlDist`. -/
theorem pmlDist_nodes : ∀ r < pmlDist.size, SlabNodes (pmlDist.m r) (pmlDist.o r) (pmlDist.zr r) pmlDist.z := fun _ _ _ _ => rfl

theorem pmlDist_slabs : Slabs pmlDist.rank pmlDist.size := by
  constructor
  · intro r h0 hr
    have : r = 1 ∨ r = 2 := by change r < 3 at hr; omega
    rcases this with rfl | rfl <;> decide
  · intro r hr
    have : r = 0 ∨ r = 1 := by change r + 1 < 3 at hr; omega
    rcases this with rfl | rfl <;> decide
  · intro r h0 hr
    have : r = 1 := by change r + 1 < 3 at hr; omega
    subst this; decide

/-- One assignment of J at the centre of global layer 2, one step. -/
def pmlEvs : List (DEv ℚ) := [.write .J 2 1 1 2 7, .step]

omit [DecidableEq K] in
theorem jHalf_J (s : Solver K) (st : State K) (hu : s.useConductivity = true) (q : ℕ) : (jHalf s st).J q = s.sigma q * st.E q := by
  unfold jHalf; simp only [hu, if_true]

theorem pml_serial_J : cell pmlDist.serial .J (runEv pmlDist.serial initState (pmlEvs.map (DEv.serial pmlDist.serial))) 2 1 1 2 = 0 := by
  have hs : pmlDist.serial.sigma (pos pmlDist.serial.Nx pmlDist.serial.Ny pmlDist.serial.Nz 2 1 1 2) = 0 := by
    show pmlDist.sigma (pos 3 3 6 2 1 1 2) = 0
    decide +kernel
  have hu : pmlDist.serial.useConductivity = true := by
    show (anyFace isPml pmlDist.bc || false) = true
    decide
  simp only [pmlEvs, List.map_cons, List.map_nil, runEv, List.foldl_cons, List.foldl_nil, cell, getW, DEv.serial, event]
  rw [oneStep_halves, jHalf_J _ _ hu, hs, zero_mul]

omit [DecidableEq K] in
theorem syncLocal_lt {size r : ℕ} (h : r < size) (f : ℕ → State K → State K) (locs : ℕ → State K) :
    syncLocal size f locs r = f r (locs r) := if_pos h

/-- A rank without the conductivity flag keeps J in the layers that are not ghosts. -/
theorem step_keeps_J {s : ℕ → Solver K} {size : ℕ} (h : Slabs s size) (hxy : SameXY s size) (n : ℕ) (locs : ℕ → State K)
    {r c i j k : ℕ} (hr : r < size) (hc : c < 3) (hi : i < (s r).Nx) (hj : j < (s r).Ny) (hk : k < (s r).Nz)
    (h0 : k ≠ 0) (h1 : k ≠ (s r).Nz - 1) (hu : (s r).useConductivity = false) :
    cell (s r) .J (syncEv s size n locs .step r) c i j k = cell (s r) .J (locs r) c i j k := by
  have eH : ∀ (s : Solver K) (st : State K), getW .J (hHalf s st) = getW .J st := fun s st => Dist.hHalf_J s st
  have eE : ∀ (s : Solver K) (st : State K), getW .J (eHalf s st) = getW .J st := fun _ _ => rfl
  have eJ : ∀ st : State K, getW .J (jHalf (s r) st) = getW .J st := by
    intro st; show (if (s r).useConductivity = true then _ else st.J) = st.J; simp [hu]
  have key : ∀ st st' : State K, getW .J st = getW .J st' → cell (s r) .J st c i j k = cell (s r) .J st' c i j k := by
    intro st st' he; unfold cell; rw [he]
  simp only [syncEv]
  rw [syncLocal_lt hr, key _ _ (eJ _), key _ _ (afterHalo_other s size (by decide) _ r).1, syncLocal_lt hr, key _ _ (eE _ _),
    afterHalo_cell h hxy .J _ hr hc hi hj hk, if_neg (fun hh => h1 hh.2), if_neg (fun hh => h0 hh.2),
    key _ _ (afterHalo_other s size (by decide) _ r).1, syncLocal_lt hr, key _ _ (eH _ _)]

theorem pml_rank_J : cell (pmlDist.rank 1) .J (syncRun pmlDist.rank 3 2 (fun _ => initState) pmlEvs 1) 2 1 1 1 = 7 := by
  have hu : (pmlDist.rank 1).useConductivity = false := by
    show (anyFace isPml (mpiBC 1 3 pmlDist.bc) || false) = false
    decide
  have d1 : (pmlDist.rank 1).Nx = 3 := rfl
  have d2 : (pmlDist.rank 1).Ny = 3 := rfl
  have d3 : (pmlDist.rank 1).Nz = 4 := rfl
  simp only [syncRun, pmlEvs, List.foldl_cons, List.foldl_nil]
  rw [step_keeps_J (size := 3) pmlDist_slabs pmlDist.sameXY 2 _ (by decide) (by decide) (by rw [d1]; decide) (by rw [d2]; decide) (by rw [d3]; decide)
    (by decide) (by rw [d3]; decide) hu]
  simp only [syncEv]
  rw [syncLocal_lt (by decide), localWrite, if_pos (by rw [d3]; decide), Dist.event_write]
  unfold cell
  rw [getW_setW]
  exact Function.update_self ..

theorem pmlDist_restricts (r : ℕ) (hr : r < 3) : pmlDist.Restricts r (pmlDist.sigmar r) pmlDist.sigma := by
  intro c i j k hc hi hj hk
  have hi : i < 3 := hi
  have hj : j < 3 := hj
  have h : ∀ r < 3, ∀ c < 3, ∀ i < 3, ∀ j < 3, ∀ k < pmlDist.m r,
      pmlDist.sigmar r (pos 3 3 (pmlDist.m r) c i j k) = pmlDist.sigma (pos 3 3 6 c i j (pmlDist.o r + k)) := by decide +kernel
  exact h r hr c hc i hi j hj k hk

/-- **C34 is false with PML on z and three or more ranks.**  The set-up `pmlDist` satisfies every hypothesis of
`C34_tensors_partial` but agreement on the conductivity flag (the middle rank sees the names "mpi" and
leaves it off, solverFIT3D.py:728-733 and 459-460).  The middle rank keeps a current the serial solver
has replaced by `sigma*E`, whatever the schedule. -/
theorem C34_pml_refuted :
    (∀ r < pmlDist.size, SlabNodes (pmlDist.m r) (pmlDist.o r) (pmlDist.zr r) pmlDist.z ∧
      pmlDist.Restricts r (pmlDist.iepsr r) pmlDist.ieps ∧ pmlDist.Restricts r (pmlDist.imur r) pmlDist.imu ∧
      pmlDist.Restricts r (pmlDist.sigmar r) pmlDist.sigma) ∧
    (∀ axis s, axis < 2 → isPec (faceName pmlDist.bc axis s) = true) ∧
    (∀ e ∈ pmlEvs, e.Allowed pmlDist.Nx pmlDist.Ny pmlDist.NZ pmlDist.bc) ∧
    ∀ (eager : ℕ → ℕ → Bool) (l : List Act) (net : Net (State ℚ) (ℕ → ℕ → ℚ)),
      run eager (start (runProg pmlDist.rank 3 2 pmlEvs) (fun _ => initState)) l = some net → net.Done →
      cell (pmlDist.rank 1) .J (net.proc 1).loc 2 1 1 1 ≠
        cell pmlDist.serial .J (runEv pmlDist.serial initState (pmlEvs.map (DEv.serial pmlDist.serial))) 2 1 1 (pmlDist.o 1 + 1) := by
  refine ⟨fun r hr => ⟨pmlDist_nodes r hr, fun _ _ _ _ _ _ _ _ => rfl, fun _ _ _ _ _ _ _ _ => rfl, pmlDist_restricts r hr⟩, ?_, ?_, ?_⟩
  · intro a sd ha
    have : a = 0 ∨ a = 1 := by omega
    rcases this with rfl | rfl <;> cases sd <;> decide
  · intro e he
    simp only [pmlEvs, List.mem_cons, List.not_mem_nil, or_false] at he
    rcases he with rfl | rfl
    · refine ⟨by decide, by decide, by decide, by decide, .inr ?_⟩
      intro axis sd ha hne hon
      have : axis = 0 ∨ axis = 1 := by omega
      rcases this with rfl | rfl <;> cases sd <;> exact absurd hon (by decide)
    · trivial
  · intro eager l net hl hd
    obtain ⟨total, ht⟩ := every_schedule (fun r => runProg_ok pmlDist_slabs 2 pmlEvs r)
      (run_reach (eager := eager) pmlDist_slabs (by decide) 2 pmlEvs (fun _ => initState))
    rw [(ht l net hl).2.2 hd]
    have e : pmlDist.o 1 + 1 = 2 := by decide
    rw [e, pml_serial_J]
    have h7 := pml_rank_J
    show cell (pmlDist.rank 1) .J (syncRun pmlDist.rank 3 2 (fun _ => initState) pmlEvs 1) 2 1 1 1 ≠ 0
    rw [h7]
    decide

end Mpi
end Wakis
