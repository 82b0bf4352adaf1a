import Verif.MpiBounds

/-!
# C34 and C99: what rank 0 shows
-/

namespace Wakis
namespace Mpi
open Sol Sparse

/-- The grid of rank 0 of the example. -/
def boxG0 : Grid.Geom ℚ := Grid.computeGrid 3 3 3 demoJob.x demoJob.y (zOf demoJob 0)

/-- Rank 0 has two layers of its own and one ghost. -/
def Three (bc : Faces String) : Prop := (got ((boxJob bc).rank 0)).Nz = 3

theorem box_rank0 {bc : Faces String} {u u1 : Bool} (hB : Box bc u u1) (h0 : Three bc) : got ((boxJob bc).rank 0) = build boxG0 (mpiBC 0 2 bc)
    (rankMats (boxJob bc) 0 3).ieps.array (rankMats (boxJob bc) 0 3).imu.array (rankMats (boxJob bc) 0 3).sigma.array (1 / 4) (rankMats (boxJob bc) 0 3).useCond := by
  have h := rank_shape (hB.ranks 0 (by decide))
  rw [hB.dtR 0 (by decide), h0] at h
  exact h

/-! ### Specification: `Differs` without the restriction on the history -/

/-- Ranks and serial solver are constructed from the input `J` with the requested time step, every assignment of `evs` is to a cell of the box, and whatever
the schedule the finished distributed run differs from the serial run in a field at a cell that is no ghost of its rank. -/
def DiffersDriven (J : Job ℚ) (evs : List (DEv ℚ)) : Prop :=
  ∃ (s : ℕ → Solver ℚ) (S : Solver ℚ), (∀ r < J.size, J.rank r = .ok (s r)) ∧ J.serial = .ok S ∧ (∀ r < J.size, (s r).dt = J.dt) ∧ S.dt = J.dt ∧
    (∀ w c i j k v, DEv.write w c i j k v ∈ evs → c < 3 ∧ i < J.Nx ∧ j < J.Ny ∧ k < J.NZ) ∧
    ∃ r w c i j k, r < J.size ∧ c < 3 ∧ i < J.Nx ∧ j < J.Ny ∧ k < (s r).Nz ∧ ¬ (0 < r ∧ k = 0) ∧ ¬ (r + 1 < J.size ∧ k = (s r).Nz - 1) ∧
      ∀ (eager : ℕ → ℕ → Bool) (l : List Act) (net : Net (State ℚ) (ℕ → ℕ → ℚ)),
        run eager (start (runProg s J.size (J.NZ / J.size) evs) (fun _ => initState)) l = some net → net.Done →
        cell (s r) w (net.proc r).loc c i j k ≠
          cell S w (runEv S initState (evs.map (DEv.serial S))) c i j (r * (J.NZ / J.size) - Grid.ghostLo r + k)

theorem driven0 {bc : Faces String} {u u1 : Bool} (hB : Box bc u u1) (hT : Three bc) {w0 : Which} {a b d e : ℕ} (hev : a < 3 ∧ b < 3 ∧ d < 3 ∧ e < 4)
    {w : Which} {c i j k : ℕ} {x y : ℚ} (hb : c < 3 ∧ i < 3 ∧ j < 3 ∧ k < 2)
    (hx : cell (got ((boxJob bc).rank 0)) w (syncRun (fun r => got ((boxJob bc).rank r)) 2 2 (fun _ => initState) (oneWrite w0 a b d e) 0) c i j k = x)
    (hy : cell (got (boxJob bc).serial) w (runEv (got (boxJob bc).serial) initState ((oneWrite w0 a b d e).map (DEv.serial (got (boxJob bc).serial)))) c i j k = y)
    (hxy : x ≠ y) : DiffersDriven (boxJob bc) (oneWrite w0 a b d e) := by
  obtain ⟨h1, h2, h3, h4⟩ := hb
  have z1 : (boxJob bc).size = 2 := rfl
  have z2 : (boxJob bc).NZ = 4 := by simp [Job.NZ, boxJob, demoJob]
  unfold DiffersDriven
  rw [z1, z2]
  refine ⟨fun r => got ((boxJob bc).rank r), got (boxJob bc).serial, hB.ranks, hB.serial, hB.dtR, hB.dtS, ?_, 0, w, c, i, j, k, by decide, h1, h2, h3, ?_, ?_, ?_, ?_⟩
  · intro w' c' i' j' k' v' h
    simp only [oneWrite, List.mem_cons, DEv.write.injEq, reduceCtorEq, List.not_mem_nil, or_false] at h
    obtain ⟨-, rfl, rfl, rfl, rfl, -⟩ := h
    exact hev
  · show k < (got ((boxJob bc).rank 0)).Nz
    rw [hT]; omega
  · exact fun h => absurd h.1 (by decide)
  · rintro ⟨-, h⟩
    have h' : k = (got ((boxJob bc).rank 0)).Nz - 1 := h
    rw [hT] at h'; omega
  · intro eager l net hl hd
    have hd' := done_sync hB.slabs (by decide) 2 (oneWrite w0 a b d e) hl hd 0
    have ek : 0 * (4 / 2) - Grid.ghostLo 0 + k = k := by simp [Grid.ghostLo]
    rw [hd', hx, ek, hy]
    exact hxy

/-! ### A source on a PEC wall -/

def allPec : Faces String := ⟨"pec", "pec", "pec", "pec", "pec", "pec"⟩
theorem allPecBox : Box allPec false false := box_of (by decide +kernel)
theorem allPecThree : Three allPec := by unfold Three; decide +kernel

/-- **C34 is false when a source drives E on a PEC wall next to a rank boundary.** All faces are PEC. Ey is assigned on the wall x = 0 in layer 2 (as a
plane wave over the full cross-section does). The serial curl does not see a tangential E on a PEC wall; the curl of rank 0 does, because the entries of
its ghost layer are switched on again for the exchange (solverFIT3D.py:791-800 writes the z faces last). -/
theorem C34_driven_refuted : (∀ axis sd, axis < 3 → isPec (faceName allPec axis sd) = true) ∧ DiffersDriven (boxJob allPec) (oneWrite .E 1 0 1 2) := by
  refine ⟨?_, driven0 allPecBox allPecThree (by decide) (w := .H) (c := 0) (i := 0) (j := 1) (k := 1) (x := 7 / 12) (y := 0) (by decide) ?_ ?_ (by norm_num)⟩
  · intro a sd ha
    have : a = 0 ∨ a = 1 ∨ a = 2 := by omega
    rcases this with rfl | rfl | rfl <;> cases sd <;> decide
  · refine (rank_H allPecBox.slabs allPecBox.xy 2 (box_rank0 allPecBox allPecThree) .E 7 (by decide) (by decide) (by decide) (by decide) (by decide) (by decide) (by decide) (by decide)).trans ?_
    rw [first_H_value boxG0 (mpiBC 0 2 allPec) _ _ _ _ _ _ _ (h := 0) (a := 1 / 3) (ρ := 1) (e := -7) (by decide) (by decide +kernel) (by decide +kernel) (by decide +kernel) (by decide +kernel)]
    norm_num
  · rw [box_serial allPecBox, oneWrite, serial_H, first_H_value boxG allPec _ _ _ _ _ _ _ (h := 0) (a := 1 / 3) (ρ := 1) (e := 0) (by decide) (by decide +kernel) (by decide +kernel)
      (by decide +kernel) (by decide +kernel)]
    norm_num

/-! ### C99: the high faces -/

def openHiBC : Faces String := ⟨"pec", "open", "pec", "pec", "pec", "pec"⟩
theorem openHiBox : Box openHiBC false false := box_of (by decide +kernel)
theorem openHiThree : Three openHiBC := by unfold Three; decide +kernel

def openYHiBC : Faces String := ⟨"pec", "pec", "pec", "open", "pec", "pec"⟩
theorem openYHiBox : Box openYHiBC false false := box_of (by decide +kernel)
theorem openYHiThree : Three openYHiBC := by unfold Three; decide +kernel

/-- **C99, refuted for the high faces.** The high x (or y) face is not PEC for the user, but it is on every rank but the last. -/
theorem C99_high_refuted : DiffersDriven (boxJob openHiBC) (oneWrite .E 1 2 1 1) ∧ DiffersDriven (boxJob openYHiBC) (oneWrite .E 0 1 2 1) := by
  constructor
  · refine driven0 openHiBox openHiThree (by decide) (w := .H) (c := 2) (i := 1) (j := 1) (k := 1) (x := 0) (y := -7 / 12) (by decide) ?_ ?_ (by norm_num)
    · refine (rank_H openHiBox.slabs openHiBox.xy 2 (box_rank0 openHiBox openHiThree) .E 7 (by decide) (by decide) (by decide) (by decide) (by decide) (by decide) (by decide) (by decide)).trans ?_
      rw [first_H_value boxG0 (mpiBC 0 2 openHiBC) _ _ _ _ _ _ _ (h := 0) (a := 1 / 3) (ρ := 1) (e := 0) (by decide) (by decide +kernel) (by decide +kernel) (by decide +kernel) (by decide +kernel)]
      norm_num
    · rw [box_serial openHiBox, oneWrite, serial_H, first_H_value boxG openHiBC _ _ _ _ _ _ _ (h := 0) (a := 1 / 3) (ρ := 1) (e := 7) (by decide) (by decide +kernel) (by decide +kernel)
        (by decide +kernel) (by decide +kernel)]
      norm_num
  · refine driven0 openYHiBox openYHiThree (by decide) (w := .H) (c := 2) (i := 1) (j := 1) (k := 1) (x := 0) (y := 7 / 12) (by decide) ?_ ?_ (by norm_num)
    · refine (rank_H openYHiBox.slabs openYHiBox.xy 2 (box_rank0 openYHiBox openYHiThree) .E 7 (by decide) (by decide) (by decide) (by decide) (by decide) (by decide) (by decide) (by decide)).trans ?_
      rw [first_H_value boxG0 (mpiBC 0 2 openYHiBC) _ _ _ _ _ _ _ (h := 0) (a := 1 / 3) (ρ := 1) (e := 0) (by decide) (by decide +kernel) (by decide +kernel) (by decide +kernel) (by decide +kernel)]
      norm_num
    · rw [box_serial openYHiBox, oneWrite, serial_H, first_H_value boxG openYHiBC _ _ _ _ _ _ _ (h := 0) (a := 1 / 3) (ρ := 1) (e := -7) (by decide) (by decide +kernel) (by decide +kernel)
        (by decide +kernel) (by decide +kernel)]
      norm_num

end Mpi
end Wakis
