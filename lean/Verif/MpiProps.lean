import Verif.MpiModel

/-!
# C33: the halo exchange and the distributed run do not depend on the schedule
-/

namespace Wakis
namespace Mpi
open Sol Sparse
variable {K : Type _} [Field K]

/-! ### Lawfulness of the buffers -/

omit [Field K] in
@[simp] theorem getW_setW (w : Which) (st : State K) (a : Vec K) : getW w (setW w st a) = a := by cases w <;> rfl

theorem plane_setPlane (f : Fld K) {m m' d d' : ℕ} (h : m ≠ m') (v : ℕ → ℕ → ℕ → K) :
    plane (setPlane f 2 m' d' v) m d = plane f m d := by
  funext i j
  by_cases hb : i < f.Nx ∧ j < f.Ny ∧ m < f.Nz
  · refine Eq.trans (if_pos hb) (Eq.trans ?_ (if_pos hb).symm)
    rw [setPlane_at3 hb.1 hb.2.1 hb.2.2, if_neg]
    rintro ⟨_, h2⟩
    exact h (by simpa [coord] using h2)
  · exact Eq.trans (if_neg hb) (if_neg hb).symm

/-- Slabs thick enough for the exchange: a rank with one neighbour has at least two layers, one with two
neighbours at least three (always so after `_mpi_initialize`, see `C33_slabs`). -/
structure Slabs (s : ℕ → Solver K) (size : ℕ) : Prop where
  lo : ∀ r, 0 < r → r < size → 2 ≤ (s r).Nz
  hi : ∀ r, r + 1 < size → 2 ≤ (s r).Nz
  mid : ∀ r, 0 < r → r + 1 < size → 3 ≤ (s r).Nz

theorem bufs_lawful {s : ℕ → Solver K} {size : ℕ} (h : Slabs s size) (w : Which) : (bufs s w).Lawful size where
  lolo r d d' m l _ _ := by
    simp only [bufs, getW_setW]
    exact plane_setPlane ((s r).fld (getW w l)) (m := 1) (m' := 0) (by decide) _
  hihi r d d' m l hr := by
    simp only [bufs, getW_setW]
    have := h.hi r hr
    exact plane_setPlane ((s r).fld (getW w l)) (m := (s r).Nz - 2) (m' := (s r).Nz - 1) (by omega) _
  hilo r d d' m l h0 hr := by
    simp only [bufs, getW_setW]
    have := h.mid r h0 hr
    exact plane_setPlane ((s r).fld (getW w l)) (m := (s r).Nz - 2) (m' := 0) (by omega) _

omit [Field K] in
theorem loOps_ok {b : Bufs (State K) (ℕ → ℕ → K)} {size r : ℕ} (h : b.Lawful size) : ∀ i ∈ loOps b size r, i.Ok := by
  intro i hi
  unfold loOps at hi
  split at hi
  · rename_i hr
    simp only [List.mem_map] at hi
    obtain ⟨d, _, rfl⟩ := hi
    exact fun m l => h.lolo r d d m l hr.1 hr.2
  · simp at hi

omit [Field K] in
theorem hiOps_ok {b : Bufs (State K) (ℕ → ℕ → K)} {size r : ℕ} (h : b.Lawful size) : ∀ i ∈ hiOps b size r, i.Ok := by
  intro i hi
  unfold hiOps at hi
  split at hi
  · rename_i hr
    simp only [List.mem_map] at hi
    obtain ⟨d, _, rfl⟩ := hi
    exact fun m l => h.hihi r d d m l hr
  · simp at hi

theorem communicate_ok {s : ℕ → Solver K} {size : ℕ} (h : Slabs s size) (w : Which) (r : ℕ) :
    ∀ i ∈ communicate s size w r, i.Ok := by
  intro i hi
  rcases List.mem_append.1 hi with h1 | h1
  · exact loOps_ok (bufs_lawful h w) i h1
  · exact hiOps_ok (bufs_lawful h w) i h1

omit [Field K] in
theorem local1_ok (size : ℕ) (f : ℕ → State K → State K) (r : ℕ) : ∀ i ∈ local1 size f r, i.Ok := by
  intro i hi
  unfold local1 at hi
  split at hi
  · simp only [List.mem_singleton] at hi; subst hi; exact trivial
  · simp at hi

theorem evProg_ok {s : ℕ → Solver K} {size : ℕ} (h : Slabs s size) (n r : ℕ) (e : DEv K) : ∀ i ∈ evProg s size n r e, i.Ok := by
  intro i hi
  cases e with
  | step =>
    simp only [evProg, stepProg, List.mem_append] at hi
    rcases hi with h1 | h1 | h1 | h1 | h1 | h1
    · exact local1_ok _ _ _ _ h1
    · exact communicate_ok h _ _ _ h1
    · exact communicate_ok h _ _ _ h1
    · exact local1_ok _ _ _ _ h1
    · exact communicate_ok h _ _ _ h1
    · exact local1_ok _ _ _ _ h1
  | write => simp only [evProg] at hi; exact local1_ok _ _ _ _ hi

theorem runProg_ok {s : ℕ → Solver K} {size : ℕ} (h : Slabs s size) (n : ℕ) (evs : List (DEv K)) (r : ℕ) :
    ∀ i ∈ runProg s size n evs r, i.Ok := by
  intro i hi
  obtain ⟨e, _, he⟩ := List.mem_flatMap.1 hi
  exact evProg_ok h n r e i he

/-! ### The barrier semantics -/

/-- All ranks compute. -/
def syncLocal (size : ℕ) (f : ℕ → State K → State K) (locs : ℕ → State K) : ℕ → State K :=
  fun r => if r < size then f r (locs r) else locs r

/-- All ranks execute an event in lock step. -/
def syncEv (s : ℕ → Solver K) (size n : ℕ) (locs : ℕ → State K) : DEv K → ℕ → State K
  | .step => syncLocal size (fun r => jHalf (s r)) (afterHalo (bufs s .E) size (syncLocal size (fun r => eHalf (s r))
      (afterHalo (bufs s .J) size (afterHalo (bufs s .H) size (syncLocal size (fun r => hHalf (s r)) locs)))))
  | .write f c i j k v => syncLocal size (fun r => localWrite (s r) (off n r) f c i j k v) locs

/-- A run in lock step. -/
def syncRun (s : ℕ → Solver K) (size n : ℕ) (locs : ℕ → State K) (evs : List (DEv K)) : ℕ → State K :=
  evs.foldl (syncEv s size n) locs

omit [Field K] in
theorem local_reach {eager : ℕ → ℕ → Bool} (size : ℕ) (f : ℕ → State K → State K) (locs : ℕ → State K)
    (rest : ℕ → List (Instr (State K) (ℕ → ℕ → K))) :
    Reach eager (start (fun r => local1 size f r ++ rest r) locs) (start rest (syncLocal size f locs)) :=
  comp_reach size f locs rest

theorem comm_reach {eager : ℕ → ℕ → Bool} {s : ℕ → Solver K} {size : ℕ} (h : Slabs s size) (hs : 0 < size) (w : Which)
    (locs : ℕ → State K) (rest : ℕ → List (Instr (State K) (ℕ → ℕ → K))) :
    Reach eager (start (fun r => communicate s size w r ++ rest r) locs) (start rest (afterHalo (bufs s w) size locs)) :=
  halo_reach (bufs_lawful h w) hs locs rest

theorem event_reach {eager : ℕ → ℕ → Bool} {s : ℕ → Solver K} {size : ℕ} (h : Slabs s size) (hs : 0 < size) (n : ℕ)
    (e : DEv K) (locs : ℕ → State K) (rest : ℕ → List (Instr (State K) (ℕ → ℕ → K))) :
    Reach eager (start (fun r => evProg s size n r e ++ rest r) locs) (start rest (syncEv s size n locs e)) := by
  cases e with
  | write f c i j k v => exact local_reach size _ locs rest
  | step =>
    simp only [evProg, stepProg, List.append_assoc]
    refine (local_reach size (fun r => hHalf (s r)) locs _).trans ?_
    refine (comm_reach h hs .H _ _).trans ?_
    refine (comm_reach h hs .J _ _).trans ?_
    refine (local_reach size (fun r => eHalf (s r)) _ _).trans ?_
    refine (comm_reach h hs .E _ _).trans ?_
    exact local_reach size (fun r => jHalf (s r)) _ _

theorem run_reach {eager : ℕ → ℕ → Bool} {s : ℕ → Solver K} {size : ℕ} (h : Slabs s size) (hs : 0 < size) (n : ℕ)
    (evs : List (DEv K)) : ∀ (locs : ℕ → State K),
    Reach eager (start (runProg s size n evs) locs) (start (fun _ => []) (syncRun s size n locs evs)) := by
  induction evs with
  | nil => intro locs; exact Reach.refl _
  | cons e es ih =>
    intro locs
    exact (event_reach h hs n e locs (runProg s size n es)).trans (ih (syncEv s size n locs e))

omit [Field K] in
theorem start_done (locs : ℕ → State K) : (start (fun _ => []) locs : Net (State K) (ℕ → ℕ → K)).Done := fun _ => rfl

/-- From a `Reach` to every schedule. -/
theorem every_schedule {eager : ℕ → ℕ → Bool} {prog : ℕ → List (Instr (State K) (ℕ → ℕ → K))} {locs fin : ℕ → State K}
    (hok : ∀ r, ∀ i ∈ prog r, i.Ok) (h : Reach eager (start prog locs) (start (fun _ => []) fin)) :
    ∃ total : ℕ, ∀ (l : List Act) (w : Net (State K) (ℕ → ℕ → K)), run eager (start prog locs) l = some w →
      l.length ≤ total ∧
      (∃ l', run eager w l' = some (start (fun _ => []) fin) ∧ l.length + l'.length = total) ∧
      (w.Done → w = start (fun _ => []) fin) := by
  obtain ⟨l0, h0⟩ := h
  refine ⟨l0.length, fun l w hl => ?_⟩
  obtain ⟨l', h1, h2⟩ := confluence (n := start prog locs) hok h0 (start_done fin) hl
  refine ⟨by omega, ⟨l', h1, h2⟩, fun hd => ?_⟩
  cases l' with
  | nil => simpa [run] using h1
  | cons a l' => rw [run, done_stuck hd] at h1; simp at h1

/-! ### The exchanged values -/

/-- Component `d` of cell `(i,j,k)` of a field of rank memory `st`. -/
def cell (s : Solver K) (w : Which) (st : State K) (d i j k : ℕ) : K := getW w st (pos s.Nx s.Ny s.Nz d i j k)

omit [Field K] in
theorem cell_eq (s : Solver K) (w : Which) (st : State K) (d i j k : ℕ) :
    cell s w st d i j k = (s.fld (getW w st)).at3 d i j k := rfl

theorem cell_setW (s : Solver K) (w : Which) (st : State K) {m d' : ℕ} (v : ℕ → ℕ → ℕ → K) {d i j k : ℕ}
    (hi : i < s.Nx) (hj : j < s.Ny) (hk : k < s.Nz) :
    cell s w (setW w st (setPlane (s.fld (getW w st)) 2 m d' v).array) d i j k =
      if d = d' ∧ k = m then v i j k else cell s w st d i j k := by
  have e : s.fld (getW w (setW w st (setPlane (s.fld (getW w st)) 2 m d' v).array)) = setPlane (s.fld (getW w st)) 2 m d' v := by
    rw [getW_setW]; rfl
  rw [cell_eq, e, setPlane_at3 hi hj hk]
  simp [coord, cell_eq]

theorem cell_puts3 (s : Solver K) (w : Which) (m : ℕ) (msg : ℕ → ℕ → ℕ → K) (st : State K) {d i j k : ℕ} (hd : d < 3)
    (hi : i < s.Nx) (hj : j < s.Ny) (hk : k < s.Nz) :
    cell s w (puts3 (fun d m' st => setW w st (setPlane (s.fld (getW w st)) 2 m d fun i j _ => m' i j).array) msg st) d i j k =
      if k = m then msg d i j else cell s w st d i j k := by
  unfold puts3
  rw [cell_setW s w _ _ hi hj hk, cell_setW s w _ _ hi hj hk, cell_setW s w _ _ hi hj hk]
  have : d = 0 ∨ d = 1 ∨ d = 2 := by omega
  by_cases hm : k = m
  · rcases this with rfl | rfl | rfl <;> simp [hm]
  · rcases this with rfl | rfl | rfl <;> simp [hm]

/-- Same transverse size on all ranks. -/
def SameXY (s : ℕ → Solver K) (size : ℕ) : Prop := ∀ r < size, (s r).Nx = (s 0).Nx ∧ (s r).Ny = (s 0).Ny

/-- **Values after an exchange.** -/
theorem afterHalo_cell {s : ℕ → Solver K} {size : ℕ} (h : Slabs s size) (hxy : SameXY s size) (w : Which) (locs : ℕ → State K)
    {r d i j k : ℕ} (hr : r < size) (hd : d < 3) (hi : i < (s r).Nx) (hj : j < (s r).Ny) (hk : k < (s r).Nz) :
    cell (s r) w (afterHalo (bufs s w) size locs r) d i j k =
      if r + 1 < size ∧ k = (s r).Nz - 1 then cell (s (r + 1)) w (locs (r + 1)) d i j 1
      else if 0 < r ∧ k = 0 then cell (s (r - 1)) w (locs (r - 1)) d i j ((s (r - 1)).Nz - 2)
      else cell (s r) w (locs r) d i j k := by
  have hlo : cell (s r) w (afterLo (bufs s w) size locs r) d i j k =
      if 0 < r ∧ k = 0 then cell (s (r - 1)) w (locs (r - 1)) d i j ((s (r - 1)).Nz - 2) else cell (s r) w (locs r) d i j k := by
    unfold afterLo
    by_cases h0 : 0 < r
    · rw [if_pos ⟨h0, hr⟩]
      have hm : 2 ≤ (s (r - 1)).Nz := h.hi (r - 1) (by omega)
      have := cell_puts3 (s r) w 0 (fun d => (bufs s w).hiGet (r - 1) d (locs (r - 1))) (locs r) hd hi hj hk
      refine Eq.trans this ?_
      by_cases hk0 : k = 0
      · rw [if_pos hk0, if_pos ⟨h0, hk0⟩]
        show plane _ _ _ i j = _
        have e1 := hxy r hr
        have e2 := hxy (r - 1) (by omega)
        refine Eq.trans (if_pos ⟨?_, ?_, ?_⟩) rfl
        · show i < (s (r - 1)).Nx; rw [e2.1, ← e1.1]; exact hi
        · show j < (s (r - 1)).Ny; rw [e2.2, ← e1.2]; exact hj
        · show (s (r - 1)).Nz - 2 < (s (r - 1)).Nz; omega
      · rw [if_neg hk0, if_neg (fun h => hk0 h.2)]
    · rw [if_neg (fun h => h0 h.1), if_neg (fun h => h0 h.1)]
  unfold afterHalo
  by_cases h1 : r + 1 < size
  · rw [if_pos h1]
    have hm : 2 ≤ (s (r + 1)).Nz := h.lo (r + 1) (by omega) h1
    have := cell_puts3 (s r) w ((s r).Nz - 1) (fun d => (bufs s w).loGet (r + 1) d (locs (r + 1))) (afterLo (bufs s w) size locs r) hd hi hj hk
    refine Eq.trans this ?_
    by_cases hk1 : k = (s r).Nz - 1
    · rw [if_pos hk1, if_pos ⟨h1, hk1⟩]
      show plane _ _ _ i j = _
      have e1 := hxy r hr
      have e2 := hxy (r + 1) h1
      refine Eq.trans (if_pos ⟨?_, ?_, ?_⟩) rfl
      · show i < (s (r + 1)).Nx; rw [e2.1, ← e1.1]; exact hi
      · show j < (s (r + 1)).Ny; rw [e2.2, ← e1.2]; exact hj
      · show 1 < (s (r + 1)).Nz; omega
    · rw [if_neg hk1, if_neg (fun h => hk1 h.2), hlo]
  · rw [if_neg h1, if_neg (fun h => h1 h.1), hlo]

/-- An exchange of one field leaves the others and the step flag alone. -/
theorem afterHalo_other (s : ℕ → Solver K) (size : ℕ) {w w' : Which} (hw : w' ≠ w) (locs : ℕ → State K) (r : ℕ) :
    getW w' (afterHalo (bufs s w) size locs r) = getW w' (locs r) ∧
      (afterHalo (bufs s w) size locs r).step0 = (locs r).step0 := by
  have key : ∀ (st : State K) a, getW w' (setW w st a) = getW w' st := by
    intro st a; cases w <;> cases w' <;> first | rfl | exact absurd rfl hw
  have key0 : ∀ st a, (setW w st a : State K).step0 = st.step0 := by intro st a; cases w <;> rfl
  unfold afterHalo afterLo puts3
  constructor <;> split_ifs <;> simp only [bufs, key, key0]

theorem afterHalo_step0 (s : ℕ → Solver K) (size : ℕ) (w : Which) (locs : ℕ → State K) (r : ℕ) :
    (afterHalo (bufs s w) size locs r).step0 = (locs r).step0 := by
  cases w with
  | E => exact (afterHalo_other s size (w := .E) (w' := .H) (by decide) locs r).2
  | H => exact (afterHalo_other s size (w := .H) (w' := .J) (by decide) locs r).2
  | J => exact (afterHalo_other s size (w := .J) (w' := .E) (by decide) locs r).2

/-! ### C33 -/

/-- What a finished exchange of field `w` must have done: in every rank, the ghost layer at a neighbour holds
that neighbour's adjacent owned layer (values from before), every other cell of the field, every other
field and the step flag are as before. -/
def Exchanged (s : ℕ → Solver K) (size : ℕ) (w : Which) (before after : ℕ → State K) : Prop :=
  ∀ r < size,
    (∀ d i j, d < 3 → i < (s r).Nx → j < (s r).Ny →
      (0 < r → cell (s r) w (after r) d i j 0 = cell (s (r - 1)) w (before (r - 1)) d i j ((s (r - 1)).Nz - 2)) ∧
      (r + 1 < size → cell (s r) w (after r) d i j ((s r).Nz - 1) = cell (s (r + 1)) w (before (r + 1)) d i j 1) ∧
      ∀ k < (s r).Nz, ¬ (0 < r ∧ k = 0) → ¬ (r + 1 < size ∧ k = (s r).Nz - 1) →
        cell (s r) w (after r) d i j k = cell (s r) w (before r) d i j k) ∧
    (∀ w', w' ≠ w → getW w' (after r) = getW w' (before r)) ∧ (after r).step0 = (before r).step0

/-- **C33.** For every number of ranks, all field contents, every buffering behaviour of the MPI library and
every schedule of the halo exchange of any field: the schedule has at most a fixed number of actions
(termination), wherever it stands it can be continued until all ranks are done (no deadlock), and
whenever all ranks are done the exchange is complete and correct, with no message left over. -/
theorem C33_halo_exchange (s : ℕ → Solver K) (size : ℕ) (hs : 0 < size) (h : Slabs s size) (hxy : SameXY s size)
    (w : Which) (before : ℕ → State K) (eager : ℕ → ℕ → Bool) :
    ∃ total : ℕ, ∀ (l : List Act) (net : Net (State K) (ℕ → ℕ → K)),
      run eager (start (communicate s size w) before) l = some net →
      l.length ≤ total ∧
      (∃ l' fin, run eager net l' = some fin ∧ fin.Done) ∧
      (net.Done → Exchanged s size w before (fun r => (net.proc r).loc) ∧ ∀ a b t, net.chan a b t = []) := by
  have h0 := comm_reach (eager := eager) h hs w before (fun _ => [])
  simp only [List.append_nil] at h0
  obtain ⟨total, ht⟩ := every_schedule (fun r => communicate_ok h w r) h0
  refine ⟨total, fun l net hl => ?_⟩
  obtain ⟨h1, ⟨l', h2, _⟩, h3⟩ := ht l net hl
  refine ⟨h1, ⟨l', _, h2, start_done _⟩, fun hd => ?_⟩
  rw [h3 hd]
  refine ⟨fun r hr => ⟨fun d i j hd hi hj => ⟨fun h0 => ?_, fun h1 => ?_, fun k hk n0 n1 => ?_⟩, fun w' hw => ?_, ?_⟩, fun _ _ _ => rfl⟩
  · have hz : 2 ≤ (s r).Nz := h.lo r h0 hr
    show cell (s r) w (afterHalo (bufs s w) size before r) d i j 0 = _
    rw [afterHalo_cell h hxy w before hr hd hi hj (by omega), if_neg (fun hh => by have := hh.2; omega), if_pos ⟨h0, rfl⟩]
  · have hz : 2 ≤ (s r).Nz := h.hi r h1
    show cell (s r) w (afterHalo (bufs s w) size before r) d i j ((s r).Nz - 1) = _
    rw [afterHalo_cell h hxy w before hr hd hi hj (by omega), if_pos ⟨h1, rfl⟩]
  · show cell (s r) w (afterHalo (bufs s w) size before r) d i j k = _
    rw [afterHalo_cell h hxy w before hr hd hi hj hk, if_neg n1, if_neg n0]
  · exact (afterHalo_other s size hw before r).1
  · exact afterHalo_step0 s size w before r

/-- **C33 (whole runs).** The same for a run of any number of distributed steps and assignments: all
schedules and buffering behaviours terminate, none deadlocks, and all finish in one and the same
state of all ranks. -/
theorem C33_run_deterministic (s : ℕ → Solver K) (size n : ℕ) (hs : 0 < size) (h : Slabs s size) (evs : List (DEv K))
    (locs : ℕ → State K) :
    ∃ fin : ℕ → State K, ∀ eager : ℕ → ℕ → Bool, ∃ total : ℕ, ∀ (l : List Act) (net : Net (State K) (ℕ → ℕ → K)),
      run eager (start (runProg s size n evs) locs) l = some net →
      l.length ≤ total ∧
      (∃ l' z, run eager net l' = some z ∧ z.Done) ∧
      (net.Done → (∀ r, (net.proc r).loc = fin r) ∧ ∀ a b t, net.chan a b t = []) := by
  refine ⟨syncRun s size n locs evs, fun eager => ?_⟩
  obtain ⟨total, ht⟩ := every_schedule (fun r => runProg_ok h n evs r) (run_reach (eager := eager) h hs n evs locs)
  refine ⟨total, fun l net hl => ?_⟩
  obtain ⟨h1, ⟨l', h2, _⟩, h3⟩ := ht l net hl
  refine ⟨h1, ⟨l', _, h2, start_done _⟩, fun hd => ?_⟩
  rw [h3 hd]
  exact ⟨fun _ => rfl, fun _ _ _ => rfl⟩

/-- Slabs made by the grid decomposition satisfy the thickness hypothesis. -/
theorem C33_slabs [CharZero K] {size Nz : ℕ} (zmin zmax : K) (hN : size ≤ Nz) (s : ℕ → Solver K)
    (hz : ∀ r < size, ∃ m, Grid.mpiInitialize r size Nz zmin zmax = .ok m ∧ (s r).Nz = m.Nz) : Slabs s size := by
  have key : ∀ r < size, 1 + Grid.ghostLo r + Grid.ghostHi r size ≤ (s r).Nz := by
    intro r hr
    obtain ⟨m, hm, e⟩ := hz r hr
    obtain ⟨m', hm', _, _, _, h4, h5, _⟩ := Grid.C12_local_grid (rank := r) (size := size) (Nz := Nz) zmin zmax (by omega) hr hN
    rw [hm] at hm'
    obtain rfl : m = m' := by injection hm'
    rw [e, h5]; omega
  constructor
  · intro r h0 hr
    have := key r hr
    simp only [Grid.ghostLo, h0, if_true] at this; omega
  · intro r hr
    have := key r (by omega)
    simp only [Grid.ghostHi, hr, true_or, if_true] at this; omega
  · intro r h0 hr
    have := key r (by omega)
    simp only [Grid.ghostLo, Grid.ghostHi, h0, hr, true_or, if_true] at this; omega

/-- A solver with zero operators, for the examples. -/
def dummySolver (Nz : ℕ) : Solver ℚ :=
  { Nx := 1, Ny := 1, Nz, M1 := fun _ _ => 0, M2 := fun _ _ => 0, ieps := fun _ => 1, sigma := fun _ => 0, dt := 1, useConductivity := false }

/-- Non-vacuity: three ranks with two owned layers each satisfy the hypotheses, and a schedule exists. -/
example : Slabs (fun r => dummySolver (if r = 1 then 4 else 3)) 3 ∧ SameXY (fun r => dummySolver (if r = 1 then 4 else 3)) 3 ∧
    ∃ l z, run (fun _ _ => false) (start (communicate (fun r => dummySolver (if r = 1 then 4 else 3)) 3 .E)
      (fun r => { E := fun p => r * 100 + p, H := fun _ => 0, J := fun _ => 0, step0 := false })) l = some z ∧ z.Done := by
  have hsl : Slabs (fun r => dummySolver (if r = 1 then 4 else 3)) 3 := by
    constructor <;> intros <;> simp only [dummySolver] <;> split_ifs <;> omega
  refine ⟨hsl, fun r _ => ⟨rfl, rfl⟩, ?_⟩
  obtain ⟨_, ht⟩ := C33_halo_exchange _ 3 (by decide) hsl (fun r _ => ⟨rfl, rfl⟩) .E
    (fun r => { E := fun p => r * 100 + p, H := fun _ => 0, J := fun _ => 0, step0 := false }) (fun _ _ => false)
  obtain ⟨_, ⟨l, z, h1, h2⟩, _⟩ := ht [] _ rfl
  exact ⟨l, z, h1, h2⟩

end Mpi
end Wakis
