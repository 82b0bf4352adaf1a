import Verif.MpiSched

/-!
# Halo exchange along a line of ranks

The shape of `_mpi_communicate` (solverFIT3D.py:490-518): every rank first exchanges with its lower neighbour (three
`Sendrecv`, one per component), then with its upper one.  The buffers are abstract here; `MpiModel` gives them.
-/

namespace Wakis
namespace Mpi
variable {σ μ : Type _}

/-- Buffers of the exchange: for rank and component, what is sent to and received from the lower and upper
neighbour. -/
structure Bufs (σ μ : Type _) where
  loGet : ℕ → ℕ → σ → μ
  loPut : ℕ → ℕ → μ → σ → σ
  hiGet : ℕ → ℕ → σ → μ
  hiPut : ℕ → ℕ → μ → σ → σ

/-- solverFIT3D.py:494-504: `if self.rank > 0: for d in ["x","y","z"]: Sendrecv(dest=rank-1, sendtag=0, source=rank-1,
recvtag=1)`. -/
def loOps (b : Bufs σ μ) (size r : ℕ) : List (Instr σ μ) :=
  if 0 < r ∧ r < size then
    [0, 1, 2].map fun d => .sendrecv (r - 1) 0 (r - 1) 1 (b.loGet r d) (b.loPut r d)
  else []

/-- solverFIT3D.py:505-515: `if self.rank < self.size - 1: ... Sendrecv(dest=rank+1, sendtag=1, source=rank+1,
recvtag=0)`. -/
def hiOps (b : Bufs σ μ) (size r : ℕ) : List (Instr σ μ) :=
  if r + 1 < size then
    [0, 1, 2].map fun d => .sendrecv (r + 1) 1 (r + 1) 0 (b.hiGet r d) (b.hiPut r d)
  else []

/-- Received layers never are layers that are sent. -/
structure Bufs.Lawful (b : Bufs σ μ) (size : ℕ) : Prop where
  lolo : ∀ r d d' m l, 0 < r → r < size → b.loGet r d (b.loPut r d' m l) = b.loGet r d l
  hihi : ∀ r d d' m l, r + 1 < size → b.hiGet r d (b.hiPut r d' m l) = b.hiGet r d l
  hilo : ∀ r d d' m l, 0 < r → r + 1 < size → b.hiGet r d (b.loPut r d' m l) = b.hiGet r d l

/-- Three received messages stored. -/
def puts3 (put : ℕ → μ → σ → σ) (msg : ℕ → μ) (l : σ) : σ := put 2 (msg 2) (put 1 (msg 1) (put 0 (msg 0) l))

/-- Memory of a rank after its lower exchange. -/
def afterLo (b : Bufs σ μ) (size : ℕ) (locs : ℕ → σ) (r : ℕ) : σ :=
  if 0 < r ∧ r < size then puts3 (b.loPut r) (fun d => b.hiGet (r - 1) d (locs (r - 1))) (locs r) else locs r

/-- Memory of a rank after the exchange: every ghost layer holds the neighbour's layer as it was before. -/
def afterHalo (b : Bufs σ μ) (size : ℕ) (locs : ℕ → σ) (r : ℕ) : σ :=
  if r + 1 < size then puts3 (b.hiPut r) (fun d => b.loGet (r + 1) d (locs (r + 1))) (afterLo b size locs r)
  else afterLo b size locs r

/-- Some schedule leads from `n` to `z`. -/
def Reach (eager : ℕ → ℕ → Bool) (n z : Net σ μ) : Prop := ∃ l, run eager n l = some z

theorem run_append {eager : ℕ → ℕ → Bool} : ∀ (l l' : List Act) (n : Net σ μ),
    run eager n (l ++ l') = (run eager n l).bind fun z => run eager z l' := by
  intro l
  induction l with
  | nil => intro l' n; simp [run]
  | cons a l ih =>
    intro l' n
    simp only [List.cons_append, run]
    cases fire eager n a with
    | none => rfl
    | some n' => simp [ih]

theorem Reach.trans {eager : ℕ → ℕ → Bool} {n m z : Net σ μ} (h1 : Reach eager n m) (h2 : Reach eager m z) :
    Reach eager n z := by
  obtain ⟨l, h1⟩ := h1
  obtain ⟨l', h2⟩ := h2
  exact ⟨l ++ l', by simp [run_append, h1, h2]⟩

theorem Reach.refl {eager : ℕ → ℕ → Bool} (n : Net σ μ) : Reach eager n n := ⟨[], rfl⟩

theorem Reach.fire {eager : ℕ → ℕ → Bool} {n z : Net σ μ} {a : Act} (h : fire eager n a = some z) : Reach eager n z :=
  ⟨[a], by simp [run, h]⟩

/-- All queues empty. -/
def Quiet (n : Net σ μ) : Prop := ∀ x y t, n.chan x y t = []

/-- One pair of matching `Sendrecv` calls. -/
theorem pair_reach {eager : ℕ → ℕ → Bool} {n : Net σ μ} {a b ta tb : ℕ} {ga gb : σ → μ} {pa pb : μ → σ → σ} {ra rb la lb}
    (hab : a ≠ b) (ha : n.proc a = ⟨.sendrecv b ta b tb ga pa :: ra, la, false, false⟩)
    (hb : n.proc b = ⟨.sendrecv a tb a ta gb pb :: rb, lb, false, false⟩) (hq : Quiet n) :
    Reach eager n ((n.setProc a ⟨ra, pa (gb lb) la, false, false⟩).setProc b ⟨rb, pb (ga la) lb, false, false⟩) := by
  have hba : b ≠ a := hab.symm
  have h1 : fire eager n (a, .post) = some ((n.setProc a { n.proc a with dep := true }).setChan a b ta ([ga la])) := by
    rw [post_fires (by rw [ha]) (by rw [ha]), hq, ha]; rfl
  rw [ha] at h1
  refine (Reach.fire h1).trans ?_
  have h2 := post_fires (eager := eager) (r := b) (n := (n.setProc a ⟨.sendrecv b ta b tb ga pa :: ra, la, true, false⟩).setChan a b ta [ga la])
    (d := a) (st := tb) (s := a) (rt := ta) (get := gb) (put := pb) (rest := rb)
    (by rw [setChan_proc, setProc_proc_ne _ _ hba, hb]) (by rw [setChan_proc, setProc_proc_ne _ _ hba, hb])
  rw [setChan_chan, if_neg (by simp [hba]), setProc_chan, hq, setChan_proc, setProc_proc_ne _ _ hba, hb] at h2
  refine (Reach.fire h2).trans ?_
  have h3 := receive_fires (eager := eager) (r := a) (n := (((n.setProc a ⟨.sendrecv b ta b tb ga pa :: ra, la, true, false⟩).setChan a b ta [ga la]).setProc b
      ⟨.sendrecv a tb a ta gb pb :: rb, lb, true, false⟩).setChan b a tb ([] ++ [gb lb]))
    (d := b) (st := ta) (s := b) (rt := tb) (get := ga) (put := pa) (rest := ra) (m := gb lb) (q := [])
    (by simp [hab]) (by simp [hab]) (by simp [setChan_chan])
  refine (Reach.fire h3).trans ?_
  have h4 := receive_fires (eager := eager) (r := b) (n := ((((((n.setProc a ⟨.sendrecv b ta b tb ga pa :: ra, la, true, false⟩).setChan a b ta [ga la]).setProc b
      ⟨.sendrecv a tb a ta gb pb :: rb, lb, true, false⟩).setChan b a tb ([] ++ [gb lb])).setProc a
        ⟨.sendrecv b ta b tb ga pa :: ra, pa (gb lb) la, true, true⟩).setChan b a tb []))
    (d := a) (st := tb) (s := a) (rt := ta) (get := gb) (put := pb) (rest := rb) (m := ga la) (q := [])
    (by simp [hba]) (by simp [hba]) (by simp [setChan_chan, hab])
  simp only [setChan_proc, setProc_proc, setProc_proc_ne _ _ hab, setProc_proc_ne _ _ hba] at h4 ⊢
  refine (Reach.fire h4).trans ?_
  refine (Reach.fire (finish_fires (r := a) (d := b) (st := ta) (s := b) (rt := tb) (get := ga) (put := pa) (rest := ra)
    (by simp [hab]) (by simp [hab]) (by simp [hab]) (.inr (by simp [setChan_chan])))).trans ?_
  refine Reach.trans (Reach.fire (finish_fires (r := b) (d := a) (st := tb) (s := a) (rt := ta) (get := gb) (put := pb) (rest := rb)
    (by simp [hba]) (by simp [hba]) (by simp [hba]) (.inr (by simp [setChan_chan, hba])))) ?_
  have e : ∀ x y : Net σ μ, x = y → Reach eager x y := fun x y h => h ▸ Reach.refl x
  refine e _ _ (Net.ext' ?_ ?_)
  · funext r
    by_cases r1 : r = b
    · subst r1; simp [hba]
    · by_cases r2 : r = a
      · subst r2; simp [hab]
      · simp [r1, r2]
  · funext x y t
    simp only [setProc_chan, setChan_chan, hq x y t]
    split_ifs <;> rfl

/-- The three exchanges over one link. -/
theorem link_reach {eager : ℕ → ℕ → Bool} {b : Bufs σ μ} {size : ℕ} (hb : b.Lawful size) {n : Net σ μ} {r : ℕ} (hr : r + 1 < size)
    {ra rb la lb} (ha : n.proc r = ⟨hiOps b size r ++ ra, la, false, false⟩)
    (hb1 : n.proc (r + 1) = ⟨loOps b size (r + 1) ++ rb, lb, false, false⟩) (hq : Quiet n) :
    Reach eager n ((n.setProc r ⟨ra, puts3 (b.hiPut r) (fun d => b.loGet (r + 1) d lb) la, false, false⟩).setProc (r + 1)
      ⟨rb, puts3 (b.loPut (r + 1)) (fun d => b.hiGet r d la) lb, false, false⟩) := by
  have hne : r ≠ r + 1 := by omega
  have hne' : r + 1 ≠ r := by omega
  simp only [hiOps, if_pos hr, List.map_cons, List.map_nil, List.cons_append, List.nil_append] at ha
  simp only [loOps, if_pos (show 0 < r + 1 ∧ r + 1 < size from ⟨by omega, hr⟩), List.map_cons, List.map_nil, List.cons_append,
    List.nil_append, Nat.add_sub_cancel] at hb1
  refine (pair_reach hne ha hb1 hq).trans ?_
  refine (pair_reach hne (by rw [setProc_proc_ne _ _ hne, setProc_proc]) (by rw [setProc_proc]) (by exact hq)).trans ?_
  refine (pair_reach hne (by rw [setProc_proc_ne _ _ hne, setProc_proc]) (by rw [setProc_proc]) (by exact hq)).trans ?_
  have e : ∀ x y : Net σ μ, x = y → Reach eager x y := fun x y h => h ▸ Reach.refl x
  refine e _ _ (Net.ext' ?_ rfl)
  funext x
  simp only [hb.lolo (r + 1) _ _ _ _ (by omega) hr, hb.hihi r _ _ _ _ hr, puts3]
  by_cases r1 : x = r + 1
  · subst r1; simp
  · by_cases r2 : x = r
    · subst r2; simp
    · simp [r1, r2]

/-- The network in which the links below `m` have been served. -/
def stageProc (b : Bufs σ μ) (size : ℕ) (locs : ℕ → σ) (rest : ℕ → List (Instr σ μ)) (m r : ℕ) : Proc σ μ :=
  if r < m then ⟨rest r, afterHalo b size locs r, false, false⟩
  else if r = m then ⟨hiOps b size r ++ rest r, afterLo b size locs r, false, false⟩
  else ⟨loOps b size r ++ (hiOps b size r ++ rest r), locs r, false, false⟩

theorem hiGet_afterLo {b : Bufs σ μ} {size : ℕ} (hb : b.Lawful size) (locs : ℕ → σ) {r : ℕ} (hr : r + 1 < size) (d : ℕ) :
    b.hiGet r d (afterLo b size locs r) = b.hiGet r d (locs r) := by
  unfold afterLo
  split
  · rename_i h
    simp only [puts3, hb.hilo r _ _ _ _ h.1 hr]
  · rfl

theorem stages_reach {eager : ℕ → ℕ → Bool} {b : Bufs σ μ} {size : ℕ} (hb : b.Lawful size) (locs : ℕ → σ)
    (rest : ℕ → List (Instr σ μ)) : ∀ m, m + 1 ≤ size →
    Reach eager ⟨stageProc b size locs rest 0, fun _ _ _ => []⟩ ⟨stageProc b size locs rest m, fun _ _ _ => []⟩ := by
  intro m
  induction m with
  | zero => intro _; exact Reach.refl _
  | succ m ih =>
    intro hm
    refine (ih (by omega)).trans ?_
    have h1 := link_reach (eager := eager) hb (n := ⟨stageProc b size locs rest m, fun _ _ _ => []⟩) (r := m) (by omega)
      (ra := rest m) (rb := hiOps b size (m + 1) ++ rest (m + 1)) (la := afterLo b size locs m) (lb := locs (m + 1))
      (by simp [stageProc]) (by simp [stageProc]) (fun _ _ _ => rfl)
    have e : (((⟨stageProc b size locs rest m, fun _ _ _ => []⟩ : Net σ μ).setProc m
        ⟨rest m, puts3 (b.hiPut m) (fun d => b.loGet (m + 1) d (locs (m + 1))) (afterLo b size locs m), false, false⟩).setProc (m + 1)
        ⟨hiOps b size (m + 1) ++ rest (m + 1), puts3 (b.loPut (m + 1)) (fun d => b.hiGet m d (afterLo b size locs m)) (locs (m + 1)),
          false, false⟩) = ⟨stageProc b size locs rest (m + 1), fun _ _ _ => []⟩ := by
      refine Net.ext' ?_ rfl
      funext x
      by_cases r1 : x = m + 1
      · subst r1
        rw [setProc_proc]
        simp only [hiGet_afterLo hb locs (show m + 1 < size by omega)]
        simp [stageProc, afterLo, show m + 1 < size by omega]
      · by_cases r2 : x = m
        · subst r2
          rw [setProc_proc_ne _ _ (by omega), setProc_proc]
          simp [stageProc, afterHalo, show x + 1 < size by omega]
        · rw [setProc_proc_ne _ _ r1, setProc_proc_ne _ _ r2]
          simp only [stageProc]
          by_cases r3 : x < m
          · simp [r3, show x < m + 1 by omega]
          · simp [r3, r2, r1, show ¬ x < m + 1 by omega]
    rw [e] at h1
    exact h1

/-- The whole exchange in one schedule. -/
theorem halo_reach {eager : ℕ → ℕ → Bool} {b : Bufs σ μ} {size : ℕ} (hb : b.Lawful size) (hs : 0 < size) (locs : ℕ → σ)
    (rest : ℕ → List (Instr σ μ)) :
    Reach eager ⟨fun r => ⟨(loOps b size r ++ hiOps b size r) ++ rest r, locs r, false, false⟩, fun _ _ _ => []⟩
      ⟨fun r => ⟨rest r, afterHalo b size locs r, false, false⟩, fun _ _ _ => []⟩ := by
  have h := stages_reach (eager := eager) hb locs rest (size - 1) (by omega)
  have e1 : stageProc b size locs rest 0 = fun r => ⟨(loOps b size r ++ hiOps b size r) ++ rest r, locs r, false, false⟩ := by
    funext r
    rcases Nat.eq_zero_or_pos r with rfl | hr
    · simp [stageProc, loOps, afterLo]
    · simp [stageProc, show r ≠ 0 by omega]
  have e2 : stageProc b size locs rest (size - 1) = fun r => ⟨rest r, afterHalo b size locs r, false, false⟩ := by
    funext r
    by_cases h1 : r < size - 1
    · simp [stageProc, h1]
    · by_cases h2 : r = size - 1
      · subst h2
        simp [stageProc, hiOps, afterHalo, show ¬ (size - 1 + 1 < size) by omega]
      · simp [stageProc, h1, h2, hiOps, loOps, afterHalo, afterLo, show ¬ r + 1 < size by omega, show ¬ r < size by omega]
  rw [e1, e2] at h
  exact h

/-- A local computation on every rank below `size`. -/
theorem comp_reach {eager : ℕ → ℕ → Bool} (size : ℕ) (f : ℕ → σ → σ) (locs : ℕ → σ) (rest : ℕ → List (Instr σ μ)) :
    Reach eager ⟨fun r => ⟨(if r < size then [.comp (f r)] else []) ++ rest r, locs r, false, false⟩, fun _ _ _ => []⟩
      ⟨fun r => ⟨rest r, if r < size then f r (locs r) else locs r, false, false⟩, fun _ _ _ => []⟩ := by
  have key : ∀ m ≤ size, Reach eager
      ⟨fun r => ⟨(if r < size then [.comp (f r)] else []) ++ rest r, locs r, false, false⟩, fun _ _ _ => []⟩
      ⟨fun r => if r < m then ⟨rest r, f r (locs r), false, false⟩ else
        ⟨(if r < size then [.comp (f r)] else []) ++ rest r, locs r, false, false⟩, fun _ _ _ => []⟩ := by
    intro m
    induction m with
    | zero => intro _; simpa using Reach.refl _
    | succ m ih =>
      intro hm
      refine (ih (by omega)).trans (Reach.fire (a := (m, .comp)) ?_)
      rw [comp_fires (f := f m) (rest := rest m) (by simp [show m < size by omega])]
      congr 1
      refine Net.ext' ?_ rfl
      funext x
      by_cases r1 : x = m
      · subst r1; simp
      · rw [setProc_proc_ne _ _ r1]
        by_cases r2 : x < m
        · simp [r2, show x < m + 1 by omega]
        · simp [r2, show ¬ x < m + 1 by omega]
  have := key size le_rfl
  have e : (fun r => if r < size then (⟨rest r, f r (locs r), false, false⟩ : Proc σ μ) else
        ⟨(if r < size then [.comp (f r)] else []) ++ rest r, locs r, false, false⟩) =
      fun r => ⟨rest r, if r < size then f r (locs r) else locs r, false, false⟩ := by
    funext r
    by_cases h : r < size <;> simp [h]
  rw [e] at this
  exact this

end Mpi
end Wakis
