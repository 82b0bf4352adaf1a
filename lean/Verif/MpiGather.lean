import Verif.MpiJob

/-!
# Gathering a distributed field (C13)

`wakis/solverFIT3D.py`: `mpi_gather` (520-659) and `mpi_gather_asField` (661-712).
`comm.gather` is taken to deliver the ranks' arrays to the root in rank order.
-/

namespace Wakis
namespace Mpi
open Sol Sparse
variable {K : Type _}

/-! ### Model -/

/-- A one-dimensional numpy array. -/
structure Arr (K : Type _) where
  len : ℕ
  val : ℕ → K

/-- A numpy array with three axes (axes dropped by integer indexing are kept with length one). -/
structure Arr3 (K : Type _) where
  n0 : ℕ
  n1 : ℕ
  n2 : ℕ
  val : ℕ → ℕ → ℕ → K

/-- `a.ravel()`: last index fastest. -/
def ravelC (b : Fld.Block K) : Arr K :=
  ⟨b.xs.length * b.ys.length * b.zs.length, fun p =>
    b.val (p / (b.ys.length * b.zs.length)) (p / b.zs.length % b.ys.length) (p % b.zs.length)⟩

/-- `np.reshape(a, (n0, n1, n2))`: last index fastest; `ValueError` if the sizes differ. -/
def reshapeC (a : Arr K) (n0 n1 n2 : ℕ) : Py (ℕ → ℕ → ℕ → K) :=
  if a.len = n0 * n1 * n2 then .ok fun i j k => a.val ((i * n1 + j) * n2 + k) else .error .valueError

/-- solverFIT3D.py:640-655 (and the copies at 583-597, 605-618, 626-639): the contribution of rank `r`
without its ghost layers.  `n_ghosts` is 1 (gridFIT3D.py:341). -/
def piece (size NZ nx ny r : ℕ) (a : Arr K) : Py (ℕ → ℕ → ℕ → K) :=
  let nz := NZ / size
  if r = 0 then reshapeC a nx ny (nz + 1)
  else if r = size - 1 then (reshapeC a nx ny (nz + 1)).map fun m i j k => m i j (k + 1)
  else (reshapeC a nx ny (nz + 2)).map fun m i j k => m i j (k + 1)

/-- The loop `for r in range(size): _field[:, :, r*nz:(r+1)*nz] = ...` after `n` passes. -/
def assemble [Zero K] (size NZ nx ny : ℕ) (buffer : ℕ → Arr K) : ℕ → Py (ℕ → ℕ → ℕ → K)
  | 0 => .ok fun _ _ _ => 0
  | r + 1 => do
    let acc ← assemble size NZ nx ny buffer r
    let p ← piece size NZ nx ny r (buffer r)
    return fun i j k => if r * (NZ / size) ≤ k ∧ k < (r + 1) * (NZ / size) then p i j (k - r * (NZ / size)) else acc i j k

/-- The number of selected positions the reassembly assumes: 1 for an integer, `stop - start` for a
slice (`TypeError` on `None`, `ValueError` from `np.zeros` if negative). -/
def extent : Sel → Py ℕ
  | .int _ => .ok 1
  | .slice (some a) (some b) => if b - a < 0 then .error .valueError else .ok (b - a).toNat
  | .slice _ _ => .error .typeError

/-- The local arrays `field[x, y, :, component].ravel()` of ranks `0..n-1`, in rank order; the first
exception ends the program. -/
def locals (norm3 : K → K → K → K) (fs : ℕ → Fld K) (x y : Sel) (c : Fld.CKey) : ℕ → Py (List (Arr K))
  | 0 => .ok []
  | r + 1 => do
    let l ← locals norm3 fs x y c r
    let b ← (fs r).getitem norm3 x y .all c
    return l ++ [ravelC b]

/-- solverFIT3D.py:544-549 defaults for the index arguments. -/
def orFull (s : Option Sel) (n : ℕ) : Sel := s.getD (.slice (some 0) (some n))

/-- solverFIT3D.py:520-659 `mpi_gather(field, x, y, z, component)` for a field whose part on rank `r` is
`fs r`: the result on rank 0.  The four branches (x and/or y integer) differ only in the axes numpy
drops, which the model keeps with length one. -/
def mpiGather [Zero K] (norm3 : K → K → K → K) (size NZ : ℕ) (fs : ℕ → Fld K) (x y z : Option Sel) (c : Fld.CKey) : Py (Arr3 K) := do
  let x := orFull x (fs 0).Nx
  let y := orFull y (fs 0).Ny
  let z := orFull z NZ
  let bufs ← locals norm3 fs x y c size
  let nx ← extent x
  let ny ← extent y
  let m ← assemble size NZ nx ny (fun r => bufs.getD r ⟨0, fun _ => 0⟩) size
  let zs ← z.resolve NZ
  return ⟨nx, ny, zs.length, fun i j k => m i j (zs.getD k 0)⟩

/-- The `field` argument when it is a string, solverFIT3D.py:551-571: `"Ex"`, `"EAbs"`, or a bare name with the
component argument (default `"z"`); any other name leaves `local` unbound. -/
def parseField (s : String) (component : Option Fld.CKey) : Py (Which × Fld.CKey) :=
  let l := s.toList
  let (name, c) :=
    if l.length = 2 then ([l.getD 0 'z'], Fld.CKey.str (String.ofList [l.getD 1 'z']))
    else if l.length = 4 then ([l.getD 0 'z'], Fld.CKey.str (String.ofList (l.drop 1)))
    else (l, component.getD (.str "z"))
  if name = ['E'] then .ok (.E, c)
  else if name = ['H'] then .ok (.H, c)
  else if name = ['J'] then .ok (.J, c)
  else .error .unboundLocalError

/-- One pass `for d in ["x", "y", "z"]` of solverFIT3D.py:689-710: the buffers of component `d`, then the
assignments `_field[:, :, zz, d] = ...` of `n` ranks. -/
def asFieldLoop [Zero K] (size NZ Nx Ny : ℕ) (buffer : ℕ → Arr K) (d : Fld.CKey) : ℕ → Fld K → Py (Fld K)
  | 0, f => .ok f
  | r + 1, f => do
    let f ← asFieldLoop size NZ Nx Ny buffer d r f
    let p ← piece size NZ Nx Ny r (buffer r)
    f.setitem (.tup .all .all (.slice (some ((r * (NZ / size) : ℕ) : ℤ)) (some (((r + 1) * (NZ / size) : ℕ) : ℤ))) d)
      (.arr (Nx, Ny, NZ / size) p)

/-- solverFIT3D.py:661-712 `mpi_gather_asField` on rank 0. -/
def gatherField [Zero K] [One K] (norm3 : K → K → K → K) (size NZ : ℕ) (fs : ℕ → Fld K) : List Fld.CKey → Fld K → Py (Fld K)
  | [], f => .ok f
  | d :: ds, f => do
    let bufs ← locals norm3 fs .all .all d size
    let f ← asFieldLoop size NZ (fs 0).Nx (fs 0).Ny (fun r => bufs.getD r ⟨0, fun _ => 0⟩) d size f
    gatherField norm3 size NZ fs ds f

def mpiGatherAsField [Zero K] [One K] (norm3 : K → K → K → K) (size NZ : ℕ) (fs : ℕ → Fld K) : Py (Fld K) :=
  gatherField norm3 size NZ fs xyz (Fld.new (fs 0).Nx (fs 0).Ny NZ)

/-- solverFIT3D.py:661-712 on any other rank: the field created in line 684 is returned unchanged. -/
def asFieldNonRoot [Zero K] [One K] (f : Fld K) (NZ : ℕ) : Fld K := Fld.new f.Nx f.Ny NZ

/-! ### Specification -/

/-- `fs` is the distribution of the global field `G` over `size` ranks: equal transverse size, `NZ/size` owned
layers per rank plus one ghost layer at each inner rank border (and above a single rank), and in the owned layers the values of
`G`.  Nothing is said about the ghost layers. -/
structure Holds (size : ℕ) (G : Fld K) (fs : ℕ → Fld K) : Prop where
  ranks : 1 ≤ size
  dvd : size ∣ G.Nz
  dims : ∀ r < size, (fs r).Nx = G.Nx ∧ (fs r).Ny = G.Ny ∧ (fs r).Nz = G.Nz / size + Grid.ghostLo r + Grid.ghostHi r size
  vals : ∀ r < size, ∀ key c, Fld.Names key c → ∀ i j k : ℕ, i < G.Nx → j < G.Ny → k < G.Nz / size →
    (fs r).get i j (k + Grid.ghostLo r : ℕ) key = G.get i j (r * (G.Nz / size) + k : ℕ) key

/-- An index that selects what its bounds say: an integer in range or `a:b` with `0 ≤ a ≤ b ≤ n`. -/
def Plain (n : ℕ) : Sel → Prop
  | .int i => -(n : ℤ) ≤ i ∧ i < n
  | .slice (some a) (some b) => 0 ≤ a ∧ a ≤ b ∧ b ≤ n
  | _ => False

/-! ### Lemmas -/

theorem getD_lt {α : Type _} {l : List α} {i : ℕ} {d : α} (h : i < l.length) : l.getD i d = l[i] := by
  rw [List.getD_eq_getElem?_getD, List.getElem?_eq_getElem h]; rfl

theorem ravel_reshape (b : Fld.Block K) {n0 n1 n2 : ℕ} (h0 : b.xs.length = n0) (h1 : b.ys.length = n1) (h2 : b.zs.length = n2) :
    ∃ m, reshapeC (ravelC b) n0 n1 n2 = .ok m ∧ ∀ i j k, j < n1 → k < n2 → m i j k = b.val i j k := by
  subst h0 h1 h2
  refine ⟨_, if_pos rfl, fun i j k hj hk => ?_⟩
  show b.val _ _ _ = _
  have e1 : ((i * b.ys.length + j) * b.zs.length + k) / b.zs.length = i * b.ys.length + j := by
    rw [Nat.add_comm, Nat.add_mul_div_right _ _ (by omega), Nat.div_eq_of_lt hk, Nat.zero_add]
  have e2 : ((i * b.ys.length + j) * b.zs.length + k) / (b.ys.length * b.zs.length) = i := by
    rw [Nat.mul_comm b.ys.length, ← Nat.div_div_eq_div_mul, e1, Nat.add_comm, Nat.add_mul_div_right _ _ (by omega),
      Nat.div_eq_of_lt hj, Nat.zero_add]
  have e3 : (i * b.ys.length + j) % b.ys.length = j := by
    rw [Nat.add_comm, Nat.add_mul_mod_self_right, Nat.mod_eq_of_lt hj]
  have e4 : ((i * b.ys.length + j) * b.zs.length + k) % b.zs.length = k := by
    rw [Nat.add_comm, Nat.add_mul_mod_self_right, Nat.mod_eq_of_lt hk]
  rw [e2, e1, e3, e4]

/-- The matrix `field[..., key]` reads from. -/
def matOf (norm3 : K → K → K → K) (f : Fld K) (key : Fld.CKey) : Option (ℕ → ℕ → ℕ → K) :=
  match f.toMatrix key with
  | some m => some m
  | none => if Fld.isAbs key then some (f.absWith norm3) else none

theorem getitem_eq (norm3 : K → K → K → K) (f : Fld K) (x y z : Sel) (key : Fld.CKey) :
    f.getitem norm3 x y z key = match matOf norm3 f key with
      | some m => f.index3 m x y z
      | none => .error .indexError := by
  unfold Fld.getitem matOf
  cases f.toMatrix key with
  | some m => rfl
  | none => by_cases h : Fld.isAbs key = true <;> simp [h]

theorem Holds.at3 {size : ℕ} {G : Fld K} {fs : ℕ → Fld K} (h : Holds size G fs) {r c i j k : ℕ} (hr : r < size) (hc : c < 3)
    (hi : i < G.Nx) (hj : j < G.Ny) (hk : k < G.Nz / size) :
    (fs r).at3 c i j (k + Grid.ghostLo r) = G.at3 c i j (r * (G.Nz / size) + k) := by
  have hn : Fld.Names (.num c) c := ⟨rfl, hc⟩
  have hv := h.vals r hr (.num c) c hn i j k hi hj hk
  obtain ⟨d1, d2, d3⟩ := h.dims r hr
  have hb : r * (G.Nz / size) + k < G.Nz := by
    have h1 : (r + 1) * (G.Nz / size) ≤ size * (G.Nz / size) := Nat.mul_le_mul_right _ hr
    rw [Nat.mul_div_cancel' h.dvd, Nat.add_mul, Nat.one_mul] at h1
    omega
  rw [Fld.get_at3 _ hn (by omega) (by omega) (by omega), Fld.get_at3 _ hn hi hj hb] at hv
  exact Except.ok.inj hv

/-- The matrices a rank and the global field read from agree on owned layers. -/
theorem Holds.mat {size : ℕ} {G : Fld K} {fs : ℕ → Fld K} (h : Holds size G fs) (norm3 : K → K → K → K) {key : Fld.CKey}
    {M : ℕ → ℕ → ℕ → K} (hM : matOf norm3 G key = some M) {r : ℕ} (hr : r < size) :
    ∃ m, matOf norm3 (fs r) key = some m ∧ ∀ i j k, i < G.Nx → j < G.Ny → k < G.Nz / size →
      m i j (k + Grid.ghostLo r) = M i j (r * (G.Nz / size) + k) := by
  have rs : ∀ (f : Fld K) c i j k, Fld.reshapeF f.Nx f.Ny (f.part c) i j k = f.at3 c i j k := fun _ _ _ _ _ => rfl
  unfold matOf Fld.toMatrix at hM ⊢
  cases hc : Fld.compOf key with
  | some c =>
    rw [hc] at hM
    simp only [Option.map_some, Option.some.injEq] at hM ⊢
    subst hM
    refine ⟨_, rfl, fun i j k hi hj hk => ?_⟩
    have hc3 : c < 3 := by
      have := hc; unfold Fld.compOf at this; split_ifs at this <;> simp at this <;> omega
    exact h.at3 hr hc3 hi hj hk
  | none =>
    rw [hc] at hM
    simp only [Option.map_none] at hM ⊢
    split_ifs at hM ⊢ with ha
    simp only [Option.some.injEq] at hM
    subst hM
    refine ⟨_, rfl, fun i j k hi hj hk => ?_⟩
    unfold Fld.absWith
    simp only [rs]
    rw [h.at3 hr (by decide) hi hj hk, h.at3 hr (by decide) hi hj hk, h.at3 hr (by decide) hi hj hk]

theorem plain_resolve {n : ℕ} {s : Sel} (h : Plain n s) : ∃ xs nx, s.resolve n = .ok xs ∧ extent s = .ok nx ∧ xs.length = nx := by
  cases s with
  | int i =>
    have : ∃ a, pyIndex n i = .ok a := by
      unfold Plain at h
      unfold pyIndex
      split_ifs <;> first | exact ⟨_, rfl⟩ | omega
    obtain ⟨a, ha⟩ := this
    exact ⟨[a], 1, by simp [Sel.resolve, ha, Except.map], rfl, rfl⟩
  | slice st sp =>
    cases st with
    | none => exact h.elim
    | some a =>
      cases sp with
      | none => exact h.elim
      | some b =>
        obtain ⟨h0, h1, h2⟩ := h
        refine ⟨_, (b - a).toNat, rfl, if_neg (by omega), ?_⟩
        simp only [sliceLo, sliceHi, List.length_map, List.length_range]
        unfold clipBound
        rw [if_neg (by omega), if_neg (by omega)]
        omega

theorem orFull_plain {n : ℕ} {s : Option Sel} (h : ∀ t, s = some t → Plain n t) : Plain n (orFull s n) := by
  cases s with
  | none => exact ⟨by omega, by omega, le_refl _⟩
  | some t => exact h t rfl

/-- What the local arrays are. -/
theorem locals_ok (norm3 : K → K → K → K) (fs : ℕ → Fld K) (x y : Sel) (c : Fld.CKey) {n : ℕ} {b : ℕ → Fld.Block K}
    (h : ∀ r < n, (fs r).getitem norm3 x y .all c = .ok (b r)) :
    locals norm3 fs x y c n = .ok ((List.range n).map fun r => ravelC (b r)) := by
  induction n with
  | zero => rfl
  | succ n ih =>
    rw [locals, ih (fun r hr => h r (by omega))]
    simp only [bind, Except.bind, h n (by omega)]
    rw [List.range_succ, List.map_append]
    rfl

theorem getD_locals {n r : ℕ} (hr : r < n) (f : ℕ → Arr K) (d : Arr K) : ((List.range n).map f).getD r d = f r := by
  rw [List.getD_eq_getElem?_getD, List.getElem?_map, List.getElem?_range hr]; rfl

/-- One rank's piece: its owned layers. -/
theorem piece_ok {size NZ nx ny r : ℕ} {b : Fld.Block K} (hr : r < size) (h0 : b.xs.length = nx) (h1 : b.ys.length = ny)
    (h2 : b.zs.length = NZ / size + Grid.ghostLo r + Grid.ghostHi r size) :
    ∃ p, piece size NZ nx ny r (ravelC b) = .ok p ∧ ∀ i j k, j < ny → k < NZ / size → p i j k = b.val i j (k + Grid.ghostLo r) := by
  unfold piece
  unfold Grid.ghostLo Grid.ghostHi at *
  by_cases e0 : r = 0
  · subst e0
    rw [if_neg (by omega), if_pos (by omega)] at h2
    obtain ⟨m, hm, hv⟩ := ravel_reshape b h0 h1 h2
    simp only [if_true, lt_irrefl, if_false]
    exact ⟨m, hm, fun i j k hj hk => hv i j k hj (by omega)⟩
  · rw [if_pos (by omega)] at h2
    simp only [if_neg e0, if_pos (show 0 < r by omega)]
    by_cases e1 : r = size - 1
    · rw [if_neg (by omega)] at h2
      obtain ⟨m, hm, hv⟩ := ravel_reshape b h0 h1 h2
      rw [if_pos e1]
      exact ⟨_, by rw [show NZ / size + 1 = NZ / size + 1 + 0 from rfl, hm]; rfl, fun i j k hj hk => hv i j (k + 1) hj (by omega)⟩
    · rw [if_pos (by omega)] at h2
      obtain ⟨m, hm, hv⟩ := ravel_reshape b h0 h1 h2
      rw [if_neg e1]
      exact ⟨_, by rw [show NZ / size + 2 = NZ / size + 1 + 1 from rfl, hm]; rfl, fun i j k hj hk => hv i j (k + 1) hj (by omega)⟩

theorem assemble_ok [Zero K] {size NZ nx ny : ℕ} (buffer : ℕ → Arr K) (p : ℕ → ℕ → ℕ → ℕ → K) {n : ℕ}
    (h : ∀ r < n, piece size NZ nx ny r (buffer r) = .ok (p r)) :
    ∃ m, assemble size NZ nx ny buffer n = .ok m ∧ ∀ i j k r, r < n → r * (NZ / size) ≤ k → k < (r + 1) * (NZ / size) →
      m i j k = p r i j (k - r * (NZ / size)) := by
  induction n with
  | zero => exact ⟨_, rfl, fun i j k r hr => absurd hr (by omega)⟩
  | succ n ih =>
    obtain ⟨m, hm, hv⟩ := ih (fun r hr => h r (by omega))
    refine ⟨_, by simp only [assemble, hm, bind, Except.bind, h n (by omega)]; rfl, fun i j k r hr h1 h2 => ?_⟩
    show (if _ then _ else _) = _
    by_cases e : r = n
    · subst e; rw [if_pos ⟨h1, h2⟩]
    · have : (r + 1) * (NZ / size) ≤ n * (NZ / size) := Nat.mul_le_mul_right _ (by omega)
      rw [if_neg (by omega)]
      exact hv i j k r (by omega) h1 h2

/-! ### C13 -/

/-- **C13 (array).** When every rank holds its owned layers of `G`, `mpi_gather` with any x, y, z index and any
component (x, y, z or the magnitude) returns on the root exactly `G[x, y, z, component]`, whatever the
ghost layers contain. -/
theorem C13_gather [Zero K] (norm3 : K → K → K → K) {size : ℕ} {G : Fld K} {fs : ℕ → Fld K} (h : Holds size G fs)
    {x y z : Option Sel} {key : Fld.CKey} (hx : ∀ t, x = some t → Plain G.Nx t) (hy : ∀ t, y = some t → Plain G.Ny t)
    {B : Fld.Block K} (hB : G.getitem norm3 (orFull x G.Nx) (orFull y G.Ny) (orFull z G.Nz) key = .ok B) :
    ∃ A, mpiGather norm3 size G.Nz fs x y z key = .ok A ∧ (A.n0, A.n1, A.n2) = (B.xs.length, B.ys.length, B.zs.length) ∧
      ∀ i j k, i < A.n0 → j < A.n1 → k < A.n2 → A.val i j k = B.val i j k := by
  have hs := h.ranks
  obtain ⟨d1, d2, -⟩ := h.dims 0 (by omega)
  obtain ⟨xs, nx, rx, ex, lx⟩ := plain_resolve (orFull_plain hx)
  obtain ⟨ys, ny, ry, ey, ly⟩ := plain_resolve (orFull_plain hy)
  rw [getitem_eq] at hB
  cases hM : matOf norm3 G key with
  | none => rw [hM] at hB; simp at hB
  | some M =>
    rw [hM] at hB
    simp only [Fld.index3, Fld.resolve3, rx, ry, bind, Except.bind] at hB
    cases hz : (orFull z G.Nz).resolve G.Nz with
    | error e => rw [hz] at hB; simp at hB
    | ok zs =>
      rw [hz] at hB
      simp only [pure, Except.pure, Except.ok.injEq] at hB
      subst hB
      -- the ranks' blocks
      have hloc : ∀ r, ∃ (m : ℕ → ℕ → ℕ → K), r < size → (matOf norm3 (fs r) key = some m ∧ ∀ i j k, i < G.Nx → j < G.Ny → k < G.Nz / size →
          m i j (k + Grid.ghostLo r) = M i j (r * (G.Nz / size) + k)) := by
        intro r
        by_cases hr : r < size
        · obtain ⟨m, h1, h2⟩ := h.mat norm3 hM hr; exact ⟨m, fun _ => ⟨h1, h2⟩⟩
        · exact ⟨M, fun h' => absurd h' hr⟩
      choose m hm using hloc
      let b : ℕ → Fld.Block K := fun r => ⟨xs, ys, List.range (fs r).Nz, fun a b' c => m r (xs.getD a 0) (ys.getD b' 0) ((List.range (fs r).Nz).getD c 0)⟩
      have hb : ∀ r < size, (fs r).getitem norm3 (orFull x G.Nx) (orFull y G.Ny) .all key = .ok (b r) := by
        intro r hr
        obtain ⟨e1, e2, e3⟩ := h.dims r hr
        rw [getitem_eq, (hm r hr).1]
        simp only [Fld.index3, Fld.resolve3, e1, e2, rx, ry, Sel.resolve_all, bind, Except.bind]
        rfl
      have hpc : ∀ r, ∃ p, r < size → (piece size G.Nz nx ny r (ravelC (b r)) = .ok p ∧
          ∀ i j k, j < ny → k < G.Nz / size → p i j k = (b r).val i j (k + Grid.ghostLo r)) := by
        intro r
        by_cases hr : r < size
        · obtain ⟨p, h1, h2⟩ := piece_ok (b := b r) hr lx ly (by
            show (List.range (fs r).Nz).length = _
            rw [List.length_range, (h.dims r hr).2.2])
          exact ⟨p, fun _ => ⟨h1, h2⟩⟩
        · exact ⟨M, fun h' => absurd h' hr⟩
      choose p hp using hpc
      obtain ⟨A, hA, hAv⟩ := assemble_ok (size := size) (NZ := G.Nz) (nx := nx) (ny := ny)
        (fun r => (((List.range size).map fun r => ravelC (b r)).getD r ⟨0, fun _ => 0⟩)) p (n := size)
        (fun r hr => by rw [getD_locals hr]; exact (hp r hr).1)
      refine ⟨⟨nx, ny, zs.length, fun i j k => A i j (zs.getD k 0)⟩, ?_, by simp [lx, ly], ?_⟩
      · simp only [mpiGather, d1, d2, locals_ok norm3 fs _ _ key hb, bind, Except.bind, ex, ey, hA, hz]
        rfl
      · intro i j k hi hj hk
        have hi : i < nx := hi
        have hj : j < ny := hj
        have hk : k < zs.length := hk
        show A i j (zs.getD k 0) = M (xs.getD i 0) (ys.getD j 0) (zs.getD k 0)
        have hx' : xs.getD i 0 < G.Nx := by
          rw [getD_lt (by omega)]; exact Sel.resolve_lt rx _ (List.getElem_mem _)
        have hy' : ys.getD j 0 < G.Ny := by
          rw [getD_lt (by omega)]; exact Sel.resolve_lt ry _ (List.getElem_mem _)
        have hz' : zs.getD k 0 < G.Nz := by
          rw [getD_lt (by omega)]; exact Sel.resolve_lt hz _ (List.getElem_mem _)
        generalize zs.getD k 0 = q at *
        have hn0 : 0 < G.Nz / size := by
          rcases Nat.eq_zero_or_pos (G.Nz / size) with h0 | h0
          · have := Nat.mul_div_cancel' h.dvd; rw [h0] at this; omega
          · exact h0
        have hr : q / (G.Nz / size) < size := by
          rw [Nat.div_lt_iff_lt_mul hn0, Nat.mul_div_cancel' h.dvd]; exact hz'
        have h1 : q / (G.Nz / size) * (G.Nz / size) ≤ q := Nat.div_mul_le_self _ _
        have h2 : q < (q / (G.Nz / size) + 1) * (G.Nz / size) := by
          have := Nat.lt_div_mul_add (a := q) hn0; rw [Nat.add_mul, Nat.one_mul]; exact this
        generalize q / (G.Nz / size) = r at *
        have h3 : q - r * (G.Nz / size) < G.Nz / size := by rw [Nat.add_mul, Nat.one_mul] at h2; omega
        rw [hAv i j q r hr h1 h2, (hp r hr).2 i j _ hj h3]
        show m r (xs.getD i 0) (ys.getD j 0) ((List.range (fs r).Nz).getD (q - r * (G.Nz / size) + Grid.ghostLo r) 0) = _
        have hlt : q - r * (G.Nz / size) + Grid.ghostLo r < (fs r).Nz := by rw [(h.dims r hr).2.2]; omega
        rw [show (List.range (fs r).Nz).getD (q - r * (G.Nz / size) + Grid.ghostLo r) 0 = q - r * (G.Nz / size) + Grid.ghostLo r by
          rw [getD_lt (by simpa using hlt), List.getElem_range], (hm r hr).2 _ _ _ hx' hy' h3]
        congr 1
        omega

/-- A slice with an open bound is refused. -/
theorem C13_open_slice [Zero K] (norm3 : K → K → K → K) {size : ℕ} {G : Fld K} {fs : ℕ → Fld K} (h : Holds size G fs)
    {z : Option Sel} {key : Fld.CKey} {c : ℕ} (hc : Fld.Names key c) (y : Option Sel) (hy : ∀ t, y = some t → Plain G.Ny t) :
    mpiGather norm3 size G.Nz fs (some .all) y z key = .error .typeError := by
  have hs := h.ranks
  obtain ⟨d1, d2, -⟩ := h.dims 0 (by omega)
  obtain ⟨ys, ny, ry, ey, ly⟩ := plain_resolve (orFull_plain hy)
  obtain ⟨M, hM⟩ : ∃ M, matOf norm3 G key = some M := by
    have : Fld.compOf key = some c := Fld.names_iff.1 hc
    exact ⟨_, by unfold matOf Fld.toMatrix; rw [this]; rfl⟩
  have hb : ∀ r, ∃ b, r < size → (fs r).getitem norm3 .all (orFull y G.Ny) .all key = .ok b := by
    intro r
    by_cases hr : r < size
    · obtain ⟨m, h1, -⟩ := h.mat norm3 hM hr
      obtain ⟨e1, e2, e3⟩ := h.dims r hr
      have : ∃ b, (fs r).getitem norm3 .all (orFull y G.Ny) .all key = .ok b := by
        rw [getitem_eq, h1]
        simp only [Fld.index3, Fld.resolve3, e2, ry, Sel.resolve_all, bind, Except.bind]
        exact ⟨_, rfl⟩
      exact ⟨this.choose, fun _ => this.choose_spec⟩
    · exact ⟨⟨[], [], [], M⟩, fun h' => absurd h' hr⟩
  choose b hb using hb
  simp only [mpiGather, d1, d2, orFull, Option.getD_some]
  have := locals_ok norm3 fs .all (orFull y G.Ny) key hb
  simp only [orFull] at this
  rw [this]
  rfl

/-- The assignments of one component. -/
theorem asFieldLoop_ok [Zero K] {size NZ Nx Ny : ℕ} {buffer : ℕ → Arr K} {d : Fld.CKey} {c : ℕ} (hd : Fld.Names d c) (p : ℕ → ℕ → ℕ → ℕ → K)
    (hdvd : size ∣ NZ) {n : ℕ} (hn : n ≤ size) (h : ∀ r < n, piece size NZ Nx Ny r (buffer r) = .ok (p r)) {f : Fld K}
    (hf : f.Nx = Nx ∧ f.Ny = Ny ∧ f.Nz = NZ) :
    ∃ g, asFieldLoop size NZ Nx Ny buffer d n f = .ok g ∧ (g.Nx = Nx ∧ g.Ny = Ny ∧ g.Nz = NZ) ∧
      ∀ key' c' i j k, Fld.Names key' c' → i < Nx → j < Ny → k < NZ →
        g.get i j k key' = if c' = c ∧ k < n * (NZ / size) then .ok (p (k / (NZ / size)) i j (k % (NZ / size))) else f.get i j k key' := by
  induction n with
  | zero => exact ⟨f, rfl, hf, fun key' c' i j k _ _ _ _ => by rw [if_neg (by omega)]⟩
  | succ n ih =>
    obtain ⟨g, hg, ⟨g1, g2, g3⟩, hv⟩ := ih (by omega) (fun r hr => h r (by omega))
    have hle : (n + 1) * (NZ / size) ≤ NZ := by
      calc (n + 1) * (NZ / size) ≤ size * (NZ / size) := Nat.mul_le_mul_right _ hn
        _ = NZ := Nat.mul_div_cancel' hdvd
    have hle0 : n * (NZ / size) ≤ (n + 1) * (NZ / size) := Nat.mul_le_mul_right _ (by omega)
    generalize hw : NZ / size = w at *
    let zs := (List.range w).map (· + n * w)
    have hz : (Sel.slice (some ((n * w : ℕ) : ℤ)) (some (((n + 1) * w : ℕ) : ℤ))).resolve g.Nz = .ok zs := by
      rw [g3]
      have e1 : clipBound NZ ((n * w : ℕ) : ℤ) = n * w := by unfold clipBound; rw [if_neg (by omega)]; omega
      have e2 : clipBound NZ (((n + 1) * w : ℕ) : ℤ) = (n + 1) * w := by unfold clipBound; rw [if_neg (by omega)]; omega
      simp only [Sel.resolve, sliceLo, sliceHi]
      rw [e1, e2, show (n + 1) * w - n * w = w by rw [Nat.add_mul, Nat.one_mul]; omega]
    obtain ⟨g', hg'⟩ : ∃ g', g.setitem (.tup .all .all (.slice (some ((n * w : ℕ) : ℤ)) (some (((n + 1) * w : ℕ) : ℤ))) d)
        (.arr (Nx, Ny, w) (p n)) = .ok g' := by
      have hcmp := Fld.names_iff.1 hd
      simp only [Fld.setitem, Fld.toMatrix, hcmp, Option.map_some, Fld.assign3, Fld.resolve3, g1, g2, Sel.resolve_all, hz, bind, Except.bind,
        pure, Except.pure, Fld.fromMatrix]
      rw [if_pos (by simp [zs])]
      exact ⟨_, rfl⟩
    have hdim := Fld.set_dims hg'
    refine ⟨g', ?_, ?_, ?_⟩
    · simp only [asFieldLoop, hw, hg, bind, Except.bind, h n (by omega)]
      exact hg'
    · obtain ⟨a, b, c⟩ := hdim; exact ⟨a.trans g1, b.trans g2, c.trans g3⟩
    · intro key' c' i j k hn' hi hj hk
      rw [Fld.C01_block_write g g' hd (Sel.resolve_all _) (Sel.resolve_all _) hz hg' hn' (by rw [g1]; exact hi) (by rw [g2]; exact hj)
        (by rw [g3]; exact hk), hv key' c' i j k hn' hi hj hk]
      have hmem : k ∈ zs ↔ n * w ≤ k ∧ k < (n + 1) * w := by
        simp only [zs, List.mem_map, List.mem_range]
        rw [Nat.add_mul, Nat.one_mul]
        constructor
        · rintro ⟨a, ha, rfl⟩; omega
        · rintro ⟨h1, h2⟩; exact ⟨k - n * w, by omega, by omega⟩
      simp only [hmem, List.mem_range, g1, g2]
      by_cases hcc : c' = c
      · by_cases h1 : n * w ≤ k
        · by_cases h2 : k < (n + 1) * w
          · rw [if_pos ⟨hcc, hi, hj, h1, h2⟩, if_pos ⟨hcc, h2⟩]
            have hw0 : 0 < w := by rw [Nat.add_mul, Nat.one_mul] at h2; omega
            have hlt : k - n * w < w := by rw [Nat.add_mul, Nat.one_mul] at h2; omega
            have hke : k = k - n * w + n * w := by omega
            have ix : zs.idxOf k = k - n * w := by
              have hl : k - n * w < zs.length := by simp [zs]; exact hlt
              have : zs[k - n * w] = k := by simp only [zs, List.getElem_map, List.getElem_range]; omega
              have nd : zs.Nodup := List.Nodup.map (fun a b hab => by simpa using hab) List.nodup_range
              calc zs.idxOf k = zs.idxOf zs[k - n * w] := by rw [this]
                _ = _ := List.Nodup.idxOf_getElem nd _ hl
            have ir : ∀ a m, a < m → (List.range m).idxOf a = a := by
              intro a m ham
              have hl : a < (List.range m).length := by simpa using ham
              calc (List.range m).idxOf a = (List.range m).idxOf (List.range m)[a] := by rw [List.getElem_range]
                _ = _ := List.Nodup.idxOf_getElem List.nodup_range _ hl
            have q1 : k / w = n := by rw [hke, Nat.add_mul_div_right _ _ hw0, Nat.div_eq_of_lt hlt, Nat.zero_add]
            have q2 : k % w = k - n * w := by
              conv_lhs => rw [hke]
              rw [Nat.add_mul_mod_self_right, Nat.mod_eq_of_lt hlt]
            simp only [ix, ir _ _ hi, ir _ _ hj, q1, q2]
          · rw [if_neg (by tauto), if_neg (by omega), if_neg (by tauto)]
        · rw [if_neg (by tauto), if_pos ⟨hcc, by omega⟩, if_pos ⟨hcc, by omega⟩]
      · rw [if_neg (by tauto), if_neg (by tauto), if_neg (by tauto)]

/-- One component gathered: its cells are those of `G`, the others untouched. -/
theorem gather_comp [Zero K] (norm3 : K → K → K → K) {size : ℕ} {G : Fld K} {fs : ℕ → Fld K} (h : Holds size G fs)
    {d : Fld.CKey} {c : ℕ} (hd : Fld.Names d c) {f : Fld K} (hf : f.Nx = G.Nx ∧ f.Ny = G.Ny ∧ f.Nz = G.Nz) :
    ∃ bufs g, locals norm3 fs .all .all d size = .ok bufs ∧
      asFieldLoop size G.Nz (fs 0).Nx (fs 0).Ny (fun r => bufs.getD r ⟨0, fun _ => 0⟩) d size f = .ok g ∧
      (g.Nx = G.Nx ∧ g.Ny = G.Ny ∧ g.Nz = G.Nz) ∧
      ∀ key' c' i j k, Fld.Names key' c' → i < G.Nx → j < G.Ny → k < G.Nz →
        g.get i j k key' = if c' = c then G.get i j k key' else f.get i j k key' := by
  have hs := h.ranks
  obtain ⟨d1, d2, -⟩ := h.dims 0 (by omega)
  obtain ⟨M, hM⟩ : ∃ M, matOf norm3 G d = some M := by
    have : Fld.compOf d = some c := Fld.names_iff.1 hd
    exact ⟨_, by unfold matOf Fld.toMatrix; rw [this]; rfl⟩
  have hMG : ∀ i j k, M i j k = G.at3 c i j k := by
    intro i j k
    have : Fld.compOf d = some c := Fld.names_iff.1 hd
    unfold matOf Fld.toMatrix at hM
    rw [this] at hM
    simp only [Option.map_some, Option.some.injEq] at hM
    rw [← hM]; rfl
  have hloc : ∀ r, ∃ (m : ℕ → ℕ → ℕ → K), r < size → (matOf norm3 (fs r) d = some m ∧ ∀ i j k, i < G.Nx → j < G.Ny → k < G.Nz / size →
      m i j (k + Grid.ghostLo r) = M i j (r * (G.Nz / size) + k)) := by
    intro r
    by_cases hr : r < size
    · obtain ⟨m, h1, h2⟩ := h.mat norm3 hM hr; exact ⟨m, fun _ => ⟨h1, h2⟩⟩
    · exact ⟨M, fun h' => absurd h' hr⟩
  choose m hm using hloc
  let b : ℕ → Fld.Block K := fun r => ⟨List.range G.Nx, List.range G.Ny, List.range (fs r).Nz, fun a b' c =>
    m r ((List.range G.Nx).getD a 0) ((List.range G.Ny).getD b' 0) ((List.range (fs r).Nz).getD c 0)⟩
  have hb : ∀ r < size, (fs r).getitem norm3 .all .all .all d = .ok (b r) := by
    intro r hr
    obtain ⟨e1, e2, e3⟩ := h.dims r hr
    rw [getitem_eq, (hm r hr).1]
    simp only [Fld.index3, Fld.resolve3, e1, e2, Sel.resolve_all, bind, Except.bind]
    rfl
  have hpc : ∀ r, ∃ p, r < size → (piece size G.Nz G.Nx G.Ny r (ravelC (b r)) = .ok p ∧
      ∀ i j k, j < G.Ny → k < G.Nz / size → p i j k = (b r).val i j (k + Grid.ghostLo r)) := by
    intro r
    by_cases hr : r < size
    · obtain ⟨p, h1, h2⟩ := piece_ok (b := b r) (nx := G.Nx) (ny := G.Ny) hr List.length_range List.length_range (by
        show (List.range (fs r).Nz).length = _
        rw [List.length_range, (h.dims r hr).2.2])
      exact ⟨p, fun _ => ⟨h1, h2⟩⟩
    · exact ⟨M, fun h' => absurd h' hr⟩
  choose p hp using hpc
  have hp' : ∀ r < size, piece size G.Nz G.Nx G.Ny r (((List.range size).map fun r => ravelC (b r)).getD r ⟨0, fun _ => 0⟩) = .ok (p r) := by
    intro r hr; rw [getD_locals hr]; exact (hp r hr).1
  obtain ⟨g, hg, hgd, hgv⟩ := asFieldLoop_ok (size := size) (NZ := G.Nz) (Nx := G.Nx) (Ny := G.Ny)
    (buffer := fun r => (((List.range size).map fun r => ravelC (b r)).getD r ⟨0, fun _ => 0⟩)) hd p h.dvd (n := size) (le_refl _)
    hp' hf
  refine ⟨_, g, locals_ok norm3 fs _ _ d hb, by rw [d1, d2]; exact hg, hgd, ?_⟩
  intro key' c' i j k hn hi hj hk
  rw [hgv key' c' i j k hn hi hj hk, Nat.mul_div_cancel' h.dvd]
  by_cases hcc : c' = c
  · rw [if_pos ⟨hcc, hk⟩, if_pos hcc, Fld.get_at3 _ hn hi hj hk]
    have hn0 : 0 < G.Nz / size := by
      rcases Nat.eq_zero_or_pos (G.Nz / size) with h0 | h0
      · have := Nat.mul_div_cancel' h.dvd; rw [h0] at this; omega
      · exact h0
    have hr : k / (G.Nz / size) < size := by
      rw [Nat.div_lt_iff_lt_mul hn0, Nat.mul_div_cancel' h.dvd]; exact hk
    have h3 : k % (G.Nz / size) < G.Nz / size := Nat.mod_lt _ hn0
    have hdm : k / (G.Nz / size) * (G.Nz / size) + k % (G.Nz / size) = k := Nat.div_add_mod' _ _
    have hlt : k % (G.Nz / size) + Grid.ghostLo (k / (G.Nz / size)) < (fs (k / (G.Nz / size))).Nz := by
      rw [(h.dims _ hr).2.2]; omega
    rw [(hp _ hr).2 i j _ hj h3]
    show Except.ok (m _ ((List.range G.Nx).getD i 0) ((List.range G.Ny).getD j 0)
      ((List.range (fs (k / (G.Nz / size))).Nz).getD (k % (G.Nz / size) + Grid.ghostLo (k / (G.Nz / size))) 0)) = _
    have rg : ∀ a n, a < n → (List.range n).getD a 0 = a := fun a n han => by
      rw [getD_lt (by simpa using han), List.getElem_range]
    rw [rg _ _ hi, rg _ _ hj, rg _ _ hlt, (hm _ hr).2 i j _ hi hj h3, hMG, hdm, hcc]
  · rw [if_neg (by tauto), if_neg hcc]

/-- **C13 (field).** `mpi_gather_asField` on the root returns a field of the global size all of whose
components in all cells are those of `G`, whatever the ghost layers contain. -/
theorem C13_gather_asField [Zero K] [One K] (norm3 : K → K → K → K) {size : ℕ} {G : Fld K} {fs : ℕ → Fld K} (h : Holds size G fs) :
    ∃ g, mpiGatherAsField norm3 size G.Nz fs = .ok g ∧ (g.Nx = G.Nx ∧ g.Ny = G.Ny ∧ g.Nz = G.Nz) ∧
      ∀ key c i j k, Fld.Names key c → i < G.Nx → j < G.Ny → k < G.Nz → g.get i j k key = G.get i j k key := by
  have hs := h.ranks
  obtain ⟨d1, d2, -⟩ := h.dims 0 (by omega)
  have nx : Fld.Names (.str "x") 0 := Fld.names_iff.2 (by decide)
  have ny : Fld.Names (.str "y") 1 := Fld.names_iff.2 (by decide)
  have nz : Fld.Names (.str "z") 2 := Fld.names_iff.2 (by decide)
  obtain ⟨b1, f1, l1, a1, e1, v1⟩ := gather_comp norm3 h nx (f := Fld.new (fs 0).Nx (fs 0).Ny G.Nz) ⟨d1, d2, rfl⟩
  obtain ⟨b2, f2, l2, a2, e2, v2⟩ := gather_comp norm3 h ny e1
  obtain ⟨b3, f3, l3, a3, e3, v3⟩ := gather_comp norm3 h nz e2
  refine ⟨f3, ?_, e3, ?_⟩
  · simp only [mpiGatherAsField, xyz, gatherField, l1, a1, l2, a2, l3, a3, bind, Except.bind]
  · intro key c i j k hn hi hj hk
    have hc := Fld.compOf_lt (Fld.names_iff.1 hn)
    rw [v3 key c i j k hn hi hj hk, v2 key c i j k hn hi hj hk, v1 key c i j k hn hi hj hk]
    split_ifs <;> first | rfl | omega

/-- On the other ranks `mpi_gather_asField` returns a zero field of the global size (its documentation says
`None`). -/
theorem C13_nonroot_zero [Zero K] [One K] (f : Fld K) (NZ : ℕ) {key : Fld.CKey} {c i j k : ℕ} (hn : Fld.Names key c) (hi : i < f.Nx)
    (hj : j < f.Ny) (hk : k < NZ) : (asFieldNonRoot f NZ).get i j k key = .ok 0 := by
  rw [Fld.get_at3 _ hn (by exact hi) (by exact hj) (by exact hk)]
  rfl

/-! ### After a distributed run -/

/-- **C13 with C34.** Gathering any of E, H, J on the root after a distributed run, under every schedule of the
run's messages, gives the field of the serial run. -/
theorem C13_run_gather_partial [Field K] [LinearOrder K] [IsStrictOrderedRing K] (norm3 : K → K → K → K) (J : Job K) (hs : 2 ≤ J.size)
    (hx : 0 < J.Nx) (hy : 0 < J.Ny) (hbc : PlainBC J.bc) {s : ℕ → Solver K} {S : Solver K} (hr : ∀ r < J.size, J.rank r = .ok (s r)) (hS : J.serial = .ok S)
    (hag : Agrees J s S)
    (evs : List (DEv K)) (hev : ∀ e ∈ evs, e.Allowed J.Nx J.Ny J.NZ J.bc) (eager : ℕ → ℕ → Bool) {l : List Act}
    {net : Net (State K) (ℕ → ℕ → K)}
    (hl : run eager (start (runProg s J.size (J.NZ / J.size) evs) (fun _ => initState)) l = some net) (hd : net.Done) (w : Which) :
    ∃ g, mpiGatherAsField norm3 J.size J.NZ (fun r => (s r).fld (getW w (net.proc r).loc)) = .ok g ∧
      ∀ key c i j k, Fld.Names key c → i < J.Nx → j < J.Ny → k < J.NZ →
        g.get i j k key = (S.fld (getW w (runEv S initState (evs.map (DEv.serial S))))).get i j k key := by
  obtain ⟨total, ht⟩ := C34_distributed_equals_serial_partial J hs hx hy hbc hr hS hag evs hev eager
  have hcell := (ht l net hl).2.2 hd
  obtain ⟨D, hD, d1, d2, d3, d4, d5, -, d7, hrk⟩ := J.dist hs hx hy hbc hr hS hag
  have S1 : S.Nx = J.Nx := by rw [← d7, ← d3]; rfl
  have S2 : S.Ny = J.Ny := by rw [← d7, ← d4]; rfl
  have S3 : S.Nz = J.NZ := by rw [← d7, ← d5]; rfl
  have R : ∀ r < J.size, (s r).Nx = J.Nx ∧ (s r).Ny = J.Ny ∧ (s r).Nz = J.NZ / J.size + Grid.ghostLo r + Grid.ghostHi r J.size := by
    intro r hlt
    rw [← hrk r hlt, ← d2, ← d1, ← d3, ← d4]
    exact ⟨rfl, rfl, rfl⟩
  generalize runEv S initState (evs.map (DEv.serial S)) = fin at *
  have hdvd : J.size ∣ J.NZ := Nat.dvd_sub_mod J.Nz
  have hH : Holds J.size (S.fld (getW w fin)) (fun r => (s r).fld (getW w (net.proc r).loc)) := by
    refine ⟨by omega, ?_, ?_, ?_⟩
    · show J.size ∣ S.Nz; rw [S3]; exact hdvd
    · intro r hlt
      show (s r).Nx = S.Nx ∧ (s r).Ny = S.Ny ∧ (s r).Nz = S.Nz / J.size + _ + _
      rw [S1, S2, S3]; exact R r hlt
    · intro r hlt key c hn i j k hi hj hk
      have hi : i < J.Nx := S1 ▸ hi
      have hj : j < J.Ny := S2 ▸ hj
      change k < S.Nz / J.size at hk
      show _ = (S.fld (getW w fin)).get i j (r * (S.Nz / J.size) + k : ℕ) key
      rw [S3] at hk ⊢
      obtain ⟨r1, r2, r3⟩ := R r hlt
      have hb : r * (J.NZ / J.size) + k < J.NZ := by
        have h1 : (r + 1) * (J.NZ / J.size) ≤ J.size * (J.NZ / J.size) := Nat.mul_le_mul_right _ hlt
        rw [Nat.mul_div_cancel' hdvd, Nat.add_mul, Nat.one_mul] at h1
        omega
      rw [Fld.get_at3 _ hn (show i < (s r).Nx by omega) (show j < (s r).Ny by omega) (show k + Grid.ghostLo r < (s r).Nz by omega),
        Fld.get_at3 _ hn (show i < S.Nx by omega) (show j < S.Ny by omega) (show _ < S.Nz by omega)]
      have hc := Fld.compOf_lt (Fld.names_iff.1 hn)
      have := hcell r hlt w c i j (k + Grid.ghostLo r) hc hi hj (by omega)
      rw [cell_eq, cell_eq] at this
      rw [this]
      have hge : Grid.ghostLo r ≤ r * (J.NZ / J.size) := by
        unfold Grid.ghostLo
        split_ifs with h0
        · exact Nat.mul_pos h0 (by omega)
        · omega
      rw [show r * (J.NZ / J.size) - Grid.ghostLo r + (k + Grid.ghostLo r) = r * (J.NZ / J.size) + k by omega]
  obtain ⟨g, hg, -, hv⟩ := C13_gather_asField norm3 hH
  refine ⟨g, ?_, ?_⟩
  · rw [← hg]; show _ = mpiGatherAsField norm3 J.size S.Nz _; rw [S3]
  · intro key c i j k hn hi hj hk
    exact hv key c i j k hn (show i < S.Nx by omega) (show j < S.Ny by omega) (show k < S.Nz by omega)

/-! ### The hypotheses are met -/

/-- A global field with distinct values, its parts on three ranks (different ghost contents). -/
def demoGlobal : Fld ℚ := ⟨2, 3, 6, fun n => n⟩
def demoParts (r : ℕ) : Fld ℚ :=
  let m := 2 + Grid.ghostLo r + Grid.ghostHi r 3
  ⟨2, 3, m, fun p =>
    let c := p / (6 * m); let k := p % (6 * m) / 6
    if Grid.ghostLo r ≤ k ∧ k < 2 + Grid.ghostLo r then ((c * 36 + p % 6 + 6 * (2 * r + k - Grid.ghostLo r) : ℕ) : ℚ) else 1000 + r⟩

theorem demo_at : ∀ r < 3, ∀ c < 3, ∀ i < 2, ∀ j < 3, ∀ k < 2,
    (demoParts r).at3 c i j (k + Grid.ghostLo r) = demoGlobal.at3 c i j (r * 2 + k) := by decide +kernel

/-- Non-vacuity of `C13_gather` and `C13_gather_asField`. -/
theorem demoHolds : Holds 3 demoGlobal demoParts := by
  refine ⟨by decide, by decide, fun r _ => ⟨rfl, rfl, rfl⟩, ?_⟩
  intro r hr key c hn i j k hi hj hk
  have hc := Fld.compOf_lt (Fld.names_iff.1 hn)
  have hi : i < 2 := hi
  have hj : j < 3 := hj
  have hk : k < 2 := hk
  have e6 : demoGlobal.Nz / 3 = 2 := rfl
  rw [e6, Fld.get_at3 _ hn (show i < (demoParts r).Nx from hi) (show j < (demoParts r).Ny from hj)
    (show k + Grid.ghostLo r < 2 + Grid.ghostLo r + Grid.ghostHi r 3 by omega),
    Fld.get_at3 _ hn (show i < demoGlobal.Nx from hi) (show j < demoGlobal.Ny from hj) (show r * 2 + k < 6 by omega),
    demo_at r hr c hc i hi j hj k hk]

example : ∃ A, mpiGather (fun a b c => a + b + c) 3 6 demoParts (some (.int (-1))) (some (.slice (some 1) (some 3))) none (.str "Abs") = .ok A ∧
    (A.n0, A.n1, A.n2) = (1, 2, 6) ∧ A.val 0 1 5 = 3 * 35 + 108 := by
  obtain ⟨A, h1, h2, h3⟩ := C13_gather (fun a b c => a + b + c) demoHolds (x := some (.int (-1))) (y := some (.slice (some 1) (some 3)))
    (z := none) (key := .str "Abs") (fun t ht => by cases ht; exact ⟨by decide, by decide⟩) (fun t ht => by cases ht; exact ⟨by decide, by decide, by decide⟩)
    (B := ⟨[1], [1, 2], [0, 1, 2, 3, 4, 5], fun a b c => demoGlobal.absWith (fun a b c => a + b + c) ([1].getD a 0) ([1, 2].getD b 0) ([0, 1, 2, 3, 4, 5].getD c 0)⟩)
    rfl
  simp only [Prod.mk.injEq] at h2
  obtain ⟨a, b, c⟩ := h2
  refine ⟨A, h1, by rw [a, b, c]; rfl, ?_⟩
  rw [h3 0 1 5 (by rw [a]; decide) (by rw [b]; decide) (by rw [c]; decide)]
  decide +kernel

example : ∃ g, mpiGatherAsField (fun a b c => a + b + c) 3 6 demoParts = .ok g ∧ g.get (1 : ℕ) (2 : ℕ) (5 : ℕ) (.str "z") = .ok 107 := by
  obtain ⟨g, hg, -, hv⟩ := C13_gather_asField (fun a b c => a + b + c) demoHolds
  exact ⟨g, hg, by rw [hv (.str "z") 2 1 2 5 (Fld.names_iff.2 (by decide)) (by decide) (by decide) (by decide)]; decide +kernel⟩

/-- The field a letter stands for. -/
def letterOf : Which → Char
  | .E => 'E' | .H => 'H' | .J => 'J'

/-- **C13 (naming the field).** `"Ex"` gathers component x of E, `"EAbs"` its magnitude, `"E"` the component asked for (z by default), and the same for H and J, whatever the component letters
are; every other bare name raises `UnboundLocalError`. -/
theorem C13_names (w : Which) (a b c : Char) (key : Option Fld.CKey) :
    parseField (String.ofList [letterOf w, a]) key = .ok (w, .str (String.ofList [a])) ∧ parseField (String.ofList [letterOf w, a, b, c]) key = .ok (w, .str (String.ofList [a, b, c])) ∧
    parseField (String.ofList [letterOf w]) key = .ok (w, key.getD (.str "z")) ∧
    (∀ s : String, s.toList.length ≠ 2 → s.toList.length ≠ 4 → (∀ w : Which, s.toList ≠ [letterOf w]) → parseField s key = .error .unboundLocalError) := by
  refine ⟨?_, ?_, ?_, fun s h2 h4 h => ?_⟩
  · cases w <;> simp [parseField, letterOf]
  · cases w <;> simp [parseField, letterOf]
  · cases w <;> simp [parseField, letterOf]
  · have hE : s.toList ≠ ['E'] := h .E
    have hH : s.toList ≠ ['H'] := h .H
    have hJ : s.toList ≠ ['J'] := h .J
    unfold parseField
    simp only [if_neg h2, if_neg h4, if_neg hE, if_neg hH, if_neg hJ]

/-- The string forms of the field argument. -/
example : parseField "Ex" none = .ok (.E, .str "x") ∧ parseField "HAbs" none = .ok (.H, .str "Abs") ∧
    parseField "J" none = .ok (.J, .str "z") ∧ parseField "B" none = .error .unboundLocalError := by decide +kernel

end Mpi
end Wakis
