import Verif.Ect2
import Mathlib.Data.Fintype.Basic

/-!
# C92: the absorbing layer blocks of the two-dimensional solver

Model of how `EMSolver2D.__init__`, `organize_pmls`, `assemble_conductivities_pmls` and `assemble_coeffs_pmls` of `wakis/solver2D.py` create
the blocks around the box and connect them.
-/

namespace Wakis
namespace S2

/-! ### Model -/

/-- The attributes `pml_lx`, … that hold a block or None (solver2D.py:53-60). -/
inductive Blk
  | lx | ly | rx | ry | lxly | rxly | lxry | rxry
  deriving DecidableEq

instance : Fintype Blk := ⟨⟨([.lx, .ly, .rx, .ry, .lxly, .rxly, .lxry, .rxry] : List Blk), by decide⟩, by intro b; cases b <;> decide⟩

/-- The attributes `lx_block`, … of a block (pmlBlock2D.py:58-61). -/
inductive Side
  | lx | ly | rx | ry
  deriving DecidableEq

instance : Fintype Side := ⟨⟨([.lx, .ly, .rx, .ry] : List Side), by decide⟩, by intro b; cases b <;> decide⟩

/-- What such an attribute can hold besides None: the solver itself or a block. -/
inductive Ref
  | self
  | blk (b : Blk)
  deriving DecidableEq

/-- Which entries of `bc_low` and `bc_high` are 'pml'. -/
structure Bc where
  lowX : Bool
  lowY : Bool
  highX : Bool
  highY : Bool
  deriving DecidableEq

/-- The cell counts a block can have along an axis: that of the box, `N_pml_low` or `N_pml_high`. -/
inductive Ext
  | box | low | high
  deriving DecidableEq

/-- The blocks created by the constructor with their cell counts along x and y (solver2D.py:62-104), in the order of `self.blocks`. -/
def created (bc : Bc) : List (Blk × Ext × Ext) :=
  let n (g : Bool) (b : Blk) (x y : Ext) : Bool × Blk × Ext × Ext := (g, b, x, y)
  let all := [n bc.lowX .lx .low .box, n (bc.lowX && bc.lowY) .lxly .low .low, n (bc.lowX && bc.highY) .lxry .low .high,
    n bc.highX .rx .high .box, n (bc.highX && bc.lowY) .rxry .high .high, n (bc.highX && bc.highY) .rxly .high .low,
    n bc.lowY .ly .box .low, n bc.highY .ry .box .high]
  (all.filter (·.1)).map (·.2)

/-- Whether the attribute of a block is not None. -/
def made (bc : Bc) (b : Blk) : Bool := (created bc).any (·.1 = b)

/-- The value of an attribute `self.pml_b`, or `self`; None for a block that was not created. -/
def val (bc : Bc) : Ref → Option Ref
  | .self => some .self
  | .blk b => if made bc b then some (.blk b) else none

/-- The assignments `self.pml_b.side = value` of `organize_pmls` with the conditions around them (solver2D.py:161-196). -/
def assigns (bc : Bc) : List (Bool × Blk × Side × Ref) :=
  let w (g : Bool) (b : Blk) (s : Side) (r : Ref) : Bool × Blk × Side × Ref := (g, b, s, r)
  [w bc.lowX .lx .rx .self, w (bc.lowX && bc.lowY) .lx .ly (.blk .lxly), w (bc.lowX && bc.lowY) .lxly .ry (.blk .lx),
   w (bc.lowX && bc.lowY) .lxly .rx (.blk .ly), w (bc.lowX && bc.highY) .lx .ry (.blk .lxry), w (bc.lowX && bc.highY) .lxry .ly (.blk .lx),
   w (bc.lowX && bc.highY) .lxry .rx (.blk .ry),
   w bc.highX .rx .lx .self, w (bc.highX && bc.highY) .rx .ry (.blk .rxry), w (bc.highX && bc.highY) .rxly .lx (.blk .ly),
   w (bc.highX && bc.highY) .rxly .ry (.blk .rx), w (bc.highX && bc.lowY) .rx .ly (.blk .rxly), w (bc.highX && bc.lowY) .rxry .lx (.blk .ry),
   w (bc.highX && bc.lowY) .rxry .ly (.blk .rx),
   w bc.lowY .ly .ry .self, w (bc.lowY && bc.lowX) .ly .lx (.blk .lxly), w (bc.lowY && bc.lowX) .ly .rx (.blk .rxly),
   w bc.highY .ry .ly .self, w (bc.highY && bc.lowX) .ry .lx (.blk .lxry), w (bc.highY && bc.highX) .ry .rx (.blk .rxry)]

/-- The blocks whose `sigma_x` or `sigma_y` is written, with the conditions and the layer (that of the low or the high face) whose profile is
written along x and along y; None where the array stays zero (solver2D.py:236-294). -/
def sigmas (bc : Bc) : List (Bool × Blk × Option Ext × Option Ext) :=
  [(bc.lowX, .lx, some .low, none), (bc.lowX && bc.lowY, .lxly, some .low, some .low), (bc.lowX && bc.highY, .lxry, some .low, some .high),
   (bc.highX, .rx, some .high, none), (bc.highX && bc.highY, .rxry, some .high, some .high),
   (bc.highX && bc.lowY, .rxly, some .high, some .low), (bc.lowY, .ly, none, some .low), (bc.highY, .ry, none, some .high)]

/-- The blocks whose `assemble_coeffs` is called, with the conditions (solver2D.py:321-340). -/
def coeffs (bc : Bc) : List (Bool × Blk) :=
  [(bc.lowX, .lx), (bc.lowX && bc.lowY, .lxly), (bc.lowX && bc.highY, .lxry), (bc.highX, .rx), (bc.highX && bc.lowX, .rxry),
   (bc.highX && bc.highY, .rxly), (bc.lowY, .ly), (bc.highY, .ry)]

/-- The blocks after construction: which assignments to neighbours took effect (the last one to an attribute counts; each is assigned at most
once), which profiles of the conductivity each block received, and which blocks have their coefficients; those of other blocks are zero
(pmlBlock2D.py:45-56). -/
structure Layout where
  wires : List ((Blk × Side) × Option Ref)
  graded : List (Blk × Option Ext × Option Ext)
  withCoef : List Blk
  deriving DecidableEq

/-- An attribute of a block that was not created: Python raises AttributeError on None. -/
def touch (bc : Bc) (b : Blk) : Py Unit := if made bc b then .ok () else .error .attributeError

/-- The constructor as far as it concerns the blocks (solver2D.py:62-112). Conductivities are in `Verif/PmlMono2.lean`. A block of `sigmas` is
accessed only in a loop over its layers, so that the layers are taken as not empty. -/
def build (bc : Bc) : Py Layout := do
  let w ← ((assigns bc).filter (·.1)).mapM fun x => do
    touch bc x.2.1
    return ((x.2.1, x.2.2.1), val bc x.2.2.2)
  let g ← ((sigmas bc).filter (·.1)).mapM fun x => do
    touch bc x.2.1
    return x.2
  let c ← ((coeffs bc).filter (·.1)).mapM fun x => do
    touch bc x.2
    return x.2
  return ⟨w, g, c⟩

/-- The neighbour of a block on a side after construction; the default of the attributes is None (pmlBlock2D.py:13-16). -/
def Layout.nbr (l : Layout) (b : Blk) (s : Side) : Option Ref :=
  match l.wires.find? (fun x => x.1 = (b, s)) with
  | some x => x.2
  | none => none

/-- `N_pml_low[0]`, `N_pml_high[0]`, … (solver2D.py:38-50): `given` is the argument, None by default. -/
def layers (isPml : Bool) (given : Option ℕ) : ℕ := if isPml then given.getD 10 else 0

/-- `N_tot_x` and `N_tot_y` (solver2D.py:114-115) from the counts of the box and of the layers at low x, low y, high x and high y. -/
def totals (nx ny lowX _lowY highX _highY : ℕ) : ℕ × ℕ := (nx + lowX + highX, ny + lowX + highX)

/-! ### Specification -/

/-- Where a block lies: left of, above or right of the box along x, and along y. -/
def Blk.pos : Blk → ℤ × ℤ
  | .lx => (-1, 0)
  | .rx => (1, 0)
  | .ly => (0, -1)
  | .ry => (0, 1)
  | .lxly => (-1, -1)
  | .lxry => (-1, 1)
  | .rxly => (1, -1)
  | .rxry => (1, 1)

/-- Whether there is an absorbing layer on that side of the box, or the box itself. -/
def has (low high : Bool) (x : ℤ) : Bool := x = 0 || (x = -1 && low) || (x = 1 && high)

/-- The blocks a box with these layers needs. -/
def needed (bc : Bc) (b : Blk) : Bool := has bc.lowX bc.highX b.pos.1 && has bc.lowY bc.highY b.pos.2

/-- The step from a block to its neighbour. -/
def Side.dir : Side → ℤ × ℤ
  | .lx => (-1, 0)
  | .rx => (1, 0)
  | .ly => (0, -1)
  | .ry => (0, 1)

/-- `r` is what lies next to block `b` on side `s`: the box, another needed block, or nothing. -/
def IsNbr (bc : Bc) (b : Blk) (s : Side) : Option Ref → Prop
  | some .self => b.pos + s.dir = (0, 0)
  | some (.blk c) => needed bc c = true ∧ c.pos = b.pos + s.dir
  | none => b.pos + s.dir ≠ (0, 0) ∧ ∀ c, needed bc c = true → c.pos ≠ b.pos + s.dir

instance (bc : Bc) (b : Blk) (s : Side) (r : Option Ref) : Decidable (IsNbr bc b s r) := by
  cases r with
  | none => unfold IsNbr; infer_instance
  | some r => cases r <;> (unfold IsNbr; infer_instance)

/-- The cell count of a position. -/
def extOf (x : ℤ) : Ext := if x = 0 then .box else if x < 0 then .low else .high

/-- The layer a position belongs to along an axis; None for the span of the box. -/
def layerOf (x : ℤ) : Option Ext := if x = 0 then none else some (extOf x)

/-! ### Theorems -/

/-- A statement for all combinations of layers. -/
lemma forall_bc {P : Bc → Prop} (h : ∀ a b c d, P ⟨a, b, c, d⟩) (bc : Bc) : P bc := h bc.lowX bc.lowY bc.highX bc.highY

lemma built {bc : Bc} {P : Layout → Prop} [DecidablePred P] (h : (match build bc with | .ok l => decide (P l) | .error _ => false) = true) :
    ∃ l, build bc = .ok l ∧ P l := by
  cases hb : build bc with
  | ok l => rw [hb] at h; exact ⟨l, rfl, of_decide_eq_true h⟩
  | error e => rw [hb] at h; cases h

/-- **C92, which layers can be used.** The solver can be constructed exactly without a layer at high x, or if the layers at low and high y are
both there or both not there, and are there if the one at low x is; otherwise it raises AttributeError. (Wanted: it can always be
constructed.) -/
theorem C92_built_partial (bc : Bc) : (∃ l, build bc = .ok l) ↔ (bc.highX = false ∨ (bc.lowY = bc.highY ∧ (bc.lowX = true → bc.lowY = true))) := by
  have h : (match build bc with | .ok _ => true | .error _ => false) =
      decide (bc.highX = false ∨ (bc.lowY = bc.highY ∧ (bc.lowX = true → bc.lowY = true))) := by
    revert bc
    exact forall_bc (by decide +kernel)
  cases hb : build bc with
  | ok l =>
    rw [hb] at h
    exact ⟨fun _ => of_decide_eq_true h.symm, fun _ => ⟨l, rfl⟩⟩
  | error e =>
    rw [hb] at h
    exact ⟨fun ⟨l, hl⟩ => (nomatch hl), fun h' => absurd h' (of_decide_eq_false h.symm)⟩

/-- **C92, refuted.** Absorbing layers at both ends of x only, or at high x and one end of y, stop the constructor. -/
theorem C92_error_refuted (bc : Bc) (h : bc.highX = true) (h2 : bc.lowY ≠ bc.highY ∨ (bc.lowX = true ∧ bc.lowY = false)) :
    build bc = .error .attributeError := by
  revert bc
  exact forall_bc (by decide +kernel)

/-- **C92, blocks.** When construction succeeds, exactly the needed blocks exist, each once, with the cell counts of their place. -/
theorem C92_blocks (bc : Bc) (l : Layout) (hl : build bc = .ok l) :
    ((created bc).map (·.1)).Nodup ∧ (∀ b, made bc b = needed bc b) ∧ ∀ x ∈ created bc, x.2 = (extOf x.1.pos.1, extOf x.1.pos.2) := by
  have hb := (C92_built_partial bc).1 ⟨l, hl⟩
  clear hl
  revert bc
  exact forall_bc (by decide +kernel)

/-- **C92, connections.** When construction succeeds, except with layers at high x and both ends of y only, every block is connected on every side to what
lies there and has its coefficients. -/
theorem C92_wired_partial (bc : Bc) (l : Layout) (hl : build bc = .ok l) (hx : ¬ (bc.lowX = false ∧ bc.highX = true ∧ bc.lowY = true)) (b : Blk)
    (hb : needed bc b = true) : (∀ s, IsNbr bc b s (l.nbr b s)) ∧ b ∈ l.withCoef := by
  have key : ∀ bc : Bc, (match build bc with
      | .ok l => decide (¬ (bc.lowX = false ∧ bc.highX = true ∧ bc.lowY = true) → ∀ b, needed bc b = true →
          (∀ s, IsNbr bc b s (l.nbr b s)) ∧ b ∈ l.withCoef)
      | .error _ => true) = true := forall_bc (by decide +kernel)
  have := key bc
  rw [hl] at this
  exact of_decide_eq_true this hx b hb

/-- **C92, conductivities.** When construction succeeds, every block receives, once, the profile of the low or high layer it lies in along x
and along y, and none along an axis where it has the span of the box. -/
theorem C92_graded (bc : Bc) (l : Layout) (hl : build bc = .ok l) (b : Blk) (hb : needed bc b = true) :
    l.graded.filter (fun x => x.1 = b) = [(b, layerOf b.pos.1, layerOf b.pos.2)] := by
  have key : ∀ bc : Bc, (match build bc with
      | .ok l => decide (∀ b, needed bc b = true → l.graded.filter (fun x => x.1 = b) = [(b, layerOf b.pos.1, layerOf b.pos.2)])
      | .error _ => true) = true := forall_bc (by decide +kernel)
  have := key bc
  rw [hl] at this
  exact of_decide_eq_true this b hb

/-- **C92, layers.** A face with an absorbing layer has as many cells as were asked for, ten by default; another face has none. -/
theorem C92_layers (n : ℕ) : layers true (some n) = n ∧ layers true none = 10 ∧ ∀ given, layers false given = 0 := ⟨rfl, rfl, fun _ => rfl⟩

/-- **C92, refuted.** With layers at high x and at both ends of y, but not at low x, the solver is constructed, but the corner at high x and high
y has no coefficients (so its fields stay zero), and the layer at low y does not know its neighbour at high x. -/
theorem C92_corner_refuted : ∃ l, build ⟨false, true, true, true⟩ = .ok l ∧ Blk.rxry ∉ l.withCoef ∧ needed ⟨false, true, true, true⟩ .rxry = true ∧
    l.nbr .ly .rx = none ∧ IsNbr ⟨false, true, true, true⟩ .ly .rx (some (.blk .rxly)) :=
  built (P := fun l => Blk.rxry ∉ l.withCoef ∧ needed ⟨false, true, true, true⟩ .rxry = true ∧
    l.nbr .ly .rx = none ∧ IsNbr ⟨false, true, true, true⟩ .ly .rx (some (.blk .rxly))) (by decide +kernel)

/-- **C92, refuted.** The total count along y is that of box and layers only if the layers along x are as many. -/
theorem C92_totals_partial (nx ny a b c d : ℕ) : (totals nx ny a b c d).1 = nx + a + c ∧ ((totals nx ny a b c d).2 = ny + b + d ↔ a + c = b + d) := by
  unfold totals
  exact ⟨rfl, by dsimp only; omega⟩

/-- The usual case, layers all around: the solver can be constructed, with eight connected blocks. -/
example : ∃ l, build ⟨true, true, true, true⟩ = .ok l ∧ (created ⟨true, true, true, true⟩).length = 8 ∧ l.nbr .rxry .lx = some (.blk .ry) :=
  built (P := fun l => (created ⟨true, true, true, true⟩).length = 8 ∧ l.nbr .rxry .lx = some (.blk .ry)) (by decide +kernel)

end S2
end Wakis
