import Verif.FieldModel

/-!
# Small specification for the `Field` properties

These definitions say what a user means by "the cell (i,j,k) of component c", independently of how
the model stores it.
-/

namespace Wakis
namespace Fld
variable {K : Type _}

/-- One user-level write `field[i, j, k, c] = v`. -/
structure Write (K : Type _) where
  i : ℤ
  j : ℤ
  k : ℤ
  c : CKey
  v : K

/-- The key names component number `c`: `0/'x'`, `1/'y'`, `2/'z'`. -/
def Names : CKey → ℕ → Prop
  | .num z, c => z = c ∧ c < 3
  | .str s, c => (s = "x" ∧ c = 0) ∨ (s = "y" ∧ c = 1) ∨ (s = "z" ∧ c = 2)

/-- A Python index denotes position `a` of an axis of length `n` directly or counted from the end. -/
def Denotes (n : ℕ) (i : ℤ) (a : ℕ) : Prop := i = a ∨ i = (a : ℤ) - n

/-- The write addresses cell `(a,b,d)` of component `c` on an `Nx × Ny × Nz` grid. -/
def Write.Hits (Nx Ny Nz : ℕ) (w : Write K) (c a b d : ℕ) : Prop :=
  Names w.c c ∧ Denotes Nx w.i a ∧ Denotes Ny w.j b ∧ Denotes Nz w.k d

/-- Perform a list of user writes; a write that raises leaves the field as it is. -/
def runWrites (f : Fld K) (ws : List (Write K)) : Fld K :=
  ws.foldl (fun g w => match g.set w.i w.j w.k w.c w.v with | .ok g' => g' | .error _ => g) f

open Classical in
/-- The abstract map semantics: the value of a cell after a list of writes is the value of the last
write addressing it, or the initial value. -/
noncomputable def lastWritten (Nx Ny Nz : ℕ) (ws : List (Write K)) (c a b d : ℕ) (v0 : K) : K :=
  ws.foldl (fun cur w => if w.Hits Nx Ny Nz c a b d then w.v else cur) v0

end Fld
end Wakis
