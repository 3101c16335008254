import Verif.Model.Float

/-!
# One number per column

What it means that a function of a 2-dim array returns the numbers of another one.
-/

namespace Vbt

/-- The function returns, and its entry for every column is the one asked for. -/
def EntriesOf (ncols : Nat) (x : Except Err (Nat → F)) (want : Nat → F) : Prop := ∃ v, x = .ok v ∧ ∀ c < ncols, v c = want c

/-- The function returns, and for every column the other one returns its entry. -/
def EntriesFrom (ncols : Nat) (x : Except Err (Nat → F)) (want : Nat → Except Err F) : Prop :=
  ∃ v, x = .ok v ∧ ∀ c < ncols, want c = .ok (v c)

/-- The function returns, and its cells are the ones asked for. -/
def CellsOf (nrows ncols : Nat) (x : Except Err (Nat → Nat → F)) (want : Nat → Nat → F) : Prop :=
  ∃ v, x = .ok v ∧ ∀ i < nrows, ∀ c < ncols, v i c = want i c

/-- The function returns, and for every cell the other one returns it. -/
def CellsFrom (nrows ncols : Nat) (x : Except Err (Nat → Nat → F)) (want : Nat → Nat → Except Err F) : Prop :=
  ∃ v, x = .ok v ∧ ∀ i < nrows, ∀ c < ncols, want i c = .ok (v i c)

end Vbt
