import Mathlib.Algebra.BigOperators.Group.Finset.Basic
import Mathlib.Algebra.Order.Ring.Rat
import Mathlib.Data.Finset.Range

/-! # What statistics of signals count -/

namespace Vbt

/-- The rows with a signal. -/
def sigRows (n : Nat) (a : Nat → Bool) : Finset Nat := (Finset.range n).filter fun i => a i = true

/-- The columns of a group. -/
def groupCols (g : Nat → Nat) (cols k : Nat) : Finset Nat := (Finset.range cols).filter fun c => g c = k

/-- The rows at which a run of signals begins. -/
def runStarts (n : Nat) (a : Nat → Bool) : Finset Nat :=
  (Finset.range n).filter fun i => a i = true ∧ (i = 0 ∨ a (i - 1) = false)

/-- The place of a row: -1 for the first row, 1 for the last. -/
def place (n i : Nat) : ℚ := 2 * i / (n - 1) - 1

end Vbt
