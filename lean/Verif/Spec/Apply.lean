import Verif.Spec.Window
import Verif.Spec.Books

/-!
# Windows, groups and flattened groups

What the user functions should be given, and where their results should go.
-/

namespace Vbt
open F

variable {α : Type}

/-- The values of the last `window` rows ending at row `i`, missing ones included. -/
def winVals (a : Nat → α) (window i : Nat) : List α :=
  ((List.range (i + 1)).filter fun j => decide (i < j + window)).map a

/-- The columns of group `g`. -/
def colsOf (lens : List Nat) (g : Nat) : List Nat :=
  (List.range lens.sum).filter fun c => decide (firstCol lens g ≤ c ∧ c < firstCol lens (g + 1))

/-- The cells of a group, row by row. -/
def groupCells (a : Nat → Nat → α) (lens : List Nat) (rows g : Nat) : List (List α) :=
  (List.range rows).map fun i => (colsOf lens g).map (a i)

/-- Where the cell in row `i` and column `k` of a group goes when the group is flattened: row by row, or column by column. -/
def flatPos (inC : Bool) (rows width i k : Nat) : Nat := if inC then i * width + k else k * rows + i

/-- `x` is a value of the array at position `p`, no value comes before it in the order, and it is the first one. -/
def FirstBest (leq : F → F → Bool) (l : List F) (p : Nat) : Prop :=
  ∃ x, l[p]? = some x ∧ x.isnan = false ∧ (∀ y ∈ l, y.isnan = false → leq x y = true) ∧
    ∀ q < p, ∀ y, l[q]? = some y → y.isnan = false → ¬ leq y x = true

end Vbt
