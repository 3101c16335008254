import Verif.Model.Float

/-!
# Window statistics

What the rolling functions should compute, without running sums.
-/

namespace Vbt
open F

/-- The values that are present among the last `window` rows ending at row `i`. -/
def winObs (a : Nat → F) (window i : Nat) : List F :=
  (((List.range (i + 1)).filter fun j => decide (i < j + window)).map a).filter fun x => !x.isnan

/-- The rational value of a finite float. -/
def F.val : F → ℚ
  | fin q => q
  | _ => 0

/-- `v` is the smallest element of `l`. -/
def IsMinOf (l : List F) (v : F) : Prop := v ∈ l ∧ ∀ x ∈ l, le v x = true

/-- `v` is the largest element of `l`. -/
def IsMaxOf (l : List F) (v : F) : Prop := v ∈ l ∧ ∀ x ∈ l, le x v = true

/-- The arithmetic mean. -/
def meanOf (l : List ℚ) : ℚ := l.sum / l.length

/-- The sum of squared deviations from the mean. -/
def devOf (l : List ℚ) : ℚ := (l.map fun x => (x - meanOf l) * (x - meanOf l)).sum

end Vbt
