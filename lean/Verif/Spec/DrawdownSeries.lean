import Mathlib.Data.Rat.Defs
import Mathlib.Algebra.Order.Field.Rat

/-!
# The drawdown of a series

How far a series lies below its highest value so far, and the lowest such figure, without records.
-/

namespace Vbt

/-- `x` is the drawdown at row `i`: its value over the highest value up to it, less one. -/
def DrawdownAt (v : Nat → ℚ) (i : Nat) (x : ℚ) : Prop :=
  ∃ j ≤ i, (∀ k ≤ i, v k ≤ v j) ∧ x = v i / v j - 1

/-- `m` is the lowest drawdown of the first `n` rows. -/
def LowestDrawdown (v : Nat → ℚ) (n : Nat) (m : ℚ) : Prop :=
  (∃ i < n, DrawdownAt v i m) ∧ ∀ i < n, ∀ x, DrawdownAt v i x → m ≤ x

/-- Row `p` is the last row with the highest value of the first `n` rows. -/
def LastPeak (v : Nat → ℚ) (n p : Nat) : Prop :=
  p < n ∧ (∀ k < n, v k ≤ v p) ∧ ∀ k, p < k → k < n → v k < v p

/-- Row `w` is the first row with the lowest value of those after `p` among the first `n` rows. -/
def FirstLow (v : Nat → ℚ) (n p w : Nat) : Prop :=
  p < w ∧ w < n ∧ (∀ k, p < k → k < n → v w ≤ v k) ∧ ∀ k, p < k → k < w → v w < v k

end Vbt
