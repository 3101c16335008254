import Verif.Model.Generic

/-!
# Drawdowns

What a drawdown of a series is, without a running state.
-/

namespace Vbt
open F

/-- Row `p` has a value that no earlier row exceeds. -/
def IsPeak (ts : Nat → F) (p : Nat) : Prop :=
  (ts p).isnan = false ∧ ∀ k ≤ p, (ts k).isnan = false → le (ts k) (ts p) = true

/-- All values strictly between `p` and `hi` are below that of `p`. -/
def StaysBelow (ts : Nat → F) (p hi : Nat) : Prop :=
  ∀ k, p < k → k < hi → (ts k).isnan = false → lt (ts k) (ts p) = true

/-- `v` is the first row with the smallest value strictly between `p` and `hi`. -/
def IsValley (ts : Nat → F) (p hi v : Nat) : Prop :=
  p < v ∧ v < hi ∧ (ts v).isnan = false ∧ (∀ k, p < k → k < hi → (ts k).isnan = false → le (ts v) (ts k) = true) ∧
    ∀ k, p < k → k < v → (ts k).isnan = false → lt (ts v) (ts k) = true

/-- A drawdown of the first `n` rows: from a peak to the first later value that is not below it, or to the last row if there
is none. -/
def IsDrawdown (n : Nat) (ts : Nat → F) (d : Drawdown) : Prop :=
  ∃ p v e : Nat, IsPeak ts p ∧ (ts e).isnan = false ∧ e < n ∧
    ((StaysBelow ts p e ∧ IsValley ts p e v ∧ le (ts p) (ts e) = true ∧
        d = ⟨p, p + 1, v, e, ts p, ts v, ts e, DrawdownStatus.Recovered⟩) ∨
     (StaysBelow ts p n ∧ IsValley ts p n v ∧ e = n - 1 ∧
        d = ⟨p, p + 1, v, e, ts p, ts v, ts e, DrawdownStatus.Active⟩))

end Vbt
