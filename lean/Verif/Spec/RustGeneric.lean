import Verif.Model.Float

/-!
# Two engines

What it means that two implementations of a function of 2-dim arrays return the same.
-/

namespace Vbt

/-- Two arrays have the same cells. -/
def SameCells {β : Type} (nrows ncols : Nat) (u v : Nat → Nat → β) : Prop := ∀ r < nrows, ∀ c < ncols, u r c = v r c

/-- Both raise the same error, or both return and the arrays have the same cells. -/
inductive SameResult {β : Type} (nrows ncols : Nat) : Except Err (Nat → Nat → β) → Except Err (Nat → Nat → β) → Prop
  | returns {u v : Nat → Nat → β} (h : SameCells nrows ncols u v) : SameResult nrows ncols (.ok u) (.ok v)
  | raises (e : Err) : SameResult nrows ncols (.error e) (.error e)

/-- `x` returns whenever `y` returns, the same cells. -/
def ReturnsSame {β : Type} (nrows ncols : Nat) (x y : Except Err (Nat → Nat → β)) : Prop :=
  ∀ v, y = .ok v → ∃ u, x = .ok u ∧ SameCells nrows ncols u v

end Vbt
