import Verif.Spec.RustReturns

/-!
# Selections in place, and outcomes that differ only in the message
-/

namespace Vbt

/-- `select_nth_unstable_by`: the slice is rearranged so that what is before position `k` is not greater and what is after
position `k` is not less than the element there. -/
def Arranges (arrange : List F → Nat → List F) : Prop :=
  ∀ l : List F, (∀ x ∈ l, x.isnan = false) → ∀ k < l.length, ∃ before x after, arrange l k = before ++ x :: after ∧
    (before ++ x :: after).Perm l ∧ before.length = k ∧ (∀ y ∈ before, F.le y x = true) ∧ ∀ y ∈ after, F.le x y = true

/-- Both return the same, or both raise a `ValueError`. -/
inductive SameOutcome {β : Type} : Except Err β → Except Err β → Prop
  | returns (v : β) : SameOutcome (.ok v) (.ok v)
  | raises (m m' : String) : SameOutcome (.error (.valueError m)) (.error (.valueError m'))

end Vbt
