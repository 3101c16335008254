import Verif.Model.Float
import Verif.Spec.Columns

/-!
# Columns of records on two engines

Natural numbers as `i64`, ranges that mean something, and what `select_nth_unstable_by` promises.
-/

namespace Vbt

/-- An array of natural numbers as an array of `i64`. -/
def ints (l : List Nat) : List Int := l.map fun n : Nat => (n : Int)

/-- The start and the end of a range of records: (-1, -1), or two positions in order. -/
def RangePair (f t : Int) : Prop := (f = -1 ∧ t = -1) ∨ (0 ≤ f ∧ f ≤ t)

/-- `select_nth_unstable_by`: the list is rearranged so that what is before position `k` is not greater and what is after
position `k` is not less than the element there, which is `pick l k`. -/
def Selects (pick : List F → Nat → F) : Prop :=
  ∀ l : List F, (∀ x ∈ l, x.isnan = false) → ∀ k < l.length, ∃ before after : List F, (before ++ pick l k :: after).Perm l ∧
    before.length = k ∧ (∀ x ∈ before, F.le x (pick l k) = true) ∧ ∀ x ∈ after, F.le (pick l k) x = true

/-- The positions of the records of every column, one column after another. -/
def columnIdxs (cols : List Nat) (nCols : Nat) : List Nat := (List.range nCols).flatMap fun c => positions c cols

/-- The number of records of every column. -/
def columnLens (cols : List Nat) (nCols : Nat) : List Nat := (List.range nCols).map fun c => cols.count c

/-- The records of the selected columns one after another, each with the number of its new column. -/
def pickRecords {α : Type} (setCol : α → Nat → α) (col : α → Nat) (records : List α) (newCols : List Nat) : List α :=
  newCols.zipIdx.flatMap fun x => (records.filter fun r => col r = x.1).map fun r => setCol r x.2

end Vbt
