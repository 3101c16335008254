import Verif.Model.Broadcasting
import Verif.Spec.Broadcast
import Verif.Spec.IndexFns

/-! # What a user may expect of broadcast objects and their labels -/

namespace Vbt

/-- The rows and columns of an object that is read as a table with `n` rows and `m` columns: an array of one dimension is a row, a
series is a column; what has one row or one column is repeated. -/
def BArg.cellOf {N V α : Type} : BArg N V α → Nat → Nat → α
  | .arr a, i, j =>
    match a.shape with
    | [] => a.get []
    | [m] => a.get [if m = 1 then 0 else j]
    | r :: c :: _ => a.get [if r = 1 then 0 else i, if c = 1 then 0 else j]
  | .series idx _ g, i, _ => g (if idx.len = 1 then 0 else i)
  | .frame idx cols g, i, j => g (if idx.len = 1 then 0 else i) (if cols.len = 1 then 0 else j)

/-- An object whose labels are indexes as pandas makes them, with as many dimensions as pandas has. -/
def BArg.WF {N V α : Type} [DecidableEq N] [DecidableEq V] : BArg N V α → Prop
  | .arr a => a.shape.length ≤ 2
  | .series i name _ => i.WF ∧ name ≠ some []
  | .frame i c _ => i.WF ∧ c.WF

/-- The level `l` of an argument is among the labels `j`: at each row of `j` the label of the row of the argument that is
shown there. -/
structure Carried {N V : Type} [DecidableEq N] [DecidableEq V] (l : Lev N V) (j : Idx N V) : Prop where
  fits : l.vals.length = 1 ∨ l.vals.length = j.len
  found : ∃ l' ∈ j.levels, l'.name = l.name ∧ ∀ k : Nat, k < j.len → l'.vals[k]? = l.vals[if l.vals.length = 1 then 0 else k]?

/-- A level that says something: it has a name, or it tells rows apart and is not just the numbers of the rows. -/
def Telling {N V : Type} (nat : Nat → V) (l : Lev N V) : Prop :=
  l.name ≠ none ∨ ((∃ v ∈ l.vals, ∃ w ∈ l.vals, v ≠ w) ∧ l.vals ≠ (List.range l.vals.length).map nat)

end Vbt
