import Mathlib.Data.List.Basic

/-! What belongs to a column. -/

namespace Vbt

/-- The indices of the records of column `c`, ascending. -/
def positions (c : Nat) (cols : List Nat) : List Nat := (List.range cols.length).filter fun r => cols[r]? == some c

/-- A selection of columns: the indices of each selected column, with the new column numbers. -/
def selection (cols newCols : List Nat) : List (Nat × Nat) :=
  newCols.zipIdx.flatMap fun x => (positions x.1 cols).map fun r => (r, x.2)

end Vbt
