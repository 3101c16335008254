import Verif.Model.MappedArray

/-! A mapped array as a list of entries, each with its value, column, id and row. -/

namespace Vbt

/-- An entry: value, column, id, row. -/
structure Entry where
  val : F
  col : Nat
  id : Nat
  idx : Option Nat
deriving DecidableEq

/-- The arrays have one length. -/
structure Mapped.WF (m : Mapped) : Prop where
  cols : m.cols.length = m.vals.length
  ids : m.ids.length = m.vals.length
  idx : ∀ l, m.idx = some l → l.length = m.vals.length

/-- What the arrays hold at position `i`. -/
def Mapped.entry (m : Mapped) (i : Nat) : Entry :=
  ⟨m.vals.getD i .nan, m.cols.getD i 0, m.ids.getD i 0, m.idx.map fun l => l.getD i 0⟩

/-- The entries in the order of the arrays. -/
def Mapped.entries (m : Mapped) : List Entry := (List.range m.vals.length).map m.entry

/-- The number of entries with value `v` in column `c`. -/
def cellCount (vals : List F) (cols : List Nat) (v : F) (c : Nat) : Nat := (cols.zip vals).count (c, v)

/-- The number of entries with value `v` in all columns. -/
def labelTotal (vals : List F) (cols : List Nat) (nCols : Nat) (v : F) : Nat :=
  ((List.range nCols).map (cellCount vals cols v)).sum

end Vbt
