import Verif.Model.IndexFns

/-! # What a user may expect of stacked and combined labels -/

namespace Vbt
variable {N V : Type} [DecidableEq N] [DecidableEq V]

/-- The label of a row: one value for each level. -/
def Idx.row (i : Idx N V) (k : Nat) : List (Option V) := i.levels.map (fun l => l.vals[k]?)

/-- An index as pandas makes it: at least one level, and all levels have the same length. -/
structure Idx.WF (i : Idx N V) : Prop where
  some_level : i.levels ≠ []
  same_len : ∀ l ∈ i.levels, l.vals.length = i.len

/-- A level that says nothing: it has no name, and it is either a constant or the numbers of the rows. -/
structure Redundant (nat : Nat → V) (len : Nat) (l : Lev N V) : Prop where
  unnamed : l.name = none
  nothing : (1 < len ∧ ∃ v, l.vals ≠ [] ∧ ∀ w ∈ l.vals, w = v) ∨ l.vals = (List.range l.vals.length).map nat

/-- The label of row `k` of the Cartesian product: the last index changes fastest. -/
def prodLen : List (Idx N V) → Nat
  | [] => 1
  | i :: rest => i.len * prodLen rest

@[inherit_doc prodLen]
def productRow : List (Idx N V) → Nat → List (Option V)
  | [], _ => []
  | i :: rest, k => i.row (k / prodLen rest) ++ productRow rest (k % prodLen rest)

/-- All levels have names. -/
def Idx.Named (i : Idx N V) : Prop := ∀ l ∈ i.levels, l.name ≠ none

end Vbt
