import Mathlib.Data.List.Basic

/-! What grouping columns anew is meant to do. -/

namespace Vbt

/-- Two labellings put the same columns together. -/
def SamePartition {L M : Type} (ls : List L) (ms : List M) : Prop :=
  ls.length = ms.length ∧ ∀ i j : Nat, i < ls.length → j < ls.length → (ls[i]? = ls[j]? ↔ ms[i]? = ms[j]?)

/-- Two optional labellings: none on both sides, or the same partition. -/
def SameGroups {L M : Type} : Option (List L) → Option (List M) → Prop
  | none, none => True
  | some ls, some ms => SamePartition ls ms
  | _, _ => False

/-- The distinct labels in the order of their first appearance. -/
structure FirstSeen {L : Type} [DecidableEq L] (ls u : List L) : Prop where
  nodup : u.Nodup
  mem : ∀ l, l ∈ u ↔ l ∈ ls
  order : ∀ a b, a ∈ ls → b ∈ ls → (u.idxOf a < u.idxOf b ↔ ls.idxOf a < ls.idxOf b)

/-- There is at most one group. -/
def Single {L : Type} (ls : List L) : Prop := ∀ a ∈ ls, ∀ b ∈ ls, a = b

/-- The dimensions of what is computed per group: one for a single group, two otherwise. -/
def GroupDims {L : Type} (ls : List L) (d : Nat) : Prop := (Single ls ∧ d = 1) ∨ (¬ Single ls ∧ d = 2)

end Vbt
