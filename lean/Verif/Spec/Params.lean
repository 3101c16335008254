import Verif.Model.Params

/-! # Specification of parameter combinations: choices and their positions -/

namespace Vbt

/-- `js` chooses one position in each list. -/
def Chooses {α : Type} (js : List Nat) (ps : List (List α)) : Prop :=
  List.Forall₂ (fun j p => j < p.length) js ps

/-- The number of combinations. -/
def combos {α : Type} (ps : List (List α)) : Nat := (ps.map List.length).prod

/-- The position of a choice when the last list varies fastest. -/
def choicePos {α : Type} : List Nat → List (List α) → Nat
  | j :: js, _ :: ps => j * combos ps + choicePos js ps
  | _, _ => 0

mutual
/-- The leaves of a nested tuple from left to right. -/
def PVal.leaves : PVal → List Nat
  | .leaf x => [x]
  | .tup xs => xs.leaves
/-- See `PVal.leaves`. -/
def PVals.leaves : PVals → List Nat
  | .nil => []
  | .cons x rest => x.leaves ++ rest.leaves
end

mutual
/-- Two values are nested in the same way. -/
def PVal.SameShape : PVal → PVal → Prop
  | .leaf _, .leaf _ => True
  | .tup xs, .tup ys => xs.SameShape ys
  | _, _ => False
/-- See `PVal.SameShape`. -/
def PVals.SameShape : PVals → PVals → Prop
  | .nil, .nil => True
  | .cons x xs, .cons y ys => x.SameShape y ∧ xs.SameShape ys
  | _, _ => False
end

mutual
/-- How deep tuples are nested. -/
def PVal.depth : PVal → Nat
  | .leaf _ => 0
  | .tup xs => xs.depth + 1
/-- See `PVal.depth`. -/
def PVals.depth : PVals → Nat
  | .nil => 0
  | .cons x rest => max x.depth rest.depth
end

end Vbt
