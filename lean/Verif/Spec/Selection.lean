import Mathlib.Data.List.Basic

/-! What a selection of columns or groups is meant to return. -/

namespace Vbt

/-- The columns with a label, ascending. -/
def whereLabel {L : Type} [DecidableEq L] (labels : List L) (l : L) : List Nat :=
  (List.range labels.length).filter fun c => labels[c]? = some l

/-- The columns of the selected groups, group by group. -/
def groupColumns {L : Type} [DecidableEq L] (labels : List L) (groups : List L) : List Nat :=
  groups.flatMap fun l => whereLabel labels l

/-- The group of each of these columns, called by the new label of the group: pairs (old label, new label). -/
def groupLabels {L : Type} [DecidableEq L] (labels : List L) (groups : List (L × L)) : List L :=
  groups.flatMap fun x => (whereLabel labels x.1).map fun _ => x.2

/-- A list taken at given positions. -/
def AtPositions {α : Type} (l : List α) (idxs : List Nat) (r : List α) : Prop :=
  r.length = idxs.length ∧ ∀ k c : Nat, idxs[k]? = some c → ∃ x : α, l[c]? = some x ∧ r[k]? = some x

/-- If the first computation returns a list, the second returns its elements at the given positions. -/
def ReadAt {ε α : Type} (x y : Except ε (List α)) (idxs : List Nat) : Prop :=
  ∀ ys, x = .ok ys → ∃ zs, y = .ok zs ∧ AtPositions ys idxs zs

end Vbt
