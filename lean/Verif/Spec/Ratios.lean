import Verif.Spec.Window

/-!
# Words for the statements about risk ratios

Statistics of rational numbers, written as in a textbook and without the functions of the model.
-/

namespace Vbt
open F

/-- The number a float holds, if it does. -/
def F.num? : F → Option ℚ
  | fin q => some q
  | _ => none

/-- The numbers of a column, in order. -/
def nums (l : List F) : List ℚ := l.filterMap F.num?

/-- The pairs of two columns, in order, where both hold a number. -/
def both (l b : List F) : List (ℚ × ℚ) :=
  (l.zip b).filterMap fun p => p.1.num?.bind fun x => p.2.num?.map fun y => (x, y)

/-- No cell is infinite. -/
def NoInf (l : List F) : Prop := ∀ x ∈ l, x.isinf = false

instance (l : List F) : Decidable (NoInf l) := inferInstanceAs (Decidable (∀ x ∈ l, x.isinf = false))

/-- The population covariance of pairs. -/
def covOf (ps : List (ℚ × ℚ)) : ℚ :=
  (ps.map fun p => (p.1 - meanOf (ps.map Prod.fst)) * (p.2 - meanOf (ps.map Prod.snd))).sum / ps.length

/-- The population variance. -/
def varOf (xs : List ℚ) : ℚ := devOf xs / xs.length

/-- By how much a return falls short of what is required. -/
def shortfall (required x : ℚ) : ℚ := max (required - x) 0

/-- By how much a return exceeds what is required. -/
def surplus (required x : ℚ) : ℚ := max (x - required) 0

/-- The height at `p` of the broken line through the points `(0, s[0])`, `(1, s[1])`, … -/
def lineAt (s : List ℚ) (p : ℚ) : ℚ :=
  s.getD ⌊p⌋.toNat 0 + (p - ⌊p⌋) * (s.getD (⌊p⌋.toNat + 1) 0 - s.getD ⌊p⌋.toNat 0)

/-- `s` lists the numbers `xs` from the smallest to the largest. -/
def SortedOf (xs s : List ℚ) : Prop := s.Perm xs ∧ s.Pairwise (· ≤ ·)

end Vbt
