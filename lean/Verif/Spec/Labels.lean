import Verif.Model.Labels
import Verif.Spec.Window

/-! # Specification of look-ahead labels -/

namespace Vbt
open F

/-- The rows `j` that follow row `i` after `wait` rows, `window` of them, as far as the data goes. -/
def NextRow (i window wait len j : Nat) : Prop := i + wait ≤ j ∧ j < i + window + wait ∧ j < len

/-- At row `j` the price is up from row `i` by the threshold. -/
def HitUp (A : Arith) (close posTh : Nat → F) (i j : Nat) : Prop :=
  lt zero (abs (posTh i)) = true ∧ le (mul A (close i) (add A one (abs (posTh i)))) (close j) = true

/-- At row `j` the price is down from row `i` by the threshold. -/
def HitDown (A : Arith) (close negTh : Nat → F) (i j : Nat) : Prop :=
  lt zero (abs (negTh i)) = true ∧ le (close j) (mul A (close i) (sub A one (abs (negTh i)))) = true

/-- `q` lies beyond the threshold counted from an extremum at `p` with label `l` (1: peak, -1: trough). -/
def TurnsBack (A : Arith) (close posTh negTh : Nat → F) (l : Int) (p q : Nat) : Prop :=
  if l = -1 then le (mul A (close p) (add A one (abs (posTh p)))) (close q) = true
  else le (close q) (mul A (close p) (sub A one (abs (negTh p)))) = true

/-- Row `q` is strictly more extreme than row `k`, in the direction of the label of `q`: higher for a peak, lower for a
trough; also if row `k` is NaN. -/
def Exceeds (close : Nat → F) (l : Int) (q k : Nat) : Prop :=
  if l = 1 then le (close q) (close k) = false else le (close k) (close q) = false

/-- Row `k` is beyond row `p` in the direction of the label `l`: above a peak, below a trough. -/
def Beyond (close : Nat → F) (l : Int) (p k : Nat) : Prop :=
  if l = 1 then lt (close p) (close k) = true else lt (close k) (close p) = true

/-- `p < q` are neighbours among the labelled rows. -/
def Neighbours (out : Nat → Int) (p q : Nat) : Prop :=
  p < q ∧ out p ≠ 0 ∧ out q ≠ 0 ∧ ∀ k, p < k → k < q → out k = 0

end Vbt
