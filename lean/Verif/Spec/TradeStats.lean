import Verif.Spec.Ratios
import Verif.Model.Trades

/-!
# Words for the statements about statistics of trades
-/

namespace Vbt
open F

/-- The trades of column `c`, or of group `c` if columns are grouped. -/
def tradesOf (groups : Option (Nat → Nat)) (ts : List TradeRec) (c : Nat) : List TradeRec :=
  ts.filter fun x => decide ((groups.getD id) x.col = c)

/-- The profits and losses of the trades of column or group `c`. -/
def pnlsOf (groups : Option (Nat → Nat)) (ts : List TradeRec) (c : Nat) : List F := (tradesOf groups ts c).map TradeRec.pnl

/-- The profits among numbers. -/
def profits (q : List ℚ) : List ℚ := q.filter fun x => decide (0 < x)

/-- The losses among numbers. -/
def losses (q : List ℚ) : List ℚ := q.filter fun x => decide (x < 0)

/-- `n` trades in a row. -/
def RunOf (p : TradeRec → Prop) (ts : List TradeRec) (n : Nat) : Prop := ∃ u, u <:+: ts ∧ u.length = n ∧ ∀ x ∈ u, p x

end Vbt
