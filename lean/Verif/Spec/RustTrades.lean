import Verif.Model.Trades

/-!
# Vocabulary for comparing the trades of the engines
-/

namespace Vbt

/-- Both engines return the same records, or both raise `ValueError`. -/
def SameTrades (numba rust : Except Err (List TradeRec)) : Prop :=
  (∃ ts, numba = .ok ts ∧ rust = .ok ts) ∨ ∃ m n, numba = .error (.valueError m) ∧ rust = .error (.valueError n)

/-- The trades are listed column by column. -/
def ByColumn (ts : List TradeRec) : Prop := (ts.map (·.col)).Pairwise (· ≤ ·)

/-- A positive finite number. -/
def F.Positive (x : F) : Prop := ∃ q : ℚ, 0 < q ∧ x = F.fin q

/-- An order that was filled: it has a side, a positive size and a positive price. -/
def PositiveOrder (o : OrderRec) : Prop :=
  (o.side = OrderSide.Buy ∨ o.side = OrderSide.Sell) ∧ o.size.Positive ∧ o.price.Positive

/-- Size and entry price of a trade. -/
def PositiveTrade (t : TradeRec) : Prop := t.size.Positive ∧ t.entryPrice.Positive

end Vbt
