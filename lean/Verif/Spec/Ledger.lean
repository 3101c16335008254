import Verif.Model.Order

/-!
# Specification of balances kept from records

The balance after a list of movements, booked one by one, and the records whose movements are above the tolerances.
-/

namespace Vbt

/-- Signed size of an order record as a number: plus for buys, minus for sells. -/
def moved (side : Int) (s : ℚ) : ℚ := if side = OrderSide.Sell then -s else s

/-- An order record whose movements of position and cash are finite and zero or above the tolerances, so that no
single one of them is swallowed.  With zero tolerances this only says that the fields are finite. -/
def Visible (rel abs : ℚ) (o : OrderRec) : Prop :=
  ∃ s p f : ℚ, o.size = .fin s ∧ o.price = .fin p ∧ o.fees = .fin f ∧ (s = 0 ∨ abs < |s|) ∧
    (-(moved o.side s) * p - f = 0 ∨
      max (rel * max |s * p| |f|) abs < |-(moved o.side s) * p - f|)

/-- A stored balance that is finite and zero or above the absolute tolerance. -/
def Settled (abs : ℚ) (x : F) : Prop := ∃ q : ℚ, x = .fin q ∧ (q = 0 ∨ abs < |q|)

end Vbt
