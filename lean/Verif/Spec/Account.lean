import Verif.Spec.Window
import Verif.Spec.Ledger

/-!
# Specification of a margin account kept from order records

Shares sold short are owed: their proceeds are debt, and as much again is locked as collateral.  Shares bought back
release the debt at the average price at which they were sold.
-/

namespace Vbt

/-- Signed shares held, value owed for shares sold short, and the change of free cash so far. -/
structure Account where
  position : ℚ
  debt : ℚ
  flow : ℚ

/-- Shares of a sale that are not covered by shares held. -/
def soldShort (held sold : ℚ) : ℚ := sold - min sold (max held 0)

/-- Shares of a purchase that cover shares sold short. -/
def boughtBack (held bought : ℚ) : ℚ := min bought (max (-held) 0)

/-- Booking an order. -/
def Account.book (a : Account) (side : Int) (size price fees : ℚ) : Account :=
  if side = OrderSide.Sell then
    let owed := soldShort a.position size * price
    { position := a.position - size, debt := a.debt + owed, flow := a.flow + (size * price - fees) - 2 * owed }
  else
    let released := boughtBack a.position size * (a.debt / -a.position)
    { position := a.position + size, debt := a.debt - released, flow := a.flow - (size * price + fees) + 2 * released }

/-- The account of a list of order records, from empty. -/
def accountFrom (a : Account) (l : List OrderRec) : Account :=
  l.foldl (fun a o => a.book o.side o.size.val o.price.val o.fees.val) a

def accountOf (l : List OrderRec) : Account := accountFrom ⟨0, 0, 0⟩ l

/-- A record with finite fields and a positive size. -/
def Sized (o : OrderRec) : Prop := ∃ s p f : ℚ, o.size = .fin s ∧ o.price = .fin p ∧ o.fees = .fin f ∧ 0 < s

end Vbt
