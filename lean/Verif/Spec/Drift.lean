import Verif.Spec.Ledger
import Verif.Spec.Window

/-!
# Specification of balances kept up to the tolerances

`add_nb` reports a sum that is close to zero as zero.  The amounts lost this way are bounded by what was moved.
-/

namespace Vbt

/-- Size, price and fees of a record are numbers. -/
def Numbers (o : OrderRec) : Prop := ∃ s p f : ℚ, o.size = .fin s ∧ o.price = .fin p ∧ o.fees = .fin f

/-- What the records say about the position: bought minus sold. -/
def bookedPos (l : List OrderRec) : ℚ := (l.map fun o => moved o.side o.size.val).sum

/-- What the records say about the cash: proceeds of sales minus costs of purchases minus fees. -/
def bookedCash (l : List OrderRec) : ℚ := (l.map fun o => -(moved o.side o.size.val) * o.price.val - o.fees.val).sum

/-- The amount of assets moved, in either direction. -/
def assetVolume (l : List OrderRec) : ℚ := (l.map fun o => |o.size.val|).sum

/-- The amount of cash moved, in either direction, fees included. -/
def cashVolume (l : List OrderRec) : ℚ := (l.map fun o => |o.size.val * o.price.val| + |o.fees.val|).sum

/-- What may be lost to the tolerances `rel`, `abs` by `n` additions that move `volume` in total. -/
def lost (rel abs volume : ℚ) (n : Nat) : ℚ := rel / (1 - rel) * volume + n * abs

end Vbt
