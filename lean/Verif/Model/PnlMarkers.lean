import Mathlib.Algebra.Order.Ring.Rat
import Verif.Model.Float

/-!
# Markers of the plot of profits and losses: `vectorbt/utils/array_.py`, `vectorbt/portfolio/trades.py`

Numbers are rationals; a missing profit or loss (NaN) is `none`.  Rounding is left out.
-/

namespace Vbt

/-- `np.min`. -/
def listMin : List ℚ → ℚ
  | [] => 0
  | x :: xs => xs.foldl min x

/-- `np.max`. -/
def listMax : List ℚ → ℚ
  | [] => 0
  | x :: xs => xs.foldl max x

/-- `renormalize`, utils/array_.py:76-84, of one number. -/
def renorm (x fromLo fromHi toLo toHi : ℚ) : ℚ := (toHi - toLo) * (x - fromLo) / (fromHi - fromLo) + toLo

/-- `min_rel_rescale`, utils/array_.py:91-106.  `np.inf`, the ratio for a minimum of zero, is not below any number.  The ends of the
range are Python floats, whose division by zero raises. -/
def minRelRescale (a : List ℚ) (lo hi : ℚ) : Except Err (List ℚ) :=
  if a = [] then .error (.valueError "zero-size array to reduction operation minimum which has no identity")
  else if listMax a - listMin a = 0 then .ok (a.map fun _ => lo)
  else if lo = 0 then .error .zeroDivision
  else if listMin a ≠ 0 ∧ listMax a / listMin a < hi / lo then
    .ok (a.map fun x => renorm x (listMin a) (listMax a) lo (lo * (listMax a / listMin a)))
  else .ok (a.map fun x => renorm x (listMin a) (listMax a) lo hi)

/-- `max_rel_rescale`, utils/array_.py:109-124. -/
def maxRelRescale (a : List ℚ) (lo hi : ℚ) : Except Err (List ℚ) :=
  if a = [] then .error (.valueError "zero-size array to reduction operation minimum which has no identity")
  else if listMax a - listMin a = 0 then .ok (a.map fun _ => hi)
  else if lo = 0 then .error .zeroDivision
  else if listMin a ≠ 0 ∧ listMax a / listMin a < hi / lo then
    .ok (a.map fun x => renorm x (listMin a) (listMax a) (hi / (listMax a / listMin a)) hi)
  else .ok (a.map fun x => renorm x (listMin a) (listMax a) lo hi)

/-- The series of the plot. -/
inductive PnlSeries where
  | closedProfit
  | closedLoss
  | open_
deriving DecidableEq

/-- The masks of `Trades.plot_pnl`, portfolio/trades.py:909-919: whether a trade is drawn in a series. -/
def pnlDrawn (isOpen : Bool) (pnl : Option ℚ) : PnlSeries → Bool
  | .closedProfit => !isOpen && pnl.any (0 < ·)
  | .closedLoss => !isOpen && pnl.any (· < 0)
  | .open_ => isOpen && !(pnl.any (· = 0))

end Vbt
