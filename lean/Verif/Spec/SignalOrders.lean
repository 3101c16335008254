import Verif.Spec.Conflicts

/-!
# What signals ask for

Written from the documentation of `AccumulationMode` (portfolio/enums.py:116-148), `OppositeEntryMode` and `StopExitMode`:
exits and opposite entries close or reverse the position, or only change it by the size if accumulation may remove; entries
in the direction of the position are executed if accumulation may add.
-/

namespace Vbt
open F

/-- Buy or sell: the effect of the signal that is acted on, if any. -/
inductive Act
  | buy
  | sell
deriving DecidableEq, Repr

/-- Accumulation may add to the position. -/
def mayAdd (accumulate : Int) : Prop := accumulate = 1 ∨ accumulate = 2

/-- Accumulation may remove from the position. -/
def mayRemove (accumulate : Int) : Prop := accumulate = 1 ∨ accumulate = 3

instance (a : Int) : Decidable (mayAdd a) := inferInstanceAs (Decidable (_ ∨ _))
instance (a : Int) : Decidable (mayRemove a) := inferInstanceAs (Decidable (_ ∨ _))

/-- What to do given what is held. -/
def act (held : Held) (s : Signals) (accumulate : Int) : Option Act :=
  match held with
  | .flat => if s.longEntry then some .buy else if s.shortEntry then some .sell else none
  | .long =>
    if s.shortEntry || s.longExit then some .sell
    else if s.longEntry ∧ mayAdd accumulate then some .buy else none
  | .short =>
    if s.longEntry || s.shortExit then some .buy
    else if s.shortEntry ∧ mayAdd accumulate then some .sell else none

/-- The position wanted after the order, for a position `P` and an amount `x`. -/
def desired (P x : ℚ) (s : Signals) (accumulate : Int) : ℚ :=
  if 0 < P then
    if s.shortEntry then (if mayRemove accumulate then P - x else -x)
    else if s.longExit then (if mayRemove accumulate then P - x else 0)
    else if s.longEntry ∧ mayAdd accumulate then P + x
    else P
  else if P < 0 then
    if s.longEntry then (if mayRemove accumulate then P + x else x)
    else if s.shortExit then (if mayRemove accumulate then P + x else 0)
    else if s.shortEntry ∧ mayAdd accumulate then P - x
    else P
  else if s.longEntry then x
  else if s.shortEntry then -x
  else 0

/-- The amount `x` of a size given as amount or value. -/
inductive AmountOf (valPrice : F) : F → Int → ℚ → Prop
  | amount (a : ℚ) : AmountOf valPrice (fin a) SizeType.Amount a
  | value {a w : ℚ} (hw : valPrice = fin w) (hw0 : 0 < w) : AmountOf valPrice (fin a) SizeType.Value (a / w)

end Vbt
