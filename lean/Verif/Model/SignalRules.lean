import Verif.Model.Order

/-!
# Rules for signals: `vectorbt/portfolio/nb.py:1580-1889`
-/

namespace Vbt
open F

namespace AccumulationMode
/-- enums.py `AccumulationModeT`. -/
abbrev Disabled : Int := 0
abbrev Both : Int := 1
abbrev AddOnly : Int := 2
abbrev RemoveOnly : Int := 3
end AccumulationMode

namespace ConflictMode
/-- enums.py `ConflictModeT`. -/
abbrev Ignore : Int := 0
abbrev Entry : Int := 1
abbrev Exit : Int := 2
abbrev Adjacent : Int := 3
abbrev Opposite : Int := 4
end ConflictMode

namespace DirectionConflictMode
/-- enums.py `DirectionConflictModeT`. -/
abbrev Ignore : Int := 0
abbrev Long : Int := 1
abbrev Short : Int := 2
abbrev Adjacent : Int := 3
abbrev Opposite : Int := 4
end DirectionConflictMode

namespace OppositeEntryMode
/-- enums.py `OppositeEntryModeT`. -/
abbrev Ignore : Int := 0
abbrev Close : Int := 1
abbrev CloseReduce : Int := 2
abbrev Reverse : Int := 3
abbrev ReverseReduce : Int := 4
end OppositeEntryMode

namespace StopEntryPrice
/-- enums.py `StopEntryPriceT`. -/
abbrev ValPrice : Int := 0
abbrev Price : Int := 1
abbrev FillPrice : Int := 2
abbrev Close : Int := 3
end StopEntryPrice

namespace StopExitPrice
/-- enums.py `StopExitPriceT`. -/
abbrev StopLimit : Int := 0
abbrev StopMarket : Int := 1
abbrev Price : Int := 2
abbrev Close : Int := 3
end StopExitPrice

namespace StopExitMode
/-- enums.py `StopExitModeT`. -/
abbrev Close : Int := 0
abbrev CloseReduce : Int := 1
abbrev Reverse : Int := 2
abbrev ReverseReduce : Int := 3
end StopExitMode

namespace StopUpdateMode
/-- enums.py `StopUpdateModeT`. -/
abbrev Keep : Int := 0
abbrev Override : Int := 1
abbrev OverrideNaN : Int := 2
end StopUpdateMode

/-- Direction-aware signals: `is_long_entry, is_long_exit, is_short_entry, is_short_exit`. -/
structure Signals where
  longEntry : Bool
  longExit : Bool
  shortEntry : Bool
  shortExit : Bool
deriving DecidableEq, Repr

/-- `generate_stop_signal_nb`, portfolio/nb.py:1580-1612. -/
def generateStopSignal (position : F) (uponStopExit accumulate : Int) : Signals × Int :=
  if gt position zero then
    if uponStopExit = StopExitMode.Close then (⟨false, true, false, false⟩, AccumulationMode.Disabled)
    else if uponStopExit = StopExitMode.CloseReduce then (⟨false, true, false, false⟩, accumulate)
    else if uponStopExit = StopExitMode.Reverse then (⟨false, false, true, false⟩, AccumulationMode.Disabled)
    else (⟨false, false, true, false⟩, accumulate)
  else if lt position zero then
    if uponStopExit = StopExitMode.Close then (⟨false, false, false, true⟩, AccumulationMode.Disabled)
    else if uponStopExit = StopExitMode.CloseReduce then (⟨false, false, false, true⟩, accumulate)
    else if uponStopExit = StopExitMode.Reverse then (⟨true, false, false, false⟩, AccumulationMode.Disabled)
    else (⟨true, false, false, false⟩, accumulate)
  else (⟨false, false, false, false⟩, accumulate)

/-- `resolve_stop_price_and_slippage_nb`, portfolio/nb.py:1616-1630. -/
def resolveStopPriceAndSlippage (stopPrice price close slippage : F) (stopExitPrice : Int) : F × F :=
  if stopExitPrice = StopExitPrice.StopMarket then (stopPrice, slippage)
  else if stopExitPrice = StopExitPrice.StopLimit then (stopPrice, zero)
  else if stopExitPrice = StopExitPrice.Close then (close, slippage)
  else (price, slippage)

/-- `resolve_signal_conflict_nb`, portfolio/nb.py:1634-1681. -/
def resolveSignalConflict (position : F) (isEntry isExit : Bool) (direction mode : Int) : Bool × Bool :=
  if isEntry && isExit then
    if mode = ConflictMode.Entry then (isEntry, false)
    else if mode = ConflictMode.Exit then (false, isExit)
    else if mode = ConflictMode.Adjacent then
      if eqb position zero then (false, false)
      else if direction = Direction.Both then
        if gt position zero then (isEntry, false)
        else if lt position zero then (false, isExit)
        else (isEntry, isExit)
      else (isEntry, false)
    else if mode = ConflictMode.Opposite then
      if eqb position zero then (false, false)
      else if direction = Direction.Both then
        if gt position zero then (false, isExit)
        else if lt position zero then (isEntry, false)
        else (isEntry, isExit)
      else (false, isExit)
    else (false, false)
  else (isEntry, isExit)

/-- `resolve_dir_conflict_nb`, portfolio/nb.py:1685-1716. -/
def resolveDirConflict (position : F) (longEntry shortEntry : Bool) (mode : Int) : Bool × Bool :=
  if longEntry && shortEntry then
    if mode = DirectionConflictMode.Long then (longEntry, false)
    else if mode = DirectionConflictMode.Short then (false, shortEntry)
    else if mode = DirectionConflictMode.Adjacent then
      if gt position zero then (longEntry, false)
      else if lt position zero then (false, shortEntry)
      else (false, false)
    else if mode = DirectionConflictMode.Opposite then
      if gt position zero then (false, shortEntry)
      else if lt position zero then (longEntry, false)
      else (false, false)
    else (false, false)
  else (longEntry, shortEntry)

/-- First half of `resolve_opposite_entry_nb`, portfolio/nb.py:1730-1741. -/
def oppositeShort (position : F) (s : Signals) (mode accumulate : Int) : Signals × Int :=
  if gt position zero && s.shortEntry then
    if mode = OppositeEntryMode.Ignore then ({ s with shortEntry := false }, accumulate)
    else if mode = OppositeEntryMode.Close then
      ({ s with shortEntry := false, longExit := true }, AccumulationMode.Disabled)
    else if mode = OppositeEntryMode.CloseReduce then ({ s with shortEntry := false, longExit := true }, accumulate)
    else if mode = OppositeEntryMode.Reverse then (s, AccumulationMode.Disabled)
    else (s, accumulate)
  else (s, accumulate)

/-- Second half of `resolve_opposite_entry_nb`, portfolio/nb.py:1742-1753. -/
def oppositeLong (position : F) (s : Signals) (mode accumulate : Int) : Signals × Int :=
  if lt position zero && s.longEntry then
    if mode = OppositeEntryMode.Ignore then ({ s with longEntry := false }, accumulate)
    else if mode = OppositeEntryMode.Close then
      ({ s with longEntry := false, shortExit := true }, AccumulationMode.Disabled)
    else if mode = OppositeEntryMode.CloseReduce then ({ s with longEntry := false, shortExit := true }, accumulate)
    else if mode = OppositeEntryMode.Reverse then (s, AccumulationMode.Disabled)
    else (s, accumulate)
  else (s, accumulate)

/-- `resolve_opposite_entry_nb`, portfolio/nb.py:1720-1754. -/
def resolveOppositeEntry (position : F) (s : Signals) (mode accumulate : Int) : Signals × Int :=
  let x := oppositeShort position s mode accumulate
  oppositeLong position x.1 mode x.2

/-- The resolution of signals within the simulators, portfolio/nb.py:2183-2223 (and 2708-2748). -/
def resolveSignals (position : F) (s : Signals) (longMode shortMode dirMode oppMode accumulate : Int) : Signals × Int :=
  if s.longEntry || s.shortEntry then
    let l := resolveSignalConflict position s.longEntry s.longExit Direction.LongOnly longMode
    let h := resolveSignalConflict position s.shortEntry s.shortExit Direction.ShortOnly shortMode
    let e := resolveDirConflict position l.1 h.1 dirMode
    resolveOppositeEntry position ⟨e.1, l.2, e.2, h.2⟩ oppMode accumulate
  else (s, accumulate)

/-- `order_size` when a position is reversed, portfolio/nb.py:1785-1794 (`sell`) and 1816-1825: the amount of the
position and the amount of `size`. -/
def reverseSize (A : Arith) (sell : Bool) (absPosition size : F) (sizeType : Int) (valPrice : F) : Except Err F :=
  let base := if sell then neg absPosition else absPosition
  if size.isnan then .ok base
  else if sizeType = SizeType.Percent then
    .error (.valueError "SizeType.Percent does not support position reversal using signals")
  else if sizeType = SizeType.Value then
    match divE A size valPrice with
    | .error e => .error e
    | .ok d => .ok (if sell then sub A base d else add A base d)
  else .ok (if sell then sub A base size else add A base size)

/-- `accumulate == Both or accumulate == RemoveOnly`. -/
def removes (accumulate : Int) : Bool := accumulate == AccumulationMode.Both || accumulate == AccumulationMode.RemoveOnly

/-- `accumulate == Both or accumulate == AddOnly`. -/
def addsTo (accumulate : Int) : Bool := accumulate == AccumulationMode.Both || accumulate == AccumulationMode.AddOnly

/-- `signals_to_size_nb`, portfolio/nb.py:1758-1848: size, size type and direction. -/
def signalsToSize (A : Arith) (position : F) (s : Signals) (size : F) (sizeType accumulate : Int) (valPrice : F) :
    Except Err (F × Int × Int) :=
  if sizeType ≠ SizeType.Amount ∧ sizeType ≠ SizeType.Value ∧ sizeType ≠ SizeType.Percent then
    .error (.valueError "Only SizeType.Amount, SizeType.Value, and SizeType.Percent are supported")
  else if isLess A size zero then
    .error (.valueError "Negative size is not allowed. You must express direction using signals.")
  else if gt position zero then
    if s.shortEntry then
      if removes accumulate then .ok (neg size, sizeType, Direction.Both)
      else
        match reverseSize A true position.abs size sizeType valPrice with
        | .error e => .error e
        | .ok x => .ok (x, SizeType.Amount, Direction.Both)
    else if s.longExit then
      if removes accumulate then .ok (neg size, sizeType, Direction.LongOnly)
      else .ok (neg position.abs, SizeType.Amount, Direction.LongOnly)
    else if s.longEntry then
      if addsTo accumulate then .ok (size, sizeType, Direction.LongOnly)
      else .ok (zero, sizeType, Direction.LongOnly)
    else .ok (zero, sizeType, Direction.Both)
  else if lt position zero then
    if s.longEntry then
      if removes accumulate then .ok (size, sizeType, Direction.Both)
      else
        match reverseSize A false position.abs size sizeType valPrice with
        | .error e => .error e
        | .ok x => .ok (x, SizeType.Amount, Direction.Both)
    else if s.shortExit then
      if removes accumulate then .ok (size, sizeType, Direction.ShortOnly)
      else .ok (position.abs, SizeType.Amount, Direction.ShortOnly)
    else if s.shortEntry then
      if addsTo accumulate then .ok (neg size, sizeType, Direction.ShortOnly)
      else .ok (zero, sizeType, Direction.ShortOnly)
    else .ok (zero, sizeType, Direction.Both)
  else if s.longEntry then .ok (size, sizeType, Direction.Both)
  else if s.shortEntry then .ok (neg size, sizeType, Direction.Both)
  else .ok (zero, sizeType, Direction.Both)

/-- `should_update_stop_nb`, portfolio/nb.py:1852-1857. -/
def shouldUpdateStop (stop : F) (mode : Int) : Bool :=
  if mode = StopUpdateMode.Override ∨ mode = StopUpdateMode.OverrideNaN then
    !stop.isnan || mode == StopUpdateMode.OverrideNaN
  else false

/-- `get_stop_price_nb`, portfolio/nb.py:1861-1889. -/
def getStopPrice (A : Arith) (position stopPrice stop open_ low high : F) (hitBelow : Bool) : Except Err F :=
  if lt stop zero then .error (.valueError "Stop value must be 0 or greater")
  else if (gt position zero && hitBelow) || (lt position zero && !hitBelow) then
    let level := mul A stopPrice (sub A one stop)
    if le open_ level then .ok open_
    else if le low level && le level high then .ok level
    else .ok nan
  else if (lt position zero && hitBelow) || (gt position zero && !hitBelow) then
    let level := mul A stopPrice (add A one stop)
    if le level open_ then .ok open_
    else if le low level && le level high then .ok level
    else .ok nan
  else .ok nan

end Vbt
