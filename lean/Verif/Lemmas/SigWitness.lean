import Verif.Model.SignalSim
import Verif.Lemmas.Witness

/-! # Concrete inputs of the signal simulators (used only for `example`s and counterexamples) -/

namespace Vbt
open F

/-- Size 2 per signal, price = close = 10, 12, 9, 14, ..., 10 % trailing stop loss, 50 % take profit. -/
def wSig : SigInputs where
  size := fun _ _ => fin 2
  price := fun _ _ => pinf
  sizeType := fun _ _ => SizeType.Amount
  fees := fun _ _ => fin 0
  fixedFees := fun _ _ => fin 0
  slippage := fun _ _ => fin 0
  minSize := fun _ _ => fin 0
  maxSize := fun _ _ => pinf
  gran := fun _ _ => nan
  rejectProb := fun _ _ => fin 0
  lockCash := fun _ _ => false
  allowPartial := fun _ _ => true
  raiseReject := fun _ _ => false
  log := fun _ _ => false
  accumulate := fun _ _ => AccumulationMode.Disabled
  uponLongConflict := fun _ _ => ConflictMode.Ignore
  uponShortConflict := fun _ _ => ConflictMode.Ignore
  uponDirConflict := fun _ _ => DirectionConflictMode.Ignore
  uponOppositeEntry := fun _ _ => OppositeEntryMode.ReverseReduce
  valPrice := fun _ _ => pinf
  open_ := fun _ _ => nan
  high := fun _ _ => nan
  low := fun _ _ => nan
  close := fun i _ => fin ([10, 12, 9, 14].getD (i % 4) 10)
  slStop := fun _ _ => fin (1/10)
  slTrail := fun _ _ => true
  tpStop := fun _ _ => fin (1/2)
  stopEntryPrice := fun _ _ => StopEntryPrice.Close
  stopExitPrice := fun _ _ => StopExitPrice.StopLimit
  uponStopExit := fun _ _ => StopExitMode.Close
  uponStopUpdate := fun _ _ => StopUpdateMode.Override
  useStops := true
  autoCallSeq := false
  ffillValPrice := true
  updateValue := false
  callSeq := fun _ _ => 0
  draw := fun _ _ => fin 0

/-- Enter long in row 0. -/
def wArr : SigArrays where
  entries := fun i _ => i == 0
  exits := fun _ _ => false
  direction := fun _ _ => Direction.LongOnly
  longEntries := fun _ _ => false
  longExits := fun _ _ => false
  shortEntries := fun _ _ => false
  shortExits := fun _ _ => false

end Vbt
