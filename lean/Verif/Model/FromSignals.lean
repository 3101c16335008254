import Verif.Model.SignalSim

/-!
# The arguments of `Portfolio.from_signals`: `vectorbt/portfolio/base.py:2718-3188`, `vectorbt/_settings.py:384-427`

`None` is `Option.none`.  Arguments are functions of row and column (what they broadcast to, see `Verif/Model/Flex` and
`Verif/Model/Broadcasting`); names of enumerated values are `Verif/Model/Mapping`.  Not modelled: templates, `broadcast_named_args`, the
seed, warnings (that a direction has no effect is a warning only), the construction of the portfolio object.  The engine
behind `dispatch.simulate_from_signals` is the subject of C85.
-/

namespace Vbt
open F

/-- The arguments that say where signals and stops come from, base.py:2048-2110; `signalFunc`, `adjustSl`, `adjustTp` are
`none` when left at `no_signal_func_nb`, `no_adjust_sl_func_nb`, `no_adjust_tp_func_nb`. -/
structure SigArgs where
  entries : Option (Nat → Nat → Bool) := none
  exits : Option (Nat → Nat → Bool) := none
  shortEntries : Option (Nat → Nat → Bool) := none
  shortExits : Option (Nat → Nat → Bool) := none
  signalFunc : Option (SignalContext → Signals) := none
  direction : Option (Nat → Nat → Int) := none
  adjustSl : Option (AdjustSLContext → F × Bool) := none
  adjustTp : Option (AdjustTPContext → F) := none

/-- `ls_mode`, base.py:2723. -/
def SigArgs.lsMode (g : SigArgs) : Bool := g.shortEntries.isSome || g.shortExits.isSome

/-- `entries`, base.py:2727-2731. -/
def SigArgs.entriesOr (g : SigArgs) : Nat → Nat → Bool :=
  match g.entries with
  | some e => e
  | none => if g.exits.isNone && !g.lsMode then fun _ _ => true else fun _ _ => false

/-- `exits`, `short_entries`, `short_exits`, base.py:2732-2737. -/
def signalsOr (x : Option (Nat → Nat → Bool)) : Nat → Nat → Bool := x.getD fun _ _ => false

/-- `direction`, base.py:2787-2789, with the default of _settings.py:415. -/
def SigArgs.directionOr (g : SigArgs) : Nat → Nat → Int := g.direction.getD fun _ _ => Direction.LongOnly

/-- The signal function, base.py:2738-2742, 2976-2986. -/
def SigArgs.signalOr (g : SigArgs) : SignalContext → Signals :=
  match g.signalFunc with
  | some f => f
  | none =>
    if g.lsMode then lsEnexSignal g.entriesOr (signalsOr g.exits) (signalsOr g.shortEntries) (signalsOr g.shortExits)
    else dirEnexSignal g.entriesOr (signalsOr g.exits) g.directionOr

/-- The arrays given to `simulate_from_signals`, base.py:3001-3012, 3056-3067. -/
def SigArgs.arrays (g : SigArgs) : SigArrays :=
  if g.lsMode then
    { entries := fun _ _ => false, exits := fun _ _ => false, direction := fun _ _ => Direction.LongOnly,
      longEntries := g.entriesOr, longExits := signalsOr g.exits,
      shortEntries := signalsOr g.shortEntries, shortExits := signalsOr g.shortExits }
  else
    { entries := g.entriesOr, exits := signalsOr g.exits, direction := g.directionOr,
      longEntries := fun _ _ => false, longExits := fun _ _ => false,
      shortEntries := fun _ _ => false, shortExits := fun _ _ => false }

/-- `from_signals` from its arguments to its records, base.py:2723-2742, 2976-3162. -/
def fromSignals (A : Arith) (inp : SigInputs) (g : SigArgs) (rows cols : Nat) (lens : List Nat) (initCash : List F)
    (maxOrders : Option Nat) (maxLogs : Nat) : Except Err SigState :=
  if (g.entries.isSome || g.exits.isSome || g.lsMode) && g.signalFunc.isSome then
    .error (.valueError "Either any of the signal arrays or signal_func_nb should be set, not both")
  else if g.signalFunc.isNone && g.adjustSl.isNone && g.adjustTp.isNone then
    simulateFromSignals A inp g.arrays rows cols lens initCash maxOrders maxLogs
  else
    simulateFromSignalFunc A inp
      { signal := g.signalOr, adjustSl := g.adjustSl.getD noAdjustSl, adjustTp := g.adjustTp.getD noAdjustTp }
      rows cols lens initCash maxOrders maxLogs

/-- `from_holding`, base.py:3177-3188; the remaining arguments are those of `from_signals`, of which `entries` and `exits`
cannot be given again (a `TypeError` of Python). -/
def fromHolding (A : Arith) (inp : SigInputs) (g : SigArgs) (rows cols : Nat) (lens : List Nat) (initCash : List F)
    (maxOrders : Option Nat) (maxLogs : Nat) : Except Err SigState :=
  fromSignals A inp { g with entries := some fun _ _ => true, exits := some fun _ _ => false } rows cols lens initCash
    maxOrders maxLogs

/-- A stop as given: a Python float, or anything else (an array, an integer, a NumPy integer). -/
inductive StopArg where
  | float (x : F)
  | other
deriving DecidableEq, Repr

/-- `isinstance(stop, float) and np.isnan(stop)`, base.py:2817-2820. -/
def StopArg.absent : StopArg → Bool
  | .float x => x.isnan
  | .other => false

/-- `use_stops`, base.py:2811-2828; the setting is `None` (_settings.py:408). -/
def resolveUseStops (given setting : Option Bool) (sl tp : StopArg) (g : SigArgs) : Bool :=
  match given, setting with
  | some b, _ => b
  | none, some b => b
  | none, none => !(sl.absent && tp.absent && g.adjustSl.isNone && g.adjustTp.isNone)

/-- Initial cash as given: a name of a mode (already mapped), a Python integer (booleans are integers), a float, an array. -/
inductive InitCashArg where
  | int (n : Int)
  | float (x : F)
  | array (l : List F)
deriving DecidableEq, Repr

/-- `InitCashMode`, portfolio/enums.py:68-70. -/
def initCashModes : List Int := [0, 1]

/-- `init_cash`, base.py:2830-2838, 2937: the mode if there is one, and the cash the simulation starts with, broadcast to
`n` columns or groups. -/
def resolveInitCash (n : Nat) : InitCashArg → Except Err (Option Int × List F)
  | .int k => if k ∈ initCashModes then .ok (some k, List.replicate n pinf) else .ok (none, List.replicate n (fin k))
  | .float x => .ok (none, List.replicate n x)
  | .array l =>
    if l.length = n then .ok (none, l)
    else if l.length = 1 then .ok (none, List.replicate n (l.getD 0 nan))
    else .error (.valueError "could not broadcast input array from shape into shape")

/-- `call_seq` given as an integer, base.py:2843-2850: the type of call sequence to build, and `auto_call_seq`. -/
def resolveCallSeq (k : Int) : Int × Bool := if k = 3 then (0, true) else (k, false)

/-- `group_by`, base.py:2839-2842, and the check of `group_select`, base.py:2876-2877; `none` is `None`. -/
def resolveGroupBy {α : Type} (whole : α) (cashSharing groupSelect : Bool) (groupBy : Option α) : Except Err (Option α) :=
  if !groupSelect && cashSharing then .error (.valueError "group_select cannot be disabled if cash_sharing=True")
  else .ok (if cashSharing && groupBy.isNone then some whole else groupBy)

/-- `max_logs`, base.py:2946-2949. -/
def resolveMaxLogs (given : Option Nat) (rows cols : Nat) (anyLog : Bool) : Nat :=
  if anyLog then given.getD (rows * cols) else 1

/-- The settings of _settings.py:384-427 as arguments, given the price. -/
def defaultSettings (close : Nat → Nat → F) : SigInputs where
  size := fun _ _ => pinf
  price := fun _ _ => pinf
  sizeType := fun _ _ => SizeType.Amount
  fees := fun _ _ => zero
  fixedFees := fun _ _ => zero
  slippage := fun _ _ => zero
  minSize := fun _ _ => fin (1 / 100000000)
  maxSize := fun _ _ => pinf
  gran := fun _ _ => nan
  rejectProb := fun _ _ => zero
  lockCash := fun _ _ => false
  allowPartial := fun _ _ => true
  raiseReject := fun _ _ => false
  log := fun _ _ => false
  accumulate := fun _ _ => AccumulationMode.Disabled
  uponLongConflict := fun _ _ => ConflictMode.Ignore
  uponShortConflict := fun _ _ => ConflictMode.Ignore
  uponDirConflict := fun _ _ => DirectionConflictMode.Ignore
  uponOppositeEntry := fun _ _ => OppositeEntryMode.ReverseReduce
  valPrice := fun _ _ => pinf
  open_ := fun _ _ => nan
  high := fun _ _ => nan
  low := fun _ _ => nan
  close := close
  slStop := fun _ _ => nan
  slTrail := fun _ _ => false
  tpStop := fun _ _ => nan
  stopEntryPrice := fun _ _ => StopEntryPrice.Close
  stopExitPrice := fun _ _ => StopExitPrice.StopLimit
  uponStopExit := fun _ _ => StopExitMode.Close
  uponStopUpdate := fun _ _ => StopUpdateMode.Override
  useStops := resolveUseStops none none (.float nan) (.float nan) {}
  autoCallSeq := (resolveCallSeq 0).2
  ffillValPrice := true
  updateValue := false
  callSeq := fun _ _ => 0
  draw := fun _ _ => zero

end Vbt
