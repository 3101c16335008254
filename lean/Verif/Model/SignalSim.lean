import Verif.Model.Sim
import Verif.Model.SignalRules

/-!
# Simulation from signals: `vectorbt/portfolio/nb.py:1916-2414` (arrays) and `2418-2973` (signal function)

The two simulators differ in where signals come from and in the hooks that adjust stops; everything else is the same
text, modelled once and cited for both.  Simplifications as in `Verif/Model/Sim`, and:
* the arrays `price_arr`, `size_arr`, `size_type_arr`, `slippage_arr`, `direction_arr` are filled for all columns of the
  group in every row before they are read, so they are not part of the state;
* without `use_stops` the arrays of stops are empty and never touched; here they are never touched;
* callbacks are functions of their context.
-/

namespace Vbt
open F

/-- The arguments common to `simulate_from_signals_nb` (portfolio/nb.py:1916-1967) and `simulate_from_signal_func_nb`
(portfolio/nb.py:2418-2468). -/
structure SigInputs where
  size : Nat → Nat → F
  price : Nat → Nat → F
  sizeType : Nat → Nat → Int
  fees : Nat → Nat → F
  fixedFees : Nat → Nat → F
  slippage : Nat → Nat → F
  minSize : Nat → Nat → F
  maxSize : Nat → Nat → F
  gran : Nat → Nat → F
  rejectProb : Nat → Nat → F
  lockCash : Nat → Nat → Bool
  allowPartial : Nat → Nat → Bool
  raiseReject : Nat → Nat → Bool
  log : Nat → Nat → Bool
  accumulate : Nat → Nat → Int
  uponLongConflict : Nat → Nat → Int
  uponShortConflict : Nat → Nat → Int
  uponDirConflict : Nat → Nat → Int
  uponOppositeEntry : Nat → Nat → Int
  valPrice : Nat → Nat → F
  open_ : Nat → Nat → F
  high : Nat → Nat → F
  low : Nat → Nat → F
  close : Nat → Nat → F
  slStop : Nat → Nat → F
  slTrail : Nat → Nat → Bool
  tpStop : Nat → Nat → F
  stopEntryPrice : Nat → Nat → Int
  stopExitPrice : Nat → Nat → Int
  uponStopExit : Nat → Nat → Int
  uponStopUpdate : Nat → Nat → Int
  useStops : Bool
  autoCallSeq : Bool
  ffillValPrice : Bool
  updateValue : Bool
  callSeq : Nat → Nat → Nat
  draw : Nat → Nat → F

/-- The signal arrays of `simulate_from_signals_nb`. -/
structure SigArrays where
  entries : Nat → Nat → Bool
  exits : Nat → Nat → Bool
  direction : Nat → Nat → Int
  longEntries : Nat → Nat → Bool
  longExits : Nat → Nat → Bool
  shortEntries : Nat → Nat → Bool
  shortExits : Nat → Nat → Bool

/-- The stops of a column, portfolio/nb.py:2009-2017. -/
structure Stops where
  slInitI : Int
  slInitPrice : F
  slCurrI : Int
  slCurrPrice : F
  slCurrStop : F
  slCurrTrail : Bool
  tpInitI : Int
  tpInitPrice : F
  tpCurrStop : F
deriving DecidableEq, Repr

/-- No stops, portfolio/nb.py:2009-2017, 2363-2369. -/
def Stops.none : Stops :=
  { slInitI := -1, slInitPrice := nan, slCurrI := -1, slCurrPrice := nan, slCurrStop := nan, slCurrTrail := false,
    tpInitI := -1, tpInitPrice := nan, tpCurrStop := nan }

/-- What is decided for a column in a row: an element of `price_arr`, `slippage_arr`, `size_arr`, `size_type_arr`,
`direction_arr`. -/
structure CellOrder where
  price : F
  slippage : F
  size : F
  sizeType : Int
  direction : Int
deriving DecidableEq, Repr

/-- enums.py `SignalContext`. -/
structure SignalContext where
  i : Nat
  col : Nat
  positionNow : F
  valPriceNow : F

/-- enums.py `AdjustSLContext`. -/
structure AdjustSLContext where
  i : Nat
  col : Nat
  positionNow : F
  valPriceNow : F
  initI : Int
  initPrice : F
  currI : Int
  currPrice : F
  currStop : F
  currTrail : Bool

/-- enums.py `AdjustTPContext`. -/
structure AdjustTPContext where
  i : Nat
  col : Nat
  positionNow : F
  valPriceNow : F
  initI : Int
  initPrice : F
  currStop : F

/-- The callbacks of `simulate_from_signal_func_nb`. -/
structure SigFuncs where
  signal : SignalContext → Signals
  adjustSl : AdjustSLContext → F × Bool
  adjustTp : AdjustTPContext → F

/-- `no_adjust_sl_func_nb`, portfolio/nb.py:1899-1901. -/
def noAdjustSl (c : AdjustSLContext) : F × Bool := (c.currStop, c.currTrail)

/-- `no_adjust_tp_func_nb`, portfolio/nb.py:1905-1907. -/
def noAdjustTp (c : AdjustTPContext) : F := c.currStop

/-- `no_signal_func_nb`, portfolio/nb.py:1893-1895. -/
def noSignal (_ : SignalContext) : Signals := ⟨false, false, false, false⟩

/-- `dir_enex_signal_func_nb`, portfolio/nb.py:2943-2957. -/
def dirEnexSignal (entries exits : Nat → Nat → Bool) (direction : Nat → Nat → Int) (c : SignalContext) : Signals :=
  let e := entries c.i c.col
  let x := exits c.i c.col
  if direction c.i c.col = Direction.LongOnly then ⟨e, x, false, false⟩
  else if direction c.i c.col = Direction.ShortOnly then ⟨false, false, e, x⟩
  else ⟨e, false, x, false⟩

/-- `ls_enex_signal_func_nb`, portfolio/nb.py:2961-2973. -/
def lsEnexSignal (longEntries longExits shortEntries shortExits : Nat → Nat → Bool) (c : SignalContext) : Signals :=
  ⟨longEntries c.i c.col, longExits c.i c.col, shortEntries c.i c.col, shortExits c.i c.col⟩

/-- Signals read from the arrays, portfolio/nb.py:2151-2181. -/
def arraySignals (a : SigArrays) (i col : Nat) : Signals :=
  let e := a.entries i col
  let x := a.exits i col
  let le := a.longEntries i col
  let lx := a.longExits i col
  let se := a.shortEntries i col
  let sx := a.shortExits i col
  if e || x then
    if a.direction i col = Direction.LongOnly then ⟨e || le, x || lx, se, sx⟩
    else if a.direction i col = Direction.ShortOnly then ⟨le, lx, e || se, x || sx⟩
    else ⟨e || le, lx, x || se, sx⟩
  else ⟨le, lx, se, sx⟩

/-- Order price, portfolio/nb.py:2048-2060 (and 2567-2579). -/
def sigPrice (inp : SigInputs) (i col : Nat) : F :=
  let p := inp.price i col
  if p.isinf then
    if gt p zero then inp.close i col
    else if !(inp.open_ i col).isnan then inp.open_ i col
    else if i > 0 then inp.close (i - 1) col
    else nan
  else p

/-- Valuation price, portfolio/nb.py:2062-2070 (and 2581-2589). -/
def sigValPrice (inp : SigInputs) (i col : Nat) : F :=
  let p := inp.valPrice i col
  if p.isinf then
    if gt p zero then sigPrice inp i col
    else if i > 0 then inp.close (i - 1) col
    else nan
  else p

/-- The first loop over the columns of the group, portfolio/nb.py:2045-2073 (and 2564-2592). -/
def sigRowValPrice (inp : SigInputs) (i fromCol len : Nat) (vp : Nat → F) : Nat → F := fun c =>
  if fromCol ≤ c ∧ c < fromCol + len then
    let v := sigValPrice inp i c
    if !v.isnan || !inp.ffillValPrice then v else vp c
  else vp c

/-- A bar. -/
structure Bar where
  open_ : F
  low : F
  high : F

/-- The current bar, portfolio/nb.py:2085-2095 (and 2629-2639). -/
def currentBar (inp : SigInputs) (i col : Nat) : Bar :=
  let c := inp.close i col
  let o := if (inp.open_ i col).isnan then c else inp.open_ i col
  { open_ := o,
    low := if (inp.low i col).isnan then pmin o c else inp.low i col,
    high := if (inp.high i col).isnan then pmax o c else inp.high i col }

/-- Stop price: stop loss first, then take profit, portfolio/nb.py:2097-2117 (and 2641-2661). -/
def stopPriceOf (A : Arith) (position : F) (st : Stops) (b : Bar) : Except Err F :=
  let sl : Except Err F :=
    if !st.slCurrStop.isnan then getStopPrice A position st.slCurrPrice st.slCurrStop b.open_ b.low b.high true
    else .ok nan
  match sl with
  | .error e => .error e
  | .ok p =>
    if p.isnan && !st.tpCurrStop.isnan then
      getStopPrice A position st.tpInitPrice st.tpCurrStop b.open_ b.low b.high false
    else .ok p

/-- The update of a trailing stop, portfolio/nb.py:2119-2128 (and 2663-2672). -/
def trailStop (i : Nat) (position : F) (b : Bar) (st : Stops) : Stops :=
  if !st.slCurrStop.isnan && st.slCurrTrail then
    if gt position zero then
      if gt b.high st.slCurrPrice then { st with slCurrI := i, slCurrPrice := b.high } else st
    else if lt position zero then
      if lt b.low st.slCurrPrice then { st with slCurrI := i, slCurrPrice := b.low } else st
    else st
  else st

/-- The checks of the stops of a column, portfolio/nb.py:2082-2128 (and 2601, 2628-2672): stop price (NaN if not hit)
and the stops afterwards. -/
def checkStops (A : Arith) (inp : SigInputs) (i col : Nat) (position : F) (st : Stops) : Except Err (F × Stops) :=
  if inp.useStops && (!st.slCurrStop.isnan || !st.tpCurrStop.isnan) then
    let b := currentBar inp i col
    match stopPriceOf A position st b with
    | .error e => .error e
    | .ok p => .ok (p, trailStop i position b st)
  else .ok (nan, st)

/-- The order of a column from its stop price and signals, portfolio/nb.py:2130-2243 (and 2674-2768). -/
def cellOrder (A : Arith) (inp : SigInputs) (i col : Nat) (position valPrice stopPrice : F) (signals : Signals) :
    Except Err CellOrder :=
  let hit := inp.useStops && !stopPrice.isnan
  let sa := if hit then generateStopSignal position (inp.uponStopExit i col) (inp.accumulate i col)
    else resolveSignals position signals (inp.uponLongConflict i col) (inp.uponShortConflict i col)
      (inp.uponDirConflict i col) (inp.uponOppositeEntry i col) (inp.accumulate i col)
  let ps := if hit then resolveStopPriceAndSlippage stopPrice (sigPrice inp i col) (inp.close i col)
      (inp.slippage i col) (inp.stopExitPrice i col)
    else (sigPrice inp i col, inp.slippage i col)
  match signalsToSize A position sa.1 (inp.size i col) (inp.sizeType i col) sa.2 valPrice with
  | .error e => .error e
  | .ok (size, sizeType, direction) =>
    .ok { price := ps.1, slippage := ps.2, size := size, sizeType := sizeType, direction := direction }

/-- The order of a column in the array simulator, portfolio/nb.py:2079-2243. -/
def arrayCell (A : Arith) (inp : SigInputs) (a : SigArrays) (i col : Nat) (position valPrice : F) (st : Stops) :
    Except Err (Stops × CellOrder) :=
  match checkStops A inp i col position st with
  | .error e => .error e
  | .ok (p, st') =>
    match cellOrder A inp i col position valPrice p (arraySignals a i col) with
    | .error e => .error e
    | .ok c => .ok (st', c)

/-- The hooks adjusting stops, portfolio/nb.py:2602-2626. -/
def adjustStops (inp : SigInputs) (f : SigFuncs) (i col : Nat) (position valPrice : F) (st : Stops) : Stops :=
  if inp.useStops then
    let sl := f.adjustSl ⟨i, col, position, valPrice, st.slInitI, st.slInitPrice, st.slCurrI, st.slCurrPrice,
      st.slCurrStop, st.slCurrTrail⟩
    let tp := f.adjustTp ⟨i, col, position, valPrice, st.tpInitI, st.tpInitPrice, st.tpCurrStop⟩
    { st with slCurrStop := sl.1, slCurrTrail := sl.2, tpCurrStop := tp }
  else st

/-- The order of a column in the signal function simulator, portfolio/nb.py:2598-2768. -/
def funcCell (A : Arith) (inp : SigInputs) (f : SigFuncs) (i col : Nat) (position valPrice : F) (st : Stops) :
    Except Err (Stops × CellOrder) :=
  match checkStops A inp i col position (adjustStops inp f i col position valPrice st) with
  | .error e => .error e
  | .ok (p, st') =>
    match cellOrder A inp i col position valPrice p
        (f.signal { i := i, col := col, positionNow := position, valPriceNow := valPrice }) with
    | .error e => .error e
    | .ok c => .ok (st', c)

/-- Approximate order value, portfolio/nb.py:2245-2263 (and 2770-2788). -/
def sigOrderValue (A : Arith) (c : CellOrder) (cash free position valPrice : F) : F :=
  if eqb c.size zero then zero
  else if c.sizeType = SizeType.Amount then mul A c.size valPrice
  else if c.sizeType = SizeType.Value then c.size
  else if ge c.size zero then mul A c.size cash
  else
    let asset := mul A position valPrice
    if c.direction = Direction.LongOnly then mul A c.size asset
    else mul A c.size (add A (mul A two (pmax asset zero)) (pmax free zero))

/-- The order given to `process_order_nb`, portfolio/nb.py:2294-2323 (and 2819-2848); sizes are reversed for `ShortOnly`. -/
def sigOrder (inp : SigInputs) (i col : Nat) (c : CellOrder) : Order :=
  { size := if gt c.size zero then (if c.direction = Direction.ShortOnly then neg c.size else c.size)
      else (if c.direction = Direction.ShortOnly then neg c.size else c.size),
    price := c.price, sizeType := c.sizeType, direction := c.direction, fees := inp.fees i col,
    fixedFees := inp.fixedFees i col, slippage := c.slippage, minSize := inp.minSize i col, maxSize := inp.maxSize i col,
    gran := inp.gran i col, rejectProb := inp.rejectProb i col, lockCash := inp.lockCash i col,
    allowPartial := inp.allowPartial i col, raiseReject := inp.raiseReject i col, log := inp.log i col }

/-- The update of stops after an order, portfolio/nb.py:2358-2404 (and 2883-2929). -/
def updateStops (inp : SigInputs) (i col : Nat) (o : Order) (res : OrderResult) (before now valPrice : F) (st : Stops) :
    Stops :=
  if inp.useStops && res.status = OrderStatus.Filled then
    if eqb now zero then Stops.none
    else
      let p :=
        if inp.stopEntryPrice i col = StopEntryPrice.ValPrice then valPrice
        else if inp.stopEntryPrice i col = StopEntryPrice.Price then o.price
        else if inp.stopEntryPrice i col = StopEntryPrice.FillPrice then res.price
        else inp.close i col
      if eqb before zero || !eqb now.sign before.sign then
        { slInitI := i, slInitPrice := p, slCurrI := i, slCurrPrice := p, slCurrStop := inp.slStop i col,
          slCurrTrail := inp.slTrail i col, tpInitI := i, tpInitPrice := p, tpCurrStop := inp.tpStop i col }
      else if gt now.abs before.abs then
        let st := if shouldUpdateStop (inp.slStop i col) (inp.uponStopUpdate i col) then
            { st with
              slInitI := i, slInitPrice := p, slCurrI := i, slCurrPrice := p, slCurrStop := inp.slStop i col,
              slCurrTrail := inp.slTrail i col }
          else st
        if shouldUpdateStop (inp.tpStop i col) (inp.uponStopUpdate i col) then
          { st with tpInitI := i, tpInitPrice := p, tpCurrStop := inp.tpStop i col }
        else st
      else st
  else st

/-- The local variables of the signal simulators. -/
structure SigState where
  sim : SimState
  stops : Nat → Stops

/-- Body of the last loop over the columns of the group, portfolio/nb.py:2277-2410 (and 2802-2935); `slot` is the pair
(k, call_seq[i, from_col + k]). -/
def sigSlot (A : Arith) (inp : SigInputs) (sharing : Bool) (group i fromCol len : Nat) (cells : Nat → CellOrder)
    (s : SigState) (slot : Nat × Nat) : Except Err SigState :=
  if sharing && slot.2 ≥ len then .error (.valueError "Call index exceeds bounds of the group")
  else
    let col := if sharing then fromCol + slot.2 else fromCol + slot.1
    let value :=
      if sharing then s.sim.value
      else if !eqb (s.sim.position col) zero then
        add A s.sim.cash (mul A (s.sim.position col) (s.sim.valPrice col))
      else s.sim.cash
    let c := cells col
    if !eqb c.size zero then
      let o := sigOrder inp i col c
      match processOrder A i col group
          { cash := s.sim.cash, position := s.sim.position col, debt := s.sim.debt col, freeCash := s.sim.free,
            valPrice := s.sim.valPrice col, value := value, oidx := s.sim.oidx, lidx := s.sim.lidx }
          inp.updateValue o (inp.draw i (fromCol + slot.1)) s.sim.buf with
      | .error e => .error e
      | .ok (res, st, b) =>
        .ok { sim := { cash := st.cash, free := st.freeCash, value := st.value,
                       position := setAt s.sim.position col st.position,
                       debt := setAt s.sim.debt col st.debt,
                       valPrice := if !st.valPrice.isnan || !inp.ffillValPrice then setAt s.sim.valPrice col st.valPrice
                         else s.sim.valPrice,
                       oidx := st.oidx, lidx := st.lidx, buf := b },
              stops := setAt s.stops col
                (updateStops inp i col o res (s.sim.position col) st.position st.valPrice (s.stops col)) }
    else .ok { s with sim := { s.sim with value := value } }

/-- Where the orders of a row come from: `arrayCell` or `funcCell`. -/
abbrev CellFn := Nat → Nat → F → F → Stops → Except Err (Stops × CellOrder)

/-- The second loop over the columns of the group, portfolio/nb.py:2075-2243 (and 2594-2768). -/
def sigCells (cell : CellFn) (i fromCol len : Nat) (s : SimState) (stops : Nat → Stops) :
    Except Err ((Nat → Stops) × (Nat → CellOrder)) :=
  loopE (fun x k =>
    let col := fromCol + k
    match cell i col (s.position col) (s.valPrice col) (x.1 col) with
    | .error e => .error e
    | .ok (st, c) => .ok (setAt x.1 col st, setAt x.2 col c))
    (stops, fun _ => { price := nan, slippage := nan, size := zero, sizeType := 0, direction := 0 }) (List.range len)

/-- The call sequence of a row and group, portfolio/nb.py:2245-2268 (and 2770-2793). -/
def sigCallSeq (A : Arith) (inp : SigInputs) (sharing : Bool) (i fromCol len : Nat) (s : SimState)
    (cells : Nat → CellOrder) : List Nat :=
  let seq := (List.range len).map fun k => inp.callSeq i (fromCol + k)
  if sharing && inp.autoCallSeq then
    sortCallSeq ((List.range len).map fun k =>
      sigOrderValue A (cells (fromCol + k)) s.cash s.free (s.position (fromCol + k)) (s.valPrice (fromCol + k))) seq
  else seq

/-- One row of one group, portfolio/nb.py:2044-2410 (and 2563-2935). -/
def sigRow (A : Arith) (inp : SigInputs) (cell : CellFn) (sharing : Bool) (group fromCol len : Nat) (s : SigState)
    (i : Nat) : Except Err SigState :=
  let vp := sigRowValPrice inp i fromCol len s.sim.valPrice
  let s1 : SimState := { s.sim with valPrice := vp }
  match sigCells cell i fromCol len s1 s.stops with
  | .error e => .error e
  | .ok (stops, cells) =>
    let seq := sigCallSeq A inp sharing i fromCol len s1 cells
    let s2 : SimState := { s1 with
      value := if sharing then groupValue A s1.cash s1.position vp fromCol len else s1.value }
    loopE (sigSlot A inp sharing group i fromCol len cells) { sim := s2, stops := stops } ((List.range len).zip seq)

/-- One group, portfolio/nb.py:2038-2412 (and 2557-2937). -/
def sigGroup (A : Arith) (inp : SigInputs) (cell : CellFn) (sharing : Bool) (initCash : Nat → F) (rows : Nat)
    (s : SigState) (grp : Nat × Nat × Nat) : Except Err SigState :=
  loopE (sigRow A inp cell sharing grp.1 grp.2.1 grp.2.2)
    { s with sim := { s.sim with cash := initCash grp.1, free := initCash grp.1 } } (List.range rows)

/-- The simulation with a given source of orders, portfolio/nb.py:1999-2414 (and 2518-2939). -/
def simulateSig (A : Arith) (inp : SigInputs) (cell : CellFn) (rows cols : Nat) (lens : List Nat) (initCash : List F)
    (maxOrders : Option Nat) (maxLogs : Nat) : Except Err SigState :=
  if lens.sum ≠ cols then .error (.valueError "group_lens has incorrect total number of columns")
  else
    let sharing := isGrouped lens
    if sharing = true ∧ initCash.length ≠ lens.length then
      .error (.valueError "If cash sharing is enabled, init_cash must match the number of groups")
    else if sharing = false ∧ initCash.length ≠ cols then
      .error (.valueError "If cash sharing is disabled, init_cash must match the number of columns")
    else
      loopE (sigGroup A inp cell sharing (fun g => initCash.getD g nan) rows)
        { sim := initState (initRecords rows cols maxOrders maxLogs), stops := fun _ => Stops.none } (layout lens)

/-- `simulate_from_signals_nb`, portfolio/nb.py:1916-2414. -/
def simulateFromSignals (A : Arith) (inp : SigInputs) (a : SigArrays) (rows cols : Nat) (lens : List Nat)
    (initCash : List F) (maxOrders : Option Nat) (maxLogs : Nat) : Except Err SigState :=
  simulateSig A inp (arrayCell A inp a) rows cols lens initCash maxOrders maxLogs

/-- `simulate_from_signal_func_nb`, portfolio/nb.py:2418-2939. -/
def simulateFromSignalFunc (A : Arith) (inp : SigInputs) (f : SigFuncs) (rows cols : Nat) (lens : List Nat)
    (initCash : List F) (maxOrders : Option Nat) (maxLogs : Nat) : Except Err SigState :=
  simulateSig A inp (funcCell A inp f) rows cols lens initCash maxOrders maxLogs

end Vbt
