import Verif.Model.RustSim
import Verif.Model.SignalSim

/-!
# Simulation from signals in the Rust engine: `rust/src/portfolio.rs:2310-2333, 2391-2666, 3198-3528, 3789-4664`

Conventions of `Model/RustSim` and `Model/SignalSim`.  `PortfolioSimError::RejectedOrder` raised outside of the execution of an
order becomes `Err.rejected` (portfolio.rs:551-571).  The arrays filled for all columns of a group before they are read
(`price_arr`, `size_arr`, …) are not part of the state.
-/

namespace Vbt.Rs
open F

/-! ## Rules for signals -/

/-- `generate_stop_signal`, portfolio.rs:3198-3230. -/
def generateStopSignal (position : F) (uponStopExit accumulate : Int) : Signals × Int :=
  if gt position zero then
    if uponStopExit = StopExitMode.Close then (⟨false, true, false, false⟩, AccumulationMode.Disabled)
    else if uponStopExit = StopExitMode.CloseReduce then (⟨false, true, false, false⟩, accumulate)
    else if uponStopExit = StopExitMode.Reverse then (⟨false, false, true, false⟩, AccumulationMode.Disabled)
    else (⟨false, false, true, false⟩, accumulate)
  else if lt position zero then
    if uponStopExit = StopExitMode.Close then (⟨false, false, false, true⟩, AccumulationMode.Disabled)
    else if uponStopExit = StopExitMode.CloseReduce then (⟨false, false, false, true⟩, accumulate)
    else if uponStopExit = StopExitMode.Reverse then (⟨true, false, false, false⟩, AccumulationMode.Disabled)
    else (⟨true, false, false, false⟩, accumulate)
  else (⟨false, false, false, false⟩, accumulate)

/-- `resolve_stop_price_and_slippage`, portfolio.rs:3233-3249. -/
def resolveStopPriceAndSlippage (stopPrice price close slippage : F) (stopExitPrice : Int) : F × F :=
  if stopExitPrice = StopExitPrice.StopMarket then (stopPrice, slippage)
  else if stopExitPrice = StopExitPrice.StopLimit then (stopPrice, zero)
  else if stopExitPrice = StopExitPrice.Close then (close, slippage)
  else (price, slippage)

/-- `resolve_signal_conflict`, portfolio.rs:3252-3296. -/
def resolveSignalConflict (position : F) (isEntry isExit : Bool) (direction mode : Int) : Bool × Bool :=
  if isEntry && isExit then
    if mode = ConflictMode.Entry then (isEntry, false)
    else if mode = ConflictMode.Exit then (false, isExit)
    else if mode = ConflictMode.Adjacent then
      if eqb position zero then (false, false)
      else if direction = Direction.Both then
        if gt position zero then (isEntry, false)
        else if lt position zero then (false, isExit)
        else (isEntry, isExit)
      else (isEntry, false)
    else if mode = ConflictMode.Opposite then
      if eqb position zero then (false, false)
      else if direction = Direction.Both then
        if gt position zero then (false, isExit)
        else if lt position zero then (isEntry, false)
        else (isEntry, isExit)
      else (false, isExit)
    else (false, false)
  else (isEntry, isExit)

/-- `resolve_dir_conflict`, portfolio.rs:3299-3335. -/
def resolveDirConflict (position : F) (longEntry shortEntry : Bool) (mode : Int) : Bool × Bool :=
  if longEntry && shortEntry then
    if mode = DirectionConflictMode.Long then (longEntry, false)
    else if mode = DirectionConflictMode.Short then (false, shortEntry)
    else if mode = DirectionConflictMode.Adjacent then
      if gt position zero then (longEntry, false)
      else if lt position zero then (false, shortEntry)
      else (false, false)
    else if mode = DirectionConflictMode.Opposite then
      if gt position zero then (false, shortEntry)
      else if lt position zero then (longEntry, false)
      else (false, false)
    else (false, false)
  else (longEntry, shortEntry)

/-- `resolve_opposite_entry`, portfolio.rs:3338-3374; the two halves run one after the other. -/
def resolveOppositeEntry (position : F) (s : Signals) (mode accumulate : Int) : Signals × Int :=
  let x : Signals × Int :=
    if gt position zero && s.shortEntry then
      if mode = OppositeEntryMode.Ignore then ({ s with shortEntry := false }, accumulate)
      else if mode = OppositeEntryMode.Close then
        ({ s with shortEntry := false, longExit := true }, AccumulationMode.Disabled)
      else if mode = OppositeEntryMode.CloseReduce then ({ s with shortEntry := false, longExit := true }, accumulate)
      else if mode = OppositeEntryMode.Reverse then (s, AccumulationMode.Disabled)
      else (s, accumulate)
    else (s, accumulate)
  if lt position zero && x.1.longEntry then
    if mode = OppositeEntryMode.Ignore then ({ x.1 with longEntry := false }, x.2)
    else if mode = OppositeEntryMode.Close then
      ({ x.1 with longEntry := false, shortExit := true }, AccumulationMode.Disabled)
    else if mode = OppositeEntryMode.CloseReduce then ({ x.1 with longEntry := false, shortExit := true }, x.2)
    else if mode = OppositeEntryMode.Reverse then (x.1, AccumulationMode.Disabled)
    else x
  else x

/-- `signals_to_size`, portfolio.rs:3377-3481: size, size type and direction. -/
def signalsToSize (A : Arith) (position : F) (s : Signals) (size : F) (sizeType accumulate : Int) (valPrice : F) :
    Except Err (F × Int × Int) :=
  if sizeType ≠ SizeType.Amount ∧ sizeType ≠ SizeType.Value ∧ sizeType ≠ SizeType.Percent then
    .error (.rejected "Only SizeType.Amount, SizeType.Value, and SizeType.Percent are supported")
  else if isLess A size zero then
    .error (.rejected "Negative size is not allowed. You must express direction using signals.")
  else if gt position zero then
    if s.shortEntry then
      if accumulate = AccumulationMode.Both ∨ accumulate = AccumulationMode.RemoveOnly then
        .ok (neg size, sizeType, Direction.Both)
      else if !size.isnan then
        if sizeType = SizeType.Percent then
          .error (.rejected "SizeType.Percent does not support position reversal using signals")
        else if sizeType = SizeType.Value then
          .ok (sub A (neg position.abs) (div A size valPrice), SizeType.Amount, Direction.Both)
        else .ok (sub A (neg position.abs) size, SizeType.Amount, Direction.Both)
      else .ok (neg position.abs, SizeType.Amount, Direction.Both)
    else if s.longExit then
      if accumulate = AccumulationMode.Both ∨ accumulate = AccumulationMode.RemoveOnly then
        .ok (neg size, sizeType, Direction.LongOnly)
      else .ok (neg position.abs, SizeType.Amount, Direction.LongOnly)
    else if s.longEntry then
      if accumulate = AccumulationMode.Both ∨ accumulate = AccumulationMode.AddOnly then
        .ok (size, sizeType, Direction.LongOnly)
      else .ok (zero, sizeType, Direction.LongOnly)
    else .ok (zero, sizeType, Direction.Both)
  else if lt position zero then
    if s.longEntry then
      if accumulate = AccumulationMode.Both ∨ accumulate = AccumulationMode.RemoveOnly then
        .ok (size, sizeType, Direction.Both)
      else if !size.isnan then
        if sizeType = SizeType.Percent then
          .error (.rejected "SizeType.Percent does not support position reversal using signals")
        else if sizeType = SizeType.Value then
          .ok (F.add A position.abs (div A size valPrice), SizeType.Amount, Direction.Both)
        else .ok (F.add A position.abs size, SizeType.Amount, Direction.Both)
      else .ok (position.abs, SizeType.Amount, Direction.Both)
    else if s.shortExit then
      if accumulate = AccumulationMode.Both ∨ accumulate = AccumulationMode.RemoveOnly then
        .ok (size, sizeType, Direction.ShortOnly)
      else .ok (position.abs, SizeType.Amount, Direction.ShortOnly)
    else if s.shortEntry then
      if accumulate = AccumulationMode.Both ∨ accumulate = AccumulationMode.AddOnly then
        .ok (neg size, sizeType, Direction.ShortOnly)
      else .ok (zero, sizeType, Direction.ShortOnly)
    else .ok (zero, sizeType, Direction.Both)
  else if s.longEntry then .ok (size, sizeType, Direction.Both)
  else if s.shortEntry then .ok (neg size, sizeType, Direction.Both)
  else .ok (zero, sizeType, Direction.Both)

/-- `get_stop_price_rs`, portfolio.rs:3484-3518. -/
def getStopPrice (A : Arith) (position stopPrice stop open_ low high : F) (hitBelow : Bool) : Except Err F :=
  if lt stop zero then .error (.rejected "Stop value must be 0 or greater")
  else if (gt position zero && hitBelow) || (lt position zero && !hitBelow) then
    let sp := mul A stopPrice (sub A one stop)
    if le open_ sp then .ok open_
    else if le low sp && le sp high then .ok sp
    else .ok nan
  else if (lt position zero && hitBelow) || (gt position zero && !hitBelow) then
    let sp := mul A stopPrice (F.add A one stop)
    if le sp open_ then .ok open_
    else if le low sp && le sp high then .ok sp
    else .ok nan
  else .ok nan

/-- `should_update_stop`, portfolio.rs:3521-3528. -/
def shouldUpdateStop (stop : F) (mode : Int) : Bool :=
  if mode = StopUpdateMode.Override ∨ mode = StopUpdateMode.OverrideNaN then
    if !stop.isnan ∨ mode = StopUpdateMode.OverrideNaN then true else false
  else false

/-- `read_signals`, portfolio.rs:2311-2333. -/
def readSignals (entry exit : Bool) (dir : Int) (longEntry longExit shortEntry shortExit : Bool) : Signals :=
  if entry || exit then
    if dir = Direction.LongOnly then ⟨entry || longEntry, exit || longExit, shortEntry, shortExit⟩
    else if dir = Direction.ShortOnly then ⟨longEntry, longExit, entry || shortEntry, exit || shortExit⟩
    else ⟨entry || longEntry, longExit, exit || shortEntry, shortExit⟩
  else ⟨longEntry, longExit, shortEntry, shortExit⟩

/-- What `process_signals_at` returns, and the two variables it changes. -/
structure SignalsAt where
  signals : Signals
  accumulate : Int
  price : F
  slippage : F
  slCurrI : Int
  slCurrPrice : F

/-- The stop price and the trailing stop within `process_signals_at`, portfolio.rs:3831-3865. -/
def stopsAt (A : Arith) (inp : SigInputs) (i col : Nat) (position slCurrStop slCurrPrice : F) (slCurrTrail : Bool)
    (slCurrI : Int) (tpCurrStop tpInitPrice : F) : Except Err (F × Int × F) :=
  if inp.useStops then
    if !slCurrStop.isnan || !tpCurrStop.isnan then
      let close := inp.close i col
      let o := if (inp.open_ i col).isnan then close else inp.open_ i col
      let l := if (inp.low i col).isnan then fmin o close else inp.low i col
      let h := if (inp.high i col).isnan then fmax o close else inp.high i col
      let sl := if !slCurrStop.isnan then getStopPrice A position slCurrPrice slCurrStop o l h true else .ok nan
      match sl with
      | .error e => .error e
      | .ok p =>
        let tp := if p.isnan && !tpCurrStop.isnan then getStopPrice A position tpInitPrice tpCurrStop o l h false else .ok p
        match tp with
        | .error e => .error e
        | .ok p =>
          .ok (p,
            if !slCurrStop.isnan && slCurrTrail then
              if gt position zero then
                if gt h slCurrPrice then ((i : Int), h) else (slCurrI, slCurrPrice)
              else if lt position zero then
                if lt l slCurrPrice then ((i : Int), l) else (slCurrI, slCurrPrice)
              else (slCurrI, slCurrPrice)
            else (slCurrI, slCurrPrice))
    else .ok (nan, slCurrI, slCurrPrice)
  else .ok (nan, slCurrI, slCurrPrice)

/-- `process_signals_at`, portfolio.rs:3789-3954. -/
def processSignalsAt (A : Arith) (inp : SigInputs) (a : SigArrays) (i col : Nat) (position orderPrice slippage : F)
    (slCurrStop slCurrPrice : F) (slCurrTrail : Bool) (slCurrI : Int) (tpCurrStop tpInitPrice : F) :
    Except Err SignalsAt :=
  match stopsAt A inp i col position slCurrStop slCurrPrice slCurrTrail slCurrI tpCurrStop tpInitPrice with
  | .error e => .error e
  | .ok (stopPrice, slI, slPrice) =>
    if inp.useStops && !stopPrice.isnan then
      let r := generateStopSignal position (inp.uponStopExit i col) (inp.accumulate i col)
      let ps := resolveStopPriceAndSlippage stopPrice orderPrice (inp.close i col) slippage (inp.stopExitPrice i col)
      .ok { signals := r.1, accumulate := r.2, price := ps.1, slippage := ps.2, slCurrI := slI, slCurrPrice := slPrice }
    else
      let s := readSignals (a.entries i col) (a.exits i col) (a.direction i col) (a.longEntries i col) (a.longExits i col)
        (a.shortEntries i col) (a.shortExits i col)
      let r : Signals × Int :=
        if s.longEntry || s.shortEntry then
          let l := resolveSignalConflict position s.longEntry s.longExit Direction.LongOnly (inp.uponLongConflict i col)
          let h := resolveSignalConflict position s.shortEntry s.shortExit Direction.ShortOnly (inp.uponShortConflict i col)
          let e := resolveDirConflict position l.1 h.1 (inp.uponDirConflict i col)
          resolveOppositeEntry position { longEntry := e.1, longExit := l.2, shortEntry := e.2, shortExit := h.2 }
            (inp.uponOppositeEntry i col) (inp.accumulate i col)
        else (s, inp.accumulate i col)
      .ok { signals := r.1, accumulate := r.2, price := orderPrice, slippage := slippage, slCurrI := slI, slCurrPrice := slPrice }

/-! ## Both paths -/

/-- The price of the order of a cell, portfolio.rs:4033-4048, 4354-4368. -/
def sigOrderPrice (inp : SigInputs) (i col : Nat) : F :=
  let p := inp.price i col
  if p.isinf then
    if gt p zero then inp.close i col
    else if !(inp.open_ i col).isnan then inp.open_ i col
    else if i > 0 then inp.close (i - 1) col
    else nan
  else p

/-- The valuation price of a cell, portfolio.rs:4050-4060, 4370-4379. -/
def sigValuationPrice (inp : SigInputs) (i col : Nat) : F :=
  let p := inp.valPrice i col
  if p.isinf then
    if gt p zero then sigOrderPrice inp i col
    else if i > 0 then inp.close (i - 1) col
    else nan
  else p

/-- The order of a cell, portfolio.rs:4124-4149, 4528-4553. -/
def sigCellOrder (A : Arith) (inp : SigInputs) (i col : Nat) (c : CellOrder) : Order :=
  { size := if gt c.size zero then
        if c.direction = Direction.ShortOnly then mul A c.size (fin (-1)) else c.size
      else if c.direction = Direction.ShortOnly then mul A c.size (fin (-1)) else c.size,
    price := c.price, sizeType := c.sizeType, direction := c.direction, fees := inp.fees i col,
    fixedFees := inp.fixedFees i col, slippage := c.slippage, minSize := inp.minSize i col, maxSize := inp.maxSize i col,
    gran := inp.gran i col, rejectProb := inp.rejectProb i col, lockCash := inp.lockCash i col,
    allowPartial := inp.allowPartial i col, raiseReject := inp.raiseReject i col, log := inp.log i col }

/-! ## `simulate_from_signals_non_shared_inner`, portfolio.rs:3956-4247 -/

/-- The stop variables of a column, portfolio.rs:4024-4029. -/
structure ColStops where
  slCurrI : Int
  slCurrPrice : F
  slCurrStop : F
  slCurrTrail : Bool
  tpInitPrice : F
  tpCurrStop : F

/-- No stops, portfolio.rs:4024-4029, 4198-4203. -/
def ColStops.none : ColStops :=
  { slCurrI := -1, slCurrPrice := nan, slCurrStop := nan, slCurrTrail := false, tpInitPrice := nan, tpCurrStop := nan }

/-- The price at which new stops start, portfolio.rs:4206-4214, 4610-4618. -/
def initStopPrice (inp : SigInputs) (i col : Nat) (valPrice orderPrice fillPrice : F) : F :=
  if inp.stopEntryPrice i col = StopEntryPrice.ValPrice then valPrice
  else if inp.stopEntryPrice i col = StopEntryPrice.Price then orderPrice
  else if inp.stopEntryPrice i col = StopEntryPrice.FillPrice then fillPrice
  else inp.close i col

/-- The update of the stop variables after an order, portfolio.rs:4195-4240; zeros are taken as `0.0` by `signum`, which is asked for
nonzero positions only. -/
def colUpdateStops (inp : SigInputs) (i col : Nat) (o : Order) (res : OrderResult) (before now valPrice : F) (st : ColStops) :
    ColStops :=
  if inp.useStops && decide (res.status = OrderStatus.Filled) then
    if eqb now zero then ColStops.none
    else
      let p := initStopPrice inp i col valPrice o.price res.price
      if eqb before zero || !eqb (signum false now) (signum false before) then
        { slCurrI := i, slCurrPrice := p, slCurrStop := inp.slStop i col, slCurrTrail := inp.slTrail i col,
          tpInitPrice := p, tpCurrStop := inp.tpStop i col }
      else if gt now.abs before.abs then
        let st := if shouldUpdateStop (inp.slStop i col) (inp.uponStopUpdate i col) then
            { st with slCurrI := i, slCurrPrice := p, slCurrStop := inp.slStop i col, slCurrTrail := inp.slTrail i col }
          else st
        if shouldUpdateStop (inp.tpStop i col) (inp.uponStopUpdate i col) then
          { st with tpInitPrice := p, tpCurrStop := inp.tpStop i col }
        else st
      else st
  else st

/-- One row of a column, portfolio.rs:4031-4241. -/
def sigColRow (A : Arith) (z : Nat → Nat → Bool) (inp : SigInputs) (a : SigArrays) (col : Nat) (s : ColState × ColStops) (i : Nat) :
    Except Err (ColState × ColStops) :=
  let v := sigValuationPrice inp i col
  let valPrice := if !v.isnan || !inp.ffillValPrice then v else s.1.valPrice
  match processSignalsAt A inp a i col s.1.position (sigOrderPrice inp i col) (inp.slippage i col) s.2.slCurrStop
      s.2.slCurrPrice s.2.slCurrTrail s.2.slCurrI s.2.tpCurrStop s.2.tpInitPrice with
  | .error e => .error e
  | .ok x =>
    let stops : ColStops := { s.2 with slCurrI := x.slCurrI, slCurrPrice := x.slCurrPrice }
    match signalsToSize A s.1.position x.signals (inp.size i col) (inp.sizeType i col) x.accumulate valPrice with
    | .error e => .error e
    | .ok (size, sizeType, direction) =>
      if !eqb size zero then
        let o := sigCellOrder A inp i col
          { price := x.price, slippage := x.slippage, size := size, sizeType := sizeType, direction := direction }
        let value := if !eqb s.1.position zero then F.add A s.1.cash (mul A s.1.position valPrice) else s.1.cash
        match processOrder A (z i col) i col col
            { cash := s.1.cash, position := s.1.position, debt := s.1.debt, freeCash := s.1.free, valPrice := valPrice,
              value := value, oidx := s.1.oidx, lidx := s.1.lidx } inp.updateValue o (inp.draw i col) s.1.buf with
        | .error e => .error e
        | .ok (res, st, b) =>
          .ok ({ cash := st.cash, free := st.freeCash, position := st.position, debt := st.debt,
                 valPrice := if !st.valPrice.isnan || !inp.ffillValPrice then st.valPrice else valPrice,
                 oidx := st.oidx, lidx := st.lidx, buf := b },
            colUpdateStops inp i col o res s.1.position st.position st.valPrice stops)
      else .ok ({ s.1 with valPrice := valPrice }, stops)

/-- One column, portfolio.rs:4016-4242. -/
def sigColRun (A : Arith) (z : Nat → Nat → Bool) (inp : SigInputs) (a : SigArrays) (initCash : Nat → F) (rows : Nat)
    (r : Nat × Nat × Buffers) (col : Nat) : Except Err (Nat × Nat × Buffers) :=
  match loopE (sigColRow A z inp a col)
      ({ cash := initCash col, free := initCash col, position := zero, debt := zero, valPrice := nan,
         oidx := r.1, lidx := r.2.1, buf := r.2.2 }, ColStops.none) (List.range rows) with
  | .error e => .error e
  | .ok s => .ok (s.1.oidx, s.1.lidx, s.1.buf)

/-- `simulate_from_signals_non_shared_inner`, portfolio.rs:3956-4247. -/
def signalsNonShared (A : Arith) (z : Nat → Nat → Bool) (inp : SigInputs) (a : SigArrays) (rows cols : Nat) (initCash : Nat → F)
    (b : Buffers) : Except Err (List OrderRec × List LogRec) :=
  match loopE (sigColRun A z inp a initCash rows) (0, 0, b) (List.range cols) with
  | .error e => .error e
  | .ok r => .ok (r.2.2.orders.take r.1, r.2.2.logs.take r.2.1)

/-! ## `simulate_from_signals_inner`, portfolio.rs:4251-4664 -/

/-- Phase 1, the valuation prices, portfolio.rs:4350-4384. -/
def sigRowPrices (inp : SigInputs) (i fromCol len : Nat) (vp : Nat → F) : Nat → F :=
  (List.range len).foldl (fun vp k =>
    let v := sigValuationPrice inp i (fromCol + k)
    if !v.isnan || !inp.ffillValPrice then setAt vp (fromCol + k) v else vp) vp

/-- Phase 2 for one column, portfolio.rs:4387-4450. -/
def sigCell (A : Arith) (inp : SigInputs) (a : SigArrays) (i col : Nat) (position valPrice : F) (st : Stops) :
    Except Err (Stops × CellOrder) :=
  match processSignalsAt A inp a i col position (sigOrderPrice inp i col) (inp.slippage i col) st.slCurrStop st.slCurrPrice
      st.slCurrTrail st.slCurrI st.tpCurrStop st.tpInitPrice with
  | .error e => .error e
  | .ok x =>
    match signalsToSize A position x.signals (inp.size i col) (inp.sizeType i col) x.accumulate valPrice with
    | .error e => .error e
    | .ok (size, sizeType, direction) =>
      .ok ({ st with slCurrI := x.slCurrI, slCurrPrice := x.slCurrPrice },
        { price := x.price, slippage := x.slippage, size := size, sizeType := sizeType, direction := direction })

/-- Phase 2, portfolio.rs:4386-4476. -/
def sigRowCells (A : Arith) (inp : SigInputs) (a : SigArrays) (i fromCol len : Nat) (s : SimState) (stops : Nat → Stops) :
    Except Err ((Nat → Stops) × (Nat → CellOrder)) :=
  loopE (fun x k =>
    match sigCell A inp a i (fromCol + k) (s.position (fromCol + k)) (s.valPrice (fromCol + k)) (x.1 (fromCol + k)) with
    | .error e => .error e
    | .ok (st, c) => .ok (setAt x.1 (fromCol + k) st, setAt x.2 (fromCol + k) c))
    (stops, fun _ => { price := nan, slippage := nan, size := zero, sizeType := 0, direction := 0 }) (List.range len)

/-- The value of an order, portfolio.rs:4453-4475. -/
def tempOrderValue (A : Arith) (c : CellOrder) (cash free position valPrice : F) : F :=
  if eqb c.size zero then zero
  else if c.sizeType = SizeType.Amount then mul A c.size valPrice
  else if c.sizeType = SizeType.Value then c.size
  else if ge c.size zero then mul A c.size cash
  else
    let asset := mul A position valPrice
    if c.direction = Direction.LongOnly then mul A c.size asset
    else mul A c.size (F.add A (mul A two (fmax asset zero)) (fmax free zero))

/-- The call sequence, portfolio.rs:4478-4489. -/
def sigRowSeq (A : Arith) (inp : SigInputs) (sharing : Bool) (i fromCol len : Nat) (s : SimState) (cells : Nat → CellOrder) :
    List Nat :=
  let seq := (List.range len).map fun k => inp.callSeq i (fromCol + k)
  if sharing && inp.autoCallSeq then
    sortCallSeq ((List.range len).map fun k =>
      tempOrderValue A (cells (fromCol + k)) s.cash s.free (s.position (fromCol + k)) (s.valPrice (fromCol + k))) seq
  else seq

/-- The value before the calls, portfolio.rs:4490-4498. -/
def sigRowValue (A : Arith) (sharing : Bool) (cash : F) (position valPrice : Nat → F) (fromCol len : Nat) : F :=
  if sharing then
    (List.range len).foldl (fun v k =>
      if !eqb (position (fromCol + k)) zero then F.add A v (mul A (position (fromCol + k)) (valPrice (fromCol + k)))
      else v) cash
  else cash

/-- The update of the stop arrays after an order, portfolio.rs:4596-4650. -/
def rowUpdateStops (inp : SigInputs) (i col : Nat) (o : Order) (res : OrderResult) (before now valPrice : F) (st : Stops) : Stops :=
  if inp.useStops && decide (res.status = OrderStatus.Filled) then
    if eqb now zero then
      { slInitI := -1, slInitPrice := nan, slCurrI := -1, slCurrPrice := nan, slCurrStop := nan, slCurrTrail := false,
        tpInitI := -1, tpInitPrice := nan, tpCurrStop := nan }
    else
      let p := initStopPrice inp i col valPrice o.price res.price
      if eqb before zero || !eqb (signum false now) (signum false before) then
        { slInitI := i, slInitPrice := p, slCurrI := i, slCurrPrice := p, slCurrStop := inp.slStop i col,
          slCurrTrail := inp.slTrail i col, tpInitI := i, tpInitPrice := p, tpCurrStop := inp.tpStop i col }
      else if gt now.abs before.abs then
        let st := if shouldUpdateStop (inp.slStop i col) (inp.uponStopUpdate i col) then
            { st with
              slInitI := i, slInitPrice := p, slCurrI := i, slCurrPrice := p, slCurrStop := inp.slStop i col,
              slCurrTrail := inp.slTrail i col }
          else st
        if shouldUpdateStop (inp.tpStop i col) (inp.uponStopUpdate i col) then
          { st with tpInitI := i, tpInitPrice := p, tpCurrStop := inp.tpStop i col }
        else st
      else st
  else st

/-- Phase 3: one call, portfolio.rs:4501-4656; `slot` is the pair (k, call_seq[i, from_col + k]). -/
def sigSlotStep (A : Arith) (z : Nat → Nat → Bool) (inp : SigInputs) (sharing : Bool) (group i fromCol len : Nat)
    (cells : Nat → CellOrder) (s : SigState) (slot : Nat × Nat) : Except Err SigState :=
  if sharing && slot.2 ≥ len then .error (.rejected "Call index exceeds bounds of the group")
  else
    let col := if sharing then fromCol + slot.2 else fromCol + slot.1
    let value :=
      if !sharing then
        if !eqb (s.sim.position col) zero then F.add A s.sim.cash (mul A (s.sim.position col) (s.sim.valPrice col))
        else s.sim.cash
      else s.sim.value
    let c := cells col
    if !eqb c.size zero then
      let o := sigCellOrder A inp i col c
      match processOrder A (z i col) i col group
          { cash := s.sim.cash, position := s.sim.position col, debt := s.sim.debt col, freeCash := s.sim.free,
            valPrice := s.sim.valPrice col, value := value, oidx := s.sim.oidx, lidx := s.sim.lidx }
          inp.updateValue o (inp.draw i (fromCol + slot.1)) s.sim.buf with
      | .error e => .error e
      | .ok (res, st, b) =>
        .ok { sim := { cash := st.cash, free := st.freeCash, value := st.value,
                       position := setAt s.sim.position col st.position,
                       debt := setAt s.sim.debt col st.debt,
                       valPrice := if !st.valPrice.isnan || !inp.ffillValPrice then setAt s.sim.valPrice col st.valPrice
                         else s.sim.valPrice,
                       oidx := st.oidx, lidx := st.lidx, buf := b },
              stops := setAt s.stops col
                (rowUpdateStops inp i col o res (s.sim.position col) st.position st.valPrice (s.stops col)) }
    else .ok { s with sim := { s.sim with value := value } }

/-- One row of one group, portfolio.rs:4349-4657. -/
def sigRowStep (A : Arith) (z : Nat → Nat → Bool) (inp : SigInputs) (a : SigArrays) (sharing : Bool) (group fromCol len : Nat)
    (s : SigState) (i : Nat) : Except Err SigState :=
  let vp := sigRowPrices inp i fromCol len s.sim.valPrice
  match sigRowCells A inp a i fromCol len { s.sim with valPrice := vp } s.stops with
  | .error e => .error e
  | .ok (stops, cells) =>
    let s1 : SimState := { s.sim with valPrice := vp, value := sigRowValue A sharing s.sim.cash s.sim.position vp fromCol len }
    loopE (sigSlotStep A z inp sharing group i fromCol len cells) { sim := s1, stops := stops }
      ((List.range len).zip (sigRowSeq A inp sharing i fromCol len s1 cells))

/-- One group, portfolio.rs:4343-4660; `grp` is (group, from_col, group_len). -/
def sigGroupStep (A : Arith) (z : Nat → Nat → Bool) (inp : SigInputs) (a : SigArrays) (sharing : Bool) (initCash : Nat → F)
    (rows : Nat) (s : SigState) (grp : Nat × Nat × Nat) : Except Err SigState :=
  loopE (sigRowStep A z inp a sharing grp.1 grp.2.1 grp.2.2)
    { s with sim := { s.sim with cash := initCash grp.1, free := initCash grp.1 } } (List.range rows)

/-- `simulate_from_signals_inner`, portfolio.rs:4251-4664. -/
def signalsInner (A : Arith) (z : Nat → Nat → Bool) (inp : SigInputs) (a : SigArrays) (rows : Nat) (lens : List Nat)
    (initCash : Nat → F) (b : Buffers) : Except Err (List OrderRec × List LogRec) :=
  match loopE (sigGroupStep A z inp a (lens.any fun g => decide (g > 1)) initCash rows)
      { sim := { cash := nan, free := nan, value := nan, position := fun _ => zero, debt := fun _ => zero,
                 valPrice := fun _ => nan, oidx := 0, lidx := 0, buf := b },
        stops := fun _ =>
          { slInitI := -1, slInitPrice := nan, slCurrI := -1, slCurrPrice := nan, slCurrStop := nan, slCurrTrail := false,
            tpInitI := -1, tpInitPrice := nan, tpCurrStop := nan } } (layout lens) with
  | .error e => .error e
  | .ok s => .ok (s.sim.buf.orders.take s.sim.oidx, s.sim.buf.logs.take s.sim.lidx)

/-- `simulate_from_signals_py`, portfolio.rs:2391-2666, after the arguments have been read. -/
def simulateFromSignals (A : Arith) (z : Nat → Nat → Bool) (inp : SigInputs) (a : SigArrays) (rows cols : Nat) (lens : List Nat)
    (initCash : List F) (maxOrders : Option Nat) (maxLogs : Nat) : Except Err (List OrderRec × List LogRec) :=
  let sharing := lens.any fun g => decide (g > 1)
  if lens.sum ≠ cols then .error (.valueError "group_lens has incorrect total number of columns")
  else if sharing = true ∧ initCash.length ≠ lens.length then
    .error (.valueError "If cash sharing is enabled, init_cash must match the number of groups")
  else if sharing = false ∧ initCash.length ≠ cols then
    .error (.valueError "If cash sharing is disabled, init_cash must match the number of columns")
  else
    let b : Buffers :=
      { orders := [], logs := [], maxOrders := min (maxOrders.getD (rows * cols)) (rows * cols),
        maxLogs := if maxLogs = 0 then 1 else maxLogs }
    if !sharing && !inp.autoCallSeq then signalsNonShared A z inp a rows cols (fun c => initCash.getD c nan) b
    else signalsInner A z inp a rows lens (fun g => initCash.getD g nan) b

end Vbt.Rs
