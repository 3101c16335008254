import Verif.Model.Math

/-!
# Order execution: `vectorbt/portfolio/nb.py:60-733` and the types of `vectorbt/portfolio/enums.py`
-/

namespace Vbt
open F

/-! ## Enumerations (plain integers in the code, `vectorbt/portfolio/enums.py`) -/

namespace Direction
/-- enums.py `DirectionT`. -/
abbrev LongOnly : Int := 0
abbrev ShortOnly : Int := 1
abbrev Both : Int := 2
end Direction

namespace SizeType
/-- enums.py `SizeTypeT`. -/
abbrev Amount : Int := 0
abbrev Value : Int := 1
abbrev Percent : Int := 2
abbrev TargetAmount : Int := 3
abbrev TargetValue : Int := 4
abbrev TargetPercent : Int := 5
end SizeType

namespace OrderStatus
/-- enums.py `OrderStatusT`. -/
abbrev Filled : Int := 0
abbrev Ignored : Int := 1
abbrev Rejected : Int := 2
end OrderStatus

namespace OrderSide
/-- enums.py `OrderSideT`. -/
abbrev Buy : Int := 0
abbrev Sell : Int := 1
end OrderSide

namespace Info
/-- enums.py `OrderStatusInfoT`. -/
abbrev SizeNaN : Int := 0
abbrev PriceNaN : Int := 1
abbrev ValPriceNaN : Int := 2
abbrev ValueNaN : Int := 3
abbrev ValueZeroNeg : Int := 4
abbrev SizeZero : Int := 5
abbrev NoCashShort : Int := 6
abbrev NoCashLong : Int := 7
abbrev NoOpenPosition : Int := 8
abbrev MaxSizeExceeded : Int := 9
abbrev RandomEvent : Int := 10
abbrev CantCoverFees : Int := 11
abbrev MinSizeNotReached : Int := 12
abbrev PartialFill : Int := 13
end Info

/-! ## Records -/

/-- enums.py `ExecuteOrderState`. -/
structure ExecState where
  cash : F
  position : F
  debt : F
  freeCash : F
deriving DecidableEq, Repr

/-- enums.py `ProcessOrderState`. -/
structure ProcState where
  cash : F
  position : F
  debt : F
  freeCash : F
  valPrice : F
  value : F
  oidx : Nat
  lidx : Nat
deriving DecidableEq, Repr

/-- enums.py `Order` (defaults as in the named tuple). -/
structure Order where
  size : F := pinf
  price : F := pinf
  sizeType : Int := SizeType.Amount
  direction : Int := Direction.Both
  fees : F := fin 0
  fixedFees : F := fin 0
  slippage : F := fin 0
  minSize : F := fin 0
  maxSize : F := pinf
  gran : F := nan
  rejectProb : F := fin 0
  lockCash : Bool := false
  allowPartial : Bool := true
  raiseReject : Bool := false
  log : Bool := false
deriving DecidableEq, Repr

/-- enums.py `OrderResult`. -/
structure OrderResult where
  size : F
  price : F
  fees : F
  side : Int
  status : Int
  statusInfo : Int
deriving DecidableEq, Repr

/-- `order_not_filled_nb`, portfolio/nb.py:66-68. -/
def orderNotFilled (status info : Int) : OrderResult :=
  { size := nan, price := nan, fees := nan, side := -1, status := status, statusInfo := info }

/-- The constant `2` in `2 * exec_state.debt`. -/
def two : F := fin 2

/-- `x // size_granularity * size_granularity` guarded by `not np.isnan(size_granularity)`,
portfolio/nb.py:143-145, 168-170, 292-294. -/
def granulate (A : Arith) (gran x : F) : F :=
  if gran.isnan then x else mul A (floordiv A x gran) gran

/-! ## `buy_nb`, portfolio/nb.py:72-211 -/

/-- Cash limit of `buy_nb`, portfolio/nb.py:92-117. -/
def buyCashLimit (A : Arith) (s : ExecState) (o : Order) (adjPrice percent : F) : Except Err F :=
  let unit := add A one o.fees
  let lim : Except Err F :=
    if o.lockCash then
      if ge s.position zero then .ok s.freeCash
      else
        let coverReq := add A (mul A (mul A s.position.abs adjPrice) unit) o.fixedFees
        let coverFree := addNb A (add A s.freeCash (mul A two s.debt)) (neg coverReq)
        if gt coverFree zero then .ok (add A s.freeCash (mul A two s.debt))
        else if lt coverFree zero then
          match divE A s.debt s.position.abs with
          | .error e => .error e
          | .ok avgEntry =>
            match divE A (sub A s.freeCash o.fixedFees)
                (sub A (mul A adjPrice unit) (mul A two avgEntry)) with
            | .error e => .error e
            | .ok maxShort => .ok (add A (mul A (mul A maxShort adjPrice) unit) o.fixedFees)
        else .ok s.cash
    else .ok s.cash
  match lim with
  | .error e => .error e
  | .ok l =>
    let l := pmin l s.cash
    .ok (if percent.isnan then l else pmin l (mul A percent l))

/-- Outcome of comparing the required cash with the cash limit. -/
structure BuyFill where
  size : F
  fees : F
  req : F
deriving DecidableEq, Repr

/-- Final size, fees and required cash of `buy_nb`, portfolio/nb.py:147-177;
`none` is the `CantCoverFees` rejection. -/
def buyFinal (A : Arith) (o : Order) (adjSize adjPrice cashLimit : F) :
    Except Err (Option BuyFill) :=
  let reqCash := mul A adjSize adjPrice
  let reqFees := add A (mul A reqCash o.fees) o.fixedFees
  let totalReq := add A reqCash reqFees
  if isCloseOrLess A totalReq cashLimit then
    .ok (some { size := adjSize, fees := reqFees, req := totalReq })
  else
    match divE A (addNb A cashLimit (neg o.fixedFees)) (add A one o.fees) with
    | .error e => .error e
    | .ok maxReq =>
      if le maxReq zero then .ok none
      else
        match divE A maxReq adjPrice with
        | .error e => .error e
        | .ok maxAcq =>
          if !o.gran.isnan then
            let finalSize := mul A (floordiv A maxAcq o.gran) o.gran
            let newReq := mul A finalSize adjPrice
            let feesPaid := add A (mul A newReq o.fees) o.fixedFees
            .ok (some { size := finalSize, fees := feesPaid, req := add A newReq feesPaid })
          else
            .ok (some { size := maxAcq, fees := sub A cashLimit maxReq, req := cashLimit })

/-- The balance update of `buy_nb`, portfolio/nb.py:190-211. -/
def buyCommit (A : Arith) (s : ExecState) (adjPrice : F) (f : BuyFill) :
    Except Err (ExecState × OrderResult) :=
  let newCash := addNb A s.cash (neg f.req)
  let newPosition := addNb A s.position f.size
  let res : OrderResult :=
    { size := f.size, price := adjPrice, fees := f.fees, side := OrderSide.Buy,
      status := OrderStatus.Filled, statusInfo := -1 }
  if lt s.position zero then
    let shortSize := if lt newPosition zero then f.size else s.position.abs
    match divE A s.debt s.position.abs with
    | .error e => .error e
    | .ok avgEntry =>
      let debtDiff := mul A shortSize avgEntry
      .ok ({ cash := newCash, position := newPosition,
             debt := addNb A s.debt (neg debtDiff),
             freeCash := addNb A (add A s.freeCash (mul A two debtDiff)) (neg f.req) }, res)
  else
    .ok ({ cash := newCash, position := newPosition, debt := s.debt,
           freeCash := addNb A s.freeCash (neg f.req) }, res)

/-- `buy_nb` from "Get optimal order size" on, portfolio/nb.py:128-211. -/
def buyBody (A : Arith) (s : ExecState) (o : Order) (size adjPrice cashLimit : F) :
    Except Err (ExecState × OrderResult) :=
  let adjSize0 := if o.direction = Direction.ShortOnly then pmin s.position.neg size else size
  if eqb adjSize0 zero then .ok (s, orderNotFilled OrderStatus.Ignored Info.SizeZero)
  else if gt adjSize0 o.maxSize && !o.allowPartial then
    .ok (s, orderNotFilled OrderStatus.Rejected Info.MaxSizeExceeded)
  else
    let adjSize := granulate A o.gran (if gt adjSize0 o.maxSize then o.maxSize else adjSize0)
    match buyFinal A o adjSize adjPrice cashLimit with
    | .error e => .error e
    | .ok none => .ok (s, orderNotFilled OrderStatus.Rejected Info.CantCoverFees)
    | .ok (some f) =>
      if isClose A adjSize zero then .ok (s, orderNotFilled OrderStatus.Ignored Info.SizeZero)
      else if isLess A f.size o.minSize then
        .ok (s, orderNotFilled OrderStatus.Rejected Info.MinSizeNotReached)
      else if size.isfinite && isLess A f.size size && !o.allowPartial then
        .ok (s, orderNotFilled OrderStatus.Rejected Info.PartialFill)
      else buyCommit A s adjPrice f

/-- `buy_nb`, portfolio/nb.py:72-211.  The keyword arguments are read from the order, exactly as
`execute_order_nb` passes them. -/
def buy (A : Arith) (s : ExecState) (o : Order) (size percent : F) :
    Except Err (ExecState × OrderResult) :=
  let adjPrice := mul A o.price (add A one o.slippage)
  match buyCashLimit A s o adjPrice percent with
  | .error e => .error e
  | .ok cashLimit =>
    if o.direction = Direction.LongOnly ∨ o.direction = Direction.Both then
      if eqb cashLimit zero then .ok (s, orderNotFilled OrderStatus.Rejected Info.NoCashLong)
      else if size.isinf && cashLimit.isinf then
        .error (.valueError "Attempt to go in long direction infinitely")
      else buyBody A s o size adjPrice cashLimit
    else if eqb s.position zero then
      .ok (s, orderNotFilled OrderStatus.Rejected Info.NoOpenPosition)
    else buyBody A s o size adjPrice cashLimit

/-! ## `sell_nb`, portfolio/nb.py:215-339 -/

/-- Outcome of the size limit computation: limit and remaining percentage, or a rejection. -/
inductive SellLimit where
  | limit (size percent : F)
  | reject (info : Int)
deriving DecidableEq, Repr

/-- Size limit of `sell_nb`, portfolio/nb.py:235-273. -/
def sellLimit (A : Arith) (s : ExecState) (o : Order) (size adjPrice percent : F) :
    Except Err SellLimit :=
  if o.direction = Direction.LongOnly then .ok (.limit (pmin s.position size) percent)
  else if o.lockCash || (size.isinf && !percent.isnan) then
    let longSize := pmax s.position zero
    let longCash := mul A (mul A longSize adjPrice) (sub A one o.fees)
    let totalFree := addNb A s.freeCash longCash
    let maxLimit : Except Err (Except Int F) :=
      if le totalFree zero then
        if le s.position zero then .ok (.error Info.NoCashShort)
        else .ok (.ok longSize)
      else
        match divE A (addNb A totalFree (neg o.fixedFees)) (mul A adjPrice (add A one o.fees)) with
        | .error e => .error e
        | .ok maxShort =>
          let m := addNb A longSize maxShort
          if le m zero then .ok (.error Info.CantCoverFees) else .ok (.ok m)
    match maxLimit with
    | .error e => .error e
    | .ok (.error info) => .ok (.reject info)
    | .ok (.ok m) =>
      if o.lockCash then
        if size.isinf && !percent.isnan then .ok (.limit (pmin (mul A percent m) m) nan)
        else if !percent.isnan then .ok (.limit (pmin (mul A percent size) m) nan)
        else .ok (.limit (pmin size m) percent)
      else .ok (.limit m percent)
  else .ok (.limit size percent)

/-- The balance update of `sell_nb`, portfolio/nb.py:307-339. -/
def sellCommit (A : Arith) (s : ExecState) (o : Order) (adjPrice sizeLimit : F) :
    ExecState × OrderResult :=
  let acqCash := mul A sizeLimit adjPrice
  let feesPaid := add A (mul A acqCash o.fees) o.fixedFees
  let finalAcq := addNb A acqCash (neg feesPaid)
  if lt finalAcq zero then (s, orderNotFilled OrderStatus.Rejected Info.CantCoverFees)
  else
    let newCash := add A s.cash finalAcq
    let newPosition := addNb A s.position (neg sizeLimit)
    let res : OrderResult :=
      { size := sizeLimit, price := adjPrice, fees := feesPaid, side := OrderSide.Sell,
        status := OrderStatus.Filled, statusInfo := -1 }
    if lt newPosition zero then
      let shortSize := if lt s.position zero then sizeLimit else newPosition.abs
      let shortValue := mul A shortSize adjPrice
      let freeDiff := addNb A finalAcq (mul A (fin (-2)) shortValue)
      ({ cash := newCash, position := newPosition, debt := add A s.debt shortValue,
         freeCash := addNb A s.freeCash freeDiff }, res)
    else
      ({ cash := newCash, position := newPosition, debt := s.debt,
         freeCash := add A s.freeCash finalAcq }, res)

/-- `sell_nb` after the size limit, portfolio/nb.py:275-339. -/
def sellBody (A : Arith) (s : ExecState) (o : Order) (size adjPrice limit percent : F) :
    Except Err (ExecState × OrderResult) :=
  let lim1 := if percent.isnan then limit else mul A percent limit
  if gt lim1 o.maxSize && !o.allowPartial then
    .ok (s, orderNotFilled OrderStatus.Rejected Info.MaxSizeExceeded)
  else
    let lim2 := if gt lim1 o.maxSize then o.maxSize else lim1
    if (o.direction = Direction.ShortOnly ∨ o.direction = Direction.Both) ∧ lim2.isinf = true then
      .error (.valueError "Attempt to go in short direction infinitely")
    else if ¬(o.direction = Direction.ShortOnly ∨ o.direction = Direction.Both) ∧
        eqb s.position zero = true then
      .ok (s, orderNotFilled OrderStatus.Rejected Info.NoOpenPosition)
    else
      let lim := granulate A o.gran lim2
      if isClose A lim zero then .ok (s, orderNotFilled OrderStatus.Ignored Info.SizeZero)
      else if isLess A lim o.minSize then
        .ok (s, orderNotFilled OrderStatus.Rejected Info.MinSizeNotReached)
      else if size.isfinite && isLess A lim size && !o.allowPartial then
        .ok (s, orderNotFilled OrderStatus.Rejected Info.PartialFill)
      else .ok (sellCommit A s o adjPrice lim)

/-- `sell_nb`, portfolio/nb.py:215-339. -/
def sell (A : Arith) (s : ExecState) (o : Order) (size percent : F) :
    Except Err (ExecState × OrderResult) :=
  let adjPrice := mul A o.price (sub A one o.slippage)
  match sellLimit A s o size adjPrice percent with
  | .error e => .error e
  | .ok (.reject info) => .ok (s, orderNotFilled OrderStatus.Rejected info)
  | .ok (.limit limit percent') => sellBody A s o size adjPrice limit percent'

/-! ## `execute_order_nb`, portfolio/nb.py:343-505 -/

/-- `if is_close_nb(x, 0): x = 0.0`, portfolio/nb.py:355-372. -/
def snap (A : Arith) (x : F) : F := if isClose A x zero then zero else x

/-- The checks of the execution state and of the order, portfolio/nb.py:383-420, in the order of the
code; `some msg` is the message of the `ValueError` raised. -/
def checkOrder (s : ExecState) (o : Order) : Option String :=
  if s.cash.isnan || lt s.cash zero then some "cash cannot be NaN and must be greater than 0"
  else if !s.position.isfinite then some "position must be finite"
  else if !s.debt.isfinite || lt s.debt zero then some "debt must be finite and 0 or greater"
  else if s.freeCash.isnan then some "free_cash cannot be NaN"
  else if !o.price.isfinite || le o.price zero then
    some "order.price must be finite and greater than 0"
  else if o.sizeType < 0 ∨ o.sizeType ≥ 6 then some "order.size_type is invalid"
  else if o.direction < 0 ∨ o.direction ≥ 3 then some "order.direction is invalid"
  else if o.direction = Direction.LongOnly ∧ lt s.position zero = true then
    some "position is negative but order.direction is Direction.LongOnly"
  else if o.direction = Direction.ShortOnly ∧ gt s.position zero = true then
    some "position is positive but order.direction is Direction.ShortOnly"
  else if !o.fees.isfinite then some "order.fees must be finite"
  else if !o.fixedFees.isfinite then some "order.fixed_fees must be finite"
  else if !o.slippage.isfinite || lt o.slippage zero then
    some "order.slippage must be finite and 0 or greater"
  else if !o.minSize.isfinite || lt o.minSize zero then
    some "order.min_size must be finite and 0 or greater"
  else if o.maxSize.isnan || le o.maxSize zero then some "order.max_size must be greater than 0"
  else if o.gran.isinf || le o.gran zero then
    some "order.size_granularity must be either NaN or finite and greater than 0"
  else if !o.rejectProb.isfinite || lt o.rejectProb zero || gt o.rejectProb one then
    some "order.reject_prob must be between 0 and 1"
  else none

/-- Outcome of the size conversion. -/
inductive SizeRes where
  | size (size percent : F)
  | notFilled (status info : Int)
  | bad (msg : String)
deriving DecidableEq, Repr

/-- Percent part of the size conversion, portfolio/nb.py:452-465. -/
def resolvePercent (A : Arith) (o : Order) (size : F) (sizeType : Int) : SizeRes :=
  let toShort : Bool := sizeType = SizeType.Amount ∧
    (o.direction = Direction.ShortOnly ∨ o.direction = Direction.Both) ∧
    (lt size zero && size.isinf) = true
  let size1 := if toShort then fin (-1) else size
  let sizeType1 := if toShort then SizeType.Percent else sizeType
  if sizeType1 = SizeType.Percent then
    .size (mul A size1.sign pinf) size1.abs
  else .size size1 nan

/-- TargetAmount part, portfolio/nb.py:447-450. -/
def resolveTargetAmount (A : Arith) (s : ExecState) (o : Order) (size : F) (sizeType : Int) : SizeRes :=
  if sizeType = SizeType.TargetAmount then
    resolvePercent A o (sub A size s.position) SizeType.Amount
  else resolvePercent A o size sizeType

/-- Value / TargetValue part, portfolio/nb.py:434-445.  The division is by a finite positive number. -/
def resolveValue (A : Arith) (s : ExecState) (o : Order) (valPrice size : F) (sizeType : Int) : SizeRes :=
  if sizeType = SizeType.Value ∨ sizeType = SizeType.TargetValue then
    if valPrice.isinf || le valPrice zero then
      .bad "val_price_now must be finite and greater than 0"
    else if valPrice.isnan then .notFilled OrderStatus.Ignored Info.ValPriceNaN
    else
      resolveTargetAmount A s o (div A size valPrice)
        (if sizeType = SizeType.Value then SizeType.Amount else SizeType.TargetAmount)
  else resolveTargetAmount A s o size sizeType

/-- The size conversion, portfolio/nb.py:422-465. -/
def resolveSize (A : Arith) (s : ExecState) (o : Order) (valPrice value : F) : SizeRes :=
  let size0 := if o.direction = Direction.ShortOnly then mul A o.size (fin (-1)) else o.size
  if o.sizeType = SizeType.TargetPercent then
    if value.isnan then .notFilled OrderStatus.Ignored Info.ValueNaN
    else if le value zero then .notFilled OrderStatus.Rejected Info.ValueZeroNeg
    else resolveValue A s o valPrice (mul A size0 value) SizeType.TargetValue
  else resolveValue A s o valPrice size0 o.sizeType

/-- The balances after the "numerical stability" block, portfolio/nb.py:354-376. -/
def snapExec (A : Arith) (st : ProcState) : ExecState :=
  { cash := snap A st.cash, position := snap A st.position, debt := snap A st.debt,
    freeCash := snap A st.freeCash }

/-- The random rejection, portfolio/nb.py:501-505; `u` is the number drawn by `np.random.uniform(0, 1)`. -/
def applyReject (o : Order) (u : F) (s : ExecState) (r : ExecState × OrderResult) :
    ExecState × OrderResult :=
  if gt o.rejectProb zero && lt u o.rejectProb then
    (s, orderNotFilled OrderStatus.Rejected Info.RandomEvent)
  else r

/-- `execute_order_nb`, portfolio/nb.py:343-505. -/
def executeOrder (A : Arith) (st : ProcState) (o : Order) (u : F) :
    Except Err (ExecState × OrderResult) :=
  let s := snapExec A st
  if o.size.isnan then .ok (s, orderNotFilled OrderStatus.Ignored Info.SizeNaN)
  else if o.price.isnan then .ok (s, orderNotFilled OrderStatus.Ignored Info.PriceNaN)
  else
    match checkOrder s o with
    | some msg => .error (.valueError msg)
    | none =>
      match resolveSize A s o (snap A st.valPrice) (snap A st.value) with
      | .bad msg => .error (.valueError msg)
      | .notFilled status info => .ok (s, orderNotFilled status info)
      | .size size percent =>
        match (if gt size zero then buy A s o size percent else sell A s o size.neg percent) with
        | .error e => .error e
        | .ok r => .ok (applyReject o u s r)

/-! ## `update_value_nb`, `process_order_nb`, portfolio/nb.py:622-733 -/

/-- `update_value_nb`, portfolio/nb.py:622-644; returns (val_price_now, value_now). -/
def updateValue (A : Arith) (cashBefore cashNow posBefore posNow valPriceBefore price valueBefore : F) :
    F × F :=
  let cashFlow := sub A cashNow cashBefore
  let assetBefore := if !eqb posBefore zero then mul A posBefore valPriceBefore else zero
  let assetNow := if !eqb posNow zero then mul A posNow price else zero
  let diff := sub A assetNow assetBefore
  (price, add A (add A valueBefore cashFlow) diff)

/-- A row of `order_records` (`order_dt`), portfolio/nb.py:574-583. -/
structure OrderRec where
  id : Nat
  col : Nat
  idx : Nat
  size : F
  price : F
  fees : F
  side : Int
deriving DecidableEq, Repr

/-- A row of `log_records` (`log_dt`), portfolio/nb.py:509-570. -/
structure LogRec where
  id : Nat
  group : Nat
  col : Nat
  idx : Nat
  cash : F
  position : F
  debt : F
  freeCash : F
  valPrice : F
  value : F
  req : Order
  newCash : F
  newPosition : F
  newDebt : F
  newFreeCash : F
  newValPrice : F
  newValue : F
  resSize : F
  resPrice : F
  resFees : F
  resSide : Int
  resStatus : Int
  resStatusInfo : Int
  orderId : Int
deriving DecidableEq, Repr

/-- The record buffers: the rows written so far, with the capacities of the preallocated arrays
(`max_orders`, `max_logs`).  The code overwrites row `oidx` of a preallocated array and increments
`oidx`; here the row is appended (that `oidx` is always the number of rows written is proved in
`Verif/Props/Records`). -/
structure Buffers where
  orders : List OrderRec
  logs : List LogRec
  maxOrders : Nat
  maxLogs : Nat
deriving DecidableEq, Repr

/-- `process_order_nb`, portfolio/nb.py:648-733. -/
def processOrder (A : Arith) (i col group : Nat) (st : ProcState) (updVal : Bool) (o : Order) (u : F)
    (b : Buffers) : Except Err (OrderResult × ProcState × Buffers) :=
  match executeOrder A st o u with
  | .error e => .error e
  | .ok (es, res) =>
    if res.status = OrderStatus.Rejected ∧ o.raiseReject = true then
      .error (.rejectedOrder res.statusInfo)
    else
      let filled : Bool := res.status = OrderStatus.Filled
      let (newValPrice, newValue) :=
        if filled && updVal then
          updateValue A st.cash es.cash st.position es.position st.valPrice res.price st.value
        else (st.valPrice, st.value)
      if filled = true ∧ st.oidx ≥ b.maxOrders then
        .error (.indexError "order_records index out of range. Set a higher max_orders.")
      else
        let orders' := if filled then
            b.orders ++ [{ id := st.oidx, col := col, idx := i, size := res.size,
                           price := res.price, fees := res.fees, side := res.side }]
          else b.orders
        if o.log = true ∧ st.lidx ≥ b.maxLogs then
          .error (.indexError "log_records index out of range. Set a higher max_logs.")
        else
          let logs' := if o.log then
              b.logs ++ [{ id := st.lidx, group := group, col := col, idx := i,
                           cash := st.cash, position := st.position, debt := st.debt,
                           freeCash := st.freeCash, valPrice := st.valPrice, value := st.value,
                           req := o, newCash := es.cash, newPosition := es.position,
                           newDebt := es.debt, newFreeCash := es.freeCash,
                           newValPrice := newValPrice, newValue := newValue,
                           resSize := res.size, resPrice := res.price, resFees := res.fees,
                           resSide := res.side, resStatus := res.status,
                           resStatusInfo := res.statusInfo,
                           orderId := if filled then (st.oidx : Int) else -1 }]
            else b.logs
          .ok (res,
            { cash := es.cash, position := es.position, debt := es.debt, freeCash := es.freeCash,
              valPrice := newValPrice, value := newValue,
              oidx := if filled then st.oidx + 1 else st.oidx,
              lidx := if o.log then st.lidx + 1 else st.lidx },
            { b with orders := orders', logs := logs' })

end Vbt
