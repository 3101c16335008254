import Verif.Model.Order

/-!
# Order execution in the Rust engine: `rust/src/portfolio.rs:45-112, 750-1565`

`vectorbt-rust` reimplements the compiled functions; the dispatch functions (`vectorbt/portfolio/dispatch.py`) call one
engine or the other.  The definitions of this file follow the Rust text and live in the namespace `Vbt.Rs`.

Where Rust differs from Numba by language:
* a division never raises (`F.div`), where compiled Numba code raises `ZeroDivisionError` (`divE`);
* `f64::min` and `f64::max` skip NaN, Python's `min` and `max` keep the first argument;
* `f64::signum` of a zero is `1` or `-1` by the sign of the zero, `np.sign` gives `0`;
* `(x / y).floor()` rounds the quotient before taking the floor, `x // y` does not.

The model of floats has no signed zero: where Rust looks at the sign of a zero, it is an argument (`true` for `-0.0`).
-/

namespace Vbt.Rs
open F

/-- `f64::min`. -/
def fmin (a b : F) : F := if a.isnan then b else if b.isnan then a else if lt b a then b else a

/-- `f64::max`. -/
def fmax (a b : F) : F := if a.isnan then b else if b.isnan then a else if lt a b then b else a

/-- `f64::signum`; `z` says whether a zero is `-0.0`. -/
def signum (z : Bool) : F → F
  | nan => nan
  | ninf => fin (-1)
  | pinf => fin 1
  | fin q => fin (if q < 0 then -1 else if 0 < q then 1 else if z then -1 else 1)

/-- `f64::floor`. -/
def floor : F → F
  | fin q => fin (⌊q⌋ : ℤ)
  | x => x

/-! ## Comparisons within the tolerance, portfolio.rs:47-97 -/

/-- `is_close`, portfolio.rs:52-63. -/
def isClose (A : Arith) (a b : F) : Bool :=
  if a.isnan || b.isnan then false
  else if a.isinf || b.isinf then false
  else if eqb a b then true
  else le (sub A a b).abs (fmax (fin A.abs) (mul A (fin A.rel) (fmax a.abs b.abs)))

/-- `is_close_or_less`, portfolio.rs:66-71. -/
def isCloseOrLess (A : Arith) (a b : F) : Bool :=
  if isClose A a b then true else lt a b

/-- `is_less`, portfolio.rs:74-79. -/
def isLess (A : Arith) (a b : F) : Bool :=
  if isClose A a b then false else lt a b

/-- `is_addition_zero`, portfolio.rs:82-88; `za`, `zb` are the signs of `a` and `b` when they are zeros. -/
def isAdditionZero (A : Arith) (za zb : Bool) (a b : F) : Bool :=
  if !(eqb (signum za a) (signum zb b)) then isClose A a.abs b.abs
  else isClose A (F.add A a b) zero

/-- `add`, portfolio.rs:91-97.  Zeros are taken as `0.0`; that their signs do not matter is
`Rs.isAdditionZero_eq`. -/
def addTol (A : Arith) (a b : F) : F :=
  if isAdditionZero A false false a b then zero else F.add A a b

/-- `(x / size_granularity).floor() * size_granularity` guarded by `!size_granularity.is_nan()`,
portfolio.rs:838-840, 867-868, 1036-1038. -/
def granulate (A : Arith) (gran x : F) : F :=
  if gran.isnan then x else mul A (floor (F.div A x gran)) gran

/-! ## `buy`, portfolio.rs:761-943 -/

/-- Cash limit, portfolio.rs:779-805. -/
def buyCashLimit (A : Arith) (s : ExecState) (o : Order) (adjPrice percent : F) : F :=
  let unit := F.add A one o.fees
  let lim :=
    if o.lockCash then
      if ge s.position zero then s.freeCash
      else
        let coverReq := F.add A (mul A (mul A s.position.abs adjPrice) unit) o.fixedFees
        let coverFree := addTol A (F.add A s.freeCash (mul A two s.debt)) (neg coverReq)
        if gt coverFree zero then F.add A s.freeCash (mul A two s.debt)
        else if lt coverFree zero then
          let avgEntry := F.div A s.debt s.position.abs
          let maxShort := F.div A (sub A s.freeCash o.fixedFees) (sub A (mul A adjPrice unit) (mul A two avgEntry))
          F.add A (mul A (mul A maxShort adjPrice) unit) o.fixedFees
        else s.cash
    else s.cash
  let lim := fmin lim s.cash
  if !percent.isnan then fmin lim (mul A percent lim) else lim

/-- Final size, fees and required cash, portfolio.rs:842-881; `none` is the `CantCoverFees` rejection. -/
def buyFinal (A : Arith) (o : Order) (adjSize adjPrice cashLimit : F) : Option BuyFill :=
  let reqCash := mul A adjSize adjPrice
  let reqFees := F.add A (mul A reqCash o.fees) o.fixedFees
  let totalReq := F.add A reqCash reqFees
  if isCloseOrLess A totalReq cashLimit then
    some { size := adjSize, fees := reqFees, req := totalReq }
  else
    let maxReq := F.div A (addTol A cashLimit (neg o.fixedFees)) (F.add A one o.fees)
    if le maxReq zero then none
    else
      let maxAcq := F.div A maxReq adjPrice
      if !o.gran.isnan then
        let finalSize := mul A (floor (F.div A maxAcq o.gran)) o.gran
        let newReq := mul A finalSize adjPrice
        let feesPaid := F.add A (mul A newReq o.fees) o.fixedFees
        some { size := finalSize, fees := feesPaid, req := F.add A newReq feesPaid }
      else
        some { size := maxAcq, fees := sub A cashLimit maxReq, req := cashLimit }

/-- The balance update of `buy`, portfolio.rs:904-942. -/
def buyCommit (A : Arith) (s : ExecState) (adjPrice : F) (f : BuyFill) : ExecState × OrderResult :=
  let newCash := addTol A s.cash (neg f.req)
  let newPosition := addTol A s.position f.size
  let res : OrderResult :=
    { size := f.size, price := adjPrice, fees := f.fees, side := OrderSide.Buy,
      status := OrderStatus.Filled, statusInfo := -1 }
  if lt s.position zero then
    let shortSize := if lt newPosition zero then f.size else s.position.abs
    let avgEntry := F.div A s.debt s.position.abs
    let debtDiff := mul A shortSize avgEntry
    ({ cash := newCash, position := newPosition,
       debt := addTol A s.debt (neg debtDiff),
       freeCash := addTol A (F.add A s.freeCash (mul A two debtDiff)) (neg f.req) }, res)
  else
    ({ cash := newCash, position := newPosition, debt := s.debt,
       freeCash := addTol A s.freeCash (neg f.req) }, res)

/-- `buy` from "Get optimal order size" on, portfolio.rs:813-942. -/
def buyBody (A : Arith) (s : ExecState) (o : Order) (size adjPrice cashLimit : F) : ExecState × OrderResult :=
  let adjSize0 := if o.direction = Direction.ShortOnly then fmin s.position.neg size else size
  if eqb adjSize0 zero then (s, orderNotFilled OrderStatus.Ignored Info.SizeZero)
  else if gt adjSize0 o.maxSize && !o.allowPartial then
    (s, orderNotFilled OrderStatus.Rejected Info.MaxSizeExceeded)
  else
    let adjSize := granulate A o.gran (if gt adjSize0 o.maxSize then o.maxSize else adjSize0)
    match buyFinal A o adjSize adjPrice cashLimit with
    | none => (s, orderNotFilled OrderStatus.Rejected Info.CantCoverFees)
    | some f =>
      if isClose A adjSize zero then (s, orderNotFilled OrderStatus.Ignored Info.SizeZero)
      else if isLess A f.size o.minSize then
        (s, orderNotFilled OrderStatus.Rejected Info.MinSizeNotReached)
      else if size.isfinite && isLess A f.size size && !o.allowPartial then
        (s, orderNotFilled OrderStatus.Rejected Info.PartialFill)
      else buyCommit A s adjPrice f

/-- `buy`, portfolio.rs:761-943. -/
def buy (A : Arith) (s : ExecState) (o : Order) (size percent : F) : Except Err (ExecState × OrderResult) :=
  let adjPrice := mul A o.price (F.add A one o.slippage)
  let cashLimit := buyCashLimit A s o adjPrice percent
  if o.direction = Direction.LongOnly ∨ o.direction = Direction.Both then
    if eqb cashLimit zero then .ok (s, orderNotFilled OrderStatus.Rejected Info.NoCashLong)
    else if size.isinf && cashLimit.isinf then
      .error (.valueError "Attempt to go in long direction infinitely")
    else .ok (buyBody A s o size adjPrice cashLimit)
  else if eqb s.position zero then
    .ok (s, orderNotFilled OrderStatus.Rejected Info.NoOpenPosition)
  else .ok (buyBody A s o size adjPrice cashLimit)

/-! ## `sell`, portfolio.rs:945-1112 -/

/-- Size limit, portfolio.rs:963-1010. -/
def sellLimit (A : Arith) (s : ExecState) (o : Order) (size adjPrice percent : F) : SellLimit :=
  if o.direction = Direction.LongOnly then .limit (fmin s.position size) percent
  else if o.lockCash || (size.isinf && !percent.isnan) then
    let longSize := fmax s.position zero
    let longCash := mul A (mul A longSize adjPrice) (sub A one o.fees)
    let totalFree := addTol A s.freeCash longCash
    let maxLimit : Except Int F :=
      if le totalFree zero then
        if le s.position zero then .error Info.NoCashShort
        else .ok longSize
      else
        let maxShort := F.div A (addTol A totalFree (neg o.fixedFees)) (mul A adjPrice (F.add A one o.fees))
        let m := addTol A longSize maxShort
        if le m zero then .error Info.CantCoverFees else .ok m
    match maxLimit with
    | .error info => .reject info
    | .ok m =>
      if o.lockCash then
        if size.isinf && !percent.isnan then .limit (fmin (mul A percent m) m) nan
        else if !percent.isnan then .limit (fmin (mul A percent size) m) nan
        else .limit (fmin size m) percent
      else .limit m percent
  else .limit size percent

/-- The balance update of `sell`, portfolio.rs:1061-1111. -/
def sellCommit (A : Arith) (s : ExecState) (o : Order) (adjPrice sizeLimit : F) : ExecState × OrderResult :=
  let acqCash := mul A sizeLimit adjPrice
  let feesPaid := F.add A (mul A acqCash o.fees) o.fixedFees
  let finalAcq := addTol A acqCash (neg feesPaid)
  if lt finalAcq zero then (s, orderNotFilled OrderStatus.Rejected Info.CantCoverFees)
  else
    let newCash := F.add A s.cash finalAcq
    let newPosition := addTol A s.position (neg sizeLimit)
    let res : OrderResult :=
      { size := sizeLimit, price := adjPrice, fees := feesPaid, side := OrderSide.Sell,
        status := OrderStatus.Filled, statusInfo := -1 }
    if lt newPosition zero then
      let shortSize := if lt s.position zero then sizeLimit else newPosition.abs
      let shortValue := mul A shortSize adjPrice
      let freeDiff := addTol A finalAcq (mul A (fin (-2)) shortValue)
      ({ cash := newCash, position := newPosition, debt := F.add A s.debt shortValue,
         freeCash := addTol A s.freeCash freeDiff }, res)
    else
      ({ cash := newCash, position := newPosition, debt := s.debt,
         freeCash := F.add A s.freeCash finalAcq }, res)

/-- `sell` after the size limit, portfolio.rs:1012-1111. -/
def sellBody (A : Arith) (s : ExecState) (o : Order) (size adjPrice limit percent : F) :
    Except Err (ExecState × OrderResult) :=
  let lim1 := if !percent.isnan then mul A percent limit else limit
  if gt lim1 o.maxSize && !o.allowPartial then
    .ok (s, orderNotFilled OrderStatus.Rejected Info.MaxSizeExceeded)
  else
    let lim2 := if gt lim1 o.maxSize then o.maxSize else lim1
    if (o.direction = Direction.ShortOnly ∨ o.direction = Direction.Both) ∧ lim2.isinf = true then
      .error (.valueError "Attempt to go in short direction infinitely")
    else if ¬(o.direction = Direction.ShortOnly ∨ o.direction = Direction.Both) ∧ eqb s.position zero = true then
      .ok (s, orderNotFilled OrderStatus.Rejected Info.NoOpenPosition)
    else
      let lim := granulate A o.gran lim2
      if isClose A lim zero then .ok (s, orderNotFilled OrderStatus.Ignored Info.SizeZero)
      else if isLess A lim o.minSize then
        .ok (s, orderNotFilled OrderStatus.Rejected Info.MinSizeNotReached)
      else if size.isfinite && isLess A lim size && !o.allowPartial then
        .ok (s, orderNotFilled OrderStatus.Rejected Info.PartialFill)
      else .ok (sellCommit A s o adjPrice lim)

/-- `sell`, portfolio.rs:945-1112. -/
def sell (A : Arith) (s : ExecState) (o : Order) (size percent : F) : Except Err (ExecState × OrderResult) :=
  let adjPrice := mul A o.price (sub A one o.slippage)
  match sellLimit A s o size adjPrice percent with
  | .reject info => .ok (s, orderNotFilled OrderStatus.Rejected info)
  | .limit limit percent' => sellBody A s o size adjPrice limit percent'

/-! ## `execute_order`, portfolio.rs:1114-1342 -/

/-- `if is_close(x, 0.0) { x = 0.0 }`, portfolio.rs:1120-1143. -/
def snap (A : Arith) (x : F) : F := if isClose A x zero then zero else x

/-- The checks of the execution state and of the order, portfolio.rs:1166-1236. -/
def checkOrder (s : ExecState) (o : Order) : Option String :=
  if s.cash.isnan || lt s.cash zero then some "cash cannot be NaN and must be greater than 0"
  else if !s.position.isfinite then some "position must be finite"
  else if !s.debt.isfinite || lt s.debt zero then some "debt must be finite and 0 or greater"
  else if s.freeCash.isnan then some "free_cash cannot be NaN"
  else if !o.price.isfinite || le o.price zero then
    some "order.price must be finite and greater than 0"
  else if o.sizeType < 0 ∨ o.sizeType ≥ 6 then some "order.size_type is invalid"
  else if o.direction < 0 ∨ o.direction ≥ 3 then some "order.direction is invalid"
  else if o.direction = Direction.LongOnly ∧ lt s.position zero = true then
    some "position is negative but order.direction is Direction.LongOnly"
  else if o.direction = Direction.ShortOnly ∧ gt s.position zero = true then
    some "position is positive but order.direction is Direction.ShortOnly"
  else if !o.fees.isfinite then some "order.fees must be finite"
  else if !o.fixedFees.isfinite then some "order.fixed_fees must be finite"
  else if !o.slippage.isfinite || lt o.slippage zero then
    some "order.slippage must be finite and 0 or greater"
  else if !o.minSize.isfinite || lt o.minSize zero then
    some "order.min_size must be finite and 0 or greater"
  else if o.maxSize.isnan || le o.maxSize zero then some "order.max_size must be greater than 0"
  else if o.gran.isinf || (!o.gran.isnan && le o.gran zero) then
    some "order.size_granularity must be either NaN or finite and greater than 0"
  else if !o.rejectProb.isfinite || lt o.rejectProb zero || gt o.rejectProb one then
    some "order.reject_prob must be between 0 and 1"
  else none

/-- Percent part of the size conversion, portfolio.rs:1286-1300. -/
def resolvePercent (A : Arith) (z : Bool) (o : Order) (size : F) (sizeType : Int) : SizeRes :=
  let toShort : Bool := sizeType = SizeType.Amount ∧
    (o.direction = Direction.ShortOnly ∨ o.direction = Direction.Both) ∧
    (lt size zero && size.isinf) = true
  let size1 := if toShort then fin (-1) else size
  let sizeType1 := if toShort then SizeType.Percent else sizeType
  if sizeType1 = SizeType.Percent then
    .size (mul A (signum z size1) pinf) size1.abs
  else .size size1 nan

/-- TargetAmount part, portfolio.rs:1281-1284. -/
def resolveTargetAmount (A : Arith) (z : Bool) (s : ExecState) (o : Order) (size : F) (sizeType : Int) : SizeRes :=
  if sizeType = SizeType.TargetAmount then
    resolvePercent A z o (sub A size s.position) SizeType.Amount
  else resolvePercent A z o size sizeType

/-- Value / TargetValue part, portfolio.rs:1261-1279. -/
def resolveValue (A : Arith) (z : Bool) (s : ExecState) (o : Order) (valPrice size : F) (sizeType : Int) : SizeRes :=
  if sizeType = SizeType.Value ∨ sizeType = SizeType.TargetValue then
    if valPrice.isnan then .notFilled OrderStatus.Ignored Info.ValPriceNaN
    else if valPrice.isinf || le valPrice zero then
      .bad "val_price_now must be finite and greater than 0"
    else
      resolveTargetAmount A z s o (F.div A size valPrice)
        (if sizeType = SizeType.Value then SizeType.Amount else SizeType.TargetAmount)
  else resolveTargetAmount A z s o size sizeType

/-- The size conversion, portfolio.rs:1238-1300; `z` is the sign of a zero size. -/
def resolveSize (A : Arith) (z : Bool) (s : ExecState) (o : Order) (valPrice value : F) : SizeRes :=
  let size0 := if o.direction = Direction.ShortOnly then mul A o.size (fin (-1)) else o.size
  if o.sizeType = SizeType.TargetPercent then
    if value.isnan then .notFilled OrderStatus.Ignored Info.ValueNaN
    else if le value zero then .notFilled OrderStatus.Rejected Info.ValueZeroNeg
    else resolveValue A z s o valPrice (mul A size0 value) SizeType.TargetValue
  else resolveValue A z s o valPrice size0 o.sizeType

/-- The balances after the "numerical stability" block, portfolio.rs:1119-1150. -/
def snapExec (A : Arith) (st : ProcState) : ExecState :=
  { cash := snap A st.cash, position := snap A st.position, debt := snap A st.debt,
    freeCash := snap A st.freeCash }

/-- `execute_order`, portfolio.rs:1114-1342; `u` is the number drawn from the generator. -/
def executeOrder (A : Arith) (z : Bool) (st : ProcState) (o : Order) (u : F) :
    Except Err (ExecState × OrderResult) :=
  let s := snapExec A st
  if o.size.isnan then .ok (s, orderNotFilled OrderStatus.Ignored Info.SizeNaN)
  else if o.price.isnan then .ok (s, orderNotFilled OrderStatus.Ignored Info.PriceNaN)
  else
    match checkOrder s o with
    | some msg => .error (.valueError msg)
    | none =>
      match resolveSize A z s o (snap A st.valPrice) (snap A st.value) with
      | .bad msg => .error (.valueError msg)
      | .notFilled status info => .ok (s, orderNotFilled status info)
      | .size size percent =>
        match (if gt size zero then buy A s o size percent else sell A s o size.neg percent) with
        | .error e => .error e
        | .ok r =>
          if gt o.rejectProb zero && lt u o.rejectProb then
            .ok (s, orderNotFilled OrderStatus.Rejected Info.RandomEvent)
          else .ok r

/-! ## `update_value`, `process_order`, portfolio.rs:1344-1545 -/

/-- `update_value`, portfolio.rs:1344-1369; returns (val_price_now, value_now). -/
def updateValue (A : Arith) (cashBefore cashNow posBefore posNow valPriceBefore price valueBefore : F) : F × F :=
  let cashFlow := sub A cashNow cashBefore
  let assetBefore := if !eqb posBefore zero then mul A posBefore valPriceBefore else zero
  let assetNow := if !eqb posNow zero then mul A posNow price else zero
  let diff := sub A assetNow assetBefore
  (price, F.add A (F.add A valueBefore cashFlow) diff)

/-- `process_order`, portfolio.rs:1446-1545, with `fill_order_record` (1372-1382) and `fill_log_record_raw` (1386-1443).
The capacity of the vector of order records is taken to be the one it was created with; as in `processOrder`, a row is
appended where the code pushes an empty row and overwrites it. -/
def processOrder (A : Arith) (z : Bool) (i col group : Nat) (st : ProcState) (updVal : Bool) (o : Order) (u : F)
    (b : Buffers) : Except Err (OrderResult × ProcState × Buffers) :=
  match executeOrder A z st o u with
  | .error e => .error e
  | .ok (es, res) =>
    if res.status = OrderStatus.Rejected ∧ o.raiseReject = true then
      .error (.rejectedOrder res.statusInfo)
    else
      let filled : Bool := res.status = OrderStatus.Filled
      let vv := if filled && updVal then
          updateValue A st.cash es.cash st.position es.position st.valPrice res.price st.value
        else (st.valPrice, st.value)
      if filled = true ∧ st.oidx ≥ b.maxOrders then
        .error (.indexError "order_records index out of range. Set a higher max_orders.")
      else if o.log = true ∧ st.lidx ≥ b.maxLogs then
        .error (.indexError "log_records index out of range. Set a higher max_logs.")
      else
        let row : OrderRec := { id := st.oidx, col := col, idx := i, size := res.size, price := res.price,
                                fees := res.fees, side := res.side }
        let logRow : LogRec :=
          { id := st.lidx, group := group, col := col, idx := i,
            cash := st.cash, position := st.position, debt := st.debt,
            freeCash := st.freeCash, valPrice := st.valPrice, value := st.value,
            req := o, newCash := es.cash, newPosition := es.position,
            newDebt := es.debt, newFreeCash := es.freeCash,
            newValPrice := vv.1, newValue := vv.2,
            resSize := res.size, resPrice := res.price, resFees := res.fees,
            resSide := res.side, resStatus := res.status, resStatusInfo := res.statusInfo,
            orderId := if filled then (st.oidx : Int) else -1 }
        .ok (res,
          { cash := es.cash, position := es.position, debt := es.debt, freeCash := es.freeCash,
            valPrice := vv.1, value := vv.2,
            oidx := if filled then st.oidx + 1 else st.oidx,
            lidx := if o.log then st.lidx + 1 else st.lidx },
          { b with orders := if filled then b.orders ++ [row] else b.orders,
                   logs := if o.log then b.logs ++ [logRow] else b.logs })

end Vbt.Rs
