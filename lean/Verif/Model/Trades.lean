import Verif.Model.Recon

/-!
# Trades and positions from order records: `vectorbt/portfolio/nb.py:5706-6482` and `1232-1346`

The record arrays are written front to back, so they are lists that grow at the end; `tidx` and `pidx` are their
lengths.  Variables that are first assigned when a position opens start with zeros here; they are never read before.
-/

namespace Vbt
open F

namespace TradeDirection
/-- enums.py `TradeDirectionT`. -/
abbrev Long : Int := 0
abbrev Short : Int := 1
end TradeDirection

namespace TradeStatus
/-- enums.py `TradeStatusT`. -/
abbrev Open : Int := 0
abbrev Closed : Int := 1
end TradeStatus

/-- enums.py `trade_dt`. -/
structure TradeRec where
  id : Int
  col : Nat
  size : F
  entryIdx : Int
  entryPrice : F
  entryFees : F
  exitIdx : Int
  exitPrice : F
  exitFees : F
  pnl : F
  ret : F
  direction : Int
  status : Int
  parentId : Int
deriving DecidableEq

/-- `get_trade_stats_nb`, portfolio/nb.py:5711-5727. -/
def tradeStats (A : Arith) (size entryPrice entryFees exitPrice exitFees : F) (direction : Int) : Except Err (F × F) :=
  let entryVal := mul A size entryPrice
  let exitVal := mul A size exitPrice
  let valDiff := addNb A exitVal (neg entryVal)
  let valDiff := if !eqb valDiff zero && direction = TradeDirection.Short then mul A valDiff (fin (-1)) else valDiff
  let pnl := sub A (sub A valDiff entryFees) exitFees
  match divE A pnl entryVal with
  | .error e => .error e
  | .ok ret => .ok (pnl, ret)

/-- `fill_trade_record_nb`, portfolio/nb.py:5731-5764. -/
def fillTradeRecord (A : Arith) (id : Int) (col : Nat) (size : F) (entryIdx : Int) (entryPrice entryFees : F) (exitIdx : Int)
    (exitPrice exitFees : F) (direction status parentId : Int) : Except Err TradeRec :=
  match tradeStats A size entryPrice entryFees exitPrice exitFees direction with
  | .error e => .error e
  | .ok (pnl, ret) => .ok {
      id := id, col := col, size := size, entryIdx := entryIdx, entryPrice := entryPrice, entryFees := entryFees,
      exitIdx := exitIdx, exitPrice := exitPrice, exitFees := exitFees, pnl := pnl, ret := ret,
      direction := direction, status := status, parentId := parentId }

/-- Whether an order increases a position of this direction, portfolio/nb.py:5957-5959, 6189-6191. -/
def isEntry (direction side : Int) : Bool :=
  (direction = TradeDirection.Long && side = OrderSide.Buy) || (direction = TradeDirection.Short && side = OrderSide.Sell)

/-- Whether an order decreases a position of this direction, portfolio/nb.py:5797-5799, 5965-5967, 6197-6199. -/
def isExit (direction side : Int) : Bool :=
  (direction = TradeDirection.Long && side = OrderSide.Sell) || (direction = TradeDirection.Short && side = OrderSide.Buy)

/-! ## Entry trades -/

/-- One iteration of `fill_entry_trades_in_position_nb`, portfolio/nb.py:5791-5832; `os` are the orders of the column. -/
def fillEntryStep (A : Arith) (os : List OrderRec) (col firstC : Nat) (firstSize firstFees : F) (exitIdx : Int)
    (xSize xGross xFees : F) (direction status parentId : Int) (records : List TradeRec) (c : Nat) :
    Except Err (List TradeRec) :=
  match os[c]? with
  | none => .ok records
  | some o =>
    if isExit direction o.side then .ok records
    else
      let entrySize := if c = firstC then firstSize else o.size
      let entryFees := if c = firstC then firstFees else o.fees
      match divE A xGross xSize with
      | .error e => .error e
      | .ok exitPrice =>
        match divE A entrySize xSize with
        | .error e => .error e
        | .ok sizeFraction =>
          let exitFees := mul A sizeFraction xFees
          match fillTradeRecord A records.length col entrySize o.idx o.price entryFees exitIdx exitPrice exitFees
              direction status parentId with
          | .error e => .error e
          | .ok t => .ok (records ++ [t])

/-- `fill_entry_trades_in_position_nb`, portfolio/nb.py:5768-5834. -/
def fillEntryTrades (A : Arith) (os : List OrderRec) (col firstC lastC : Nat) (firstSize firstFees : F) (exitIdx : Int)
    (xSize xGross xFees : F) (direction status parentId : Int) (records : List TradeRec) : Except Err (List TradeRec) :=
  loopE (fillEntryStep A os col firstC firstSize firstFees exitIdx xSize xGross xFees direction status parentId) records
    (List.range' firstC (lastC + 1 - firstC))

/-- Variables of the loops of `get_entry_trades_nb`. -/
structure EntryState where
  lastId : Int
  inPos : Bool
  firstC : Nat
  direction : Int
  eSize : F
  eGross : F
  eFees : F
  xSize : F
  xGross : F
  xFees : F
  firstSize : F
  firstFees : F
  parentId : Int
  records : List TradeRec

/-- State at the begin of a column, portfolio/nb.py:5917-5918. -/
def EntryState.start (parentId : Int) (records : List TradeRec) : EntryState :=
  { lastId := -1, inPos := false, firstC := 0, direction := 0, eSize := zero, eGross := zero, eFees := zero,
    xSize := zero, xGross := zero, xFees := zero, firstSize := zero, firstFees := zero, parentId := parentId,
    records := records }

/-- "New position opened", portfolio/nb.py:5939-5955. -/
def EntryState.opened (s : EntryState) (c : Nat) (o : OrderRec) : EntryState :=
  if s.inPos then s
  else
    { s with
      firstC := c, inPos := true, parentId := s.parentId + 1,
      direction := if o.side = OrderSide.Buy then TradeDirection.Long else TradeDirection.Short,
      eSize := zero, eGross := zero, eFees := zero, xSize := zero, xGross := zero, xFees := zero,
      firstSize := o.size, firstFees := o.fees }

/-- An exit order, portfolio/nb.py:5965-6042. -/
def entryExit (A : Arith) (os : List OrderRec) (col : Nat) (s : EntryState) (c : Nat) (o : OrderRec) :
    Except Err EntryState :=
  if isClose A (add A s.xSize o.size) s.eSize then
    let xGross := add A s.xGross (mul A o.size o.price)
    let xFees := add A s.xFees o.fees
    match fillEntryTrades A os col s.firstC c s.firstSize s.firstFees o.idx s.eSize xGross xFees s.direction
        TradeStatus.Closed s.parentId s.records with
    | .error e => .error e
    | .ok records => .ok { s with inPos := false, xSize := s.eSize, xGross := xGross, xFees := xFees, records := records }
  else if isLess A (add A s.xSize o.size) s.eSize then
    .ok { s with
      xSize := add A s.xSize o.size, xGross := add A s.xGross (mul A o.size o.price), xFees := add A s.xFees o.fees }
  else
    let remaining := addNb A s.eSize (neg s.xSize)
    match divE A remaining o.size with
    | .error e => .error e
    | .ok fraction =>
      match fillEntryTrades A os col s.firstC c s.firstSize s.firstFees o.idx s.eSize
          (add A s.xGross (mul A remaining o.price)) (add A s.xFees (mul A fraction o.fees)) s.direction
          TradeStatus.Closed s.parentId s.records with
      | .error e => .error e
      | .ok records =>
        let eSize := addNb A o.size (neg remaining)
        match divE A eSize o.size with
        | .error e => .error e
        | .ok newFraction =>
          .ok { s with
            firstC := c, parentId := s.parentId + 1,
            direction := if o.side = OrderSide.Buy then TradeDirection.Long else TradeDirection.Short,
            eSize := eSize, eGross := mul A eSize o.price, eFees := mul A newFraction o.fees,
            firstSize := eSize, firstFees := mul A newFraction o.fees,
            xSize := zero, xGross := zero, xFees := zero, records := records }

/-- One iteration of `get_entry_trades_nb`, portfolio/nb.py:5920-6042. -/
def entryStep (A : Arith) (os : List OrderRec) (col : Nat) (s : EntryState) (x : OrderRec × Nat) : Except Err EntryState :=
  if (x.1.id : Int) < s.lastId then .error (.valueError "id must come in ascending order per column")
  else if le x.1.size zero then .error (.valueError "Found order with size 0 or less")
  else if le x.1.price zero then .error (.valueError "Found order with price 0 or less")
  else
    let s := { s with lastId := (x.1.id : Int) }
    let s := s.opened x.2 x.1
    if isEntry s.direction x.1.side then
      .ok { s with
        eSize := add A s.eSize x.1.size, eGross := add A s.eGross (mul A x.1.size x.1.price),
        eFees := add A s.eFees x.1.fees }
    else if isExit s.direction x.1.side then entryExit A os col s x.2 x.1
    else .ok s

/-- The open position after the last order, portfolio/nb.py:6044-6069. -/
def entryFinish (A : Arith) (os : List OrderRec) (col rows : Nat) (lastClose : F) (s : EntryState) : Except Err EntryState :=
  if s.inPos && isLess A s.xSize s.eSize then
    let remaining := addNb A s.eSize (neg s.xSize)
    match fillEntryTrades A os col s.firstC (os.length - 1) s.firstSize s.firstFees ((rows : Int) - 1) s.eSize
        (add A s.xGross (mul A remaining lastClose)) s.xFees s.direction TradeStatus.Open s.parentId s.records with
    | .error e => .error e
    | .ok records => .ok { s with records := records }
  else .ok s

/-- One column of `get_entry_trades_nb`, portfolio/nb.py:5913-6069. -/
def entryColumn (A : Arith) (orders : List OrderRec) (junk : Nat → Nat) (rows : Nat) (lastClose : Nat → F)
    (x : Int × List TradeRec) (col : Nat) : Except Err (Int × List TradeRec) :=
  let os := columnRecords orders junk col
  if os.length = 0 then .ok x
  else
    match loopE (entryStep A os col) (EntryState.start x.1 x.2) os.zipIdx with
    | .error e => .error e
    | .ok s =>
      match entryFinish A os col rows (lastClose col) s with
      | .error e => .error e
      | .ok s => .ok (s.parentId, s.records)

/-- `get_entry_trades_nb`, portfolio/nb.py:5838-6071; `lastClose` is the last row of `close`. -/
def getEntryTrades (A : Arith) (orders : List OrderRec) (junk : Nat → Nat) (rows nCols : Nat) (lastClose : Nat → F) :
    Except Err (List TradeRec) :=
  match loopE (entryColumn A orders junk rows lastClose) (-1, []) (List.range nCols) with
  | .error e => .error e
  | .ok x => .ok x.2

/-! ## Exit trades -/

/-- Variables of the loops of `get_exit_trades_nb`. -/
structure ExitState where
  lastId : Int
  inPos : Bool
  entryIdx : Int
  direction : Int
  eSize : F
  eGross : F
  eFees : F
  parentId : Int
  records : List TradeRec

/-- State at the begin of a column, portfolio/nb.py:6154-6155. -/
def ExitState.start (parentId : Int) (records : List TradeRec) : ExitState :=
  { lastId := -1, inPos := false, entryIdx := 0, direction := 0, eSize := zero, eGross := zero, eFees := zero,
    parentId := parentId, records := records }

/-- "Trade opened", portfolio/nb.py:6176-6187. -/
def ExitState.opened (s : ExitState) (o : OrderRec) : ExitState :=
  if s.inPos then s
  else
    { s with
      inPos := true, entryIdx := o.idx, parentId := s.parentId + 1,
      direction := if o.side = OrderSide.Buy then TradeDirection.Long else TradeDirection.Short,
      eSize := zero, eGross := zero, eFees := zero }

/-- The record of a trade exiting `exitSize`, portfolio/nb.py:6210-6231, 6253-6274, 6295-6316. -/
def exitRecord (A : Arith) (col : Nat) (s : ExitState) (exitSize : F) (exitIdx : Int) (exitPrice exitFees : F)
    (status : Int) : Except Err TradeRec :=
  match divE A s.eGross s.eSize with
  | .error e => .error e
  | .ok entryPrice =>
    match divE A exitSize s.eSize with
    | .error e => .error e
    | .ok sizeFraction =>
      fillTradeRecord A s.records.length col exitSize s.entryIdx entryPrice (mul A sizeFraction s.eFees) exitIdx
        exitPrice exitFees s.direction status s.parentId

/-- An exit order, portfolio/nb.py:6197-6286. -/
def exitExit (A : Arith) (col : Nat) (s : ExitState) (o : OrderRec) : Except Err ExitState :=
  if isCloseOrLess A o.size s.eSize then
    let exitSize := if isClose A o.size s.eSize then s.eSize else o.size
    match exitRecord A col s exitSize o.idx o.price o.fees TradeStatus.Closed with
    | .error e => .error e
    | .ok t =>
      if isClose A o.size s.eSize then
        .ok { s with entryIdx := -1, direction := -1, inPos := false, records := s.records ++ [t] }
      else
        match divE A (sub A s.eSize o.size) s.eSize with
        | .error e => .error e
        | .ok fraction =>
          .ok { s with
            eSize := mul A s.eSize fraction, eGross := mul A s.eGross fraction, eFees := mul A s.eFees fraction,
            records := s.records ++ [t] }
  else
    match divE A s.eSize o.size with
    | .error e => .error e
    | .ok fraction =>
      let clFees := mul A fraction o.fees
      match exitRecord A col s s.eSize o.idx o.price clFees TradeStatus.Closed with
      | .error e => .error e
      | .ok t =>
        let eSize := sub A o.size s.eSize
        .ok { s with
          eSize := eSize, eGross := mul A eSize o.price, eFees := sub A o.fees clFees, entryIdx := o.idx,
          direction := if s.direction = TradeDirection.Long then TradeDirection.Short else TradeDirection.Long,
          parentId := s.parentId + 1, records := s.records ++ [t] }

/-- One iteration of `get_exit_trades_nb`, portfolio/nb.py:6157-6286. -/
def exitStep (A : Arith) (col : Nat) (s : ExitState) (o : OrderRec) : Except Err ExitState :=
  if (o.id : Int) < s.lastId then .error (.valueError "id must come in ascending order per column")
  else if le o.size zero then .error (.valueError "Found order with size 0 or less")
  else if le o.price zero then .error (.valueError "Found order with price 0 or less")
  else
    let s := { s with lastId := (o.id : Int) }
    let s := s.opened o
    if isEntry s.direction o.side then
      .ok { s with
        eSize := add A s.eSize o.size, eGross := add A s.eGross (mul A o.size o.price), eFees := add A s.eFees o.fees }
    else if isExit s.direction o.side then exitExit A col s o
    else .ok s

/-- The open position after the last order, portfolio/nb.py:6288-6317. -/
def exitFinish (A : Arith) (col rows : Nat) (lastClose : F) (s : ExitState) : Except Err ExitState :=
  if s.inPos && isLess A (neg s.eSize) zero then
    match exitRecord A col s s.eSize ((rows : Int) - 1) lastClose zero TradeStatus.Open with
    | .error e => .error e
    | .ok t => .ok { s with records := s.records ++ [t] }
  else .ok s

/-- One column of `get_exit_trades_nb`, portfolio/nb.py:6150-6317. -/
def exitColumn (A : Arith) (orders : List OrderRec) (junk : Nat → Nat) (rows : Nat) (lastClose : Nat → F)
    (x : Int × List TradeRec) (col : Nat) : Except Err (Int × List TradeRec) :=
  let os := columnRecords orders junk col
  if os.length = 0 then .ok x
  else
    match loopE (exitStep A col) (ExitState.start x.1 x.2) os with
    | .error e => .error e
    | .ok s =>
      match exitFinish A col rows (lastClose col) s with
      | .error e => .error e
      | .ok s => .ok (s.parentId, s.records)

/-- `get_exit_trades_nb`, portfolio/nb.py:6075-6319. -/
def getExitTrades (A : Arith) (orders : List OrderRec) (junk : Nat → Nat) (rows nCols : Nat) (lastClose : Nat → F) :
    Except Err (List TradeRec) :=
  match loopE (exitColumn A orders junk rows lastClose) (-1, []) (List.range nCols) with
  | .error e => .error e
  | .ok x => .ok x.2

/-! ## Streaks -/

/-- `trade_winning_streak_nb` and `trade_losing_streak_nb`, portfolio/nb.py:6323-6347; `hit` is `pnl > 0` or `pnl < 0`. -/
def streaks (hit : F → Bool) : Nat → List F → List Nat
  | _, [] => []
  | rank, x :: xs =>
    let rank := if hit x then rank + 1 else 0
    rank :: streaks hit rank xs

def winningStreak (pnl : List F) : List Nat := streaks (fun x => gt x zero) 0 pnl
def losingStreak (pnl : List F) : List Nat := streaks (fun x => lt x zero) 0 pnl

/-! ## Positions -/

/-- `fill_position_record_nb`, portfolio/nb.py:6354-6383; the slice of trades is not empty. -/
def fillPosition (A : Arith) (id : Int) (ts : List TradeRec) (first last : TradeRec) : Except Err TradeRec :=
  let size := npSum A (ts.map (·.size))
  match divE A (npSum A (ts.map fun t => mul A t.size t.entryPrice)) size with
  | .error e => .error e
  | .ok entryPrice =>
    match divE A (npSum A (ts.map fun t => mul A t.size t.exitPrice)) size with
    | .error e => .error e
    | .ok exitPrice =>
      fillTradeRecord A id first.col size first.entryIdx entryPrice (npSum A (ts.map (·.entryFees))) last.exitIdx
        exitPrice (npSum A (ts.map (·.exitFees))) last.direction last.status id

/-- One position record from the trades `from .. until`, portfolio/nb.py:6462-6468 and 6473-6479. -/
def positionRecord (A : Arith) (pidx : Nat) (trades : List TradeRec) (from_ until_ : Nat) : Except Err TradeRec :=
  let ts := (trades.take until_).drop from_
  match ts.head?, ts.getLast? with
  | some first, some last =>
    if until_ - from_ > 1 then fillPosition A pidx ts first last
    else .ok { first with id := pidx, parentId := pidx }
  | _, _ => .error (.indexError "empty slice")

/-- Variables of the loops of `get_positions_nb`. -/
structure PosState where
  lastId : Int
  lastPosId : Int
  fromTidx : Nat
  tidx : Nat
  records : List TradeRec

/-- One iteration of `get_positions_nb`, portfolio/nb.py:6450-6471. -/
def posStep (A : Arith) (trades : List TradeRec) (s : PosState) (tidx : Nat) : Except Err PosState :=
  match trades[tidx]? with
  | none => .error (.indexError "trade")
  | some t =>
    if t.id < s.lastId then .error (.valueError "id must come in ascending order per column")
    else if t.parentId ≠ s.lastPosId then
      if s.lastPosId ≠ -1 then
        match positionRecord A s.records.length trades s.fromTidx tidx with
        | .error e => .error e
        | .ok r =>
          .ok { lastId := t.id, lastPosId := t.parentId, fromTidx := tidx, tidx := tidx, records := s.records ++ [r] }
      else .ok { lastId := t.id, lastPosId := t.parentId, fromTidx := tidx, tidx := tidx, records := s.records }
    else .ok { s with lastId := t.id, tidx := tidx }

/-- One column of `get_positions_nb`, portfolio/nb.py:6443-6480.  `from_tidx` is -1 before the first trade; it is set at
the first trade of each column as parent ids are not negative, so it is a natural number here. -/
def posColumn (A : Arith) (trades : List TradeRec) (junk : Nat → Nat) (records : List TradeRec) (col : Nat) :
    Except Err (List TradeRec) :=
  let idxs := (colMap (trades.map (·.col)) junk).col col
  if idxs.length = 0 then .ok records
  else
    match loopE (posStep A trades) { lastId := -1, lastPosId := -1, fromTidx := 0, tidx := 0, records := records } idxs with
    | .error e => .error e
    | .ok s =>
      match positionRecord A s.records.length trades s.fromTidx (s.tidx + 1) with
      | .error e => .error e
      | .ok r => .ok (s.records ++ [r])

/-- `get_positions_nb`, portfolio/nb.py:6406-6482. -/
def getPositions (A : Arith) (trades : List TradeRec) (junk : Nat → Nat) (nCols : Nat) : Except Err (List TradeRec) :=
  loopE (posColumn A trades junk) [] (List.range nCols)

/-! ## The position record kept during simulation -/

/-- `update_open_pos_stats_nb`, portfolio/nb.py:1233-1252. -/
def updateOpenPosStats (A : Arith) (t : TradeRec) (positionNow price : F) : Except Err TradeRec :=
  if t.id ≥ 0 ∧ t.status = TradeStatus.Open then
    let exitPrice : Except Err F :=
      if t.exitPrice.isnan then .ok price
      else
        let exitSizeSum := sub A t.size positionNow.abs
        let exitGrossSum := mul A exitSizeSum t.exitPrice
        let exitGrossSum := add A exitGrossSum (mul A positionNow.abs price)
        divE A exitGrossSum t.size
    match exitPrice with
    | .error e => .error e
    | .ok exitPrice =>
      match tradeStats A t.size t.entryPrice t.entryFees exitPrice t.exitFees t.direction with
      | .error e => .error e
      | .ok (pnl, ret) => .ok { t with pnl := pnl, ret := ret }
  else .ok t

/-- The average exit price with another exit, portfolio/nb.py:1286-1292 and 1335-1341. -/
def exitAverage (A : Arith) (t : TradeRec) (before size price : F) (total : F → F) : Except Err F :=
  if t.exitPrice.isnan then .ok price
  else
    let exitSizeSum := sub A t.size before.abs
    let exitGrossSum := mul A exitSizeSum t.exitPrice
    let exitGrossSum := add A exitGrossSum (mul A size price)
    divE A exitGrossSum (total exitSizeSum)

/-- `update_pos_record_nb`, portfolio/nb.py:1256-1346. -/
def updatePosRecord (A : Arith) (t : TradeRec) (i col : Nat) (before now : F) (res : OrderResult) : Except Err TradeRec :=
  if res.status = OrderStatus.Filled then
    let side := if res.side = OrderSide.Buy then TradeDirection.Long else TradeDirection.Short
    let t' : Except Err TradeRec :=
      if eqb before zero && !eqb now zero then
        .ok { t with
          id := t.id + 1, col := col, size := res.size, entryIdx := i, entryPrice := res.price, entryFees := res.fees,
          exitIdx := -1, exitPrice := nan, exitFees := zero, direction := side, status := TradeStatus.Open,
          parentId := t.id + 1 }
      else if !eqb before zero && eqb now zero then
        match exitAverage A t before before.abs res.price (fun _ => t.size) with
        | .error e => .error e
        | .ok exitPrice =>
          let exitFees := add A t.exitFees res.fees
          match tradeStats A t.size t.entryPrice t.entryFees exitPrice exitFees t.direction with
          | .error e => .error e
          | .ok (pnl, ret) => .ok { t with
              exitIdx := i, exitPrice := exitPrice, exitFees := exitFees, pnl := pnl, ret := ret,
              status := TradeStatus.Closed }
      else if !eqb before.sign now.sign then
        match divE A now.abs (sub A now before).abs with
        | .error e => .error e
        | .ok fraction => .ok { t with
            id := t.id + 1, size := now.abs, entryIdx := i, entryPrice := res.price, entryFees := mul A fraction res.fees,
            exitIdx := -1, exitPrice := nan, exitFees := zero, direction := side, status := TradeStatus.Open,
            parentId := t.id + 1 }
      else if le before.abs now.abs then
        let entryGross := add A (mul A t.size t.entryPrice) (mul A res.size res.price)
        match divE A entryGross (add A t.size res.size) with
        | .error e => .error e
        | .ok entryPrice => .ok { t with
            entryPrice := entryPrice, entryFees := add A t.entryFees res.fees, size := add A t.size res.size }
      else
        match exitAverage A t before res.size res.price (fun x => add A x res.size) with
        | .error e => .error e
        | .ok exitPrice => .ok { t with exitPrice := exitPrice, exitFees := add A t.exitFees res.fees }
    match t' with
    | .error e => .error e
    | .ok t' => updateOpenPosStats A t' now res.price
  else .ok t

end Vbt
