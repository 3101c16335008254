import Verif.Model.Trades
import Verif.Model.RustOrder

/-!
# Trades and positions in the Rust engine: `rust/src/portfolio.rs:2292-2309, 3534-3593, 5297-5551, 5586-5788, 5873-6065`

The records of a column are read through the column map like in the Numba functions (`columnRecords`); a column number out
of the bounds of the arrays is not modelled.  A division never raises.
-/

namespace Vbt.Rs
open F

/-- `get_trade_stats`, portfolio.rs:2292-2309. -/
def tradeStats (A : Arith) (size entryPrice entryFees exitPrice exitFees : F) (direction : Int) : F × F :=
  let entryVal := mul A size entryPrice
  let exitVal := mul A size exitPrice
  let valDiff := addTol A exitVal (neg entryVal)
  let valDiff := if !eqb valDiff zero && direction = TradeDirection.Short then mul A valDiff (fin (-1)) else valDiff
  let pnl := sub A (sub A valDiff entryFees) exitFees
  (pnl, F.div A pnl entryVal)

/-- A `TradeRecord` with the results of `get_trade_stats`, portfolio.rs:5532-5549, 5670-5690, 5716-5742, 5768-5787. -/
def tradeRecord (A : Arith) (id : Int) (col : Nat) (size : F) (entryIdx : Int) (entryPrice entryFees : F) (exitIdx : Int)
    (exitPrice exitFees : F) (direction status parentId : Int) : TradeRec :=
  let st := tradeStats A size entryPrice entryFees exitPrice exitFees direction
  { id := id, col := col, size := size, entryIdx := entryIdx, entryPrice := entryPrice, entryFees := entryFees,
    exitIdx := exitIdx, exitPrice := exitPrice, exitFees := exitFees, pnl := st.1, ret := st.2,
    direction := direction, status := status, parentId := parentId }

/-! ## Entry trades -/

/-- One iteration of `fill_entry_trades_in_position`, portfolio.rs:5506-5550. -/
def fillEntryStep (A : Arith) (os : List OrderRec) (col firstC : Nat) (firstSize firstFees : F) (exitIdx : Int)
    (exitPrice xSize xFees : F) (direction status parentId : Int) (records : List TradeRec) (c : Nat) : List TradeRec :=
  match os[c]? with
  | none => records
  | some o =>
    if isExit direction o.side then records
    else
      let entrySize := if c = firstC then firstSize else o.size
      let entryFees := if c = firstC then firstFees else o.fees
      let exitFees := mul A (F.div A entrySize xSize) xFees
      records ++ [tradeRecord A records.length col entrySize o.idx o.price entryFees exitIdx exitPrice exitFees
        direction status parentId]

/-- `fill_entry_trades_in_position`, portfolio.rs:5485-5551. -/
def fillEntryTrades (A : Arith) (os : List OrderRec) (col firstC lastC : Nat) (firstSize firstFees : F) (exitIdx : Int)
    (xSize xGross xFees : F) (direction status parentId : Int) (records : List TradeRec) : List TradeRec :=
  let exitPrice := F.div A xGross xSize
  (List.range' firstC (lastC + 1 - firstC)).foldl
    (fillEntryStep A os col firstC firstSize firstFees exitIdx exitPrice xSize xFees direction status parentId) records

/-- Variables of `get_entry_trades_inner`; the sums of gross and fees of the entries are not kept. -/
structure EntryVars where
  lastId : Int
  inPos : Bool
  direction : Int
  eSize : F
  xSize : F
  xGross : F
  xFees : F
  firstC : Nat
  firstSize : F
  firstFees : F
  parentId : Int
  records : List TradeRec

/-- Begin of a column, portfolio.rs:5318-5328. -/
def EntryVars.start (parentId : Int) (records : List TradeRec) : EntryVars :=
  { lastId := -1, inPos := false, direction := 0, eSize := zero, xSize := zero, xGross := zero, xFees := zero, firstC := 0,
    firstSize := zero, firstFees := zero, parentId := parentId, records := records }

/-- Opening of a position, portfolio.rs:5353-5369. -/
def EntryVars.opened (s : EntryVars) (c : Nat) (o : OrderRec) : EntryVars :=
  if !s.inPos then
    { s with
      firstC := c, inPos := true, parentId := s.parentId + 1,
      direction := if o.side = OrderSide.Buy then TradeDirection.Long else TradeDirection.Short,
      eSize := zero, xSize := zero, xGross := zero, xFees := zero, firstSize := o.size, firstFees := o.fees }
  else s

/-- An exit order, portfolio.rs:5379-5450. -/
def entryExit (A : Arith) (os : List OrderRec) (col : Nat) (s : EntryVars) (c : Nat) (o : OrderRec) : EntryVars :=
  if isClose A (add A s.xSize o.size) s.eSize then
    let xGross := add A s.xGross (mul A o.size o.price)
    let xFees := add A s.xFees o.fees
    { s with
      inPos := false, xSize := s.eSize, xGross := xGross, xFees := xFees,
      records := fillEntryTrades A os col s.firstC c s.firstSize s.firstFees o.idx s.eSize xGross xFees s.direction
        TradeStatus.Closed s.parentId s.records }
  else if isLess A (add A s.xSize o.size) s.eSize then
    { s with
      xSize := add A s.xSize o.size, xGross := add A s.xGross (mul A o.size o.price), xFees := add A s.xFees o.fees }
  else
    let remaining := addTol A s.eSize (neg s.xSize)
    let xGross := add A s.xGross (mul A remaining o.price)
    let xFees := add A s.xFees (mul A (F.div A remaining o.size) o.fees)
    let eSize := addTol A o.size (neg remaining)
    { s with
      firstC := c, inPos := true, parentId := s.parentId + 1,
      direction := if o.side = OrderSide.Buy then TradeDirection.Long else TradeDirection.Short,
      eSize := eSize, firstSize := eSize, firstFees := mul A (F.div A eSize o.size) o.fees,
      xSize := zero, xGross := zero, xFees := zero,
      records := fillEntryTrades A os col s.firstC c s.firstSize s.firstFees o.idx s.eSize xGross xFees s.direction
        TradeStatus.Closed s.parentId s.records }

/-- One iteration of `get_entry_trades_inner`, portfolio.rs:5330-5452. -/
def entryStep (A : Arith) (os : List OrderRec) (col : Nat) (s : EntryVars) (x : OrderRec × Nat) : Except Err EntryVars :=
  if (x.1.id : Int) < s.lastId then .error (.valueError "id must come in ascending order per column")
  else if le x.1.size zero then .error (.valueError "size must be greater than 0")
  else if le x.1.price zero then .error (.valueError "price must be greater than 0")
  else
    let s := { s with lastId := (x.1.id : Int) }
    let s := s.opened x.2 x.1
    if isEntry s.direction x.1.side then .ok { s with eSize := add A s.eSize x.1.size }
    else if isExit s.direction x.1.side then .ok (entryExit A os col s x.2 x.1)
    else .ok s

/-- The open position after the last order, portfolio.rs:5454-5479. -/
def entryFinish (A : Arith) (os : List OrderRec) (col rows : Nat) (lastClose : F) (s : EntryVars) : EntryVars :=
  if s.inPos && isLess A s.xSize s.eSize then
    let remaining := addTol A s.eSize (neg s.xSize)
    { s with
      records := fillEntryTrades A os col s.firstC (os.length - 1) s.firstSize s.firstFees ((rows : Int) - 1) s.eSize
        (add A s.xGross (mul A remaining lastClose)) s.xFees s.direction TradeStatus.Open s.parentId s.records }
  else s

/-- One column of `get_entry_trades_inner`, portfolio.rs:5313-5480. -/
def entryColumn (A : Arith) (orders : List OrderRec) (junk : Nat → Nat) (rows : Nat) (lastClose : Nat → F)
    (x : Int × List TradeRec) (col : Nat) : Except Err (Int × List TradeRec) :=
  let os := columnRecords orders junk col
  if os.length = 0 then .ok x
  else
    match loopE (entryStep A os col) (EntryVars.start x.1 x.2) os.zipIdx with
    | .error e => .error e
    | .ok s =>
      let s := entryFinish A os col rows (lastClose col) s
      .ok (s.parentId, s.records)

/-- `get_entry_trades_inner`, portfolio.rs:5297-5483. -/
def getEntryTrades (A : Arith) (orders : List OrderRec) (junk : Nat → Nat) (rows nCols : Nat) (lastClose : Nat → F) :
    Except Err (List TradeRec) :=
  match loopE (entryColumn A orders junk rows lastClose) (-1, []) (List.range nCols) with
  | .error e => .error e
  | .ok x => .ok x.2

/-! ## Exit trades -/

/-- Variables of `get_exit_trades_inner`. -/
structure ExitVars where
  lastId : Int
  inPos : Bool
  direction : Int
  entryIdx : Int
  eSize : F
  eGross : F
  eFees : F
  parentId : Int
  records : List TradeRec

/-- Begin of a column, portfolio.rs:5607-5613. -/
def ExitVars.start (parentId : Int) (records : List TradeRec) : ExitVars :=
  { lastId := -1, inPos := false, direction := 0, entryIdx := 0, eSize := zero, eGross := zero, eFees := zero,
    parentId := parentId, records := records }

/-- Opening of a trade, portfolio.rs:5638-5650. -/
def ExitVars.opened (s : ExitVars) (o : OrderRec) : ExitVars :=
  if !s.inPos then
    { s with
      inPos := true, entryIdx := o.idx,
      direction := if o.side = OrderSide.Buy then TradeDirection.Long else TradeDirection.Short,
      parentId := s.parentId + 1, eSize := zero, eGross := zero, eFees := zero }
  else s

/-- The record pushed for an exit of `exitSize`, portfolio.rs:5671-5695, 5715-5742, 5764-5787. -/
def exitRecord (A : Arith) (col : Nat) (s : ExitVars) (exitSize : F) (exitIdx : Int) (exitPrice exitFees : F)
    (status : Int) : TradeRec :=
  let entryPrice := F.div A s.eGross s.eSize
  let entryFees := mul A (F.div A exitSize s.eSize) s.eFees
  tradeRecord A s.records.length col exitSize s.entryIdx entryPrice entryFees exitIdx exitPrice exitFees s.direction
    status s.parentId

/-- An exit order, portfolio.rs:5661-5755. -/
def exitExit (A : Arith) (col : Nat) (s : ExitVars) (o : OrderRec) : ExitVars :=
  if isCloseOrLess A o.size s.eSize then
    let exitSize := if isClose A o.size s.eSize then s.eSize else o.size
    let records := s.records ++ [exitRecord A col s exitSize o.idx o.price o.fees TradeStatus.Closed]
    if isClose A o.size s.eSize then { s with inPos := false, records := records }
    else
      let fraction := F.div A (sub A s.eSize o.size) s.eSize
      { s with
        eSize := mul A s.eSize fraction, eGross := mul A s.eGross fraction, eFees := mul A s.eFees fraction,
        records := records }
  else
    let clFees := mul A (F.div A s.eSize o.size) o.fees
    let eSize := sub A o.size s.eSize
    { s with
      eSize := eSize, eGross := mul A eSize o.price, eFees := sub A o.fees clFees, entryIdx := o.idx,
      direction := if s.direction = TradeDirection.Long then TradeDirection.Short else TradeDirection.Long,
      parentId := s.parentId + 1,
      records := s.records ++ [exitRecord A col s s.eSize o.idx o.price clFees TradeStatus.Closed] }

/-- One iteration of `get_exit_trades_inner`, portfolio.rs:5615-5756. -/
def exitStep (A : Arith) (col : Nat) (s : ExitVars) (o : OrderRec) : Except Err ExitVars :=
  if (o.id : Int) < s.lastId then .error (.valueError "id must come in ascending order per column")
  else if le o.size zero then .error (.valueError "size must be greater than 0")
  else if le o.price zero then .error (.valueError "price must be greater than 0")
  else
    let s := { s with lastId := (o.id : Int) }
    let s := s.opened o
    if isEntry s.direction o.side then
      .ok { s with
        eSize := add A s.eSize o.size, eGross := add A s.eGross (mul A o.size o.price), eFees := add A s.eFees o.fees }
    else if isExit s.direction o.side then .ok (exitExit A col s o)
    else .ok s

/-- The open position after the last order, portfolio.rs:5758-5788. -/
def exitFinish (A : Arith) (col rows : Nat) (lastClose : F) (s : ExitVars) : ExitVars :=
  if s.inPos && isLess A (neg s.eSize) zero then
    { s with
      records := s.records ++ [exitRecord A col s s.eSize ((rows : Int) - 1) lastClose zero TradeStatus.Open] }
  else s

/-- One column of `get_exit_trades_inner`, portfolio.rs:5602-5789. -/
def exitColumn (A : Arith) (orders : List OrderRec) (junk : Nat → Nat) (rows : Nat) (lastClose : Nat → F)
    (x : Int × List TradeRec) (col : Nat) : Except Err (Int × List TradeRec) :=
  let os := columnRecords orders junk col
  if os.length = 0 then .ok x
  else
    match loopE (exitStep A col) (ExitVars.start x.1 x.2) os with
    | .error e => .error e
    | .ok s =>
      let s := exitFinish A col rows (lastClose col) s
      .ok (s.parentId, s.records)

/-- `get_exit_trades_inner`, portfolio.rs:5586-5792. -/
def getExitTrades (A : Arith) (orders : List OrderRec) (junk : Nat → Nat) (rows nCols : Nat) (lastClose : Nat → F) :
    Except Err (List TradeRec) :=
  match loopE (exitColumn A orders junk rows lastClose) (-1, []) (List.range nCols) with
  | .error e => .error e
  | .ok x => .ok x.2

/-! ## Streaks -/

/-- One iteration of `trade_winning_streak_py` and `trade_losing_streak_py`, portfolio.rs:3546-3556, 3578-3588; the state is
(`curr_rank`, `out` so far). -/
def streakStep (hit : F → Bool) (s : Nat × List Nat) (pnl : F) : Nat × List Nat :=
  let rank := if hit pnl then s.1 + 1 else 0
  (rank, s.2 ++ [rank])

/-- `trade_winning_streak_py`, portfolio.rs:3534-3560. -/
def winningStreak (pnl : List F) : List Nat := (pnl.foldl (streakStep fun x => gt x zero) (0, [])).2

/-- `trade_losing_streak_py`, portfolio.rs:3565-3593. -/
def losingStreak (pnl : List F) : List Nat := (pnl.foldl (streakStep fun x => lt x zero) (0, [])).2

/-! ## Positions -/

/-- Variables of the loop of `aggregate_position`, portfolio.rs:5977-5987. -/
structure AggVars where
  size : F
  entryIdx : Int
  exitIdx : Int
  entryFees : F
  exitFees : F
  direction : Int
  status : Int
  entryGross : F
  exitGross : F

def AggVars.start : AggVars :=
  { size := zero, entryIdx := 0, exitIdx := 0, entryFees := zero, exitFees := zero, direction := 0, status := 0,
    entryGross := zero, exitGross := zero }

/-- One iteration of `aggregate_position`, portfolio.rs:5989-6012; `ts` are the trades of the column. -/
def aggStep (A : Arith) (ts : List TradeRec) (fromC toC : Nat) (s : AggVars) (c : Nat) : AggVars :=
  match ts[c]? with
  | none => s
  | some t =>
    { size := add A s.size t.size,
      entryGross := add A s.entryGross (mul A t.size t.entryPrice),
      exitGross := add A s.exitGross (mul A t.size t.exitPrice),
      entryFees := add A s.entryFees t.entryFees,
      exitFees := add A s.exitFees t.exitFees,
      entryIdx := if c = fromC then t.entryIdx else s.entryIdx,
      exitIdx := if c = toC - 1 then t.exitIdx else s.exitIdx,
      direction := if c = toC - 1 then t.direction else s.direction,
      status := if c = toC - 1 then t.status else s.status }

/-- `aggregate_position`, portfolio.rs:5954-6041; the trade copied exists (out of range reads are not modelled). -/
def aggregatePosition (A : Arith) (ts : List TradeRec) (fromC toC col pidx : Nat) : TradeRec :=
  let s := (List.range' fromC (toC - fromC)).foldl (aggStep A ts fromC toC) AggVars.start
  let whole := tradeRecord A pidx col s.size s.entryIdx (F.div A s.entryGross s.size) s.entryFees s.exitIdx
    (F.div A s.exitGross s.size) s.exitFees s.direction s.status pidx
  if toC - fromC = 1 then
    match ts[fromC]? with
    | none => whole
    | some t => { t with id := pidx, parentId := pidx }
  else whole

/-- Variables of `get_positions_inner`, portfolio.rs:5895-5897. -/
structure PosVars where
  lastId : Int
  lastPosId : Int
  fromC : Nat
  records : List TradeRec

/-- One iteration of `get_positions_inner`, portfolio.rs:5899-5932. -/
def posStep (A : Arith) (ts : List TradeRec) (col : Nat) (s : PosVars) (x : TradeRec × Nat) : Except Err PosVars :=
  if x.1.id < s.lastId then .error (.valueError "id must come in ascending order per column")
  else if x.1.parentId ≠ s.lastPosId then
    let records :=
      if s.lastPosId ≠ -1 then s.records ++ [aggregatePosition A ts s.fromC x.2 col s.records.length] else s.records
    .ok { lastId := x.1.id, lastPosId := x.1.parentId, fromC := x.2, records := records }
  else .ok { s with lastId := x.1.id }

/-- One column of `get_positions_inner`, portfolio.rs:5890-5949. -/
def posColumn (A : Arith) (trades : List TradeRec) (junk : Nat → Nat) (records : List TradeRec) (col : Nat) :
    Except Err (List TradeRec) :=
  let ts := takeIdxs trades ((colMap (trades.map (·.col)) junk).col col)
  if ts.length = 0 then .ok records
  else
    match loopE (posStep A ts col) { lastId := -1, lastPosId := -1, fromC := 0, records := records } ts.zipIdx with
    | .error e => .error e
    | .ok s => .ok (s.records ++ [aggregatePosition A ts s.fromC ts.length col s.records.length])

/-- `get_positions_inner`, portfolio.rs:5873-5952. -/
def getPositions (A : Arith) (trades : List TradeRec) (junk : Nat → Nat) (nCols : Nat) : Except Err (List TradeRec) :=
  loopE (posColumn A trades junk) [] (List.range nCols)

end Vbt.Rs
