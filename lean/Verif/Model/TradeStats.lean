import Verif.Model.Trades
import Verif.Model.Ratios

/-!
# Statistics of trades: `vectorbt/portfolio/trades.py`

Records are lists, groups a function from columns to groups.  The result of a statistic is the array before it is given the labels
of the columns or groups (`wrap_reduced`, C87).  Square root is a parameter.
-/

namespace Vbt
open F

/-- `ColumnMapper.get_col_arr`, records/col_mapper.py:52-60: the column of each record, or its group. -/
def tradeCols (groups : Option (Nat → Nat)) (ts : List TradeRec) : List Nat :=
  match groups with
  | some g => ts.map fun x => g x.col
  | none => ts.map TradeRec.col

/-- `Records.count`, records/base.py:785-792. -/
def tradeCount (groups : Option (Nat → Nat)) (n : Nat) (junk : Nat → Nat) (ts : List TradeRec) : List Nat :=
  (List.range n).map (colMap (tradeCols groups ts) junk).lens

/-- `MappedArray.reduce` of a field, records/mapped_array.py:753-806. -/
def reduceField (field : TradeRec → F) (f : List F → F) (fill : F) (groups : Option (Nat → Nat)) (n : Nat) (junk : Nat → Nat)
    (ts : List TradeRec) : List F :=
  reduceMapped (fun _ => f) fill (ts.map field) (colMap (tradeCols groups ts) junk) n

/-- `Trades.winning`, portfolio/trades.py:598-602. -/
def winningTrades (ts : List TradeRec) : List TradeRec := ts.filter fun x => gt x.pnl zero

/-- `Trades.losing`, portfolio/trades.py:604-608. -/
def losingTrades (ts : List TradeRec) : List TradeRec := ts.filter fun x => lt x.pnl zero

/-- `Trades.closed`, portfolio/trades.py:547: `status == TradeStatus.Closed`. -/
def closedTrades (ts : List TradeRec) : List TradeRec := ts.filter fun x => x.status = TradeStatus.Closed

/-- `Trades.open`, portfolio/trades.py:547: `status == TradeStatus.Open`. -/
def openTrades (ts : List TradeRec) : List TradeRec := ts.filter fun x => x.status = TradeStatus.Open

/-- `Trades.win_rate`, portfolio/trades.py:624-632. -/
def winRate (A : Arith) (groups : Option (Nat → Nat)) (n : Nat) (junk : Nat → Nat) (ts : List TradeRec) : List F :=
  List.zipWith (fun w k => div A (fin (w : Nat)) (fin (k : Nat))) (tradeCount groups n junk (winningTrades ts))
    (tradeCount groups n junk ts)

/-- `a[np.isnan(a) & has_values] = 0.0`, portfolio/trades.py:640-643 and 657-660. -/
def zeroIfTrades (count : List Nat) (a : List F) : List F :=
  List.zipWith (fun k x => if x.isnan && decide (0 < k) then zero else x) count a

/-- `Trades.profit_factor`, portfolio/trades.py:634-648. -/
def profitFactor (A : Arith) (groups : Option (Nat → Nat)) (n : Nat) (junk : Nat → Nat) (ts : List TradeRec) : List F :=
  let count := tradeCount groups n junk ts
  let win := zeroIfTrades count (reduceField TradeRec.pnl (nansum A) zero groups n junk (winningTrades ts))
  let loss := zeroIfTrades count (reduceField TradeRec.pnl (nansum A) zero groups n junk (losingTrades ts))
  List.zipWith (fun w l => div A w (abs l)) win loss

/-- `Trades.expectancy`, portfolio/trades.py:650-664. -/
def expectancy (A : Arith) (groups : Option (Nat → Nat)) (n : Nat) (junk : Nat → Nat) (ts : List TradeRec) : List F :=
  let rate := winRate A groups n junk ts
  let count := tradeCount groups n junk ts
  let win := zeroIfTrades count (reduceField TradeRec.pnl (nanmean A) nan groups n junk (winningTrades ts))
  let loss := zeroIfTrades count (reduceField TradeRec.pnl (nanmean A) nan groups n junk (losingTrades ts))
  List.zipWith (fun p x => sub A (mul A p x.1) (mul A (sub A one p) (abs x.2))) rate (win.zip loss)

/-- `Trades.sqn`, portfolio/trades.py:666-674. -/
def systemQuality (A : Arith) (sqrt : F → F) (groups : Option (Nat → Nat)) (n : Nat) (junk : Nat → Nat) (ts : List TradeRec) :
    List F :=
  let mean := reduceField TradeRec.pnl (nanmean A) nan groups n junk ts
  let std := reduceField TradeRec.pnl (fun l => nanstd A sqrt l 1) nan groups n junk ts
  List.zipWith (fun k x => div A (mul A (sqrt (fin (k : Nat))) x.1) x.2) (tradeCount groups n junk ts) (mean.zip std)

/-- The trades behind most metrics of `Trades.stats`, portfolio/trades.py:743-805: `'closed.X'` unless `incl_open`. -/
def statsTrades (inclOpen : Bool) (ts : List TradeRec) : List TradeRec := if inclOpen then ts else closedTrades ts

/-- The metric `profit_factor`, portfolio/trades.py:791-795. -/
def statsProfitFactor (A : Arith) (inclOpen : Bool) (groups : Option (Nat → Nat)) (n : Nat) (junk : Nat → Nat)
    (ts : List TradeRec) : List F := profitFactor A groups n junk (statsTrades inclOpen ts)

/-- The metric `expectancy`, portfolio/trades.py:796-800. -/
def statsExpectancy (A : Arith) (inclOpen : Bool) (groups : Option (Nat → Nat)) (n : Nat) (junk : Nat → Nat)
    (ts : List TradeRec) : List F := expectancy A groups n junk (statsTrades inclOpen ts)

/-- The metric `win_rate`, portfolio/trades.py:737-742: of the closed trades, whatever `incl_open` is, times 100. -/
def statsWinRate (A : Arith) (_inclOpen : Bool) (groups : Option (Nat → Nat)) (n : Nat) (junk : Nat → Nat)
    (ts : List TradeRec) : List F := (winRate A groups n junk (closedTrades ts)).map fun x => mul A x (fin 100)

/-- The metric `open_trade_pnl`, portfolio/trades.py:736. -/
def statsOpenPnl (A : Arith) (groups : Option (Nat → Nat)) (n : Nat) (junk : Nat → Nat) (ts : List TradeRec) : List F :=
  reduceField TradeRec.pnl (nansum A) zero groups n junk (openTrades ts)

/-- `MappedArray.max` of counts, which are never NaN; `max_reduce_nb`, generic/nb.py:1525-1527. -/
def maxCount (l : List Nat) : Nat := l.foldl max 0

/-- The metrics `winning_streak` and `losing_streak` (portfolio/trades.py:743-754) of column `c`; `none` is the missing value of a
column without trades. -/
def statsStreak (hit : F → Bool) (inclOpen : Bool) (junk : Nat → Nat) (ts : List TradeRec) (c : Nat) : Option Nat :=
  let us := statsTrades inclOpen ts
  let pnl := takeIdxs (us.map TradeRec.pnl) ((colMap (us.map TradeRec.col) junk).col c)
  if pnl.isEmpty then none else some (maxCount (streaks hit 0 pnl))

/-- The metrics `best_trade` and `worst_trade` (portfolio/trades.py:755-766), the latter with `lt`, before they are multiplied by 100. -/
def statsExtreme (better : F → F → Bool) (inclOpen : Bool) (groups : Option (Nat → Nat)) (n : Nat) (junk : Nat → Nat)
    (ts : List TradeRec) : List (Except Err F) :=
  let us := statsTrades inclOpen ts
  reduceMapped (fun _ => nanSel better) (.ok nan) (us.map TradeRec.ret) (colMap (tradeCols groups us) junk) n

end Vbt
