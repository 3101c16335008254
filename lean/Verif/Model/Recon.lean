import Verif.Model.Records
import Verif.Model.Order

/-!
# Reconstruction of assets, cash and value from order records: `vectorbt/portfolio/nb.py:6485-7013`

A two-dimensional array is a function of row and column.  A function looping over the columns of a column map is
modelled for one column, given the records of this column (`columnRecords`).
-/

namespace Vbt
open F

/-- The records of a column, through the column map: `order_records[col_idxs[col_start_idxs[col] + c]]`,
portfolio/nb.py:6533-6535, 6658-6660, 6877-6879. -/
def columnRecords (orders : List OrderRec) (junk : Nat → Nat) (col : Nat) : List OrderRec :=
  takeIdxs orders ((colMap (orders.map (·.col)) junk).col col)

/-- `size *= -1` for sells, portfolio/nb.py:6545-6546, 6672-6673. -/
def signedSize (o : OrderRec) : F := if o.side = OrderSide.Sell then neg o.size else o.size

/-- `get_long_size_nb`, portfolio/nb.py:6489-6497. -/
def longSize (A : Arith) (before now : F) : F :=
  if le before zero && le now zero then zero
  else if ge before zero && lt now zero then neg before
  else if lt before zero && ge now zero then now
  else addNb A now (neg before)

/-- `get_short_size_nb`, portfolio/nb.py:6501-6509. -/
def shortSize (A : Arith) (before now : F) : F :=
  if ge before zero && ge now zero then zero
  else if ge before zero && lt now zero then neg now
  else if lt before zero && ge now zero then before
  else addNb A before (neg now)

/-- State of the loops over the records of a column. -/
structure FlowState where
  lastId : Int
  position : F
  debt : F
  out : Nat → F

def FlowState.start : FlowState := { lastId := -1, position := zero, debt := zero, out := fun _ => zero }

/-- One iteration of `asset_flow_nb`, portfolio/nb.py:6533-6555. -/
def assetFlowStep (A : Arith) (direction : Int) (s : FlowState) (o : OrderRec) : Except Err FlowState :=
  if (o.id : Int) < s.lastId then .error (.valueError "id must come in ascending order per column")
  else
    let size := signedSize o
    let new := addNb A s.position size
    let flow :=
      if direction = Direction.LongOnly then longSize A s.position new
      else if direction = Direction.ShortOnly then shortSize A s.position new
      else size
    .ok { s with lastId := o.id, position := new, out := setAt s.out o.idx (addNb A (s.out o.idx) flow) }

/-- `asset_flow_nb`, portfolio/nb.py:6513-6556, column `col`. -/
def assetFlow (A : Arith) (direction : Int) (orders : List OrderRec) (junk : Nat → Nat) (col : Nat) :
    Except Err (Nat → F) :=
  match loopE (assetFlowStep A direction) FlowState.start (columnRecords orders junk col) with
  | .error e => .error e
  | .ok s => .ok s.out

/-- `assets_nb`, portfolio/nb.py:6560-6571, one column: the value in row `i`. -/
def assetsAt (A : Arith) (flow : Nat → F) : Nat → F
  | 0 => addNb A zero (flow 0)
  | i + 1 => addNb A (assetsAt A flow i) (flow (i + 1))

/-- `get_free_cash_diff_nb`, portfolio/nb.py:6602-6640: (new debt, free cash flow). -/
def freeCashDiff (A : Arith) (before now debt price fees : F) : Except Err (F × F) :=
  let size := addNb A now (neg before)
  let finalCash := sub A (mul A (neg size) price) fees
  if isClose A size zero then .ok (debt, zero)
  else if gt size zero then
    if lt before zero then
      let shortSize := if lt now zero then abs size else abs before
      match divE A debt (abs before) with
      | .error e => .error e
      | .ok avg =>
        let diff := mul A shortSize avg
        .ok (addNb A debt (neg diff), addNb A (mul A two diff) finalCash)
    else .ok (debt, finalCash)
  else if lt now zero then
    let shortSize := if lt before zero then abs size else abs now
    let shortValue := mul A shortSize price
    .ok (add A debt shortValue, addNb A finalCash (mul A (fin (-2)) shortValue))
  else .ok (debt, finalCash)

/-- `-size * price - fees`, portfolio/nb.py:6678. -/
def orderFlow (A : Arith) (o : OrderRec) : F := sub A (mul A (neg (signedSize o)) o.price) o.fees

/-- One iteration of `cash_flow_nb`, portfolio/nb.py:6658-6680. -/
def cashFlowStep (A : Arith) (free : Bool) (s : FlowState) (o : OrderRec) : Except Err FlowState :=
  if (o.id : Int) < s.lastId then .error (.valueError "id must come in ascending order per column")
  else
    let new := addNb A s.position (signedSize o)
    if free then
      match freeCashDiff A s.position new s.debt o.price o.fees with
      | .error e => .error e
      | .ok (debt, flow) =>
        .ok { lastId := o.id, position := new, debt := debt, out := setAt s.out o.idx (addNb A (s.out o.idx) flow) }
    else
      .ok { s with lastId := o.id, position := new,
                   out := setAt s.out o.idx (addNb A (s.out o.idx) (orderFlow A o)) }

/-- `cash_flow_nb`, portfolio/nb.py:6644-6681, column `col`. -/
def cashFlow (A : Arith) (free : Bool) (orders : List OrderRec) (junk : Nat → Nat) (col : Nat) : Except Err (Nat → F) :=
  match loopE (cashFlowStep A free) FlowState.start (columnRecords orders junk col) with
  | .error e => .error e
  | .ok s => .ok s.out

/-- `np.sum` of a list. -/
def npSum (A : Arith) (l : List F) : F := l.foldl (add A) zero

/-- `sum_grouped_nb`, portfolio/nb.py:6685-6695 (and `cash_flow_grouped_nb`, `asset_value_grouped_nb`), one row and
group starting at `fromCol`; the group lengths are checked by the caller. -/
def sumGrouped (A : Arith) (a : Nat → Nat → F) (fromCol len i : Nat) : F :=
  npSum A ((List.range len).map fun k => a i (fromCol + k))

/-- `init_cash_grouped_nb`, portfolio/nb.py:6705-6718. -/
def initCashGrouped (A : Arith) (initCash : List F) (lens : List Nat) (sharing : Bool) : List F :=
  if sharing then initCash
  else (layout lens).map fun g => (List.range g.2.2).foldl (fun c k => add A c (initCash.getD (g.2.1 + k) nan)) zero

/-- `ffill_1d_nb`, generic/nb.py:441-452, as a function of the position. -/
def ffillAt (a : Nat → F) : Nat → F
  | 0 => a 0
  | i + 1 => if (a (i + 1)).isnan then ffillAt a i else a (i + 1)

/-- The array of `init_cash_nb` before the forward fill, portfolio/nb.py:6726-6728: the initial cash of a group at its
first column.  (Groups of length zero would write at the next group's first column; excluded by the callers.) -/
def initCashSpread (initCash : List F) (lens : List Nat) : Nat → F :=
  (layout lens).foldl (fun out g => setAt out g.2.1 (initCash.getD g.1 nan)) (fun _ => nan)

/-- `init_cash_nb`, portfolio/nb.py:6722-6730: initial cash of a column. -/
def initCashCol (initCash : List F) (lens : List Nat) (sharing : Bool) (col : Nat) : F :=
  if sharing then ffillAt (initCashSpread initCash lens) col else initCash.getD col nan

/-- `cash_nb`, portfolio/nb.py:6734-6741, one column; also `cash_grouped_nb`, portfolio/nb.py:6770-6789, one group. -/
def cashAt (A : Arith) (init : F) (flow : Nat → F) : Nat → F
  | 0 => addNb A init (flow 0)
  | i + 1 => addNb A (cashAt A init flow i) (flow (i + 1))

/-- The cells of a group in the order called. -/
def simOrderCells (callSeq : Nat → Nat → Nat) (fromCol len rows : Nat) : List (Nat × Nat) :=
  (List.range rows).flatMap fun i => (List.range len).map fun k => (i, fromCol + callSeq i (fromCol + k))

/-- `cash_in_sim_order_nb`, portfolio/nb.py:6745-6766, one group: the state is (cash_now, out). -/
def cashInSimOrder (A : Arith) (flow : Nat → Nat → F) (init : F) (cells : List (Nat × Nat)) (junk : Nat × Nat → F) :
    F × (Nat × Nat → F) :=
  cells.foldl (fun s x =>
    let c := addNb A s.1 (flow x.1 x.2)
    (c, fun y => if y = x then c else s.2 y)) (init, junk)

/-- `asset_value_nb`, portfolio/nb.py:6796-6798. -/
def assetValue (A : Arith) (close assets : Nat → Nat → F) (i col : Nat) : F := mul A (close i col) (assets i col)

/-- `value_nb`, portfolio/nb.py:6849-6851. -/
def valueAt (A : Arith) (cash assetValue : Nat → Nat → F) (i col : Nat) : F := add A (cash i col) (assetValue i col)

/-- State of the loop of `value_in_sim_order_nb`. -/
structure ValueState where
  assetValue : F
  sinceNan : Nat
  out : Nat × Nat → F

/-- The `j`-th cell of a group in the order called, portfolio/nb.py:6826-6827. -/
def simCell (callSeq : Nat → Nat → Nat) (fromCol len j : Nat) : Nat × Nat :=
  (j / len, fromCol + callSeq (j / len) (fromCol + j % len))

/-- One iteration of `value_in_sim_order_nb`, portfolio/nb.py:6825-6842; `cell j` is the `j`-th cell called. -/
def valueSimStep (A : Arith) (cash assetValue : Nat × Nat → F) (cell : Nat → Nat × Nat) (len : Nat) (s : ValueState)
    (j : Nat) : ValueState :=
  let v1 :=
    if j ≥ len then
      if !(assetValue (cell (j - len))).isnan then sub A s.assetValue (assetValue (cell (j - len))) else s.assetValue
    else s.assetValue
  let isNan := (assetValue (cell j)).isnan
  let since := if isNan then 0 else s.sinceNan
  let v2 := if isNan then v1 else add A v1 (assetValue (cell j))
  let o := if since < len then nan else add A (cash (cell j)) v2
  { assetValue := v2, sinceNan := since + 1, out := fun y => if y = cell j then o else s.out y }

/-- `value_in_sim_order_nb`, portfolio/nb.py:6808-6845, one group. -/
def valueInSimOrder (A : Arith) (cash assetValue : Nat × Nat → F) (callSeq : Nat → Nat → Nat) (fromCol len rows : Nat)
    (junk : Nat × Nat → F) : Nat × Nat → F :=
  ((List.range (rows * len)).foldl (valueSimStep A cash assetValue (simCell callSeq fromCol len) len)
    { assetValue := zero, sinceNan := len, out := junk }).out

/-- State of the loop of `total_profit_nb` for a column. -/
structure ProfitState where
  lastId : Int
  assets : F
  cash : F

/-- One iteration of `total_profit_nb`, portfolio/nb.py:6877-6899. -/
def totalProfitStep (A : Arith) (s : ProfitState) (o : OrderRec) : Except Err ProfitState :=
  if (o.id : Int) < s.lastId then .error (.valueError "id must come in ascending order per column")
  else if o.side = OrderSide.Buy then
    .ok { lastId := o.id, assets := addNb A s.assets o.size,
          cash := addNb A s.cash (neg (add A (mul A o.size o.price) o.fees)) }
  else
    .ok { lastId := o.id, assets := addNb A s.assets (neg o.size),
          cash := addNb A s.cash (sub A (mul A o.size o.price) o.fees) }

/-- `total_profit_nb`, portfolio/nb.py:6855-6903, column `col`; `lastClose` is `close[-1, col]`. -/
def totalProfit (A : Arith) (orders : List OrderRec) (junk : Nat → Nat) (lastClose : F) (col : Nat) : Except Err F :=
  let recs := columnRecords orders junk col
  match loopE (totalProfitStep A) { lastId := -1, assets := zero, cash := zero } recs with
  | .error e => .error e
  | .ok s => .ok (if recs.length = 0 then zero else add A s.cash (mul A s.assets lastClose))

/-- `total_profit_grouped_nb`, portfolio/nb.py:6907-6917, one group. -/
def totalProfitGrouped (A : Arith) (profit : Nat → F) (fromCol len : Nat) : F :=
  npSum A ((List.range len).map fun k => profit (fromCol + k))

/-- `final_value_nb`, portfolio/nb.py:6921-6923. -/
def finalValue (A : Arith) (profit init : F) : F := add A profit init

/-- `get_return_nb`, returns/nb.py:36-45. -/
def getReturn (A : Arith) (input output : F) : Except Err F :=
  if eqb input zero then
    if eqb output zero then .ok zero
    else .ok (mul A pinf (sign output))
  else
    match divE A (sub A output input) input with
    | .error e => .error e
    | .ok v => .ok (if lt input zero then mul A v (fin (-1)) else v)

/-- `total_return_nb`, portfolio/nb.py:6927-6929 (numpy division). -/
def totalReturn (A : Arith) (profit init : F) : F := div A profit init

/-- `returns_in_sim_order_nb`, portfolio/nb.py:6933-6955, one group: the state is (input_value, out). -/
def returnsInSimOrder (A : Arith) (value : Nat → Nat → F) (init : F) (cells : List (Nat × Nat)) (junk : Nat × Nat → F) :
    Except Err (F × (Nat × Nat → F)) :=
  loopE (fun s x =>
    match getReturn A s.1 (value x.1 x.2) with
    | .error e => .error e
    | .ok v => .ok (value x.1 x.2, fun y => if y = x then v else s.2 y)) (init, junk) cells

/-- `asset_returns_nb`, portfolio/nb.py:6959-6967, one cell. -/
def assetReturn (A : Arith) (cashFlow assetValue : Nat → Nat → F) (i col : Nat) : Except Err F :=
  getReturn A (if i = 0 then zero else assetValue (i - 1) col) (add A (assetValue i col) (cashFlow i col))

/-- `benchmark_value_nb`, portfolio/nb.py:6971-6973. -/
def benchmarkValue (A : Arith) (close : Nat → Nat → F) (init : Nat → F) (i col : Nat) : F :=
  mul A (div A (close i col) (close 0 col)) (init col)

/-- `gross_exposure_nb`, portfolio/nb.py:7003-7013, one cell. -/
def grossExposure (A : Arith) (assetValue cash : F) : F :=
  let denom := addNb A assetValue cash
  if eqb denom zero then zero else div A assetValue denom

end Vbt
