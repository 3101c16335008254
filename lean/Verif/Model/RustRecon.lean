import Verif.Model.Recon
import Verif.Model.RustOrder
import Verif.Model.RustRecords

/-!
# Assets, cash and value in the Rust engine: `rust/src/portfolio.rs:100-122, 2667-2704, 2742-2778, 3595-3786, 4703-5295, 5552-5584, 5793-5870`

Arrays are buffers in row-major order: the cell of row `i` and column `col` of an array with `nc` columns is at `i * nc + col`.
Buffers are functions of the index.  Writes, and the reads of `sum_grouped_inner`, check the bounds and end in `panicked`; other
reads do not.  `uninit_f64_vec` is an arbitrary `junk`.
-/

namespace Vbt.Rs
open F RsGen

/-- `get_return`, portfolio.rs:100-112.  A zero is caught before `signum`, so its sign does not matter. -/
def getReturn (A : Arith) (input output : F) : F :=
  if eqb input zero then
    if eqb output zero then zero else mul A pinf (signum false output)
  else
    let r := F.div A (sub A output input) input
    if lt input zero then mul A r (fin (-1)) else r

/-- `col_start_idxs_usize`, portfolio.rs:114-122; the state is (`out`, `cumsum`). -/
def startIdxs (lens : List Nat) : List Nat := (lens.foldl (fun s l => (s.1 ++ [s.2], s.2 + l)) ([], 0)).1

/-! ## Asset flow -/

/-- `get_long_size`, portfolio.rs:2667-2678. -/
def longSize (A : Arith) (before now : F) : F :=
  if le before zero && le now zero then zero
  else if ge before zero && lt now zero then neg before
  else if lt before zero && ge now zero then now
  else addTol A now (neg before)

/-- `get_short_size`, portfolio.rs:2693-2704. -/
def shortSize (A : Arith) (before now : F) : F :=
  if ge before zero && ge now zero then zero
  else if ge before zero && lt now zero then neg now
  else if lt before zero && ge now zero then before
  else addTol A before (neg now)

/-- `if side == ORDER_SIDE_SELL { size *= -1.0 }`, portfolio.rs:3631-3633, 3726-3728, 3752-3754. -/
def signedSize (A : Arith) (o : OrderRec) : F := if o.side = OrderSide.Sell then mul A o.size (fin (-1)) else o.size

/-- Variables of the loops over the records of a column, and the buffer. -/
structure FlowVars where
  lastId : Int
  position : F
  debt : F
  out : Nat → F

/-- `out[i * ncols + col] = add(out[i * ncols + col], x)`. -/
def addCell (A : Arith) (nr nc i col : Nat) (out : Nat → F) (x : F) : Except Err (Nat → F) :=
  if i * nc + col < nr * nc then .ok (setAt out (i * nc + col) (addTol A (out (i * nc + col)) x)) else .error panicked

/-- One iteration of `asset_flow_inner`, portfolio.rs:3616-3644. -/
def assetFlowStep (A : Arith) (direction : Int) (nr nc col : Nat) (s : FlowVars) (o : OrderRec) : Except Err FlowVars :=
  if (o.id : Int) < s.lastId then .error (.valueError "id must come in ascending order per column")
  else
    let size := signedSize A o
    let new := addTol A s.position size
    let flow :=
      if direction = Direction.LongOnly then longSize A s.position new
      else if direction = Direction.ShortOnly then shortSize A s.position new
      else size
    match addCell A nr nc o.idx col s.out flow with
    | .error e => .error e
    | .ok out => .ok { s with lastId := o.id, position := new, out := out }

/-- One column of `asset_flow_inner`, portfolio.rs:3608-3645. -/
def assetFlowColumn (A : Arith) (direction : Int) (orders : List OrderRec) (junk : Nat → Nat) (nr nc : Nat) (out : Nat → F)
    (col : Nat) : Except Err (Nat → F) :=
  let recs := columnRecords orders junk col
  if recs.length = 0 then .ok out
  else
    match loopE (assetFlowStep A direction nr nc col) { lastId := -1, position := zero, debt := zero, out := out } recs with
    | .error e => .error e
    | .ok s => .ok s.out

/-- `asset_flow_inner`, portfolio.rs:3595-3647; the column map has as many columns as the target shape. -/
def assetFlow (A : Arith) (direction : Int) (orders : List OrderRec) (junk : Nat → Nat) (nr nc : Nat) : Except Err (Nat → F) :=
  loopE (assetFlowColumn A direction orders junk nr nc) (fun _ => zero) (List.range nc)

/-- Inner loop of `assets_py`, portfolio.rs:4714-4718; the state is (`position_now`, `out`). -/
def assetsStep (A : Arith) (flow : Nat → F) (nc col : Nat) (s : F × (Nat → F)) (i : Nat) : F × (Nat → F) :=
  let position := addTol A s.1 (flow (i * nc + col))
  (position, setAt s.2 (i * nc + col) position)

/-- `assets_py`, portfolio.rs:4703-4725. -/
def assets (A : Arith) (flow : Nat → F) (nr nc : Nat) (junk : Nat → F) : Nat → F :=
  (List.range nc).foldl (fun out col => ((List.range nr).foldl (assetsStep A flow nc col) (zero, out)).2) junk

/-! ## Cash flow -/

/-- `get_free_cash_diff`, portfolio.rs:2742-2778: (new debt, free cash flow). -/
def freeCashDiff (A : Arith) (before now debt price fees : F) : F × F :=
  let size := addTol A now (neg before)
  let finalCash := sub A (mul A (neg size) price) fees
  if isClose A size zero then (debt, zero)
  else if gt size zero then
    if lt before zero then
      let shortSize := if lt now zero then F.abs size else F.abs before
      let avg := F.div A debt (F.abs before)
      let diff := mul A shortSize avg
      (addTol A debt (neg diff), addTol A (mul A two diff) finalCash)
    else (debt, finalCash)
  else
    if lt now zero then
      let shortSize := if lt before zero then F.abs size else F.abs now
      let shortValue := mul A shortSize price
      (add A debt shortValue, addTol A finalCash (mul A (fin (-2)) shortValue))
    else (debt, finalCash)

/-- One iteration of the loop without `free`, portfolio.rs:3709-3731. -/
def cashFlowStep (A : Arith) (nr nc col : Nat) (s : FlowVars) (o : OrderRec) : Except Err FlowVars :=
  if (o.id : Int) < s.lastId then .error (.valueError "id must come in ascending order per column")
  else
    match addCell A nr nc o.idx col s.out (sub A (mul A (neg (signedSize A o)) o.price) o.fees) with
    | .error e => .error e
    | .ok out => .ok { s with lastId := o.id, out := out }

/-- One iteration of the loop with `free`, portfolio.rs:3735-3760. -/
def freeFlowStep (A : Arith) (nr nc col : Nat) (s : FlowVars) (o : OrderRec) : Except Err FlowVars :=
  if (o.id : Int) < s.lastId then .error (.valueError "id must come in ascending order per column")
  else
    let new := addTol A s.position (signedSize A o)
    let d := freeCashDiff A s.position new s.debt o.price o.fees
    match addCell A nr nc o.idx col s.out d.2 with
    | .error e => .error e
    | .ok out => .ok { lastId := o.id, position := new, debt := d.1, out := out }

/-- One column of `cash_flow_inner`, portfolio.rs:3699-3761. -/
def cashFlowColumn (A : Arith) (free : Bool) (orders : List OrderRec) (junk : Nat → Nat) (nr nc : Nat) (out : Nat → F)
    (col : Nat) : Except Err (Nat → F) :=
  let recs := columnRecords orders junk col
  if recs.length = 0 then .ok out
  else
    let s : FlowVars := { lastId := -1, position := zero, debt := zero, out := out }
    if !free then
      match loopE (cashFlowStep A nr nc col) s recs with
      | .error e => .error e
      | .ok s => .ok s.out
    else
      match loopE (freeFlowStep A nr nc col) s recs with
      | .error e => .error e
      | .ok s => .ok s.out

/-- `cash_flow_inner`, portfolio.rs:3686-3763. -/
def cashFlow (A : Arith) (free : Bool) (orders : List OrderRec) (junk : Nat → Nat) (nr nc : Nat) : Except Err (Nat → F) :=
  loopE (cashFlowColumn A free orders junk nr nc) (fun _ => zero) (List.range nc)

/-! ## Groups -/

/-- The sum of the cells `from_col..to_col` of a row, portfolio.rs:3778-3781. -/
def sumCells (A : Arith) (a : Nat → F) (nr nc i fromCol toCol : Nat) : Except Err F :=
  loopE (fun s col => if i * nc + col < nr * nc then .ok (add A s (a (i * nc + col))) else .error panicked) zero
    (List.range' fromCol (toCol - fromCol))

/-- The rows of a group, portfolio.rs:3777-3783. -/
def sumGroupRows (A : Arith) (a : Nat → F) (nr nc ng group fromCol toCol : Nat) (out : Nat → F) : Except Err (Nat → F) :=
  loopE (fun out i =>
    match sumCells A a nr nc i fromCol toCol with
    | .error e => .error e
    | .ok sum => .ok (setAt out (i * ng + group) sum)) out (List.range nr)

/-- `sum_grouped_inner`, portfolio.rs:3771-3786. -/
def sumGrouped (A : Arith) (a : Nat → F) (lens : List Nat) (nr nc : Nat) (junk : Nat → F) : Except Err (Nat → F) :=
  let starts := startIdxs lens
  loopE (fun out group =>
    let fromCol := starts.getD group 0
    sumGroupRows A a nr nc lens.length group fromCol (fromCol + lens.getD group 0) out) junk (List.range lens.length)

/-- One group of `init_cash_grouped_py`, portfolio.rs:4832-4840; the state is (`from_col`, `out`). -/
def initCashGroupedStep (A : Arith) (initCash : List F) (lens : List Nat) (s : Nat × (Nat → F)) (group : Nat) : Nat × (Nat → F) :=
  let toCol := s.1 + lens.getD group 0
  let sum := (List.range' s.1 (toCol - s.1)).foldl (fun c col => add A c (initCash.getD col nan)) zero
  (toCol, setAt s.2 group sum)

/-- `init_cash_grouped_py`, portfolio.rs:4814-4842. -/
def initCashGrouped (A : Arith) (initCash : List F) (lens : List Nat) (sharing : Bool) : List F :=
  if sharing then initCash
  else
    (List.range lens.length).map
      ((List.range lens.length).foldl (initCashGroupedStep A initCash lens) (0, fun _ => zero)).2

/-- One group of `init_cash_py`, portfolio.rs:4864-4872; the state is (`col`, `out`). -/
def initCashStep (initCash : List F) (lens : List Nat) (s : Nat × (Nat → F)) (group : Nat) : Nat × (Nat → F) :=
  let out := setAt s.2 s.1 (initCash.getD group nan)
  let len := lens.getD group 0
  let out := (List.range' 1 (len - 1)).foldl (fun out k => setAt out (s.1 + k) (initCash.getD group nan)) out
  (s.1 + len, out)

/-- `init_cash_py`, portfolio.rs:4844-4874: initial cash of a column. -/
def initCashCol (initCash : List F) (lens : List Nat) (sharing : Bool) (col : Nat) : F :=
  if !sharing then initCash.getD col nan
  else ((List.range lens.length).foldl (initCashStep initCash lens) (0, fun _ => nan)).2 col

/-! ## Cash -/

/-- Inner loop of `cash_py`, portfolio.rs:4891-4898. -/
def cashStep (A : Arith) (flow init : Nat → F) (nc col : Nat) (out : Nat → F) (i : Nat) : Nat → F :=
  let cash := if i = 0 then init col else out ((i - 1) * nc + col)
  setAt out (i * nc + col) (addTol A cash (flow (i * nc + col)))

/-- `cash_py`, portfolio.rs:4876-4905. -/
def cash (A : Arith) (flow init : Nat → F) (nr nc : Nat) (junk : Nat → F) : Nat → F :=
  (List.range nc).foldl (fun out col => (List.range nr).foldl (cashStep A flow init nc col) out) junk

/-- Innermost loop of `cash_in_sim_order_py`, portfolio.rs:4931-4935; the state is (`cash_now`, `out`). -/
def cashSimStep (A : Arith) (flow : Nat → F) (callSeq : Nat → Nat) (nc fromCol i : Nat) (s : F × (Nat → F)) (k : Nat) :
    F × (Nat → F) :=
  let col := fromCol + callSeq (i * nc + fromCol + k)
  let cash := addTol A s.1 (flow (i * nc + col))
  (cash, setAt s.2 (i * nc + col) cash)

/-- One group of `cash_in_sim_order_py`, portfolio.rs:4926-4938; the state is (`from_col`, `out`). -/
def cashSimGroup (A : Arith) (flow : Nat → F) (callSeq : Nat → Nat) (lens : List Nat) (init : Nat → F) (nr nc : Nat)
    (s : Nat × (Nat → F)) (group : Nat) : Nat × (Nat → F) :=
  let len := lens.getD group 0
  (s.1 + len,
    ((List.range nr).foldl (fun x i => (List.range len).foldl (cashSimStep A flow callSeq nc s.1 i) x) (init group, s.2)).2)

/-- `cash_in_sim_order_py`, portfolio.rs:4907-4944. -/
def cashInSimOrder (A : Arith) (flow : Nat → F) (callSeq : Nat → Nat) (lens : List Nat) (init : Nat → F) (nr nc : Nat)
    (junk : Nat → F) : Nat → F :=
  ((List.range lens.length).foldl (cashSimGroup A flow callSeq lens init nr nc) (0, junk)).2

/-- Inner loop of `cash_grouped_py`, portfolio.rs:4964-4968; the state is (`cash_now`, `out`). -/
def cashGroupedStep (A : Arith) (flow : Nat → F) (ng group : Nat) (s : F × (Nat → F)) (i : Nat) : F × (Nat → F) :=
  let cash := addTol A s.1 (flow (i * ng + group))
  (cash, setAt s.2 (i * ng + group) cash)

/-- `cash_grouped_py`, portfolio.rs:4946-4975. -/
def cashGrouped (A : Arith) (flow init : Nat → F) (nr ng : Nat) (junk : Nat → F) : Nat → F :=
  (List.range ng).foldl (fun out group => ((List.range nr).foldl (cashGroupedStep A flow ng group) (init group, out)).2) junk

/-! ## Value -/

/-- Variables of the loop of `value_in_sim_order_py`. -/
structure ValueVars where
  assetValue : F
  sinceNan : Nat
  out : Nat → F

/-- The index of the cell `j` of a group in the order called, portfolio.rs:5045-5046, 5049-5050. -/
def simIdx (callSeq : Nat → Nat) (nc fromCol len j : Nat) : Nat :=
  (j / len) * nc + (fromCol + callSeq ((j / len) * nc + fromCol + j % len))

/-- One iteration of `value_in_sim_order_py`, portfolio.rs:5044-5066. -/
def valueSimStep (A : Arith) (cash assetValue : Nat → F) (callSeq : Nat → Nat) (nc fromCol len : Nat) (s : ValueVars) (j : Nat) :
    ValueVars :=
  let v :=
    if j ≥ len then
      if !(assetValue (simIdx callSeq nc fromCol len (j - len))).isnan then
        sub A s.assetValue (assetValue (simIdx callSeq nc fromCol len (j - len)))
      else s.assetValue
    else s.assetValue
  let s := { s with assetValue := v }
  let s :=
    if (assetValue (simIdx callSeq nc fromCol len j)).isnan then { s with sinceNan := 0 }
    else { s with assetValue := add A s.assetValue (assetValue (simIdx callSeq nc fromCol len j)) }
  let x := if s.sinceNan < len then nan else add A (cash (simIdx callSeq nc fromCol len j)) s.assetValue
  { s with out := setAt s.out (simIdx callSeq nc fromCol len j) x, sinceNan := s.sinceNan + 1 }

/-- One group of `value_in_sim_order_py`, portfolio.rs:5039-5068; the state is (`from_col`, `out`). -/
def valueSimGroup (A : Arith) (cash assetValue : Nat → F) (callSeq : Nat → Nat) (lens : List Nat) (nr nc : Nat)
    (s : Nat × (Nat → F)) (group : Nat) : Nat × (Nat → F) :=
  let len := lens.getD group 0
  (s.1 + len, ((List.range (nr * len)).foldl (valueSimStep A cash assetValue callSeq nc s.1 len)
    { assetValue := zero, sinceNan := len, out := s.2 }).out)

/-- `value_in_sim_order_py`, portfolio.rs:5020-5074. -/
def valueInSimOrder (A : Arith) (cash assetValue : Nat → F) (callSeq : Nat → Nat) (lens : List Nat) (nr nc : Nat)
    (junk : Nat → F) : Nat → F :=
  ((List.range lens.length).foldl (valueSimGroup A cash assetValue callSeq lens nr nc) (0, junk)).2

/-! ## Profit -/

/-- Variables of `total_profit_py`. -/
structure ProfitVars where
  lastId : Int
  assets : Nat → F
  cash : Nat → F
  zeroMask : Nat → Bool

/-- One iteration over the records of a column, portfolio.rs:5136-5161. -/
def totalProfitStep (A : Arith) (col : Nat) (s : ProfitVars) (o : OrderRec) : Except Err ProfitVars :=
  if (o.id : Int) < s.lastId then .error (.valueError "id must come in ascending order per column")
  else if o.side = OrderSide.Buy then
    .ok { s with
      lastId := o.id, assets := setAt s.assets col (addTol A (s.assets col) o.size),
      cash := setAt s.cash col (addTol A (s.cash col) (neg (add A (mul A o.size o.price) o.fees))) }
  else
    .ok { s with
      lastId := o.id, assets := setAt s.assets col (addTol A (s.assets col) (neg o.size)),
      cash := setAt s.cash col (addTol A (s.cash col) (sub A (mul A o.size o.price) o.fees)) }

/-- One column, portfolio.rs:5128-5162. -/
def totalProfitColumn (A : Arith) (orders : List OrderRec) (junk : Nat → Nat) (s : ProfitVars) (col : Nat) :
    Except Err ProfitVars :=
  let recs := columnRecords orders junk col
  if recs.length = 0 then .ok { s with zeroMask := setAt s.zeroMask col true }
  else loopE (totalProfitStep A col) { s with lastId := -1 } recs

/-- `total_profit_py`, portfolio.rs:5100-5177; `lastClose` is the last row of `close`. -/
def totalProfit (A : Arith) (orders : List OrderRec) (junk : Nat → Nat) (lastClose : Nat → F) (nc : Nat) : Except Err (Nat → F) :=
  match loopE (totalProfitColumn A orders junk)
      { lastId := -1, assets := fun _ => zero, cash := fun _ => zero, zeroMask := fun _ => false } (List.range nc) with
  | .error e => .error e
  | .ok s => .ok fun col => if s.zeroMask col then zero else add A (s.cash col) (mul A (s.assets col) (lastClose col))

/-! ## Returns -/

/-- One iteration of `returns_in_sim_order_py`, portfolio.rs:5251-5257; the state is (`input_value`, `out`). -/
def returnsSimStep (A : Arith) (value : Nat → F) (callSeq : Nat → Nat) (nc fromCol len : Nat) (s : F × (Nat → F)) (j : Nat) :
    F × (Nat → F) :=
  let output := value (simIdx callSeq nc fromCol len j)
  (output, setAt s.2 (simIdx callSeq nc fromCol len j) (getReturn A s.1 output))

/-- One group of `returns_in_sim_order_py`, portfolio.rs:5248-5259; the state is (`from_col`, `out`). -/
def returnsSimGroup (A : Arith) (value : Nat → F) (callSeq : Nat → Nat) (lens : List Nat) (init : Nat → F) (nr nc : Nat)
    (s : Nat × (Nat → F)) (group : Nat) : Nat × (Nat → F) :=
  let len := lens.getD group 0
  (s.1 + len, ((List.range (nr * len)).foldl (returnsSimStep A value callSeq nc s.1 len) (init group, s.2)).2)

/-- `returns_in_sim_order_py`, portfolio.rs:5229-5265. -/
def returnsInSimOrder (A : Arith) (value : Nat → F) (callSeq : Nat → Nat) (lens : List Nat) (init : Nat → F) (nr nc : Nat)
    (junk : Nat → F) : Nat → F :=
  ((List.range lens.length).foldl (returnsSimGroup A value callSeq lens init nr nc) (0, junk)).2

/-- `asset_returns_py`, portfolio.rs:5269-5295. -/
def assetReturns (A : Arith) (cashFlow assetValue : Nat → F) (nr nc : Nat) (junk : Nat → F) : Nat → F :=
  (List.range nc).foldl (fun out col =>
    (List.range nr).foldl (fun out i =>
      let input := if i = 0 then zero else assetValue ((i - 1) * nc + col)
      let output := add A (assetValue (i * nc + col)) (cashFlow (i * nc + col))
      setAt out (i * nc + col) (getReturn A input output)) out) junk

/-! ## Benchmark and exposure -/

/-- `benchmark_value_py`, portfolio.rs:5552-5584; `factors` is a vector. -/
def benchmarkValue (A : Arith) (close init : Nat → F) (nr nc : Nat) (junk : Nat → F) : Nat → F :=
  let factors := (List.range nc).map fun col => F.div A (init col) (close col)
  (List.range nr).foldl (fun out i =>
    (List.range nc).foldl (fun out col =>
      setAt out (i * nc + col) (mul A (close (i * nc + col)) (factors.getD col nan))) out) junk

/-- `benchmark_value_grouped_py`, portfolio.rs:5793-5829, one cell. -/
def benchmarkGrouped (A : Arith) (close : Nat → F) (nc fromCol len : Nat) (init : F) (i : Nat) : F :=
  let colInit := F.div A init (fin len)
  mul A colInit ((List.range' fromCol len).foldl (fun s col => add A s (F.div A (close (i * nc + col)) (close col))) zero)

/-- `total_benchmark_return_py`, portfolio.rs:5831-5846, one column. -/
def totalBenchmarkReturn (A : Arith) (value : Nat → F) (nr nc col : Nat) : F :=
  getReturn A (value col) (value ((nr - 1) * nc + col))

/-- `gross_exposure_py`, portfolio.rs:5848-5870, one cell. -/
def grossExposure (A : Arith) (assetValue cash : F) : F :=
  let denom := addTol A assetValue cash
  if eqb denom zero then zero else F.div A assetValue denom

end Vbt.Rs

namespace Vbt
open F

/-! ## Functions of the Numba engine over all groups -/

/-- `check_group_lens_nb`, portfolio/nb.py:823-826. -/
def checkGroupLens (lens : List Nat) (nc : Nat) : Except Err Unit :=
  if lens.sum ≠ nc then .error (.valueError "group_lens has incorrect total number of columns") else .ok ()

/-- `sum_grouped_nb`, portfolio/nb.py:6685-6695, as a function of row and group. -/
def sumGroupedAll (A : Arith) (a : Nat → Nat → F) (lens : List Nat) (nc : Nat) : Except Err (Nat → Nat → F) :=
  match checkGroupLens lens nc with
  | .error e => .error e
  | .ok _ =>
    .ok fun i group =>
      let g := (layout lens).getD group (0, 0, 0)
      sumGrouped A a g.2.1 g.2.2 i

/-- `cash_in_sim_order_nb`, portfolio/nb.py:6745-6766. -/
def cashSimAll (A : Arith) (flow : Nat → Nat → F) (callSeq : Nat → Nat → Nat) (lens : List Nat) (init : Nat → F) (nr nc : Nat)
    (junk : Nat × Nat → F) : Except Err (Nat × Nat → F) :=
  match checkGroupLens lens nc with
  | .error e => .error e
  | .ok _ =>
    .ok ((layout lens).foldl (fun out g =>
      (cashInSimOrder A flow (init g.1) (simOrderCells callSeq g.2.1 g.2.2 nr) out).2) junk)

/-- `value_in_sim_order_nb`, portfolio/nb.py:6808-6845. -/
def valueSimAll (A : Arith) (cash assetValue : Nat × Nat → F) (callSeq : Nat → Nat → Nat) (lens : List Nat) (nr nc : Nat)
    (junk : Nat × Nat → F) : Except Err (Nat × Nat → F) :=
  match checkGroupLens lens nc with
  | .error e => .error e
  | .ok _ =>
    .ok ((layout lens).foldl (fun out g => valueInSimOrder A cash assetValue callSeq g.2.1 g.2.2 nr out) junk)

/-- `returns_in_sim_order_nb`, portfolio/nb.py:6933-6955. -/
def returnsSimAll (A : Arith) (value : Nat → Nat → F) (callSeq : Nat → Nat → Nat) (lens : List Nat) (init : Nat → F) (nr nc : Nat)
    (junk : Nat × Nat → F) : Except Err (Nat × Nat → F) :=
  match checkGroupLens lens nc with
  | .error e => .error e
  | .ok _ =>
    loopE (fun out g =>
      match returnsInSimOrder A value (init g.1) (simOrderCells callSeq g.2.1 g.2.2 nr) out with
      | .error e => .error e
      | .ok s => .ok s.2) junk (layout lens)

/-- `benchmark_value_grouped_nb`, portfolio/nb.py:6977-6990, one cell; the group is not empty.  Arrays are divided as NumPy does. -/
def benchmarkGrouped (A : Arith) (close : Nat → Nat → F) (fromCol len : Nat) (init : F) (i : Nat) : Except Err F :=
  match divE A init (fin len) with
  | .error e => .error e
  | .ok colInit =>
    .ok (mul A colInit (npSum A ((List.range len).map fun k => F.div A (close i (fromCol + k)) (close 0 (fromCol + k)))))

/-- `total_benchmark_return_nb`, portfolio/nb.py:6994-6999, one column. -/
def totalBenchmarkReturn (A : Arith) (value : Nat → Nat → F) (nr col : Nat) : Except Err F :=
  getReturn A (value 0 col) (value (nr - 1) col)

end Vbt
