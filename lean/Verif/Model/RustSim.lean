import Verif.Model.RustOrder
import Verif.Model.Flex

/-!
# Simulation from orders in the Rust engine: `rust/src/portfolio.rs:1566-1625, 2106-2288, 2818-3193` and
`rust/src/generic.rs:206-303`

As in `Model/Sim`, array arguments are functions of the cell (`Rs.flexGet` is the reading of an argument), random numbers are
inputs and arrays indexed by column are functions.  `z i col` is the sign of the size of a cell when that size is zero.
`call_seq` entries are natural numbers.  `insert_argsort` (portfolio.rs:733-747) has the text of `insert_argsort_nb`, so
`sortCallSeq` stands for both.
-/

namespace Vbt.Rs
open F

/-! ## Arguments -/

/-- `FlexArray`, generic.rs:206-212: the data is the row-major content of the array. -/
inductive FlexArray (α : Type) where
  | scalar (value : α)
  | oneD (data : Nat → α) (flex2d : Bool)
  | twoDFull (data : Nat → α) (cols : Nat)
  | twoDRow (data : Nat → α) (cols : Nat)
  | twoDCol (data : Nat → α)

/-- The elements of an array in row-major order (`as_slice` of a standard layout, or the iterator), generic.rs:240-248. -/
def flatten {α : Type} (a : NArr α) (k : Nat) : α :=
  match a.shape with
  | [] => a.get []
  | [_] => a.get [k]
  | _ :: c :: _ => a.get [k / c, k % c]

/-- `FlexArray::from_pyarray`, generic.rs:215-281. -/
def fromPyarray {α : Type} (name : String) (a : NArr α) (nrows ncols : Nat) (flex2d : Bool) :
    Except Err (FlexArray α) :=
  match a.shape with
  | [] => .ok (.scalar (flatten a 0))
  | [len] =>
    if !(len = 1 || (if flex2d then decide (len = ncols) else decide (len = nrows))) then
      .error (.valueError s!"`{name}` cannot broadcast to shape ({nrows}, {ncols})")
    else if len = 1 then .ok (.scalar (flatten a 0))
    else .ok (.oneD (flatten a) flex2d)
  | [rows, cols] =>
    if (rows ≠ 1 ∧ rows ≠ nrows) ∨ (cols ≠ 1 ∧ cols ≠ ncols) then
      .error (.valueError s!"`{name}` cannot broadcast to shape ({nrows}, {ncols})")
    else if rows = 1 ∧ cols = 1 then .ok (.scalar (flatten a 0))
    else if rows = nrows ∧ cols = ncols then .ok (.twoDFull (flatten a) cols)
    else if rows = 1 then .ok (.twoDRow (flatten a) cols)
    else .ok (.twoDCol (flatten a))
  | _ => .error (.valueError s!"`{name}` must be 0D, 1D, or 2D")

/-- `FlexArray::get`, generic.rs:284-293. -/
def FlexArray.get {α : Type} : FlexArray α → Nat → Nat → α
  | .scalar value, _, _ => value
  | .oneD data flex2d, i, col => data (if flex2d then col else i)
  | .twoDFull data cols, i, col => data (i * cols + col)
  | .twoDRow data cols, _, col => data (min col (cols - 1))
  | .twoDCol data, i, _ => data i

/-! ## Order values -/

/-- `approx_order_value`, portfolio.rs:1568-1607. -/
def approxOrderValue (A : Arith) (size : F) (sizeType direction : Int) (cash position free valPrice value : F) : F :=
  let asset := mul A position valPrice
  let size := if direction = Direction.ShortOnly then mul A size (fin (-1)) else size
  if sizeType = SizeType.Amount then mul A size valPrice
  else if sizeType = SizeType.Value then size
  else if sizeType = SizeType.Percent then
    if ge size zero then mul A size cash
    else if direction = Direction.LongOnly then mul A size asset
    else mul A size (F.add A (mul A two (fmax asset zero)) (fmax free zero))
  else if sizeType = SizeType.TargetAmount then sub A (mul A size valPrice) asset
  else if sizeType = SizeType.TargetValue then sub A size asset
  else if sizeType = SizeType.TargetPercent then sub A (mul A size value) asset
  else nan

/-! ## `simulate_from_orders_non_shared_inner`, portfolio.rs:2818-2955 -/

/-- The variables of the loop over a column, portfolio.rs:2853-2862. -/
structure ColState where
  cash : F
  free : F
  position : F
  debt : F
  valPrice : F
  oidx : Nat
  lidx : Nat
  buf : Buffers

/-- The price of the order of a cell, portfolio.rs:2865-2874, 3022-3031. -/
def orderPrice (inp : Inputs) (i col : Nat) : F :=
  let p := inp.price i col
  if p.isinf then
    if gt p zero then inp.close i col
    else if i > 0 then inp.close (i - 1) col
    else nan
  else p

/-- The valuation price of a cell, portfolio.rs:2876-2885, 3035-3044. -/
def valuationPrice (inp : Inputs) (i col : Nat) : F :=
  let p := inp.valPrice i col
  if p.isinf then
    if gt p zero then orderPrice inp i col
    else if i > 0 then inp.close (i - 1) col
    else nan
  else p

/-- The order of a cell, portfolio.rs:2895-2911, 3115-3131. -/
def cellOrder (inp : Inputs) (i col : Nat) : Order :=
  { size := inp.size i col, price := orderPrice inp i col, sizeType := inp.sizeType i col,
    direction := inp.direction i col, fees := inp.fees i col, fixedFees := inp.fixedFees i col,
    slippage := inp.slippage i col, minSize := inp.minSize i col, maxSize := inp.maxSize i col,
    gran := inp.gran i col, rejectProb := inp.rejectProb i col, lockCash := inp.lockCash i col,
    allowPartial := inp.allowPartial i col, raiseReject := inp.raiseReject i col, log := inp.log i col }

/-- One row of a column, portfolio.rs:2864-2950. -/
def colRow (A : Arith) (z : Nat → Nat → Bool) (inp : Inputs) (col : Nat) (s : ColState) (i : Nat) : Except Err ColState :=
  let v := valuationPrice inp i col
  let valPrice := if !v.isnan || !inp.ffillValPrice then v else s.valPrice
  let value := if !eqb s.position zero then F.add A s.cash (mul A s.position valPrice) else s.cash
  match processOrder A (z i col) i col col
      { cash := s.cash, position := s.position, debt := s.debt, freeCash := s.free, valPrice := valPrice, value := value,
        oidx := s.oidx, lidx := s.lidx } inp.updateValue (cellOrder inp i col) (inp.draw i col) s.buf with
  | .error e => .error e
  | .ok (_, st, b) =>
    .ok { cash := st.cash, free := st.freeCash, position := st.position, debt := st.debt,
          valPrice := if !st.valPrice.isnan || !inp.ffillValPrice then st.valPrice else valPrice,
          oidx := st.oidx, lidx := st.lidx, buf := b }

/-- One column, portfolio.rs:2857-2951; the records and counters are carried from column to column. -/
def colRun (A : Arith) (z : Nat → Nat → Bool) (inp : Inputs) (initCash : Nat → F) (rows : Nat) (r : Nat × Nat × Buffers)
    (col : Nat) : Except Err (Nat × Nat × Buffers) :=
  match loopE (colRow A z inp col)
      { cash := initCash col, free := initCash col, position := zero, debt := zero, valPrice := nan,
        oidx := r.1, lidx := r.2.1, buf := r.2.2 } (List.range rows) with
  | .error e => .error e
  | .ok s => .ok (s.oidx, s.lidx, s.buf)

/-- `simulate_from_orders_non_shared_inner`, portfolio.rs:2818-2955; the result holds the order and the log records, cut to
the number written (portfolio.rs:2281-2285, 2953). -/
def ordersNonShared (A : Arith) (z : Nat → Nat → Bool) (inp : Inputs) (rows cols : Nat) (initCash : Nat → F) (b : Buffers) :
    Except Err (List OrderRec × List LogRec) :=
  match loopE (colRun A z inp initCash rows) (0, 0, b) (List.range cols) with
  | .error e => .error e
  | .ok r => .ok (r.2.2.orders.take r.1, r.2.2.logs.take r.2.1)

/-! ## `simulate_from_orders_inner`, portfolio.rs:2958-3193 -/

/-- Phase 1: prices of the columns of the group, portfolio.rs:3017-3049. -/
def rowPrices (inp : Inputs) (i fromCol len : Nat) (vp : Nat → F) : Nat → F :=
  (List.range len).foldl (fun vp k =>
    let v := valuationPrice inp i (fromCol + k)
    if !v.isnan || !inp.ffillValPrice then setAt vp (fromCol + k) v else vp) vp

/-- Phase 2: the value of the group, portfolio.rs:3053-3060. -/
def rowValue (A : Arith) (sharing : Bool) (cash : F) (position valPrice : Nat → F) (fromCol len : Nat) : F :=
  if sharing then
    (List.range len).foldl (fun v k =>
      if !eqb (position (fromCol + k)) zero then F.add A v (mul A (position (fromCol + k)) (valPrice (fromCol + k)))
      else v) cash
  else zero

/-- Phase 2: the call sequence, portfolio.rs:3062-3088. -/
def rowSeq (A : Arith) (inp : Inputs) (sharing : Bool) (i fromCol len : Nat) (s : SimState) : List Nat :=
  let seq := (List.range len).map fun k => inp.callSeq i (fromCol + k)
  if sharing && inp.autoCallSeq then
    sortCallSeq ((List.range len).map fun k =>
      approxOrderValue A (inp.size i (fromCol + k)) (inp.sizeType i (fromCol + k)) (inp.direction i (fromCol + k))
        s.cash (s.position (fromCol + k)) s.free (s.valPrice (fromCol + k)) s.value) seq
  else seq

/-- Phase 3: one call, portfolio.rs:3093-3172; `slot` is the pair (k, call_seq[i, from_col + k]). -/
def slotStep (A : Arith) (z : Nat → Nat → Bool) (inp : Inputs) (sharing : Bool) (group i fromCol len : Nat) (s : SimState)
    (slot : Nat × Nat) : Except Err SimState :=
  if sharing && slot.2 ≥ len then .error (.valueError "Call index exceeds bounds of the group")
  else
    let col := if sharing then fromCol + slot.2 else fromCol + slot.1
    let value :=
      if !sharing then
        if !eqb (s.position col) zero then F.add A s.cash (mul A (s.position col) (s.valPrice col)) else s.cash
      else s.value
    match processOrder A (z i col) i col group
        { cash := s.cash, position := s.position col, debt := s.debt col, freeCash := s.free,
          valPrice := s.valPrice col, value := value, oidx := s.oidx, lidx := s.lidx }
        inp.updateValue (cellOrder inp i col) (inp.draw i (fromCol + slot.1)) s.buf with
    | .error e => .error e
    | .ok (_, st, b) =>
      .ok { cash := st.cash, free := st.freeCash, value := if sharing then st.value else value,
            position := setAt s.position col st.position,
            debt := setAt s.debt col st.debt,
            valPrice := if !st.valPrice.isnan || !inp.ffillValPrice then setAt s.valPrice col st.valPrice else s.valPrice,
            oidx := st.oidx, lidx := st.lidx, buf := b }

/-- One row of one group, portfolio.rs:3015-3181. -/
def rowStep (A : Arith) (z : Nat → Nat → Bool) (inp : Inputs) (sharing : Bool) (group fromCol len : Nat) (s : SimState)
    (i : Nat) : Except Err SimState :=
  let vp := rowPrices inp i fromCol len s.valPrice
  let s1 := { s with valPrice := vp, value := rowValue A sharing s.cash s.position vp fromCol len }
  loopE (slotStep A z inp sharing group i fromCol len) s1
    ((List.range len).zip (rowSeq A inp sharing i fromCol len s1))

/-- One group, portfolio.rs:3009-3184; `grp` is (group, from_col, group_len). -/
def groupStep (A : Arith) (z : Nat → Nat → Bool) (inp : Inputs) (sharing : Bool) (initCash : Nat → F) (rows : Nat)
    (s : SimState) (grp : Nat × Nat × Nat) : Except Err SimState :=
  loopE (rowStep A z inp sharing grp.1 grp.2.1 grp.2.2)
    { s with cash := initCash grp.1, free := initCash grp.1 } (List.range rows)

/-- `simulate_from_orders_inner`, portfolio.rs:2958-3193. -/
def ordersInner (A : Arith) (z : Nat → Nat → Bool) (inp : Inputs) (rows : Nat) (lens : List Nat) (initCash : Nat → F)
    (b : Buffers) : Except Err (List OrderRec × List LogRec) :=
  match loopE (groupStep A z inp (lens.any fun g => decide (g > 1)) initCash rows)
      { cash := nan, free := nan, value := nan, position := fun _ => zero, debt := fun _ => zero,
        valPrice := fun _ => nan, oidx := 0, lidx := 0, buf := b } (layout lens) with
  | .error e => .error e
  | .ok s => .ok (s.buf.orders.take s.oidx, s.buf.logs.take s.lidx)

/-- `simulate_from_orders_py`, portfolio.rs:2106-2288, after the arguments have been read. -/
def simulateFromOrders (A : Arith) (z : Nat → Nat → Bool) (inp : Inputs) (rows cols : Nat) (lens : List Nat)
    (initCash : List F) (maxOrders : Option Nat) (maxLogs : Nat) : Except Err (List OrderRec × List LogRec) :=
  let sharing := lens.any fun g => decide (g > 1)
  if lens.sum ≠ cols then .error (.valueError "group_lens has incorrect total number of columns")
  else if sharing = true ∧ initCash.length ≠ lens.length then
    .error (.valueError "If cash sharing is enabled, init_cash must match the number of groups")
  else if sharing = false ∧ initCash.length ≠ cols then
    .error (.valueError "If cash sharing is disabled, init_cash must match the number of columns")
  else
    let b : Buffers :=
      { orders := [], logs := [], maxOrders := min (maxOrders.getD (rows * cols)) (rows * cols),
        maxLogs := if maxLogs = 0 then 1 else maxLogs }
    if !sharing && !inp.autoCallSeq then ordersNonShared A z inp rows cols (fun c => initCash.getD c nan) b
    else ordersInner A z inp rows lens (fun g => initCash.getD g nan) b

end Vbt.Rs
