import Verif.Model.CallSeq

/-!
# Simulation from orders: `vectorbt/portfolio/nb.py:822-843, 1144-1166, 1353-1576`

Simplifications:
* flexible indexing (`flex_select_auto_nb`) is modelled separately (`Verif/Model/Flex`); here an input is the
  function (row, column) ↦ value it stands for;
* every call to the random source is an input: `draw i c` is the number drawn for the order called in slot `c`
  (`from_col + k`) of row `i`;
* arrays indexed by column (`last_position`, `last_debt`, `last_val_price`) are functions of the column;
  `order_price` is recomputed for every row, so it is not part of the state;
* entries of `call_seq` are natural numbers (the code reads outside of the group for negative ones).
-/

namespace Vbt
open F

/-- A `for` loop whose body may raise. -/
def loopE {σ α : Type} (f : σ → α → Except Err σ) : σ → List α → Except Err σ
  | s, [] => .ok s
  | s, x :: xs =>
    match f s x with
    | .error e => .error e
    | .ok s' => loopE f s' xs

/-- The arguments of `simulate_from_orders_nb`, portfolio/nb.py:1353-1381. -/
structure Inputs where
  size : Nat → Nat → F
  price : Nat → Nat → F
  sizeType : Nat → Nat → Int
  direction : Nat → Nat → Int
  fees : Nat → Nat → F
  fixedFees : Nat → Nat → F
  slippage : Nat → Nat → F
  minSize : Nat → Nat → F
  maxSize : Nat → Nat → F
  gran : Nat → Nat → F
  rejectProb : Nat → Nat → F
  lockCash : Nat → Nat → Bool
  allowPartial : Nat → Nat → Bool
  raiseReject : Nat → Nat → Bool
  log : Nat → Nat → Bool
  valPrice : Nat → Nat → F
  close : Nat → Nat → F
  callSeq : Nat → Nat → Nat
  draw : Nat → Nat → F
  autoCallSeq : Bool
  ffillValPrice : Bool
  updateValue : Bool

/-- The local variables of the simulation. -/
structure SimState where
  cash : F
  free : F
  value : F
  position : Nat → F
  debt : Nat → F
  valPrice : Nat → F
  oidx : Nat
  lidx : Nat
  buf : Buffers

/-- `a[k] = v`. -/
def setAt {α : Type} (a : Nat → α) (k : Nat) (v : α) : Nat → α := fun c => if c = k then v else a c

/-- Order price, portfolio/nb.py:1447-1456. -/
def resolvePrice (inp : Inputs) (i col : Nat) : F :=
  let p := inp.price i col
  if p.isinf then
    if gt p zero then inp.close i col
    else if i > 0 then inp.close (i - 1) col
    else nan
  else p

/-- Valuation price, portfolio/nb.py:1458-1466. -/
def resolveValPrice (inp : Inputs) (i col : Nat) : F :=
  let p := inp.valPrice i col
  if p.isinf then
    if gt p zero then resolvePrice inp i col
    else if i > 0 then inp.close (i - 1) col
    else nan
  else p

/-- The first loop over the columns of the group, portfolio/nb.py:1444-1468. -/
def rowValPrice (inp : Inputs) (i fromCol len : Nat) (vp : Nat → F) : Nat → F := fun c =>
  if fromCol ≤ c ∧ c < fromCol + len then
    let v := resolveValPrice inp i c
    if !v.isnan || !inp.ffillValPrice then v else vp c
  else vp c

/-- The order of a cell, portfolio/nb.py:1516-1533. -/
def orderAt (inp : Inputs) (i col : Nat) : Order :=
  { size := inp.size i col, price := resolvePrice inp i col, sizeType := inp.sizeType i col,
    direction := inp.direction i col, fees := inp.fees i col, fixedFees := inp.fixedFees i col,
    slippage := inp.slippage i col, minSize := inp.minSize i col, maxSize := inp.maxSize i col,
    gran := inp.gran i col, rejectProb := inp.rejectProb i col, lockCash := inp.lockCash i col,
    allowPartial := inp.allowPartial i col, raiseReject := inp.raiseReject i col, log := inp.log i col }

/-- The call sequence of a row and group after sorting, portfolio/nb.py:1480-1497. -/
def rowCallSeq (A : Arith) (inp : Inputs) (sharing : Bool) (i fromCol len : Nat) (s : SimState) : List Nat :=
  let seq := (List.range len).map fun k => inp.callSeq i (fromCol + k)
  if sharing && inp.autoCallSeq then
    let values := (List.range len).map fun k =>
      approxOrderValue A (inp.size i (fromCol + k)) (inp.sizeType i (fromCol + k)) (inp.direction i (fromCol + k))
        s.cash (s.position (fromCol + k)) s.free (s.valPrice (fromCol + k)) s.value
    sortCallSeq values seq
  else seq

/-- Putting an order of column `col` through `process_order_nb` and storing the new state,
portfolio/nb.py:1535-1572 (the same lines appear in the other simulators). -/
def callOrder (A : Arith) (i col group : Nat) (value : F) (updVal ffill : Bool) (o : Order) (u : F) (s : SimState) :
    Except Err SimState :=
  match processOrder A i col group
      { cash := s.cash, position := s.position col, debt := s.debt col, freeCash := s.free,
        valPrice := s.valPrice col, value := value, oidx := s.oidx, lidx := s.lidx }
      updVal o u s.buf with
  | .error e => .error e
  | .ok (_, st, b) =>
    .ok { cash := st.cash, free := st.freeCash, value := st.value,
          position := setAt s.position col st.position,
          debt := setAt s.debt col st.debt,
          valPrice := if !st.valPrice.isnan || !ffill then setAt s.valPrice col st.valPrice else s.valPrice,
          oidx := st.oidx, lidx := st.lidx, buf := b }

/-- Body of the second loop over the columns of the group, portfolio/nb.py:1499-1572; `slot` is the pair
(k, call_seq[i, from_col + k]). -/
def callSlot (A : Arith) (inp : Inputs) (sharing : Bool) (group i fromCol len : Nat) (s : SimState)
    (slot : Nat × Nat) : Except Err SimState :=
  if sharing && slot.2 ≥ len then .error (.valueError "Call index exceeds bounds of the group")
  else
    let col := if sharing then fromCol + slot.2 else fromCol + slot.1
    let value :=
      if sharing then s.value
      else if !eqb (s.position col) zero then add A s.cash (mul A (s.position col) (s.valPrice col))
      else s.cash
    callOrder A i col group value inp.updateValue inp.ffillValPrice (orderAt inp i col) (inp.draw i (fromCol + slot.1)) s

/-- One row of one group, portfolio/nb.py:1443-1572. -/
def simRow (A : Arith) (inp : Inputs) (sharing : Bool) (group fromCol len : Nat) (s : SimState) (i : Nat) :
    Except Err SimState :=
  let vp := rowValPrice inp i fromCol len s.valPrice
  let s1 := { s with valPrice := vp,
                     value := if sharing then groupValue A s.cash s.position vp fromCol len else s.value }
  let seq := rowCallSeq A inp sharing i fromCol len s1
  loopE (callSlot A inp sharing group i fromCol len) s1 ((List.range len).zip seq)

/-- One group, portfolio/nb.py:1437-1574; `grp` is (group, from_col, group_len). -/
def simGroup (A : Arith) (inp : Inputs) (sharing : Bool) (initCash : Nat → F) (rows : Nat) (s : SimState)
    (grp : Nat × Nat × Nat) : Except Err SimState :=
  loopE (simRow A inp sharing grp.1 grp.2.1 grp.2.2)
    { s with cash := initCash grp.1, free := initCash grp.1 } (List.range rows)

/-- The groups with their first columns, portfolio/nb.py:1436-1439, 1574. -/
def layoutFrom (g fromCol : Nat) : List Nat → List (Nat × Nat × Nat)
  | [] => []
  | len :: lens => (g, fromCol, len) :: layoutFrom (g + 1) (fromCol + len) lens

/-- (group, from_col, group_len) of every group. -/
def layout (lens : List Nat) : List (Nat × Nat × Nat) := layoutFrom 0 0 lens

/-- `is_grouped_nb`, portfolio/nb.py:841-843. -/
def isGrouped (lens : List Nat) : Bool := lens.any fun l => decide (l > 1)

/-- `init_records_nb`, portfolio/nb.py:1144-1155, 1163-1165: buffer sizes. -/
def initRecords (rows cols : Nat) (maxOrders : Option Nat) (maxLogs : Nat) : Buffers :=
  { orders := [], logs := [], maxOrders := maxOrders.getD (rows * cols),
    maxLogs := if maxLogs = 0 then 1 else maxLogs }

/-- The state before the first group, portfolio/nb.py:1426-1434. -/
def initState (b : Buffers) : SimState :=
  { cash := nan, free := nan, value := nan, position := fun _ => zero, debt := fun _ => zero,
    valPrice := fun _ => nan, oidx := 0, lidx := 0, buf := b }

/-- `simulate_from_orders_nb`, portfolio/nb.py:1353-1576; `initCash` is the array as a list. -/
def simulateFromOrders (A : Arith) (inp : Inputs) (rows cols : Nat) (lens : List Nat) (initCash : List F)
    (maxOrders : Option Nat) (maxLogs : Nat) : Except Err SimState :=
  if lens.sum ≠ cols then .error (.valueError "group_lens has incorrect total number of columns")
  else
    let sharing := isGrouped lens
    if sharing = true ∧ initCash.length ≠ lens.length then
      .error (.valueError "If cash sharing is enabled, init_cash must match the number of groups")
    else if sharing = false ∧ initCash.length ≠ cols then
      .error (.valueError "If cash sharing is disabled, init_cash must match the number of columns")
    else
      loopE (simGroup A inp sharing (fun g => initCash.getD g nan) rows)
        (initState (initRecords rows cols maxOrders maxLogs)) (layout lens)

end Vbt
