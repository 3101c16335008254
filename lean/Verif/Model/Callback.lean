import Verif.Model.Trades

/-!
# Simulation from callbacks: `vectorbt/portfolio/nb.py:1094-1140, 1210-1230, 2977-3869, 3873-4486`

The arrays of the simulator that a callback can change in place are the fields of `CbArrays`; a callback returns them.
`M` is everything a callback keeps elsewhere: arrays passed as arguments, and the tuples returned by the `pre_*` functions,
which the simulator only hands on.  Callbacks see the records but do not write to them.  As in `Verif/Model/Sim`, the draw
of every slot is an input, flexible indexing is resolved, and entries of `call_seq` are natural numbers.
`segment_mask` is a function of row and group.
-/

namespace Vbt
open F

/-- The arguments of the simulators that do not change, portfolio/nb.py:3007-3044. -/
structure CbInputs where
  sharing : Bool
  close : Nat → Nat → F
  segMask : Nat → Nat → Bool
  callPre : Bool
  callPost : Bool
  ffill : Bool
  updVal : Bool
  fillPos : Bool
  draw : Nat → Nat → F

/-- The arrays passed to the callbacks, portfolio/nb.py:3381-3396.  `cash`, `free`, `value`, `second` and `ret` are indexed
by group if cash is shared, otherwise by column. -/
structure CbArrays where
  cash : Nat → F
  free : Nat → F
  value : Nat → F
  second : Nat → F
  ret : Nat → F
  position : Nat → F
  debt : Nat → F
  valPrice : Nat → F
  posRec : Nat → TradeRec
  lastOidx : Nat → Int
  lastLidx : Nat → Int
  callSeq : Nat → Nat → Nat

/-- The local variables of the simulators. -/
structure CbState where
  arr : CbArrays
  temp : Nat → F
  oidx : Nat
  lidx : Nat
  buf : Buffers

/-- The fields of `SegmentContext` that identify a segment. -/
structure SegCtx where
  group : Nat
  fromCol : Nat
  len : Nat
  i : Nat

/-- `cash_now`, `position_now`, ... of `OrderContext` and `PostOrderContext`. -/
structure Now where
  cash : F
  position : F
  debt : F
  free : F
  valPrice : F
  value : F
  ret : F

/-- The callbacks of `simulate_nb` and `simulate_row_wise_nb`.  `order` is called with the column, the call index and the
current values, `postOrder` with the values before, the order result and the values after. -/
structure Callbacks (M : Type) where
  preSim : CbState → M → Except Err (CbArrays × M)
  postSim : CbState → M → Except Err (CbArrays × M)
  preGroup : Nat × Nat × Nat → CbState → M → Except Err (CbArrays × M)
  postGroup : Nat × Nat × Nat → CbState → M → Except Err (CbArrays × M)
  preRow : Nat → CbState → M → Except Err (CbArrays × M)
  postRow : Nat → CbState → M → Except Err (CbArrays × M)
  preSeg : SegCtx → CbState → M → Except Err (CbArrays × M)
  postSeg : SegCtx → CbState → M → Except Err (CbArrays × M)
  order : SegCtx → Nat → Nat → Now → CbState → M → Except Err (Order × CbArrays × M)
  postOrder : SegCtx → Nat → Nat → Now → OrderResult → Now → CbState → M → Except Err (CbArrays × M)

/-- Calling a callback. -/
def callHook {M : Type} (f : CbState → M → Except Err (CbArrays × M)) (s : CbState × M) : Except Err (CbState × M) :=
  match f s.1 s.2 with
  | .error e => .error e
  | .ok (a, m) => .ok ({ s.1 with arr := a }, m)

/-- `replace_inf_price_nb`, portfolio/nb.py:1094-1117, as called in 3605-3611 and 1133-1139. -/
def resolveInfPrice (close : Nat → Nat → F) (i col : Nat) (o : Order) : Order :=
  if o.price.isinf then
    let prevClose := if i > 0 then close (i - 1) col else nan
    { o with price := if gt o.price zero then close i col else prevClose }
  else o

/-- `get_return_nb`, returns/nb.py:36-45, which does not raise (`getReturn_total`). -/
def returnOf (A : Arith) (input output : F) : F :=
  match getReturn A input output with
  | .error _ => nan
  | .ok v => v

/-! ## One segment -/

/-- portfolio/nb.py:3512-3514 and 3758-3760: open positions of the group. -/
def openStats {M : Type} (A : Arith) (x : SegCtx) (s : CbState × M) : Except Err (CbState × M) :=
  loopE (fun s k =>
    let col := x.fromCol + k
    match updateOpenPosStats A (s.1.arr.posRec col) (s.1.arr.position col) (s.1.arr.valPrice col) with
    | .error e => .error e
    | .ok r => .ok ({ s.1 with arr := { s.1.arr with posRec := setAt s.1.arr.posRec col r } }, s.2))
    s (List.range x.len)

/-- Whether a column belongs to the group of a segment. -/
def SegCtx.hasCol (x : SegCtx) (c : Nat) : Bool := decide (x.fromCol ≤ c ∧ c < x.fromCol + x.len)

/-- The value of the group, or of each of its columns, portfolio/nb.py:3517-3531 and 3736-3752. -/
def valuesOf (A : Arith) (sharing : Bool) (x : SegCtx) (a : CbArrays) : Nat → F :=
  if sharing then setAt a.value x.group (groupValue A (a.cash x.group) a.position a.valPrice x.fromCol x.len)
  else fun c =>
    if x.hasCol c then
      if eqb (a.position c) zero then a.cash c else add A (a.cash c) (mul A (a.position c) (a.valPrice c))
    else a.value c

/-- Whether an index of `cash`, `value` etc. belongs to the group of a segment. -/
def SegCtx.hasKey (x : SegCtx) (sharing : Bool) (k : Nat) : Bool := if sharing then decide (k = x.group) else x.hasCol k

/-- The value and the return before the orders, portfolio/nb.py:3516-3532. -/
def valuesBefore {M : Type} (A : Arith) (sharing : Bool) (x : SegCtx) (s : CbState × M) : CbState × M :=
  let value := valuesOf A sharing x s.1.arr
  ({ s.1 with arr := { s.1.arr with
      value := value
      ret := fun k => if x.hasKey sharing k then returnOf A (s.1.arr.second k) (value k) else s.1.arr.ret k } }, s.2)

/-- One slot of the call sequence, portfolio/nb.py:3538-3726. -/
def cbSlot {M : Type} (A : Arith) (X : CbInputs) (cb : Callbacks M) (x : SegCtx) (s : CbState × M) (k : Nat) :
    Except Err (CbState × M) :=
  let a := s.1.arr
  let colI := a.callSeq x.i (x.fromCol + k)
  if colI ≥ x.len then .error (.valueError "Call index exceeds bounds of the group")
  else
    let col := x.fromCol + colI
    let key := if X.sharing then x.group else col
    let now : Now := { cash := a.cash key, position := a.position col, debt := a.debt col, free := a.free key,
                       valPrice := a.valPrice col, value := a.value key, ret := a.ret key }
    match cb.order x col k now s.1 s.2 with
    | .error e => .error e
    | .ok (order, a1, m1) =>
      match processOrder A x.i col x.group
          { cash := now.cash, position := now.position, debt := now.debt, freeCash := now.free,
            valPrice := now.valPrice, value := now.value, oidx := s.1.oidx, lidx := s.1.lidx }
          X.updVal (resolveInfPrice X.close x.i col order) (X.draw x.i (x.fromCol + k)) s.1.buf with
      | .error e => .error e
      | .ok (res, st, b) =>
        let ret := returnOf A (a1.second key) st.value
        match (if X.fillPos then updatePosRecord A (a1.posRec col) x.i col now.position st.position res
            else .ok (a1.posRec col)) with
        | .error e => .error e
        | .ok rec =>
          let a2 : CbArrays := { a1 with
            position := setAt a1.position col st.position
            debt := setAt a1.debt col st.debt
            valPrice := if !st.valPrice.isnan || !X.ffill then setAt a1.valPrice col st.valPrice else a1.valPrice
            cash := setAt a1.cash key st.cash
            free := setAt a1.free key st.freeCash
            value := setAt a1.value key st.value
            ret := setAt a1.ret key ret
            lastOidx := if s.1.oidx ≠ st.oidx then setAt a1.lastOidx col s.1.oidx else a1.lastOidx
            lastLidx := if s.1.lidx ≠ st.lidx then setAt a1.lastLidx col s.1.lidx else a1.lastLidx
            posRec := setAt a1.posRec col rec }
          callHook (cb.postOrder x col k now res
              { cash := st.cash, position := st.position, debt := st.debt, free := st.freeCash,
                valPrice := st.valPrice, value := st.value, ret := ret })
            ({ s.1 with arr := a2, oidx := st.oidx, lidx := st.lidx, buf := b }, m1)

/-- Valuation price, value and return at the end of the row, portfolio/nb.py:3730-3755. -/
def valuesAfter {M : Type} (A : Arith) (X : CbInputs) (x : SegCtx) (s : CbState × M) : CbState × M :=
  let vp : Nat → F := fun c =>
    if x.hasCol c && (!(X.close x.i c).isnan || !X.ffill) then X.close x.i c else s.1.arr.valPrice c
  let value := valuesOf A X.sharing x { s.1.arr with valPrice := vp }
  ({ s.1 with
      arr := { s.1.arr with
        valPrice := vp
        value := value
        second := fun k => if x.hasKey X.sharing k then s.1.temp k else s.1.arr.second k
        ret := fun k => if x.hasKey X.sharing k then returnOf A (s.1.temp k) (value k) else s.1.arr.ret k }
      temp := fun k => if x.hasKey X.sharing k then value k else s.1.temp k }, s.2)

/-- Two statements after each other. -/
def andThen {σ : Type} (f g : σ → Except Err σ) (s : σ) : Except Err σ :=
  match f s with
  | .error e => .error e
  | .ok s => g s

/-- A statement under a condition. -/
def onlyIf {σ : Type} (b : Bool) (f : σ → Except Err σ) (s : σ) : Except Err σ := if b then f s else .ok s

/-- The lines 3470-3799 of `simulate_nb`, portfolio/nb.py, which are also those of `simulate_row_wise_nb` (4090-4419) and,
except for the loop over the orders, those of `flex_simulate_nb` (4790-5112) and `flex_simulate_row_wise_nb` (5309-5634). -/
def segmentWith {M : Type} (A : Arith) (X : CbInputs) (cb : Callbacks M) (x : SegCtx)
    (orders : CbState × M → Except Err (CbState × M)) : CbState × M → Except Err (CbState × M) :=
  andThen (onlyIf (X.callPre || X.segMask x.i x.group) (callHook (cb.preSeg x))) <|
  andThen (onlyIf X.fillPos (openStats A x)) <|
  andThen (fun s => .ok (valuesBefore A X.sharing x s)) <|
  andThen (onlyIf (X.segMask x.i x.group) orders) <|
  andThen (fun s => .ok (valuesAfter A X x s)) <|
  andThen (onlyIf X.fillPos (openStats A x)) <|
  onlyIf (X.callPost || X.segMask x.i x.group) (callHook (cb.postSeg x))

/-- A segment of `simulate_nb` and `simulate_row_wise_nb`: one order per slot of the call sequence, portfolio/nb.py:3538-3726. -/
def segment {M : Type} (A : Arith) (X : CbInputs) (cb : Callbacks M) (x : SegCtx) : CbState × M → Except Err (CbState × M) :=
  segmentWith A X cb x (fun s => loopE (cbSlot A X cb x) s (List.range x.len))

/-! ## The simulators -/

/-- The segment of a row and a group. -/
def segCtx (grp : Nat × Nat × Nat) (i : Nat) : SegCtx := ⟨grp.1, grp.2.1, grp.2.2, i⟩

/-- The state before the simulation, portfolio/nb.py:3381-3396; `junk` are the records of positions, of which only the ids are
initialised. -/
def cbInit (rows cols : Nat) (initCash : Nat → F) (callSeq : Nat → Nat → Nat) (maxOrders : Option Nat) (maxLogs : Nat)
    (junk : Nat → TradeRec) : CbState :=
  { arr := { cash := initCash, free := initCash, value := initCash, second := initCash, ret := fun _ => nan,
             position := fun _ => zero, debt := fun _ => zero, valPrice := fun _ => nan,
             posRec := fun c => { junk c with id := -1 }, lastOidx := fun _ => -1, lastLidx := fun _ => -1,
             callSeq := callSeq },
    temp := initCash, oidx := 0, lidx := 0, buf := initRecords rows cols maxOrders maxLogs }

/-- `check_group_lens_nb` and `check_group_init_cash_nb`, portfolio/nb.py:823-837, and the rest of a simulator. -/
def checkedSim {σ : Type} (sharing : Bool) (cols : Nat) (lens : List Nat) (initCash : List F) (run : Except Err σ) :
    Except Err σ :=
  if lens.sum ≠ cols then .error (.valueError "group_lens has incorrect total number of columns")
  else if sharing = true ∧ initCash.length ≠ lens.length then
    .error (.valueError "If cash sharing is enabled, init_cash must match the number of groups")
  else if sharing = false ∧ initCash.length ≠ cols then
    .error (.valueError "If cash sharing is disabled, init_cash must match the number of columns")
  else run

/-- One turn of the group loop of `simulate_nb`, portfolio/nb.py:3430-3836, and of `flex_simulate_nb`, 4750-5149. -/
def groupLoopWith {M : Type} (cb : Callbacks M) (seg : SegCtx → CbState × M → Except Err (CbState × M)) (rows : Nat)
    (s : CbState × M) (grp : Nat × Nat × Nat) : Except Err (CbState × M) :=
  andThen (callHook (cb.preGroup grp))
    (andThen (fun s => loopE (fun s i => seg (segCtx grp i) s) s (List.range rows)) (callHook (cb.postGroup grp))) s

/-- The group loop of `simulate_nb`, portfolio/nb.py:3430-3836. -/
def groupLoop {M : Type} (A : Arith) (X : CbInputs) (cb : Callbacks M) (rows : Nat) (s : CbState × M)
    (grp : Nat × Nat × Nat) : Except Err (CbState × M) := groupLoopWith cb (segment A X cb) rows s grp

/-- `simulate_nb`, portfolio/nb.py:3007-3869. -/
def simulateNb {M : Type} (A : Arith) (X : CbInputs) (cb : Callbacks M) (m : M) (rows cols : Nat) (lens : List Nat)
    (initCash : List F) (callSeq : Nat → Nat → Nat) (maxOrders : Option Nat) (maxLogs : Nat) (junk : Nat → TradeRec) :
    Except Err (CbState × M) :=
  checkedSim X.sharing cols lens initCash
    (andThen (callHook cb.preSim)
      (andThen (fun s => loopE (groupLoop A X cb rows) s (layout lens)) (callHook cb.postSim))
      (cbInit rows cols (fun k => initCash.getD k nan) callSeq maxOrders maxLogs junk, m))

/-- One turn of the row loop of `simulate_row_wise_nb`, portfolio/nb.py:4053-4453, and of `flex_simulate_row_wise_nb`,
5273-5668. -/
def rowLoopWith {M : Type} (cb : Callbacks M) (seg : SegCtx → CbState × M → Except Err (CbState × M)) (lens : List Nat)
    (s : CbState × M) (i : Nat) : Except Err (CbState × M) :=
  andThen (callHook (cb.preRow i))
    (andThen (fun s => loopE (fun s grp => seg (segCtx grp i) s) s (layout lens)) (callHook (cb.postRow i))) s

/-- The row loop of `simulate_row_wise_nb`, portfolio/nb.py:4053-4453. -/
def rowLoop {M : Type} (A : Arith) (X : CbInputs) (cb : Callbacks M) (lens : List Nat) (s : CbState × M) (i : Nat) :
    Except Err (CbState × M) := rowLoopWith cb (segment A X cb) lens s i

/-- `simulate_row_wise_nb`, portfolio/nb.py:3873-4486. -/
def simulateRowWiseNb {M : Type} (A : Arith) (X : CbInputs) (cb : Callbacks M) (m : M) (rows cols : Nat) (lens : List Nat)
    (initCash : List F) (callSeq : Nat → Nat → Nat) (maxOrders : Option Nat) (maxLogs : Nat) (junk : Nat → TradeRec) :
    Except Err (CbState × M) :=
  checkedSim X.sharing cols lens initCash
    (andThen (callHook cb.preSim)
      (andThen (fun s => loopE (rowLoop A X cb lens) s (List.range rows)) (callHook cb.postSim))
      (cbInit rows cols (fun k => initCash.getD k nan) callSeq maxOrders maxLogs junk, m))

/-- `try_order_nb`, portfolio/nb.py:1121-1140; `now` are the current values of the context and `u` the draw. -/
def tryOrder (A : Arith) (close : Nat → Nat → F) (i col : Nat) (now : Now) (o : Order) (u : F) :
    Except Err (ExecState × OrderResult) :=
  executeOrder A { cash := now.cash, position := now.position, debt := now.debt, freeCash := now.free,
                   valPrice := now.valPrice, value := now.value, oidx := 0, lidx := 0 }
    (resolveInfPrice close i col o) u

end Vbt
