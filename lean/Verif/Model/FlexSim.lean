import Verif.Model.Callback

/-!
# Simulation with a flexible order function: `vectorbt/portfolio/nb.py:4490-5701`

The same arrays and callbacks as in `Verif/Model/Callback`, except that there is no call sequence (`callSeq` is not read) and
`order` is not called.  Instead a function is called again and again, and returns the column of its order; -1 ends the loop.
The draw of a call is an input, indexed by row, column and number of the call.
-/

namespace Vbt
open F

/-- `flex_order_func_nb`: gets the segment and the number of the call. -/
abbrev FlexOrder (M : Type) : Type := SegCtx → Nat → CbState → M → Except Err (Int × Order × CbArrays × M)

/-- Processing an order, portfolio/nb.py:4917-5038: `a` are the arrays and `m` the memory after the order function returned,
`s` the records, `now` the current values and `u` the draw. -/
def placeOrder {M : Type} (A : Arith) (X : CbInputs) (cb : Callbacks M) (x : SegCtx) (col k : Nat) (now : Now) (order : Order)
    (u : F) (a : CbArrays) (m : M) (s : CbState) : Except Err (CbState × M) :=
  let key := if X.sharing then x.group else col
  match processOrder A x.i col x.group
      { cash := now.cash, position := now.position, debt := now.debt, freeCash := now.free,
        valPrice := now.valPrice, value := now.value, oidx := s.oidx, lidx := s.lidx }
      X.updVal (resolveInfPrice X.close x.i col order) u s.buf with
  | .error e => .error e
  | .ok (res, st, b) =>
    let ret := returnOf A (a.second key) st.value
    match (if X.fillPos then updatePosRecord A (a.posRec col) x.i col now.position st.position res
        else .ok (a.posRec col)) with
    | .error e => .error e
    | .ok rec =>
      let a2 : CbArrays := { a with
        position := setAt a.position col st.position
        debt := setAt a.debt col st.debt
        valPrice := if !st.valPrice.isnan || !X.ffill then setAt a.valPrice col st.valPrice else a.valPrice
        cash := setAt a.cash key st.cash
        free := setAt a.free key st.freeCash
        value := setAt a.value key st.value
        ret := setAt a.ret key ret
        lastOidx := if s.oidx ≠ st.oidx then setAt a.lastOidx col s.oidx else a.lastOidx
        lastLidx := if s.lidx ≠ st.lidx then setAt a.lastLidx col s.lidx else a.lastLidx
        posRec := setAt a.posRec col rec }
      callHook (cb.postOrder x col k now res
          { cash := st.cash, position := st.position, debt := st.debt, free := st.freeCash,
            valPrice := st.valPrice, value := st.value, ret := ret })
        ({ s with arr := a2, oidx := st.oidx, lidx := st.lidx, buf := b }, m)

/-- The loop of a segment, portfolio/nb.py:4855-5038, from call `k` on.  A loop that does not end within `fuel` calls is an
error here. -/
def flexLoop {M : Type} (A : Arith) (X : CbInputs) (cb : Callbacks M) (fo : FlexOrder M) (draw : Nat → Nat → Nat → F)
    (x : SegCtx) : Nat → Nat → CbState × M → Except Err (CbState × M)
  | 0, _, _ => .error (.valueError "does not end")
  | fuel + 1, k, s =>
    match fo x k s.1 s.2 with
    | .error e => .error e
    | .ok (c, order, a, m) =>
      if c = -1 then .ok ({ s.1 with arr := a }, m)
      else if c < x.fromCol ∨ c ≥ x.fromCol + x.len then .error (.valueError "Column exceeds bounds of the group")
      else
        let col := c.toNat
        let key := if X.sharing then x.group else col
        let now : Now := { cash := a.cash key, position := a.position col, debt := a.debt col, free := a.free key,
                           valPrice := a.valPrice col, value := a.value key, ret := a.ret key }
        match placeOrder A X cb x col k now order (draw x.i col k) a m s.1 with
        | .error e => .error e
        | .ok s => flexLoop A X cb fo draw x fuel (k + 1) s

/-- A segment of `flex_simulate_nb`, portfolio/nb.py:4790-5112, and of `flex_simulate_row_wise_nb`, 5309-5634. -/
def flexSegment {M : Type} (A : Arith) (X : CbInputs) (cb : Callbacks M) (fo : FlexOrder M) (draw : Nat → Nat → Nat → F)
    (fuel : Nat) (x : SegCtx) : CbState × M → Except Err (CbState × M) :=
  segmentWith A X cb x (flexLoop A X cb fo draw x fuel 0)

/-- `flex_simulate_nb`, portfolio/nb.py:4499-5182. -/
def flexSimulateNb {M : Type} (A : Arith) (X : CbInputs) (cb : Callbacks M) (fo : FlexOrder M) (draw : Nat → Nat → Nat → F)
    (fuel : Nat) (m : M) (rows cols : Nat) (lens : List Nat) (initCash : List F) (callSeq : Nat → Nat → Nat)
    (maxOrders : Option Nat) (maxLogs : Nat) (junk : Nat → TradeRec) : Except Err (CbState × M) :=
  checkedSim X.sharing cols lens initCash
    (andThen (callHook cb.preSim)
      (andThen (fun s => loopE (groupLoopWith cb (flexSegment A X cb fo draw fuel) rows) s (layout lens))
        (callHook cb.postSim))
      (cbInit rows cols (fun k => initCash.getD k nan) callSeq maxOrders maxLogs junk, m))

/-- `flex_simulate_row_wise_nb`, portfolio/nb.py:5186-5701. -/
def flexSimulateRowWiseNb {M : Type} (A : Arith) (X : CbInputs) (cb : Callbacks M) (fo : FlexOrder M)
    (draw : Nat → Nat → Nat → F) (fuel : Nat) (m : M) (rows cols : Nat) (lens : List Nat) (initCash : List F)
    (callSeq : Nat → Nat → Nat) (maxOrders : Option Nat) (maxLogs : Nat) (junk : Nat → TradeRec) :
    Except Err (CbState × M) :=
  checkedSim X.sharing cols lens initCash
    (andThen (callHook cb.preSim)
      (andThen (fun s => loopE (rowLoopWith cb (flexSegment A X cb fo draw fuel) lens) s (List.range rows))
        (callHook cb.postSim))
      (cbInit rows cols (fun k => initCash.getD k nan) callSeq maxOrders maxLogs junk, m))

end Vbt
