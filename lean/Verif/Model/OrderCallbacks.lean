import Verif.Model.Callback

/-!
# Callbacks that place the orders of arrays

The counterpart of `simulate_from_orders_nb` for `simulate_nb`, as in the documentation of the latter
(portfolio/nb.py:3160-3330): `pre_segment_func_nb` sets the valuation prices in place and sorts the calls
(`sort_call_seq_out_nb`, 1002-1070), `order_func_nb` returns the order of the arrays.
-/

namespace Vbt
open F

/-- The order of a cell with its price as given (portfolio/nb.py:1516-1533 before the price is resolved). -/
def rawOrder (inp : Inputs) (i col : Nat) : Order := { orderAt inp i col with price := inp.price i col }

/-- The valuation prices of the segment: those of the arrays, or the previous ones.  `remember`: the previous ones are kept by
the callbacks, because the simulator overwrites its own with the close at the end of every row. -/
def segValPrice (inp : Inputs) (remember : Bool) (x : SegCtx) (a : CbArrays) (m : Nat → F) : Nat → F :=
  rowValPrice inp x.i x.fromCol x.len (if remember then m else a.valPrice)

/-- The calls of the segment: sorted by value if cash is shared, in order of the columns otherwise. -/
def segCallSeq (A : Arith) (inp : Inputs) (sharing : Bool) (x : SegCtx) (a : CbArrays) (vp : Nat → F) : List Nat :=
  if sharing then
    rowCallSeq A inp true x.i x.fromCol x.len
      { cash := a.cash x.group, free := a.free x.group, position := a.position, debt := a.debt, valPrice := vp,
        value := groupValue A (a.cash x.group) a.position vp x.fromCol x.len, oidx := 0, lidx := 0,
        buf := { orders := [], logs := [], maxOrders := 0, maxLogs := 0 } }
  else List.range x.len

/-- The callbacks; their memory are valuation prices by column. -/
def orderCallbacks (A : Arith) (inp : Inputs) (sharing remember : Bool) : Callbacks (Nat → F) :=
  { preSim := fun s m => .ok (s.arr, m), postSim := fun s m => .ok (s.arr, m)
    preGroup := fun _ s m => .ok (s.arr, m), postGroup := fun _ s m => .ok (s.arr, m)
    preRow := fun _ s m => .ok (s.arr, m), postRow := fun _ s m => .ok (s.arr, m)
    preSeg := fun x s m =>
      let vp := segValPrice inp remember x s.arr m
      let seq := segCallSeq A inp sharing x s.arr vp
      .ok ({ s.arr with
              valPrice := fun c => if x.hasCol c then vp c else s.arr.valPrice c
              callSeq := fun i c => if i = x.i ∧ x.hasCol c = true then seq.getD (c - x.fromCol) 0 else s.arr.callSeq i c },
           vp)
    postSeg := fun _ s m => .ok (s.arr, m)
    order := fun x col _ _ s m => .ok (rawOrder inp x.i col, s.arr, m)
    postOrder := fun _ col _ _ _ _ s m => .ok (s.arr, setAt m col (s.arr.valPrice col)) }

/-- The arguments of `simulate_nb`: every segment is active. -/
def orderCbInputs (inp : Inputs) (sharing fillPos : Bool) : CbInputs :=
  { sharing := sharing, close := inp.close, segMask := fun _ _ => true, callPre := false, callPost := false,
    ffill := inp.ffillValPrice, updVal := inp.updateValue, fillPos := fillPos, draw := inp.draw }

end Vbt
