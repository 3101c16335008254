import Verif.Lemmas.Callback
import Verif.Lemmas.Witness

/-! # C56: previewing an order has no side effects

`try_order_nb` builds a new tuple and calls `execute_order_nb`, which takes and returns tuples: in the model it is a function
of its arguments.  What remains to be proved is that the result is the one that processing the order gives. -/

namespace Vbt
open F

/-- A preview agrees with processing the same order with the same draw: the same exception, or the same order result and the
same balances after it; processing can only add the exception for a rejected order with `raise_reject` or for full records. -/
theorem C56_preview (A : Arith) (close : Nat → Nat → F) (i col group : Nat) (now : Now) (o : Order) (u : F)
    (oidx lidx : Nat) (upd : Bool) (b : Buffers) :
    match tryOrder A close i col now o u with
    | .error e => processOrder A i col group (now.proc oidx lidx) upd (resolveInfPrice close i col o) u b = .error e
    | .ok (es, res) =>
      (∃ st b', processOrder A i col group (now.proc oidx lidx) upd (resolveInfPrice close i col o) u b = .ok (res, st, b') ∧
        st.cash = es.cash ∧ st.position = es.position ∧ st.debt = es.debt ∧ st.freeCash = es.freeCash) ∨
      (res.status = OrderStatus.Rejected ∧ o.raiseReject = true ∧
        processOrder A i col group (now.proc oidx lidx) upd (resolveInfPrice close i col o) u b =
          .error (.rejectedOrder res.statusInfo)) ∨
      (∃ msg, processOrder A i col group (now.proc oidx lidx) upd (resolveInfPrice close i col o) u b =
        .error (.indexError msg)) := by
  have he : tryOrder A close i col now o u =
      executeOrder A (now.proc oidx lidx) (resolveInfPrice close i col o) u := rfl
  have hraise : (resolveInfPrice close i col o).raiseReject = o.raiseReject := by
    unfold resolveInfPrice
    split <;> rfl
  rw [he]
  unfold processOrder
  cases hx : executeOrder A (now.proc oidx lidx) (resolveInfPrice close i col o) u with
  | error e => rfl
  | ok r =>
    obtain ⟨es, res⟩ := r
    simp only
    by_cases h1 : res.status = OrderStatus.Rejected ∧ (resolveInfPrice close i col o).raiseReject = true
    · right; left
      rw [if_pos h1]
      exact ⟨h1.1, by rw [← hraise]; exact h1.2, rfl⟩
    · rw [if_neg h1]
      split
      · exact .inr (.inr ⟨_, rfl⟩)
      · split
        · exact .inr (.inr ⟨_, rfl⟩)
        · exact .inl ⟨_, _, rfl, rfl, rfl, rfl, rfl⟩

/-- The draw only matters for orders with a rejection probability. -/
theorem C56_draw {A : Arith} {close : Nat → Nat → F} {i col : Nat} {now : Now} {o : Order} (u v : F)
    (h : gt o.rejectProb zero = false) : tryOrder A close i col now o u = tryOrder A close i col now o v := by
  have hr : (resolveInfPrice close i col o).rejectProb = o.rejectProb := by
    unfold resolveInfPrice
    split <;> rfl
  unfold tryOrder executeOrder applyReject
  rw [hr, h]
  rfl

/-- In the simulation: an order function that previews the order it is going to return (with the draw of its slot) sees
exactly the order result and the balances that the simulator then stores, whatever it looks at besides. -/
theorem C56_slot {M : Type} {A : Arith} {X : CbInputs} {cb : Callbacks M} {x : SegCtx} {s s' : CbState × M} {k : Nat}
    (h : cbSlot A X cb x s k = .ok s') :
    ∃ col key order a1 m1 es res, col = x.fromCol + s.1.arr.callSeq x.i (x.fromCol + k) ∧
      key = (if X.sharing then x.group else col) ∧
      cb.order x col k (nowAt s.1.arr key col) s.1 s.2 = .ok (order, a1, m1) ∧
      tryOrder A X.close x.i col (nowAt s.1.arr key col) order (X.draw x.i (x.fromCol + k)) = .ok (es, res) ∧
      ∃ after s1, callHook (cb.postOrder x col k (nowAt s.1.arr key col) res after) (s1, m1) = .ok s' ∧
        after.cash = es.cash ∧ after.position = es.position ∧ after.debt = es.debt ∧ after.free = es.freeCash ∧
        s1.arr.cash key = es.cash ∧ s1.arr.free key = es.freeCash ∧ s1.arr.position col = es.position ∧
        s1.arr.debt col = es.debt ∧
        (res.status = OrderStatus.Filled → s1.buf.orders = s.1.buf.orders ++
          [OrderRec.mk s.1.oidx col x.i res.size res.price res.fees res.side]) ∧
        (res.status ≠ OrderStatus.Filled → s1.buf.orders = s.1.buf.orders) := by
  obtain ⟨colI, col, key, rfl, hlt, rfl, rfl, order, a1, m1, ho, res, st, b, hp, r, hr, hk⟩ := cbSlot_ok h
  obtain ⟨es, hes, -, e1, e2, e3, e4, hord, -⟩ := processOrder_inv hp
  refine ⟨_, _, order, a1, m1, es, res, rfl, rfl, ho, hes, _, _, hk, e1, e2, e3, e4, ?_, ?_, ?_, ?_, ?_, ?_⟩
  · simp only [storeOrder, setAt, keyOf, if_true]; exact e1
  · simp only [storeOrder, setAt, keyOf, if_true]; exact e4
  · simp only [storeOrder, setAt, if_true]; exact e2
  · simp only [storeOrder, setAt, if_true]; exact e3
  · intro hf
    rcases hord with ⟨-, -, -, hb, -⟩ | ⟨hn, -⟩
    · exact hb
    · exact absurd hf hn
  · intro hf
    rcases hord with ⟨hy, -⟩ | ⟨-, -, hb, -⟩
    · exact absurd hy hf
    · exact hb

/-! ## Examples -/

/-- Closing prices 10, 11 in one column. -/
def wCbClose (i _c : Nat) : F := if i = 0 then fin 10 else fin 11

/-- 100 in cash and no position. -/
def wNow : Now := { cash := fin 100, position := zero, debt := zero, free := fin 100, valPrice := fin 10, value := fin 100,
                    ret := nan }

/-- Buying 4 at the close. -/
def wBuy : Order := { size := fin 4 }

/-- A preview of buying 4 at the close: 60 in cash would be left. -/
example : okAnd (tryOrder Arith.std wCbClose 0 0 wNow wBuy zero)
    (fun r => r.1.cash = fin 60 ∧ r.1.position = fin 4 ∧ r.2.status = OrderStatus.Filled ∧ r.2.price = fin 10) := by
  decide +kernel

/-- With a rejection probability the preview depends on its own draw, so it may differ from the order processed later. -/
theorem C56_counterexample_draw :
    okAnd (tryOrder Arith.std wCbClose 0 0 wNow { wBuy with rejectProb := fin (1/2) } (fin (1/4)))
      (fun r => r.2.status = OrderStatus.Rejected) ∧
    okAnd (tryOrder Arith.std wCbClose 0 0 wNow { wBuy with rejectProb := fin (1/2) } (fin (3/4)))
      (fun r => r.2.status = OrderStatus.Filled) := by
  decide +kernel

/-- Callbacks that buy 4 at the close whenever they are asked. -/
def wCb : Callbacks Unit :=
  { preSim := fun s m => .ok (s.arr, m), postSim := fun s m => .ok (s.arr, m)
    preGroup := fun _ s m => .ok (s.arr, m), postGroup := fun _ s m => .ok (s.arr, m)
    preRow := fun _ s m => .ok (s.arr, m), postRow := fun _ s m => .ok (s.arr, m)
    preSeg := fun _ s m => .ok (s.arr, m), postSeg := fun _ s m => .ok (s.arr, m)
    order := fun _ _ _ _ s m => .ok (wBuy, s.arr, m)
    postOrder := fun _ _ _ _ _ _ s m => .ok (s.arr, m) }

/-- Every segment is active. -/
def wCbIn : CbInputs :=
  { sharing := false, close := wCbClose, segMask := fun _ _ => true, callPre := false, callPost := false, ffill := true,
    updVal := false, fillPos := true, draw := fun _ _ => zero }

/-- A position record that is not initialised. -/
def wNoRec : TradeRec :=
  { id := 0, col := 0, size := nan, entryIdx := 0, entryPrice := nan, entryFees := nan, exitIdx := 0, exitPrice := nan,
    exitFees := nan, pnl := nan, ret := nan, direction := 0, status := 0, parentId := 0 }

/-- `C56_slot` applies to the first slot of a simulation. -/
example : okAnd (cbSlot Arith.std wCbIn wCb ⟨0, 0, 1, 0⟩
      (cbInit 2 1 (fun _ => fin 100) (fun _ _ => 0) none 0 (fun _ => wNoRec), ()) 0)
    (fun s => s.1.arr.cash 0 = fin 60 ∧ s.1.buf.orders = [OrderRec.mk 0 0 0 (fin 4) (fin 10) zero 0]) := by
  decide +kernel

end Vbt
