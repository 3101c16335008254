import Verif.Spec.Seen
import Verif.Spec.Drift

/-!
# What the balances of a callback simulator have to be
-/

namespace Vbt

/-- The first column of a group. -/
def firstCol (lens : List Nat) (g : Nat) : Nat := (lens.take g).sum

/-- The records that move the cash with index `key`: those of the group if cash is shared, otherwise those of the column. -/
def ofKey (sharing : Bool) (lens : List Nat) (key : Nat) (o : OrderRec) : Bool :=
  if sharing then decide (firstCol lens key ≤ o.col ∧ o.col < firstCol lens key + lens.getD key 0) else decide (o.col = key)

/-- Every position is what was bought minus what was sold, up to what the tolerances swallow: two additions per record and a
final reading. -/
def PositionsBooked (r t : ℚ) (s : CbState) : Prop :=
  ∀ c, (∀ o ∈ s.buf.orders.filter (fun o => o.col = c), Numbers o) →
    ∃ P, s.arr.position c = .fin P ∧ |P - bookedPos (s.buf.orders.filter fun o => o.col = c)| ≤
      lost r t (assetVolume (s.buf.orders.filter fun o => o.col = c)) (2 * (s.buf.orders.filter fun o => o.col = c).length + 1)

/-- Every finite cash balance is the initial one plus proceeds minus costs and fees, likewise. -/
def CashBooked (r t : ℚ) (sharing : Bool) (lens : List Nat) (initCash : List F) (s : CbState) : Prop :=
  ∀ key q, initCash.getD key .nan = .fin q → (∀ o ∈ s.buf.orders.filter (ofKey sharing lens key), Numbers o) →
    ∃ c, s.arr.cash key = .fin c ∧ |c - (q + bookedCash (s.buf.orders.filter (ofKey sharing lens key)))| ≤
      lost r t (cashVolume (s.buf.orders.filter (ofKey sharing lens key)))
        (2 * (s.buf.orders.filter (ofKey sharing lens key)).length + 1)

/-- No cash balance is negative. -/
def Solvent (s : CbState) : Prop := ∀ key, F.lt (s.arr.cash key) F.zero = false

/-- The last of some ids, -1 if there is none. -/
def lastId (ids : List Nat) : Int :=
  match ids.getLast? with
  | none => -1
  | some n => (n : Int)

/-- A log record has an order id exactly if its order was filled, and then points to the record of that order. -/
def LogsLinked (orders : List OrderRec) (logs : List LogRec) : Prop :=
  ∀ l ∈ logs, if l.resStatus = OrderStatus.Filled then
      ∃ o : OrderRec, l.orderId = o.id ∧ orders[o.id]? = some o ∧ o.idx = l.idx ∧ o.col = l.col ∧ o.size = l.resSize ∧
        o.price = l.resPrice ∧ o.fees = l.resFees ∧ o.side = l.resSide
    else l.orderId = -1

/-- The counters are the numbers of records, ids count the records, rows and columns are in range, and log records point to
their orders. -/
structure RecordsNumbered (rows cols : Nat) (s : CbState) : Prop where
  orders : s.oidx = s.buf.orders.length
  logs : s.lidx = s.buf.logs.length
  orderIds : s.buf.orders.map (·.id) = List.range s.buf.orders.length
  logIds : s.buf.logs.map (·.id) = List.range s.buf.logs.length
  orderIn : ∀ o ∈ s.buf.orders, o.idx < rows ∧ o.col < cols
  logIn : ∀ l ∈ s.buf.logs, l.idx < rows ∧ l.col < cols
  linked : LogsLinked s.buf.orders s.buf.logs

/-- The positions of the last records are those of the last record of each column, -1 if there is none. -/
structure LastMarked (s : CbState) : Prop where
  lastOrder : ∀ c, s.arr.lastOidx c = lastId ((s.buf.orders.filter fun o => o.col = c).map (·.id))
  lastLog : ∀ c, s.arr.lastLidx c = lastId ((s.buf.logs.filter fun l => l.col = c).map (·.id))

/-- The segment of a row and a group, by the lengths of the groups. -/
def segAt (lens : List Nat) (g i : Nat) : SegCtx := ⟨g, firstCol lens g, lens.getD g 0, i⟩

/-- Order records of a segment. -/
def OfSegment (x : SegCtx) (l : List OrderRec) : Prop :=
  ∀ o ∈ l, o.idx = x.i ∧ x.fromCol ≤ o.col ∧ o.col < x.fromCol + x.len

/-- Log records of a segment. -/
def LogsOfSegment (x : SegCtx) (l : List LogRec) : Prop :=
  ∀ o ∈ l, o.idx = x.i ∧ o.group = x.group ∧ x.fromCol ≤ o.col ∧ o.col < x.fromCol + x.len

/-- Records of a simulation group by group. -/
def GroupWiseRecs {α : Type} (rows : Nat) (lens : List Nat) (W : SegCtx → List α → Prop) (l : List α) : Prop :=
  ∃ w : Nat → Nat → List α, (∀ g < lens.length, ∀ i < rows, W (segAt lens g i) (w g i)) ∧
    l = (List.range lens.length).flatMap fun g => (List.range rows).flatMap fun i => w g i

/-- Records of a simulation row by row. -/
def RowWiseRecs {α : Type} (rows : Nat) (lens : List Nat) (W : SegCtx → List α → Prop) (l : List α) : Prop :=
  ∃ w : Nat → Nat → List α, (∀ g < lens.length, ∀ i < rows, W (segAt lens g i) (w g i)) ∧
    l = (List.range rows).flatMap fun i => (List.range lens.length).flatMap fun g => w g i

/-- In the order of rows within each column. -/
def ByRows {α : Type} (col idx : α → Nat) (l : List α) : Prop := l.Pairwise fun a b => col a = col b → idx a ≤ idx b

end Vbt
