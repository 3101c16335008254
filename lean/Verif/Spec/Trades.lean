import Verif.Spec.Ledger
import Mathlib.Algebra.BigOperators.Group.List.Basic

/-!
# Specification of positions

The orders of a column, told as positions: a position opens with an order when nothing is held, grows with orders in the
same direction and shrinks with the others, and ends when nothing is left.  An order exceeding what is left belongs to
two positions: with the part that closes one and with the part that opens the next; its fees are split by size.
-/

namespace Vbt

/-- An order with finite fields. -/
structure Fill where
  id : Nat
  idx : Nat
  buy : Bool
  size : ℚ
  price : ℚ
  fees : ℚ

/-- The record of an order. -/
def Fill.Is (f : Fill) (o : OrderRec) : Prop :=
  o.id = f.id ∧ o.idx = f.idx ∧ o.size = .fin f.size ∧ o.price = .fin f.price ∧ o.fees = .fin f.fees ∧
    o.side = if f.buy then OrderSide.Buy else OrderSide.Sell

/-- Size and price are positive. -/
def Fill.Ok (f : Fill) : Prop := 0 < f.size ∧ 0 < f.price

/-- The part of an order that belongs to a position. -/
structure Ev where
  entry : Bool
  idx : Int
  size : ℚ
  price : ℚ
  fees : ℚ

/-- A position: its direction and what happened, in order.  `open_` if it was still open after the last order; the last
event is then its valuation at the last close. -/
structure Pos where
  long : Bool
  evs : List Ev
  open_ : Bool

/-- Sums over the entries or exits of a position. -/
def total (entry : Bool) (f : Ev → ℚ) (evs : List Ev) : ℚ := ((evs.filter fun e => e.entry = entry).map f).sum

def entered (evs : List Ev) : ℚ := total true (·.size) evs
def exited (evs : List Ev) : ℚ := total false (·.size) evs
def entryGross (evs : List Ev) : ℚ := total true (fun e => e.size * e.price) evs
def exitGross (evs : List Ev) : ℚ := total false (fun e => e.size * e.price) evs
def entryFees (evs : List Ev) : ℚ := total true (·.fees) evs
def exitFees (evs : List Ev) : ℚ := total false (·.fees) evs

/-- What is left of a position. -/
def left (evs : List Ev) : ℚ := entered evs - exited evs

/-- One order: the positions closed so far and the open one. -/
def splitStep (s : List Pos × Option (Bool × List Ev)) (o : Fill) : List Pos × Option (Bool × List Ev) :=
  match s.2 with
  | none => (s.1, some (o.buy, [⟨true, o.idx, o.size, o.price, o.fees⟩]))
  | some (long, evs) =>
    if o.buy = long then (s.1, some (long, evs ++ [⟨true, o.idx, o.size, o.price, o.fees⟩]))
    else if o.size < left evs then (s.1, some (long, evs ++ [⟨false, o.idx, o.size, o.price, o.fees⟩]))
    else if o.size = left evs then (s.1 ++ [⟨long, evs ++ [⟨false, o.idx, o.size, o.price, o.fees⟩], false⟩], none)
    else
      (s.1 ++ [⟨long, evs ++ [⟨false, o.idx, left evs, o.price, left evs / o.size * o.fees⟩], false⟩],
        some (!long, [⟨true, o.idx, o.size - left evs, o.price, (o.size - left evs) / o.size * o.fees⟩]))

def split (os : List Fill) : List Pos × Option (Bool × List Ev) := os.foldl splitStep ([], none)

/-- The positions of a column; what is left of the last one is valued at `close` in row `last`. -/
def positionsOf (os : List Fill) (last : Int) (close : ℚ) : List Pos :=
  match (split os).2 with
  | none => (split os).1
  | some (long, evs) => (split os).1 ++ [⟨long, evs ++ [⟨false, last, left evs, close, 0⟩], true⟩]

/-! The same by the holding alone. -/

/-- Change of the holding with an order. -/
def Fill.change (q : Fill) : ℚ := if q.buy then q.size else -q.size

/-- What is held after some orders. -/
def held (qs : List Fill) : ℚ := (qs.map Fill.change).sum

/-- The part of an order that increases the holding on its own side, when `h` is held before. -/
def entersBy (h : ℚ) (q : Fill) : ℚ :=
  if q.buy then max 0 (h + q.size) - max 0 h else max 0 (q.size - h) - max 0 (-h)

/-- The part of an order that decreases the holding on the other side. -/
def exitsBy (h : ℚ) (q : Fill) : ℚ :=
  if q.buy then max 0 (-h) - max 0 (-h - q.size) else max 0 h - max 0 (h - q.size)

/-- Row, size, price and fees of the parts of the orders for which `part` is positive; fees by size. -/
def parts (part : ℚ → Fill → ℚ) : ℚ → List Fill → List (Int × ℚ × ℚ × ℚ)
  | _, [] => []
  | h, q :: qs =>
    (if 0 < part h q then [((q.idx : Int), part h q, q.price, part h q / q.size * q.fees)] else [])
      ++ parts part (h + q.change) qs

end Vbt
