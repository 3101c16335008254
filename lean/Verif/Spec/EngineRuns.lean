import Verif.Spec.Engines
import Verif.Model.Sim

/-!
# Where whole simulations of the two engines are meant to agree

Conditions on the arguments of a simulation from orders, cell by cell.  Each excludes a case in which the engines differ;
the differences are stated in `Props/C83` and `Props/C84`.
-/

namespace Vbt.Rs
open F

/-- What a simulation returns: the order and the log records, cut to the numbers written, portfolio/nb.py:1576. -/
def recordsOf (s : SimState) : List OrderRec × List LogRec := (s.buf.orders.take s.oidx, s.buf.logs.take s.lidx)

/-- Previous close, NaN in the first row. -/
def previousClose (inp : Inputs) (i c : Nat) : F := if i = 0 then nan else inp.close (i - 1) c

/-- An infinite quote stands for another price: plus infinity for `plus`, minus infinity for `minus`. -/
def quoted (x plus minus : F) : F :=
  match x with
  | pinf => plus
  | ninf => minus
  | x => x

/-- The price at which a cell is valued before its order is called. -/
def valuation (inp : Inputs) (i c : Nat) : F :=
  quoted (inp.valPrice i c) (quoted (inp.price i c) (inp.close i c) (previousClose inp i c)) (previousClose inp i c)

/-- A `Percent` order that can open or extend a short position: its value is estimated from the free cash. -/
def ShortPercent (inp : Inputs) (i c : Nat) : Prop :=
  inp.sizeType i c = SizeType.Percent ∧ inp.direction i c ≠ Direction.LongOnly ∧
    ge (if inp.direction i c = Direction.ShortOnly then neg (inp.size i c) else inp.size i c) zero = false

/-- Every arithmetic: numbers of the arithmetic, no order of zero percent. -/
structure CommonCells (A : Arith) (inp : Inputs) (rows cols : Nat) (initCash : List F) : Prop where
  start : ∀ x ∈ initCash, Rep A x
  size : ∀ i < rows, ∀ c < cols, Rep A (inp.size i c)
  maxSize : ∀ i < rows, ∀ c < cols, Rep A (inp.maxSize i c)
  fixedFees : ∀ i < rows, ∀ c < cols, Rep A (inp.fixedFees i c)
  percent : ∀ i < rows, ∀ c < cols, inp.sizeType i c = SizeType.Percent → inp.size i c ≠ zero

/-- First regime, for every sound arithmetic (binary64 among them): no locked cash, no granularity and, if orders are sorted
by value, no `Percent` order that can open a short position. -/
structure PlainCells (inp : Inputs) (rows cols : Nat) (sharing : Bool) : Prop where
  lockCash : ∀ i < rows, ∀ c < cols, inp.lockCash i c = false
  gran : ∀ i < rows, ∀ c < cols, (inp.gran i c).isnan = true
  sort : sharing = true → inp.autoCallSeq = true → ∀ i < rows, ∀ c < cols, ¬ ShortPercent inp i c

/-- Nothing infinite goes in: initial cash and closing prices are not infinite. -/
def NothingInfinite (inp : Inputs) (initCash : List F) : Prop :=
  (∀ x ∈ initCash, x.isinf = false) ∧ ∀ i c, (inp.close i c).isinf = false

/-- Second regime, exact arithmetic: locked cash and granularities are allowed. -/
structure ExactCells (A : Arith) (inp : Inputs) (rows cols : Nat) (sharing : Bool) (initCash : List F) : Prop where
  exact : ∃ r t, A = Arith.exact r t
  start : ∀ x ∈ initCash, x = pinf ∨ x.isfinite = true
  fees : ∀ i < rows, ∀ c < cols, ∀ φ, inp.fees i c = fin φ → -1 < φ
  percent : ∀ i < rows, ∀ c < cols, inp.sizeType i c = SizeType.Percent → (inp.size i c).isfinite = true
  target : ∀ i < rows, ∀ c < cols, inp.sizeType i c = SizeType.TargetPercent → inp.size i c = zero →
    NothingInfinite inp initCash
  sort : sharing = true → inp.autoCallSeq = true → ∀ i < rows, ∀ c < cols, ShortPercent inp i c →
    (valuation inp i c).isfinite = true

/-- No divisor made of the arguments of a cell is zero: one plus the fees, and the prices after slippage. -/
structure NoZeroDivisor (A : Arith) (inp : Inputs) (rows cols : Nat) : Prop where
  fees : ∀ i < rows, ∀ c < cols, eqb (F.add A one (inp.fees i c)) zero = false
  buy : ∀ i < rows, ∀ c < cols, gt (quoted (inp.price i c) (inp.close i c) (previousClose inp i c)) zero = true →
    eqb (mul A (quoted (inp.price i c) (inp.close i c) (previousClose inp i c)) (F.add A one (inp.slippage i c))) zero = false
  sell : ∀ i < rows, ∀ c < cols, gt (quoted (inp.price i c) (inp.close i c) (previousClose inp i c)) zero = true →
    eqb (mul A (mul A (quoted (inp.price i c) (inp.close i c) (previousClose inp i c)) (F.sub A one (inp.slippage i c)))
      (F.add A one (inp.fees i c))) zero = false

end Vbt.Rs
