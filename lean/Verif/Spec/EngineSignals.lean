import Verif.Spec.EngineRuns
import Verif.Model.SignalSim

/-!
# Where simulations from signals of the two engines are meant to agree
-/

namespace Vbt.Rs
open F

/-! ## Simulations from signals -/

/-- Errors about signals: the Numba engine raises `ValueError`, the Rust engine `RejectedOrderError`. -/
def signalErrors : List String :=
  ["Only SizeType.Amount, SizeType.Value, and SizeType.Percent are supported",
   "Negative size is not allowed. You must express direction using signals.",
   "SizeType.Percent does not support position reversal using signals",
   "Stop value must be 0 or greater",
   "Call index exceeds bounds of the group"]

/-- The exception of the Rust engine, given that of the Numba engine. -/
def rustError : Err → Err
  | .valueError m => if m ∈ signalErrors then .rejected m else .valueError m
  | e => e

/-- The outcome of the Rust engine, given that of the Numba engine. -/
def rustOutcome : Except Err SigState → Except Err (List OrderRec × List LogRec)
  | .error e => .error (rustError e)
  | .ok s => .ok (recordsOf s.sim)

/-- Every arithmetic: numbers of the arithmetic; if orders are sorted by value, none is given in percents. -/
structure SigCommon (A : Arith) (inp : SigInputs) (rows cols : Nat) (sharing : Bool) (initCash : List F) : Prop where
  start : ∀ x ∈ initCash, Rep A x
  size : ∀ i < rows, ∀ c < cols, Rep A (inp.size i c)
  maxSize : ∀ i < rows, ∀ c < cols, Rep A (inp.maxSize i c)
  fixedFees : ∀ i < rows, ∀ c < cols, Rep A (inp.fixedFees i c)
  sort : sharing = true → inp.autoCallSeq = true → ∀ i < rows, ∀ c < cols, inp.sizeType i c ≠ SizeType.Percent

/-- First regime, for every sound arithmetic (binary64 among them): no locked cash, no granularity. -/
structure SigPlain (inp : SigInputs) (rows cols : Nat) : Prop where
  lockCash : ∀ i < rows, ∀ c < cols, inp.lockCash i c = false
  gran : ∀ i < rows, ∀ c < cols, (inp.gran i c).isnan = true

/-- Second regime, exact arithmetic: locked cash and granularities are allowed. -/
structure SigExact (A : Arith) (inp : SigInputs) (rows cols : Nat) (initCash : List F) : Prop where
  exact : ∃ r t, A = Arith.exact r t
  start : ∀ x ∈ initCash, x = pinf ∨ x.isfinite = true
  fees : ∀ i < rows, ∀ c < cols, ∀ φ, inp.fees i c = fin φ → -1 < φ
  percent : ∀ i < rows, ∀ c < cols, inp.sizeType i c = SizeType.Percent → (inp.size i c).isfinite = true

/-- The price of the order of a cell: minus infinity stands for the open or, if there is none, for the previous close. -/
def sigQuote (inp : SigInputs) (i c : Nat) : F :=
  quoted (inp.price i c) (inp.close i c)
    (if (inp.open_ i c).isnan = false then inp.open_ i c else if i = 0 then nan else inp.close (i - 1) c)

/-- No divisor is zero: no stops, no orders by value, one plus the fees and the prices after slippage are not zero. -/
structure SigNoZeroDivisor (A : Arith) (inp : SigInputs) (rows cols : Nat) : Prop where
  stops : inp.useStops = false
  value : ∀ i < rows, ∀ c < cols, inp.sizeType i c ≠ SizeType.Value
  fees : ∀ i < rows, ∀ c < cols, eqb (F.add A one (inp.fees i c)) zero = false
  buy : ∀ i < rows, ∀ c < cols, gt (sigQuote inp i c) zero = true →
    eqb (mul A (sigQuote inp i c) (F.add A one (inp.slippage i c))) zero = false
  sell : ∀ i < rows, ∀ c < cols, gt (sigQuote inp i c) zero = true →
    eqb (mul A (mul A (sigQuote inp i c) (F.sub A one (inp.slippage i c))) (F.add A one (inp.fees i c))) zero = false

end Vbt.Rs
