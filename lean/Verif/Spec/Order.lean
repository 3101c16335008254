import Verif.Model.Order

/-!
# Specifications for single orders

Nothing here uses the model's helpers: the predicates are written directly from the documentation of
`Order` (portfolio/enums.py) and of `execute_order_nb`.
-/

namespace Vbt
open F

/-- A number that is finite, `q`, and satisfies `P q`. -/
def FinAnd (x : F) (P : ℚ → Prop) : Prop := ∃ q, x = fin q ∧ P q

/-- The documented requirements on the balance and on the order. -/
structure Valid (s : ExecState) (o : Order) : Prop where
  cash : s.cash = pinf ∨ FinAnd s.cash (0 ≤ ·)
  position : FinAnd s.position fun _ => True
  debt : FinAnd s.debt (0 ≤ ·)
  freeCash : s.freeCash ≠ nan
  price : FinAnd o.price (0 < ·)
  sizeType : 0 ≤ o.sizeType ∧ o.sizeType ≤ 5
  direction : 0 ≤ o.direction ∧ o.direction ≤ 2
  long : o.direction = Direction.LongOnly → FinAnd s.position (0 ≤ ·)
  short : o.direction = Direction.ShortOnly → FinAnd s.position (· ≤ 0)
  fees : FinAnd o.fees fun _ => True
  fixedFees : FinAnd o.fixedFees fun _ => True
  slippage : FinAnd o.slippage (0 ≤ ·)
  minSize : FinAnd o.minSize (0 ≤ ·)
  maxSize : o.maxSize = pinf ∨ FinAnd o.maxSize (0 < ·)
  gran : o.gran = nan ∨ FinAnd o.gran (0 < ·)
  rejectProb : FinAnd o.rejectProb fun p => 0 ≤ p ∧ p ≤ 1

/-- The messages of the validation errors (portfolio/nb.py:383-420). -/
def validationMessages : List String :=
  [ "cash cannot be NaN and must be greater than 0",
    "position must be finite",
    "debt must be finite and 0 or greater",
    "free_cash cannot be NaN",
    "order.price must be finite and greater than 0",
    "order.size_type is invalid",
    "order.direction is invalid",
    "position is negative but order.direction is Direction.LongOnly",
    "position is positive but order.direction is Direction.ShortOnly",
    "order.fees must be finite",
    "order.fixed_fees must be finite",
    "order.slippage must be finite and 0 or greater",
    "order.min_size must be finite and 0 or greater",
    "order.max_size must be greater than 0",
    "order.size_granularity must be either NaN or finite and greater than 0",
    "order.reject_prob must be between 0 and 1" ]

/-- One request to the engine: where it happens, the order, and the random number drawn for it. -/
structure Request where
  i : Nat
  col : Nat
  group : Nat
  order : Order
  u : F

/-- Processing a finite history of requests on one account, one after the other. -/
def processAll (A : Arith) (upd : Bool) : ProcState → Buffers → List Request →
    Except Err (ProcState × Buffers)
  | st, b, [] => .ok (st, b)
  | st, b, q :: qs =>
    match processOrder A q.i q.col q.group st upd q.order q.u b with
    | .error e => .error e
    | .ok (_, st', b') => processAll A upd st' b' qs

end Vbt
