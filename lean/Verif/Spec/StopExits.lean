import Verif.Model.Signals

/-! # When a stop is hit -/

namespace Vbt
open F

/-- `m` is the lowest of `init` and the values in the rows `start`, ..., `i - 1`; comparisons with NaN are false. -/
structure IsLowest (init : F) (v : Nat → F) (start i : Nat) (m : F) : Prop where
  attained : m = init ∨ ∃ k, start ≤ k ∧ k < i ∧ m = v k
  init_not_lower : lt init m = false
  not_lower : ∀ k, start ≤ k → k < i → lt (v k) m = false
  nan : m.isnan = true ↔ init.isnan = true

/-- `m` is the highest of `init` and the values in the rows `start`, ..., `i - 1`. -/
structure IsHighest (init : F) (v : Nat → F) (start i : Nat) (m : F) : Prop where
  attained : m = init ∨ ∃ k, start ≤ k ∧ k < i ∧ m = v k
  init_not_higher : lt m init = false
  not_higher : ∀ k, start ≤ k → k < i → lt m (v k) = false
  nan : m.isnan = true ↔ init.isnan = true

/-- The level of a stop placed at the value `init`: a positive stop lies above and a negative one below, a trailing stop
follows the lowest respectively highest value so far. -/
def StopLevel (A : Arith) (ts : Nat → F) (init stop : F) (trailing : Bool) (start i : Nat) (level : F) : Prop :=
  if trailing then
    if ge stop zero then ∃ m, IsLowest init ts start i m ∧ level = mul A m (add A one stop.abs)
    else ∃ m, IsHighest init ts start i m ∧ level = mul A m (sub A one stop.abs)
  else level = mul A init (add A one stop)

/-- The stop is hit in row `i`. -/
def StopReached (A : Arith) (ts : Nat → F) (init stop : F) (trailing : Bool) (start i : Nat) : Prop :=
  stop.isnan = false ∧ ∃ level, StopLevel A ts init stop trailing start i level ∧
    if ge stop zero then le level (ts i) = true else le (ts i) level = true

/-- The open price of a bar: the close price if it is missing. -/
def barOpen (x : OhlcInputs) (i : Nat) : F := if (x.open_ i).isnan then x.close i else x.open_ i

/-- The highest price of a bar that can be used: in the entry bar only the close price, unless the open price is the entry
price or comes before it. -/
def usableHigh (x : OhlcInputs) (entry i : Nat) : F :=
  if i ≤ entry ∧ x.isOpenSafe = false then x.close i
  else if (x.high i).isnan then pmax (barOpen x i) (x.close i) else x.high i

/-- The lowest price of a bar that can be used. -/
def usableLow (x : OhlcInputs) (entry i : Nat) : F :=
  if i ≤ entry ∧ x.isOpenSafe = false then x.close i
  else if (x.low i).isnan then pmin (barOpen x i) (x.close i) else x.low i

/-- The level of the stop loss of an entry: below the open price of the entry, or above it for a short (`reverse`); a
trailing stop follows the highest respectively lowest price so far. -/
def LossLevel (A : Arith) (x : OhlcInputs) (entry start i : Nat) (level : F) : Prop :=
  if x.slTrail entry then
    if x.reverse entry then
      ∃ m, IsLowest (x.open_ entry) (usableLow x entry) start i m ∧ level = mul A m (add A one (x.slStop entry))
    else ∃ m, IsHighest (x.open_ entry) (usableHigh x entry) start i m ∧ level = mul A m (sub A one (x.slStop entry))
  else if x.reverse entry then level = mul A (x.open_ entry) (add A one (x.slStop entry))
  else level = mul A (x.open_ entry) (sub A one (x.slStop entry))

/-- The stop loss is hit in row `i` at `level`. -/
def LossHit (A : Arith) (x : OhlcInputs) (entry start i : Nat) (level : F) : Prop :=
  (x.slStop entry).isnan = false ∧ LossLevel A x entry start i level ∧
    if x.reverse entry then le level (usableHigh x entry i) = true else le (usableLow x entry i) level = true

/-- The take profit is hit in row `i` at `level`. -/
def ProfitHit (A : Arith) (x : OhlcInputs) (entry i : Nat) (level : F) : Prop :=
  (x.tpStop entry).isnan = false ∧
    if x.reverse entry then
      level = mul A (x.open_ entry) (sub A one (x.tpStop entry)) ∧ le (usableLow x entry i) level = true
    else level = mul A (x.open_ entry) (add A one (x.tpStop entry)) ∧ le level (usableHigh x entry i) = true

/-- One of the two is hit in row `i`. -/
def AnyHit (A : Arith) (x : OhlcInputs) (entry start i : Nat) : Prop :=
  ∃ level, LossHit A x entry start i level ∨ ProfitHit A x entry i level

end Vbt
