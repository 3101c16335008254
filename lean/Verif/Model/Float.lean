import Mathlib.Algebra.Order.Field.Rat
import Mathlib.Data.Rat.Floor

/-!
# Floating point numbers

The repository computes with numpy/numba `float64` everywhere.  `F` keeps the three special values and
replaces the finite floats by the rationals; rounding (and overflow) is the parameter `Arith.rnd`.

Simplifications, stated once here:
* no signed zero;
* every operation is "exact result, then `rnd`", which is IEEE 754 for `+ - * /`;
  `x // y` is taken as `rnd ⌊x / y⌋` (CPython computes it through `fmod`).
-/

namespace Vbt

/-- A `float64` value: NaN, -inf, a finite number, +inf. -/
inductive F where
  | nan : F
  | ninf : F
  | fin (q : ℚ) : F
  | pinf : F
deriving DecidableEq, Repr

/-- The arithmetic in use: rounding of exact results, and the two tolerances
of `vectorbt/utils/math_.py:9-10` (`rel_tol`, `abs_tol`). -/
structure Arith where
  rnd : ℚ → F
  rel : ℚ
  abs : ℚ

/-- Exact rational arithmetic with the given tolerances. -/
def Arith.exact (rel abs : ℚ) : Arith := { rnd := F.fin, rel := rel, abs := abs }

/-- Exact arithmetic with the tolerances of `vectorbt/utils/math_.py:9-10`. -/
def Arith.std : Arith := Arith.exact (1 / 1000000000) (1 / 1000000000000)

namespace F

/-- The literal `0.0`. -/
abbrev zero : F := fin 0
/-- The literal `1.0`. -/
abbrev one : F := fin 1

/-- `np.isnan`. -/
def isnan : F → Bool
  | nan => true
  | _ => false

/-- `np.isinf`. -/
def isinf : F → Bool
  | pinf => true
  | ninf => true
  | _ => false

/-- `np.isfinite`. -/
def isfinite : F → Bool
  | fin _ => true
  | _ => false

/-- Float `<` (false whenever NaN is involved). -/
def lt : F → F → Bool
  | nan, _ => false
  | _, nan => false
  | fin a, fin b => decide (a < b)
  | ninf, ninf => false
  | ninf, _ => true
  | _, ninf => false
  | pinf, _ => false
  | _, pinf => true

/-- Float `<=`. -/
def le : F → F → Bool
  | nan, _ => false
  | _, nan => false
  | fin a, fin b => decide (a ≤ b)
  | ninf, _ => true
  | _, ninf => false
  | _, pinf => true
  | pinf, _ => false

/-- Float `>`. -/
def gt (a b : F) : Bool := lt b a
/-- Float `>=`. -/
def ge (a b : F) : Bool := le b a

/-- Float `==` (NaN is not equal to itself). -/
def eqb : F → F → Bool
  | nan, _ => false
  | _, nan => false
  | fin a, fin b => decide (a = b)
  | ninf, ninf => true
  | pinf, pinf => true
  | _, _ => false

/-- Unary minus. -/
def neg : F → F
  | nan => nan
  | ninf => pinf
  | pinf => ninf
  | fin q => fin (-q)

/-- `abs` / `np.abs`. -/
def abs : F → F
  | nan => nan
  | ninf => pinf
  | pinf => pinf
  | fin q => fin |q|

/-- `np.sign`. -/
def sign : F → F
  | nan => nan
  | ninf => fin (-1)
  | pinf => fin 1
  | fin q => fin (if q < 0 then -1 else if 0 < q then 1 else 0)

/-- Float addition. -/
def add (A : Arith) : F → F → F
  | nan, _ => nan
  | _, nan => nan
  | fin a, fin b => A.rnd (a + b)
  | pinf, ninf => nan
  | ninf, pinf => nan
  | pinf, _ => pinf
  | _, pinf => pinf
  | ninf, _ => ninf
  | _, ninf => ninf

/-- Float subtraction. -/
def sub (A : Arith) (a b : F) : F := add A a (neg b)

/-- The infinity with the sign of `q` (NaN for zero): `inf * q`. -/
def infMul (q : ℚ) : F := if q < 0 then ninf else if 0 < q then pinf else nan

/-- Float multiplication. -/
def mul (A : Arith) : F → F → F
  | nan, _ => nan
  | _, nan => nan
  | fin a, fin b => A.rnd (a * b)
  | pinf, fin b => infMul b
  | fin a, pinf => infMul a
  | ninf, fin b => infMul (-b)
  | fin a, ninf => infMul (-a)
  | pinf, pinf => pinf
  | ninf, ninf => pinf
  | pinf, ninf => ninf
  | ninf, pinf => ninf

/-- Array division (numpy semantics: `x/0` is ±inf or NaN; the sign of a zero divisor is taken as +). -/
def div (A : Arith) : F → F → F
  | nan, _ => nan
  | _, nan => nan
  | fin a, fin b => if b = 0 then infMul a else A.rnd (a / b)
  | pinf, fin b => if b < 0 then ninf else pinf
  | ninf, fin b => if b < 0 then pinf else ninf
  | fin _, pinf => fin 0
  | fin _, ninf => fin 0
  | _, _ => nan

/-- Python `min(a, b)`, which numba reproduces: `b if b < a else a`. -/
def pmin (a b : F) : F := if lt b a then b else a

/-- Python `max(a, b)`, which numba reproduces: `b if b > a else a`. -/
def pmax (a b : F) : F := if lt a b then b else a

/-- `x // y` for a finite positive `y` (the only use in the modelled code, `size_granularity`). -/
def floordiv (A : Arith) : F → F → F
  | fin a, fin b => if b = 0 then nan else A.rnd (⌊a / b⌋ : ℤ)
  | _, _ => nan

end F

/-- Exceptions raised by the modelled code. -/
inductive Err where
  | valueError (msg : String)
  | indexError (msg : String)
  | keyError (msg : String)
  | typeError (msg : String)
  | zeroDivision
  | rejectedOrder (info : Int)
  | rejected (msg : String)
deriving DecidableEq, Repr

/-- Scalar division in numba-compiled code (`error_model='python'`): dividing by zero raises. -/
def divE (A : Arith) (a b : F) : Except Err F :=
  if F.eqb b F.zero then .error .zeroDivision else .ok (F.div A a b)

end Vbt
