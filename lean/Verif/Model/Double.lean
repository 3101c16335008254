import Verif.Model.Float
import Mathlib.Data.Int.Log

/-!
# IEEE 754 binary64 rounding

The rounding that the repository's `float64` arithmetic uses: to nearest, ties to even, gradual underflow, overflow to
infinity.  `Arith.double` is the instance of the model's arithmetic with this rounding and the tolerances of
`vectorbt/utils/math_.py:9-10`.
-/

namespace Vbt
open F

/-- The nearest integer, ties to even. -/
def roundEven (q : ℚ) : ℤ :=
  let f := ⌊q⌋
  if q - f < 1 / 2 then f
  else if 1 / 2 < q - f then f + 1
  else if f % 2 = 0 then f else f + 1

/-- The exponent of the binade of a positive number, at least that of the smallest normal number. -/
def binade (q : ℚ) : ℤ := max (Int.log 2 q) (-1022)

/-- The distance of neighbouring floats in the binade `e`. -/
def ulp (e : ℤ) : ℚ := (2 : ℚ) ^ (e - 52)

/-- Rounding of a positive number. -/
def rndPos (q : ℚ) : F :=
  let v := roundEven (q / ulp (binade q)) * ulp (binade q)
  if (2 : ℚ) ^ (1024 : ℤ) ≤ v then pinf else fin v

/-- Rounding to binary64. -/
def rndDouble (q : ℚ) : F :=
  if q = 0 then fin 0 else if 0 < q then rndPos q else neg (rndPos (-q))

/-- The arithmetic of `float64`, with the tolerances of the repository. -/
def Arith.double : Arith := { rnd := rndDouble, rel := 1 / 1000000000, abs := 1 / 1000000000000 }

/-- What the theorems about rounded arithmetic need of the rounding. -/
structure Arith.Sound (A : Arith) : Prop where
  /-- Rounding keeps the order; in particular it never gives NaN. -/
  mono : ∀ x y : ℚ, x ≤ y → le (A.rnd x) (A.rnd y) = true
  /-- Integers up to `2 ^ 53` are represented. -/
  int : ∀ n : ℤ, |n| ≤ 2 ^ 53 → A.rnd n = fin n
  /-- A rounded number is represented. -/
  idem : ∀ x y : ℚ, A.rnd x = fin y → A.rnd y = fin y
  /-- Rounding is symmetric. -/
  neg : ∀ x : ℚ, A.rnd (-x) = F.neg (A.rnd x)

end Vbt
