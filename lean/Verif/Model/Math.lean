import Verif.Model.Float

/-! # `vectorbt/utils/math_.py` -/

namespace Vbt
open F

/-- `is_close_nb`, vectorbt/utils/math_.py:14-22. -/
def isClose (A : Arith) (a b : F) : Bool :=
  if a.isnan || b.isnan then false
  else if a.isinf || b.isinf then false
  else if eqb a b then true
  else le (sub A a b).abs (pmax (mul A (fin A.rel) (pmax a.abs b.abs)) (fin A.abs))

/-- `is_close_or_less_nb`, vectorbt/utils/math_.py:26-30. -/
def isCloseOrLess (A : Arith) (a b : F) : Bool :=
  if isClose A a b then true else lt a b

/-- `is_less_nb`, vectorbt/utils/math_.py:34-38. -/
def isLess (A : Arith) (a b : F) : Bool :=
  if isClose A a b then false else lt a b

/-- `is_addition_zero_nb`, vectorbt/utils/math_.py:42-46. -/
def isAdditionZero (A : Arith) (a b : F) : Bool :=
  if !(eqb a.sign b.sign) then isClose A a.abs b.abs
  else isClose A (add A a b) zero

/-- `add_nb`, vectorbt/utils/math_.py:50-54. -/
def addNb (A : Arith) (a b : F) : F :=
  if isAdditionZero A a b then zero else add A a b

end Vbt
