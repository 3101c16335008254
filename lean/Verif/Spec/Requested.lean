import Verif.Spec.Order

/-!
# The amount an order asks for

Written from the documentation of `SizeType` and `Direction` (portfolio/enums.py): `ShortOnly` negates the
size; target types subtract the current position; value types divide by the valuation price.
`pos`, `vp`, `value` are the position, valuation price and (group) value as read.
-/

namespace Vbt
open F

/-- +1, or -1 for `ShortOnly`. -/
def dirSign (o : Order) : ℚ := if o.direction = Direction.ShortOnly then -1 else 1

/-- The order asks for the signed amount `q` (positive: buy). -/
inductive Requested (o : Order) (pos vp value : F) : ℚ → Prop
  | amount {a : ℚ} (hty : o.sizeType = SizeType.Amount) (hs : o.size = fin a) :
      Requested o pos vp value (dirSign o * a)
  | value {a w : ℚ} (hty : o.sizeType = SizeType.Value) (hs : o.size = fin a) (hw : vp = fin w) (hw0 : 0 < w) :
      Requested o pos vp value (dirSign o * a / w)
  | targetAmount {a P : ℚ} (hty : o.sizeType = SizeType.TargetAmount) (hs : o.size = fin a) (hP : pos = fin P) :
      Requested o pos vp value (dirSign o * a - P)
  | targetValue {a w P : ℚ} (hty : o.sizeType = SizeType.TargetValue) (hs : o.size = fin a) (hw : vp = fin w)
      (hw0 : 0 < w) (hP : pos = fin P) :
      Requested o pos vp value (dirSign o * a / w - P)
  | targetPercent {a w V P : ℚ} (hty : o.sizeType = SizeType.TargetPercent) (hs : o.size = fin a)
      (hw : vp = fin w) (hw0 : 0 < w) (hV : value = fin V) (hV0 : 0 < V) (hP : pos = fin P) :
      Requested o pos vp value (dirSign o * a * V / w - P)

end Vbt

namespace Vbt
open F

/-- The position `T` a target order asks for. -/
inductive Target (o : Order) (vp value : F) : ℚ → Prop
  | amount {a : ℚ} (hty : o.sizeType = SizeType.TargetAmount) (hs : o.size = fin a) :
      Target o vp value (dirSign o * a)
  | value {a w : ℚ} (hty : o.sizeType = SizeType.TargetValue) (hs : o.size = fin a) (hw : vp = fin w) (hw0 : 0 < w) :
      Target o vp value (dirSign o * a / w)
  | percent {a w V : ℚ} (hty : o.sizeType = SizeType.TargetPercent) (hs : o.size = fin a)
      (hw : vp = fin w) (hw0 : 0 < w) (hV : value = fin V) (hV0 : 0 < V) :
      Target o vp value (dirSign o * a * V / w)

end Vbt
