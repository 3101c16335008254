import Verif.Model.Float

/-!
# Specification of balance changes

A balance changes by a delta "up to snapping": either exactly, or the result is reported as zero although
the exact result is only within the tolerance of zero.
-/

namespace Vbt

/-- `after = before + delta`, or `after = 0` and the exact result is negligible relative to the addends
(`rel`) or absolutely (`abs`). -/
def Moves (rel abs : ℚ) (before delta after : ℚ) : Prop :=
  after = before + delta ∨
    (after = 0 ∧ |before + delta| ≤ max (rel * max |before| |delta|) abs)

/-- A stored balance `x` is read as `y`: the same, or zero when `x` is within `abs` of zero. -/
def Reads (abs : ℚ) (x y : F) : Prop :=
  y = x ∨ (y = .fin 0 ∧ ∃ q, x = .fin q ∧ |q| ≤ abs)

end Vbt
