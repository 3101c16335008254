import Mathlib.Algebra.Field.Rat

/-!
# Symmetric thresholds: `vectorbt/labels/nb.py:86-97`

Rationals without rounding.
-/

namespace Vbt

/-- `get_symmetric_pos_th_nb`, labels/nb.py:87-91. -/
def symPosTh (neg : ℚ) : ℚ := neg / (1 - neg)

/-- `get_symmetric_neg_th_nb`, labels/nb.py:95-97. -/
def symNegTh (pos : ℚ) : ℚ := pos / (1 + pos)

end Vbt
