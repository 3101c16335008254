import Verif.Model.Generic
import Verif.Model.Records

/-!
# Coverage of ranges with groups: `vectorbt/generic/ranges.py`
-/

namespace Vbt
open F

/-- `ColumnGrouper.get_group_lens`, base/column_grouper.py:283-293: the number of columns of a group. -/
def groupLen (g : Nat → Nat) (cols : Nat) (k : Nat) : Nat := (List.range cols).countP fun c => decide (g c = k)

/-- `Ranges.coverage`, generic/ranges.py:298-324: `n` rows, `cols` columns in `nGroups` groups; without grouping `g` is the identity. -/
def rangesCoverage (A : Arith) (records : List RangeRec) (junk : Nat → Nat) (g : Nat → Nat) (nGroups n cols : Nat)
    (overlapping normalize : Bool) : Except Err (List F) :=
  rangeCoverage A records (colMap (records.map fun r => g r.col) junk) nGroups (fun k => groupLen g cols k * n) overlapping normalize

end Vbt
