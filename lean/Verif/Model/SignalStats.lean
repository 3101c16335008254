import Verif.Model.RangeStats
import Verif.Model.RustSignalGen
import Verif.Model.Apply

/-!
# Statistics and selection of signals: `vectorbt/signals/accessors.py:1480-1709`

A mask has `n` rows and `cols` columns; `g` gives the group of a column and is the identity if columns are not grouped.
Numbers of signals are integers here; they are exact as floats up to `2 ^ 53`.
-/

namespace Vbt
open F

/-- The columns of group `k`. -/
def sigColsOf (g : Nat → Nat) (cols k : Nat) : List Nat := (List.range cols).filter fun c => decide (g c = k)

/-- `total`, signals/accessors.py:1636-1639, with generic/accessors.py:1057-1081: the sum of the cells of a column, or of the
flattened columns of a group. -/
def sigTotal (n cols : Nat) (a : Nat → Nat → Bool) (g : Nat → Nat) (k : Nat) : Nat :=
  (sigColsOf g cols k).foldl (fun s c => (List.range n).foldl (fun s i => s + if a i c then 1 else 0) s) 0

/-- `rate`, signals/accessors.py:1641-1646. -/
def sigRate (A : Arith) (n cols : Nat) (a : Nat → Nat → Bool) (g : Nat → Nat) (k : Nat) : F :=
  div A (fin (sigTotal n cols a g k : Nat)) (fin (groupLen g cols k * n : Nat))

/-- `total_partitions`, signals/accessors.py:1648-1656, with `Records.count`, records/base.py:785-792. -/
def totalPartitions (n cols : Nat) (a : Nat → Nat → Bool) (g : Nat → Nat) (k : Nat) : Nat :=
  (partitionRanges n cols a).countP fun r => decide (g r.col = k)

/-- `partition_rate`, signals/accessors.py:1658-1668, without further arguments. -/
def partitionRate (A : Arith) (n cols : Nat) (a : Nat → Nat → Bool) (g : Nat → Nat) (k : Nat) : F :=
  div A (fin (totalPartitions n cols a g k : Nat)) (fin (sigTotal n cols a g k : Nat))

/-- `partition_ranges.duration` of a group, signals/accessors.py:1794-1803. -/
def partitionLens (n cols : Nat) (a : Nat → Nat → Bool) (g : Nat → Nat) (k : Nat) : List Int :=
  ((partitionRanges n cols a).filter fun r => decide (g r.col = k)).map rangeDuration

/-- `first`, signals/accessors.py:1480-1489; the arguments after the mask are those of `pos_rank`, False, None and False by default. -/
def firstSignals (n : Nat) (a : Nat → Bool) (allowGaps : Bool) (resetBy : Option (Nat → Bool)) (afterFalse : Bool) : Nat → Bool :=
  fun i => decide (rank n a resetBy afterFalse (sigPosRank allowGaps) i = 0)

/-- `nth`, signals/accessors.py:1491-1501. -/
def nthSignals (n : Nat) (a : Nat → Bool) (k : Int) (allowGaps : Bool) (resetBy : Option (Nat → Bool)) (afterFalse : Bool) :
    Nat → Bool :=
  fun i => decide (rank n a resetBy afterFalse (sigPosRank allowGaps) i = k)

/-- `from_nth`, signals/accessors.py:1503-1513. -/
def fromNthSignals (n : Nat) (a : Nat → Bool) (k : Int) (allowGaps : Bool) (resetBy : Option (Nat → Bool)) (afterFalse : Bool) :
    Nat → Bool :=
  fun i => decide (rank n a resetBy afterFalse (sigPosRank allowGaps) i ≥ k)

/-- `total_overlapping`, signals/accessors.py:1740-1745. -/
def overlapTotal (n cols : Nat) (a b : Nat → Nat → Bool) (g : Nat → Nat) (k : Nat) : Nat :=
  sigTotal n cols (fun i c => a i c && b i c) g k

/-- `overlapping_rate`, signals/accessors.py:1746-1754, before it is multiplied by 100. -/
def overlapRate (A : Arith) (n cols : Nat) (a b : Nat → Nat → Bool) (g : Nat → Nat) (k : Nat) : F :=
  div A (fin (overlapTotal n cols a b g k : Nat)) (fin (sigTotal n cols (fun i c => a i c || b i c) g k : Nat))

/-- `nth_index` of a group, signals/accessors.py:1563-1569: of the rows with any signal of the group (`any_squeeze_nb`); -1 stands
for NaN. -/
def groupNthIndex (n cols : Nat) (a : Nat → Nat → Bool) (g : Nat → Nat) (k : Nat) (m : Int) : Int :=
  nthIndex1d n (fun i => (sigColsOf g cols k).any fun c => a i c) m

/-- `norm_avg_index` of a group, signals/accessors.py:1609-1622: `norm_avg_index *= col_total`, sums without NaN
(`sum_squeeze_nb`), and their quotient. -/
def groupNormAvgIndex (A : Arith) (n cols : Nat) (a : Nat → Nat → Bool) (g : Nat → Nat) (k : Nat) : F :=
  div A (nansum A ((sigColsOf g cols k).map fun c => mul A (normAvgIndex1d A n (getCol a c)) (fin (sigTotal n cols a id c : Nat))))
    (nansum A ((sigColsOf g cols k).map fun c => fin (sigTotal n cols a id c : Nat)))

end Vbt
