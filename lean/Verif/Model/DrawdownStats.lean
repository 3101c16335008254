import Verif.Model.Generic
import Verif.Model.Apply
import Verif.Model.Records

/-!
# Statistics of drawdown records: `vectorbt/generic/drawdowns.py`

Records are lists.  Columns are not grouped: the `active_*` methods raise if they are.  The result of a statistic is the array before
it is given the labels of the columns (`wrap_reduced`, C87); a failing reduction of one column is an error in its place.
-/

namespace Vbt
open F

/-- `MappedArray.reduce` of a field of drawdown records, records/mapped_array.py:753-806. -/
def reduceDd (field : Drawdown → F) (f : List F → Except Err F) (n : Nat) (junk : Nat → Nat) (recs : List DrawdownRec) :
    List (Except Err F) :=
  reduceMapped (fun _ => f) (.ok nan) (recs.map fun r => field r.dd) (colMap (recs.map DrawdownRec.col) junk) n

/-- `Drawdowns.max_drawdown`, generic/drawdowns.py:312-323. -/
def recMaxDrawdown (A : Arith) (n : Nat) (junk : Nat → Nat) (recs : List DrawdownRec) : List (Except Err F) :=
  reduceDd (ddDrawdown A) minReduce n junk recs

/-- `Drawdowns.active`, generic/drawdowns.py:220 (`attach_filters`): `status == DrawdownStatus.Active`. -/
def activeDrawdowns (recs : List DrawdownRec) : List DrawdownRec :=
  recs.filter fun r => r.dd.status = DrawdownStatus.Active

/-- `Drawdowns.recovered`, the same for `DrawdownStatus.Recovered`. -/
def recoveredDrawdowns (recs : List DrawdownRec) : List DrawdownRec :=
  recs.filter fun r => r.dd.status = DrawdownStatus.Recovered

/-- `MappedArray.nth(-1)` of a field, records/mapped_array.py:808-826. -/
def lastDd (field : Drawdown → F) (n : Nat) (junk : Nat → Nat) (recs : List DrawdownRec) : List (Except Err F) :=
  reduceDd field (fun l => nthReduce l (-1)) n junk recs

/-- An operation on two reduced columns. -/
def bothOk (f : F → F → F) : Except Err F → Except Err F → Except Err F
  | .error e, _ => .error e
  | .ok _, .error e => .error e
  | .ok x, .ok y => .ok (f x y)

/-- `Drawdowns.active_drawdown`, generic/drawdowns.py:405-422. -/
def activeDrawdown (A : Arith) (n : Nat) (junk : Nat → Nat) (recs : List DrawdownRec) : List (Except Err F) :=
  let act := activeDrawdowns recs
  let endVal := lastDd Drawdown.endVal n junk act
  let peakVal := lastDd Drawdown.peakVal n junk act
  List.zipWith (bothOk fun e p => div A (sub A e p) p) endVal peakVal

/-- `Drawdowns.active_recovery`, generic/drawdowns.py:440-457. -/
def activeRecovery (A : Arith) (n : Nat) (junk : Nat → Nat) (recs : List DrawdownRec) : List (Except Err F) :=
  let act := activeDrawdowns recs
  let peakVal := lastDd Drawdown.peakVal n junk act
  let endVal := lastDd Drawdown.endVal n junk act
  let valleyVal := lastDd Drawdown.valleyVal n junk act
  List.zipWith (bothOk fun a b => div A a b) (List.zipWith (bothOk (sub A)) endVal valleyVal)
    (List.zipWith (bothOk (sub A)) peakVal valleyVal)

/-- `Ranges.duration` of drawdown records, generic/ranges.py:265-274 by `range_duration_nb`, generic/nb.py:1730-1738. -/
def ddDuration (d : Drawdown) : Int :=
  if d.status = RangeStatus.Open then d.endIdx - d.startIdx + 1 else d.endIdx - d.startIdx

/-- `dd_recovery_return_nb`, generic/nb.py:1950-1953. -/
def ddRecoveryReturn (A : Arith) (d : Drawdown) : F := div A (sub A d.endVal d.valleyVal) d.valleyVal

/-- `Drawdowns.active_duration`, generic/drawdowns.py:424-438; a count of rows, `to_timedelta` is not modelled. -/
def activeDuration (n : Nat) (junk : Nat → Nat) (recs : List DrawdownRec) : List (Except Err F) :=
  lastDd (fun d => fin (ddDuration d : ℚ)) n junk (activeDrawdowns recs)

/-- `Drawdowns.active_recovery_return`, generic/drawdowns.py:459-472. -/
def activeRecoveryReturn (A : Arith) (n : Nat) (junk : Nat → Nat) (recs : List DrawdownRec) : List (Except Err F) :=
  lastDd (ddRecoveryReturn A) n junk (activeDrawdowns recs)

/-- `Drawdowns.active_recovery_duration`, generic/drawdowns.py:474-490; a count of rows. -/
def activeRecoveryDuration (n : Nat) (junk : Nat → Nat) (recs : List DrawdownRec) : List (Except Err F) :=
  lastDd (fun d => fin (ddRecoveryDuration d : ℚ)) n junk (activeDrawdowns recs)

/-- `ReturnsAccessor.get_drawdowns`, returns/accessors.py:1085-1101: the records of the cumulative returns that start with 1. -/
def returnsDrawdowns (A : Arith) (rets : Nat → Nat → F) (junk : Nat → Nat → F) (n cols : Nat) : List DrawdownRec :=
  getDrawdowns n cols fun i c => cumReturns A (fun i => rets i c) one (fun i => junk i c) n i

end Vbt
