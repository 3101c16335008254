import Verif.Model.Recon
import Verif.Model.Generic

/-!
# Methods of `Portfolio`: `vectorbt/portfolio/base.py:4186-4540`

Series are functions of the row, per column; wrapping into pandas and the dispatch to an engine are left out (the Numba
engine is modelled).
-/

namespace Vbt
open F

/-- `Portfolio.get_filled_close`, portfolio/base.py:4191-4195, one column: `close.ffill().bfill()`. -/
def filledClose (close : Nat → F) (junk junk' : Nat → F) (rows : Nat) : Nat → F :=
  bfill (ffill close junk rows) junk' rows

/-- `Portfolio.assets`, portfolio/base.py:4325-4340, one cell, given the result of `assets_nb` on the flow of both
directions. -/
def directedAssets (direction : Int) (assets : F) : F :=
  if direction = Direction.LongOnly then (if gt assets zero then assets else zero)
  else if direction = Direction.ShortOnly then (if lt assets zero then neg assets else zero)
  else assets

/-- `Portfolio.position_mask` of a column, portfolio/base.py:4353, 4359. -/
def positionMask (direction : Int) (assets : F) : Bool := !eqb (directedAssets direction assets) zero

/-- `Portfolio.position_mask` of a group, portfolio/base.py:4354-4357, and `position_mask_grouped_nb` with
`i_group_any_reduce_nb`, portfolio/nb.py:6575-6584, one row. -/
def positionMaskGrouped (mask : Nat → Nat → Bool) (fromCol len i : Nat) : Bool :=
  (List.range len).any fun k => mask i (fromCol + k)

/-- `np.mean` of booleans. -/
def meanBool (A : Arith) (l : List Bool) : F := div A (fin (l.filter id).length) (fin l.length)

/-- `Portfolio.position_coverage` of a column, portfolio/base.py:4376. -/
def positionCoverage (A : Arith) (mask : Nat → Nat → Bool) (rows col : Nat) : F :=
  meanBool A ((List.range rows).map fun i => mask i col)

/-- `Portfolio.position_coverage` of a group, portfolio/base.py:4371-4374, and `position_coverage_grouped_nb` with
`group_mean_reduce_nb`, portfolio/nb.py:6587-6596: the mean over all cells of the group, row by row. -/
def positionCoverageGrouped (A : Arith) (mask : Nat → Nat → Bool) (rows fromCol len : Nat) : F :=
  meanBool A ((List.range rows).flatMap fun i => (List.range len).map fun k => mask i (fromCol + k))

/-- `np.cumsum` along the rows of a column. -/
def cumsumAt (A : Arith) (flow : Nat → F) : Nat → F
  | 0 => flow 0
  | i + 1 => add A (cumsumAt A flow i) (flow (i + 1))

/-- `np.min` of a column, then `np.where(cash_min < 0, np.abs(cash_min), 1.0)`, portfolio/base.py:4423-4425. -/
def autoInitCash (A : Arith) (flow : Nat → F) (rows : Nat) : Except Err F :=
  match npMin ((List.range rows).map (cumsumAt A flow)) with
  | .error e => .error e
  | .ok m => .ok (if lt m zero then abs m else one)

/-- `np.max` of a non-empty array. -/
def npMax (l : List F) : Except Err F :=
  match l with
  | [] => .error (.valueError "zero-size array to reduction operation not possible")
  | x :: xs => .ok (xs.foldl (fun m v => if m.isnan then m else if v.isnan then v else if lt m v then v else m) x)

/-- Results of a fallible function for all elements. -/
def mapE {α β : Type} (f : α → Except Err β) : List α → Except Err (List β)
  | [] => .ok []
  | x :: xs =>
    match f x with
    | .error e => .error e
    | .ok y => match mapE f xs with
      | .error e => .error e
      | .ok ys => .ok (y :: ys)

/-- Automatic initial cash of all columns or groups, portfolio/base.py:4422-4427; `align` is the mode `AutoAlign`. -/
def autoInitCashAll (A : Arith) (flow : Nat → Nat → F) (rows cols : Nat) (align : Bool) : Except Err (List F) :=
  match mapE (fun c => autoInitCash A (fun i => flow i c) rows) (List.range cols) with
  | .error e => .error e
  | .ok l =>
    if align then
      match npMax l with
      | .error e => .error e
      | .ok m => .ok (l.map fun _ => m)
    else .ok l

/-- `Portfolio.asset_value` of a column, portfolio/base.py:4491-4502, one cell: the close of cells without assets is
set to zero. -/
def assetValuePf (A : Arith) (close assets : F) : F := mul A (if eqb assets zero then zero else close) assets

/-- `Portfolio.gross_exposure` of a column, portfolio/base.py:4526-4528, one cell. -/
def grossExposurePf (A : Arith) (close assets free : F) (direction : Int) : F :=
  grossExposure A (abs (assetValuePf A close (directedAssets direction assets))) free

/-- `Portfolio.gross_exposure` of a group, portfolio/base.py:4519-4528, one row. -/
def grossExposureGroup (A : Arith) (close assets : Nat → F) (free : F) (direction : Int) (fromCol len : Nat) : F :=
  grossExposure A (npSum A ((List.range len).map fun k =>
    abs (assetValuePf A (close (fromCol + k)) (directedAssets direction (assets (fromCol + k)))))) free

/-- `Portfolio.net_exposure` of a column, portfolio/base.py:4532-4537, one cell. -/
def netExposurePf (A : Arith) (close assets free : F) : F :=
  sub A (grossExposurePf A close assets free Direction.LongOnly) (grossExposurePf A close assets free Direction.ShortOnly)

/-- `Portfolio.net_exposure` of a group, portfolio/base.py:4532-4537, one row. -/
def netExposureGroup (A : Arith) (close assets : Nat → F) (free : F) (fromCol len : Nat) : F :=
  sub A (grossExposureGroup A close assets free Direction.LongOnly fromCol len)
    (grossExposureGroup A close assets free Direction.ShortOnly fromCol len)

end Vbt
