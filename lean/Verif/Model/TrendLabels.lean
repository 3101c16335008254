import Verif.Model.Labels
import Verif.Model.Portfolio

/-!
# Continuous trend labels: `vectorbt/labels/nb.py`

The trend labels of `labels/nb.py` that need the range of the prices between two extrema, and the choice between all of them.
One column at a time, as in `Verif.Model.Labels`; `nbCols` puts the columns together.
-/

namespace Vbt
open F

/-- The loop over columns of the 2-dim functions in `labels/nb.py`, e.g. labels/nb.py:118-161: column `col` of the output is
`f col`, and the first column that raises ends the call. -/
def nbCols {β : Type} (f : Nat → Except Err (Nat → β)) (out0 : Nat → Nat → β) (ncols : Nat) : Except Err (Nat → Nat → β) :=
  loopE (fun out col =>
    match f col with
    | .error e => .error e
    | .ok v => .ok fun i c => if c = col then v i else out i c) out0 (List.range ncols)

/-- `future_std_apply_nb` with `ewm`, labels/nb.py:47-53; `ddof` is not used by `ewm_std_1d_nb`. -/
def futureEwmStd (A : Arith) (sqrt : F → F) (close : Nat → F) (window wait : Nat) (adjust : Bool) (junk junk' : Nat → F)
    (len : Nat) : Except Err (Nat → F) :=
  match ewmStd A sqrt (reversed close len) window (some window) adjust junk len with
  | .error e => .error e
  | .ok out => .ok (futureShift out wait junk' len)

/-- The slice `close[prev_i : next_i + 1, col]`. -/
def trendSlice (close : Nat → F) (p q : Nat) : List F := (List.range' p (q + 1 - p)).map close

/-- `_min` and `_max`, labels/nb.py:200-201 and 238-239. -/
def trendRange (close : Nat → F) (p q : Nat) : Except Err (F × F) :=
  match npMin (trendSlice close p q) with
  | .error e => .error e
  | .ok mn =>
    match npMax (trendSlice close p q) with
    | .error e => .error e
    | .ok mx => .ok (mn, mx)

/-- `bn_cont_trend_labels_nb`, labels/nb.py:187-204: the division is one of an array, which does not raise. -/
def bnContLabels (A : Arith) (close : Nat → F) (ext : Nat → Int) (len : Nat) : Except Err (Nat → F) :=
  overTrends (fun p q i =>
    match trendRange close p q with
    | .error e => .error e
    | .ok r => .ok (sub A one (div A (sub A (close i) r.1) (sub A r.2 r.1)))) ext len

/-- One label of `bn_cont_sat_trend_labels_nb`, labels/nb.py:241-255, with the range `r` and thresholds `pt`, `nt` of the
extremum before. -/
def satLabel (A : Arith) (close : Nat → F) (p q i : Nat) (pt nt : F) (r : F × F) : Except Err F :=
  if gt (close q) (close p) then
    match divE A r.2 (add A one pt) with
    | .error e => .error e
    | .ok start =>
      if ge r.2 (mul A r.1 (add A one pt)) && le (close i) start then .ok one
      else
        match divE A (sub A (close i) start) (sub A r.2 start) with
        | .error e => .error e
        | .ok v => .ok (sub A one v)
  else
    match divE A r.1 (sub A one nt) with
    | .error e => .error e
    | .ok start =>
      if le r.1 (mul A r.2 (sub A one nt)) && ge (close i) start then .ok zero
      else
        match divE A (sub A (close i) r.1) (sub A start r.1) with
        | .error e => .error e
        | .ok v => .ok (sub A one v)

/-- `bn_cont_sat_trend_labels_nb`, labels/nb.py:208-257.  The thresholds are checked and the range is computed once per pair of
extrema; here once per row, which gives the same as every pair has a row. -/
def bnContSatLabels (A : Arith) (close posTh negTh : Nat → F) (ext : Nat → Int) (len : Nat) : Except Err (Nat → F) :=
  overTrends (fun p q i =>
    if eqb (abs (posTh p)) zero then .error (.valueError "Positive threshold cannot be 0")
    else if eqb (abs (negTh p)) zero then .error (.valueError "Negative threshold cannot be 0")
    else
      match trendRange close p q with
      | .error e => .error e
      | .ok r => satLabel A close p q i (abs (posTh p)) (abs (negTh p)) r) ext len

/-- `trend_labels_apply_nb`, labels/nb.py:283-303, 2-dim: `close i col`, thresholds per cell. -/
def trendLabelsApply (A : Arith) (close posTh negTh : Nat → Nat → F) (mode : Int) (nrows ncols : Nat) :
    Except Err (Nat → Nat → F) :=
  match nbCols (fun c => localExtrema A (fun i => close i c) (fun i => posTh i c) (fun i => negTh i c) nrows) (fun _ _ => 0) ncols with
  | .error e => .error e
  | .ok ext =>
    if mode = 0 then nbCols (fun c => bnTrendLabels (fun i => close i c) (fun i => ext i c) nrows) (fun _ _ => nan) ncols
    else if mode = 1 then nbCols (fun c => bnContLabels A (fun i => close i c) (fun i => ext i c) nrows) (fun _ _ => nan) ncols
    else if mode = 2 then
      nbCols (fun c => bnContSatLabels A (fun i => close i c) (fun i => posTh i c) (fun i => negTh i c) (fun i => ext i c) nrows)
        (fun _ _ => nan) ncols
    else if mode = 3 then
      nbCols (fun c => pctTrendLabels A (fun i => close i c) (fun i => ext i c) false nrows) (fun _ _ => nan) ncols
    else if mode = 4 then
      nbCols (fun c => pctTrendLabels A (fun i => close i c) (fun i => ext i c) true nrows) (fun _ _ => nan) ncols
    else .error (.valueError "Trend mode is not recognized")

end Vbt
