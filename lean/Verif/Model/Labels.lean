import Verif.Model.Generic

/-!
# Look-ahead labels: `vectorbt/labels/nb.py`

One column at a time: `close` is the column, `len` its length, thresholds are given per row as `flex_select_auto_nb` reads
them (see `Verif.Model.Flex`).  Windows and waits are not negative.
-/

namespace Vbt
open F

/-- `close[::-1]`. -/
def reversed {α : Type} (a : Nat → α) (len : Nat) : Nat → α := fun i => a (len - 1 - i)

/-- The end of the `future_*_apply_nb` functions, labels/nb.py:32-34: reverse back, then shift by `wait`. -/
def futureShift (out : Nat → F) (wait : Nat) (junk : Nat → F) (len : Nat) : Nat → F :=
  if 0 < wait then bshift (reversed out len) wait nan junk len else reversed out len

/-- `future_mean_apply_nb`, labels/nb.py:26-34. -/
def futureMean (A : Arith) (close : Nat → F) (window : Nat) (ewm : Bool) (wait : Nat) (adjust : Bool) (junk junk' : Nat → F)
    (len : Nat) : Except Err (Nat → F) :=
  match if ewm then ewmMean A (reversed close len) window (some window) adjust junk len
    else rollingMean A (reversed close len) window (some window) junk len with
  | .error e => .error e
  | .ok out => .ok (futureShift out wait junk' len)

/-- `future_std_apply_nb`, labels/nb.py:38-53, without `ewm`. -/
def futureStd (A : Arith) (sqrt : F → F) (close : Nat → F) (window wait ddof : Nat) (junk junk' : Nat → F) (len : Nat) :
    Except Err (Nat → F) :=
  match rollingStd A sqrt (reversed close len) window (some window) ddof junk len with
  | .error e => .error e
  | .ok out => .ok (futureShift out wait junk' len)

/-- `future_min_apply_nb`, labels/nb.py:57-62. -/
def futureMin (close : Nat → F) (window wait : Nat) (junk junk' : Nat → F) (len : Nat) : Except Err (Nat → F) :=
  match rollingMin (reversed close len) window (some window) junk len with
  | .error e => .error e
  | .ok out => .ok (futureShift out wait junk' len)

/-- `future_max_apply_nb`, labels/nb.py:66-71. -/
def futureMax (close : Nat → F) (window wait : Nat) (junk junk' : Nat → F) (len : Nat) : Except Err (Nat → F) :=
  match rollingMax (reversed close len) window (some window) junk len with
  | .error e => .error e
  | .ok out => .ok (futureShift out wait junk' len)

/-- `fixed_labels_apply_nb`, labels/nb.py:75-77. -/
def fixedLabels (A : Arith) (close : Nat → F) (n : Nat) (junk : Nat → F) (len : Nat) : Nat → F := fun i =>
  div A (sub A (bshift close n nan junk len i) (close i)) (close i)

/-- `mean_labels_apply_nb`, labels/nb.py:81-83. -/
def meanLabels (A : Arith) (close : Nat → F) (window : Nat) (ewm : Bool) (wait : Nat) (adjust : Bool) (junk junk' : Nat → F)
    (len : Nat) : Except Err (Nat → F) :=
  match futureMean A close window ewm wait adjust junk junk' len with
  | .error e => .error e
  | .ok out => .ok fun i => div A (sub A (out i) (close i)) (close i)

/-- The inner loop of `breakout_labels_nb`, labels/nb.py:327-333, over the rows that are left. -/
def breakoutScan (A : Arith) (close : Nat → F) (i : Nat) (pos neg : F) : List Nat → Int
  | [] => 0
  | j :: rest =>
    if gt pos zero && ge (close j) (mul A (close i) (add A one pos)) then 1
    else if gt neg zero && le (close j) (mul A (close i) (sub A one neg)) then -1
    else breakoutScan A close i pos neg rest

/-- `breakout_labels_nb`, labels/nb.py:306-335. -/
def breakoutLabels (A : Arith) (close : Nat → F) (window : Nat) (posTh negTh : Nat → F) (wait len : Nat) : Nat → Int := fun i =>
  breakoutScan A close i (abs (posTh i)) (abs (negTh i))
    (List.range' (i + wait) (min (i + window + wait) len - (i + wait)))

/-- The local variables of `local_extrema_apply_nb`. -/
structure ExtState where
  out : Nat → Int
  prev : Nat
  dir : Int

/-- `close[prev_i] * (1 + _pos_th)`. -/
def thrUp (A : Arith) (close posTh : Nat → F) (p : Nat) : F := mul A (close p) (add A one (abs (posTh p)))

/-- `close[prev_i] * (1 - _neg_th)`. -/
def thrDown (A : Arith) (close negTh : Nat → F) (p : Nat) : F := mul A (close p) (sub A one (abs (negTh p)))

/-- The branches on the direction in `local_extrema_apply_nb`, labels/nb.py:130-155. -/
def extBranch (A : Arith) (close posTh negTh : Nat → F) (s : ExtState) (i : Nat) : ExtState :=
  if s.dir = 1 then
    if lt (close i) (close s.prev) then { s with prev := i }
    else if ge (close i) (thrUp A close posTh s.prev) then ⟨setAt s.out s.prev (-1), i, -1⟩
    else s
  else if s.dir = -1 then
    if gt (close i) (close s.prev) then { s with prev := i }
    else if le (close i) (thrDown A close negTh s.prev) then ⟨setAt s.out s.prev 1, i, 1⟩
    else s
  else
    if ge (close i) (thrUp A close posTh s.prev) then ⟨setAt s.out s.prev (-1), i, -1⟩
    else if le (close i) (thrDown A close negTh s.prev) then ⟨setAt s.out s.prev 1, i, 1⟩
    else s

/-- One turn of `local_extrema_apply_nb`, labels/nb.py:122-160. -/
def extStep (A : Arith) (close posTh negTh : Nat → F) (len : Nat) (s : ExtState) (i : Nat) : Except Err ExtState :=
  if eqb (abs (posTh s.prev)) zero then .error (.valueError "Positive threshold cannot be 0")
  else if eqb (abs (negTh s.prev)) zero then .error (.valueError "Negative threshold cannot be 0")
  else
    let s1 := extBranch A close posTh negTh s i
    .ok (if i = len - 1 ∧ s1.dir ≠ 0 then { s1 with out := setAt s1.out s1.prev (-s1.dir) } else s1)

/-- `local_extrema_apply_nb`, labels/nb.py:101-161, one column. -/
def localExtrema (A : Arith) (close posTh negTh : Nat → F) (len : Nat) : Except Err (Nat → Int) :=
  match loopE (extStep A close posTh negTh len) ⟨fun _ => 0, 0, 0⟩ (List.range' 1 (len - 1)) with
  | .error e => .error e
  | .ok s => .ok s.out

/-- `np.flatnonzero` of a column. -/
def nonzeroRows (a : Nat → Int) (len : Nat) : List Nat := (List.range len).filter fun i => a i ≠ 0

/-- Writes the labels of the rows between two neighbouring extrema. -/
def trendRows (f : Nat → Nat → Nat → Except Err F) (out : Nat → F) (pq : Nat × Nat) : Except Err (Nat → F) :=
  loopE (fun out i =>
    match f pq.1 pq.2 i with
    | .error e => .error e
    | .ok v => .ok (setAt out i v)) out (List.range' pq.1 (pq.2 - pq.1))

/-- The loop over neighbouring extrema of the trend labels, labels/nb.py:170-181 and 265-277. -/
def overTrends (f : Nat → Nat → Nat → Except Err F) (ext : Nat → Int) (len : Nat) : Except Err (Nat → F) :=
  loopE (trendRows f) (fun _ => nan) ((nonzeroRows ext len).zip (nonzeroRows ext len).tail)

/-- `bn_trend_labels_nb`, labels/nb.py:165-183. -/
def bnTrendLabels (close : Nat → F) (ext : Nat → Int) (len : Nat) : Except Err (Nat → F) :=
  overTrends (fun p q _ => .ok (if gt (close q) (close p) then one else zero)) ext len

/-- `pct_trend_labels_nb`, labels/nb.py:260-279. -/
def pctTrendLabels (A : Arith) (close : Nat → F) (ext : Nat → Int) (normalize : Bool) (len : Nat) : Except Err (Nat → F) :=
  overTrends (fun p q i =>
    if gt (close q) (close p) && normalize then divE A (sub A (close q) (close i)) (close q)
    else divE A (sub A (close q) (close i)) (close i)) ext len

end Vbt
