import Verif.Model.IndicatorRuns
import Verif.Model.RustRecords

/-!
# Indicators on the Rust engine: `rust/src/indicators.rs`

An owned array is a view in standard layout.  The Python dictionaries are lists of key and value as in `Verif.Model.Indicators`,
and `hash()` of a tuple is a parameter.  `Zip` over arrays of different shapes panics.
-/

namespace Vbt.RsInd
open F RsGen

/-- An owned array. -/
def owned (nrows ncols : Nat) (get : Nat → Nat → F) : View2 := ⟨nrows, ncols, get, true⟩

/-- `a.dim() == b.dim()`. -/
def sameDim (a b : View2) : Bool := decide (a.nrows = b.nrows) && decide (a.ncols = b.ncols)

/-- `validate_param_lengths`, rust/src/indicators.rs:20-25. -/
def validLengths (names : String) (expected actual : Nat) : Except Err Unit :=
  if expected ≠ actual then .error (.valueError s!"{names} must have the same length") else .ok ()

/-- `ma_2d`, rust/src/indicators.rs:27-35. -/
def ma (A : Arith) (a : View2) (window : Nat) (ewm adjust : Bool) : View2 :=
  owned a.nrows a.ncols
    (if ewm then
      (if a.standard then cells a.ncols (ewmMeanC A a window window adjust)
        else byCol a fun col => ewmMean1 A col window window adjust)
    else byCol a fun col => rollingMean1 A col window window)

/-- `mstd_2d`, rust/src/indicators.rs:37-45; `ddof` is not used by the `ewm_std` functions. -/
def mstd (A : Arith) (sqrt : F → F) (a : View2) (window : Nat) (ewm adjust : Bool) (ddof : Nat) : View2 :=
  owned a.nrows a.ncols
    (if ewm then
      (if a.standard then cells a.ncols (ewmStdC A sqrt a window window adjust)
        else byCol a fun col => ewmStd1 A sqrt col window window adjust)
    else byCol a fun col => rollingStd1 A sqrt col window window ddof)

/-- `diff_2d`, rust/src/indicators.rs:47-49. -/
def diff2 (A : Arith) (a : View2) : View2 := owned a.nrows a.ncols (byColInplace a fun col out => diffInto A col out 1)

/-- The caching loops, e.g. rust/src/indicators.rs:58-67. -/
def buildCache {H V : Type} [DecidableEq H] (hash : Nat × Bool → H) (compute : Nat × Bool → V) (windows : List Nat)
    (ewms : List Bool) : Except Err (List (H × V)) :=
  match validLengths "windows and ewms" windows.length ewms.length with
  | .error e => .error e
  | .ok _ =>
    loopE (fun d i =>
      match windows[i]?, ewms[i]? with
      | some w, some e => cacheStep hash (fun k => .ok (compute k)) d (w, e)
      | _, _ => .error panicked) [] (List.range windows.length)

/-- `build_ma_cache`, rust/src/indicators.rs:51-68, and `ma_cache_rs`, 120-128. -/
def maCache {H : Type} [DecidableEq H] (A : Arith) (hash : Nat × Bool → H) (close : View2) (windows : List Nat) (ewms : List Bool)
    (adjust : Bool) : Except Err (List (H × View2)) :=
  buildCache hash (fun k => ma A close k.1 k.2 adjust) windows ewms

/-- `build_mstd_cache`, rust/src/indicators.rs:70-88, and `mstd_cache_rs`, 144-153. -/
def mstdCache {H : Type} [DecidableEq H] (A : Arith) (sqrt : F → F) (hash : Nat × Bool → H) (close : View2) (windows : List Nat)
    (ewms : List Bool) (adjust : Bool) (ddof : Nat) : Except Err (List (H × View2)) :=
  buildCache hash (fun k => mstd A sqrt close k.1 k.2 adjust ddof) windows ewms

/-- `bb_cache_rs`, rust/src/indicators.rs:170-184. -/
def bbCache {H : Type} [DecidableEq H] (A : Arith) (sqrt : F → F) (hash : Nat × Bool → H) (close : View2) (windows : List Nat)
    (ewms : List Bool) (adjust : Bool) (ddof : Nat) : Except Err (List (H × View2) × List (H × View2)) :=
  match maCache A hash close windows ewms adjust with
  | .error e => .error e
  | .ok m =>
    match mstdCache A sqrt hash close windows ewms adjust ddof with
    | .error e => .error e
    | .ok s => .ok (m, s)

/-- `bb_apply_rs`, rust/src/indicators.rs:187-227. -/
def bbApply {H : Type} [DecidableEq H] (A : Arith) (hash : Nat × Bool → H) (window : Nat) (ewm : Bool) (alpha : F)
    (maDict mstdDict : List (H × View2)) : Except Err (View2 × View2 × View2) :=
  match cacheGet hash maDict (window, ewm) with
  | .error e => .error e
  | .ok m =>
    match cacheGet hash mstdDict (window, ewm) with
    | .error e => .error e
    | .ok s =>
      if sameDim m s then
        .ok (owned m.nrows m.ncols m.get,
          owned m.nrows m.ncols fun i c => add A (m.get i c) (mul A alpha (s.get i c)),
          owned m.nrows m.ncols fun i c => sub A (m.get i c) (mul A alpha (s.get i c)))
      else .error panicked

/-- `rsi_cache_rs`, rust/src/indicators.rs:230-261. -/
def rsiCache {H : Type} [DecidableEq H] (A : Arith) (hash : Nat × Bool → H) (close : View2) (windows : List Nat)
    (ewms : List Bool) (adjust : Bool) : Except Err (List (H × (View2 × View2))) :=
  let delta := diff2 A close
  let up := owned delta.nrows delta.ncols fun i c => if lt (delta.get i c) zero then zero else delta.get i c
  let down := owned delta.nrows delta.ncols fun i c => if gt (delta.get i c) zero then zero else F.abs (delta.get i c)
  buildCache hash (fun k => (ma A up k.1 k.2 adjust, ma A down k.1 k.2 adjust)) windows ewms

/-- `rsi_apply_rs`, rust/src/indicators.rs:264-288. -/
def rsiApply {H : Type} [DecidableEq H] (A : Arith) (hash : Nat × Bool → H) (window : Nat) (ewm : Bool)
    (dict : List (H × (View2 × View2))) : Except Err View2 :=
  match cacheGet hash dict (window, ewm) with
  | .error e => .error e
  | .ok (up, down) =>
    if sameDim up down then
      .ok (owned up.nrows up.ncols fun i c =>
        let rs := div A (up.get i c) (down.get i c)
        sub A (fin 100) (div A (fin 100) (add A one rs)))
    else .error panicked

/-- `stoch_cache_rs`, rust/src/indicators.rs:291-322; the keys are the windows. -/
def stochCache (high low : View2) (kWindows : List Nat) : Except Err (List (Nat × (View2 × View2))) :=
  if !sameDim high low then .error (.valueError "high and low must have the same shape")
  else
    cacheLoop id (fun w => .ok
      (owned low.nrows low.ncols (byCol low fun col => rollingMin1 col w w),
       owned high.nrows high.ncols (byCol high fun col => rollingMax1 col w w))) kWindows

/-- `stoch_apply_rs`, rust/src/indicators.rs:325-361. -/
def stochApply (A : Arith) (close : View2) (kWindow dWindow : Nat) (dEwm adjust : Bool) (dict : List (Nat × (View2 × View2))) :
    Except Err (View2 × View2) :=
  match cacheGet id dict kWindow with
  | .error e => .error e
  | .ok (mn, mx) =>
    if !sameDim close mn then .error (.valueError "close and cached arrays must have the same shape")
    else if !sameDim close mx then .error panicked
    else
      let percentK := owned close.nrows close.ncols fun i c =>
        div A (mul A (fin 100) (sub A (close.get i c) (mn.get i c))) (sub A (mx.get i c) (mn.get i c))
      .ok (percentK, ma A percentK dWindow dEwm adjust)

/-- `macd_cache_rs`, rust/src/indicators.rs:364-381. -/
def macdCache {H : Type} [DecidableEq H] (A : Arith) (hash : Nat × Bool → H) (close : View2) (fast slow : List Nat)
    (ewms : List Bool) (adjust : Bool) : Except Err (List (H × View2)) :=
  match validLengths "fast_windows and macd_ewms" fast.length ewms.length with
  | .error e => .error e
  | .ok _ =>
    match validLengths "slow_windows and macd_ewms" slow.length ewms.length with
    | .error e => .error e
    | .ok _ => maCache A hash close (fast ++ slow) (ewms ++ ewms) adjust

/-- `macd_apply_rs`, rust/src/indicators.rs:384-415. -/
def macdApply {H : Type} [DecidableEq H] (A : Arith) (hash : Nat × Bool → H) (fast slow signal : Nat)
    (macdEwm signalEwm adjust : Bool) (dict : List (H × View2)) : Except Err (View2 × View2) :=
  match cacheGet hash dict (fast, macdEwm) with
  | .error e => .error e
  | .ok fastMa =>
    match cacheGet hash dict (slow, macdEwm) with
    | .error e => .error e
    | .ok slowMa =>
      if sameDim fastMa slowMa then
        let macd := owned fastMa.nrows fastMa.ncols fun i c => sub A (fastMa.get i c) (slowMa.get i c)
        .ok (macd, ma A macd signal signalEwm adjust)
      else .error panicked

/-- `max3_numba`, rust/src/indicators.rs:417-426. -/
def max3 (a b c : F) : F :=
  let out := if gt b a then b else a
  if gt c out then c else out

/-- `true_range_1d_into`, rust/src/indicators.rs:435-447. -/
def trueRangeInto (A : Arith) (high low close out : Nat → F) (len : Nat) : Nat → F :=
  if len = 0 then out
  else
    (List.range' 1 (len - 1)).foldl (fun out i =>
      setAt out i (max3 (sub A (high i) (low i)) (F.abs (sub A (high i) (close (i - 1)))) (F.abs (sub A (low i) (close (i - 1))))))
      (setAt out 0 (sub A (high 0) (low 0)))

/-- `true_range_1d`, rust/src/indicators.rs:428-433, and `true_range_1d_rs`, 503-520. -/
def trueRange1 (A : Arith) (high low close : List F) : Except Err (Nat → F) :=
  if high.length ≠ low.length ∨ high.length ≠ close.length then
    .error (.valueError "high, low, and close must have the same length")
  else
    .ok (trueRangeInto A (fun i => high.getD i nan) (fun i => low.getD i nan) (fun i => close.getD i nan) (fun _ => nan)
      high.length)

/-- The loop over columns with two or three inputs of the kernels for other layouts, e.g. rust/src/indicators.rs:479-497: `out_buf`
keeps its contents from column to column. -/
def byColBuf (nrows ncols : Nat) (kernel : Nat → (Nat → F) → (Nat → F)) : Nat → Nat → F :=
  ((List.range ncols).foldl (fun (s : (Nat → F) × (Nat → Nat → F)) col =>
    let buf := kernel col s.1
    (buf, fun row c => if c = col ∧ row < nrows then buf row else s.2 row c)) (fun _ => zero, fun _ _ => nan)).2

/-- `true_range_2d`, rust/src/indicators.rs:449-500. -/
def trueRange2 (A : Arith) (high low close : View2) : View2 :=
  owned high.nrows high.ncols
    (if high.standard && low.standard && close.standard then
      (if high.nrows = 0 then fun _ _ => nan
      else
        let dst := (List.range high.ncols).foldl (fun dst col => setAt dst col (sub A (high.slice col) (low.slice col)))
          fun _ => nan
        cells high.ncols (fillCells (fun col (_ : Unit) row =>
          let idx := row * high.ncols + col
          let prev := (row - 1) * high.ncols + col
          ((), some (max3 (sub A (high.slice idx) (low.slice idx)) (F.abs (sub A (high.slice idx) (close.slice prev)))
            (F.abs (sub A (low.slice idx) (close.slice prev)))))) (fun _ => ()) dst high.ncols
            (List.range' 1 (high.nrows - 1))).2)
    else
      byColBuf high.nrows high.ncols fun col buf =>
        trueRangeInto A (high.column col) (low.column col) (close.column col) buf high.nrows)

/-- `true_range_rs`, rust/src/indicators.rs:523-537. -/
def trueRangePy (A : Arith) (high low close : View2) : Except Err View2 :=
  if !sameDim high low || !sameDim high close then .error (.valueError "high, low, and close must have the same shape")
  else .ok (trueRange2 A high low close)

/-- `atr_cache_rs`, rust/src/indicators.rs:540-566. -/
def atrCache {H : Type} [DecidableEq H] (A : Arith) (hash : Nat × Bool → H) (high low close : View2) (windows : List Nat)
    (ewms : List Bool) (adjust : Bool) : Except Err (View2 × List (H × View2)) :=
  match validLengths "windows and ewms" windows.length ewms.length with
  | .error e => .error e
  | .ok _ =>
    match trueRangePy A high low close with
    | .error e => .error e
    | .ok tr =>
      match buildCache hash (fun k => ma A tr k.1 k.2 adjust) windows ewms with
      | .error e => .error e
      | .ok d => .ok (tr, d)

/-- `nancumsum_1d_into`, rust/src/generic.rs:994-1002; the state is `sum`. -/
def nancumsumInto (A : Arith) (a out : Nat → F) (len : Nat) : Nat → F :=
  (fillRows (fun sum i =>
    let sum := if !(a i).isnan then add A sum (a i) else sum
    (sum, some sum)) zero out (List.range len)).2

/-- `obv_custom_1d_into`, rust/src/indicators.rs:584-598. -/
def obvInto (A : Arith) (close volume out : Nat → F) (len : Nat) : Nat → F :=
  if len = 0 then out
  else
    nancumsumInto A ((List.range len).foldl (fun signed i =>
      setAt signed i (if i > 0 ∧ lt (close i) (close (i - 1)) = true then neg (volume i) else volume i)) fun _ => zero) out len

/-- `obv_custom_rs`, rust/src/indicators.rs:601-655. -/
def obvPy (A : Arith) (close volume : View2) : Except Err View2 :=
  if !sameDim close volume then .error (.valueError "close and volume_ts must have the same shape")
  else
    .ok (owned close.nrows close.ncols
      (if close.standard && volume.standard then
        cells close.ncols (fillCells (fun col sum row =>
          let idx := row * close.ncols + col
          let prev := (row - 1) * close.ncols + col
          let v := if row > 0 ∧ lt (close.slice idx) (close.slice prev) = true then neg (volume.slice idx) else volume.slice idx
          let sum := if !v.isnan then add A sum v else sum
          (sum, some sum)) (fun _ => zero) (fun _ => zero) close.ncols (List.range close.nrows)).2
      else
        byColBuf close.nrows close.ncols fun col buf => obvInto A (close.column col) (volume.column col) buf close.nrows))

end Vbt.RsInd
