import Verif.Model.RustGeneric
import Verif.Model.RustSim
import Verif.Model.TrendLabels

/-!
# Labels on the Rust engine: `rust/src/labels.rs`

Views, slices and row-major loops as in `Verif.Model.RustGeneric`; flexible arrays as in `Verif.Model.RustSim`.  The array of
extrema is its shape and its cells.  Loops over columns that write one column of the output each are `nbCols`.  Overflow of
`usize` is not modelled.
-/

namespace Vbt.RsLab
open F RsGen

/-! ## The next period -/

/-- The first `apply_2d_by_col` of the `future_*_apply` functions, e.g. rust/src/labels.rs:223-232: `kernel` gets the reversed
column and its result is reversed. -/
def byColRev (a : View2) (kernel : (Nat → F) → Nat → (Nat → F)) : Nat → Nat → F :=
  byCol a fun col len => reversed (kernel (reversed col len) len) len

/-- The second one, e.g. rust/src/labels.rs:233-241. -/
def shifted (base : Nat → Nat → F) (nrows ncols wait : Nat) : Nat → Nat → F :=
  if wait > 0 then
    byCol ⟨nrows, ncols, base, true⟩ fun col len => bshiftInto col (fun _ => nan) wait nan len
  else base

/-- One row of `future_mean_apply_rolling_c`, rust/src/labels.rs:41-63: (`sums[col]`, `counts[col]`) after rows entered and left. -/
def meanSums (A : Arith) (a : Nat → F) (nrows window wait : Nat) (s : F × Nat) (i : Nat) : F × Nat :=
  let start := i + wait
  let s1 : F × Nat := if start < nrows then (if !(a start).isnan then (add A s.1 (a start), s.2 + 1) else s) else s
  let stop := start + window
  if stop < nrows then (if !(a stop).isnan then (sub A s1.1 (a stop), s1.2 - 1) else s1) else s1

/-- The same row with its output. -/
def futMeanTurn (A : Arith) (a : Nat → F) (nrows window wait : Nat) (s : F × Nat) (i : Nat) : (F × Nat) × Option F :=
  let s2 := meanSums A a nrows window wait s i
  (s2, if s2.2 ≥ window then some (div A s2.1 (fin s2.2)) else none)

/-- `future_mean_apply_rolling_c`, rust/src/labels.rs:33-72. -/
def futureMeanC (A : Arith) (a : View2) (window wait : Nat) : Nat → F :=
  (fillCells (fun col => futMeanTurn A (a.sliceCol col) a.nrows window wait) (fun _ => (zero, 0)) (fun _ => nan) a.ncols
    (List.range a.nrows).reverse).2

/-- `future_mean_apply`, rust/src/labels.rs:211-242. -/
def futureMean (A : Arith) (a : View2) (window : Nat) (ewm : Bool) (wait : Nat) (adjust : Bool) : Nat → Nat → F :=
  if !ewm && a.standard then cells a.ncols (futureMeanC A a window wait)
  else
    shifted (byColRev a fun col len =>
      if ewm then ewmMean1 A col window window adjust len else rollingMean1 A col window window len) a.nrows a.ncols wait

/-- The sums of `future_std_apply_rolling_c`, rust/src/labels.rs:88-112. -/
def stdSums (A : Arith) (a : Nat → F) (nrows window wait : Nat) (s : SumSq) (i : Nat) : SumSq :=
  let start := i + wait
  let s1 : SumSq :=
    if start < nrows then
      (if !(a start).isnan then ⟨add A s.sum (a start), add A s.sumSq (mul A (a start) (a start)), s.cnt + 1⟩ else s)
    else s
  let stop := start + window
  if stop < nrows then
    (if !(a stop).isnan then ⟨sub A s1.sum (a stop), sub A s1.sumSq (mul A (a stop) (a stop)), s1.cnt - 1⟩ else s1)
  else s1

/-- One row of `future_std_apply_rolling_c`, rust/src/labels.rs:88-121. -/
def futStdTurn (A : Arith) (sqrt : F → F) (a : Nat → F) (nrows window wait ddof : Nat) (s : SumSq) (i : Nat) :
    SumSq × Option F :=
  let s2 := stdSums A a nrows window wait s i
  let mean := div A s2.sum (fin s2.cnt)
  let variance := div A (add A (sub A s2.sumSq (mul A (mul A (fin 2) s2.sum) mean)) (mul A (mul A (fin s2.cnt) mean) mean))
    (fin ((s2.cnt - ddof : Nat) : ℚ))
  (s2, if s2.cnt ≥ window ∧ s2.cnt > ddof then some (sqrt (F.abs variance)) else none)

/-- `future_std_apply_rolling_c`, rust/src/labels.rs:74-124. -/
def futureStdC (A : Arith) (sqrt : F → F) (a : View2) (window wait ddof : Nat) : Nat → F :=
  (fillCells (fun col => futStdTurn A sqrt (a.sliceCol col) a.nrows window wait ddof) (fun _ => ⟨zero, zero, 0⟩) (fun _ => nan)
    a.ncols (List.range a.nrows).reverse).2

/-- `future_std_apply`, rust/src/labels.rs:244-275; `ddof` is not used by `ewm_std_1d`. -/
def futureStd (A : Arith) (sqrt : F → F) (a : View2) (window : Nat) (ewm : Bool) (wait : Nat) (adjust : Bool) (ddof : Nat) :
    Nat → Nat → F :=
  if !ewm && a.standard then cells a.ncols (futureStdC A sqrt a window wait ddof)
  else
    shifted (byColRev a fun col len =>
      if ewm then ewmStd1 A sqrt col window window adjust len else rollingStd1 A sqrt col window window ddof len)
      a.nrows a.ncols wait

/-- The loop over the rows of a period in `future_min_max_apply_rolling_c`, rust/src/labels.rs:187-206; `none` is `!valid`. -/
def extremeScan (isMin : Bool) (a : Nat → F) : List Nat → F → Option F
  | [], value => some value
  | row :: rows, value =>
    if (a row).isnan then none
    else if isMin then extremeScan isMin a rows (if lt (a row) value then a row else value)
    else extremeScan isMin a rows (if gt (a row) value then a row else value)

/-- `future_min_max_apply_rolling_c`, rust/src/labels.rs:168-209. -/
def futureExtremeC (isMin : Bool) (a : View2) (window wait : Nat) : Nat → F :=
  (fillCells (fun col (_ : Unit) i =>
    let start := i + wait
    let stop := start + window
    ((), if stop > a.nrows then none
      else extremeScan isMin (a.sliceCol col) (List.range' start (stop - start)) (if isMin then pinf else ninf)))
    (fun _ => ()) (fun _ => nan) a.ncols (List.range a.nrows)).2

/-- `future_min_apply`, rust/src/labels.rs:277-295. -/
def futureMin (a : View2) (window wait : Nat) : Nat → Nat → F :=
  if a.standard then cells a.ncols (futureExtremeC true a window wait)
  else shifted (byColRev a fun col len => rollingMin1 col window window len) a.nrows a.ncols wait

/-- `future_max_apply`, rust/src/labels.rs:297-315. -/
def futureMax (a : View2) (window wait : Nat) : Nat → Nat → F :=
  if a.standard then cells a.ncols (futureExtremeC false a window wait)
  else shifted (byColRev a fun col len => rollingMax1 col window window len) a.nrows a.ncols wait

/-- `fixed_labels_apply`, rust/src/labels.rs:317-348. -/
def fixedLabels (A : Arith) (a : View2) (n : Nat) : Nat → Nat → F :=
  if a.standard then
    cells a.ncols (fillCells (fun col (_ : Unit) i =>
      let cur := a.sliceCol col i
      ((), some (if i + n < a.nrows then div A (sub A (a.sliceCol col (i + n)) cur) cur else div A (sub A nan cur) cur)))
      (fun _ => ()) (fun _ => nan) a.ncols (List.range a.nrows)).2
  else
    byCol a fun col len i =>
      let cur := col i
      let future := if i + n < len then col (i + n) else nan
      div A (sub A future cur) cur

/-- One row of `mean_labels_apply_rolling_c`, rust/src/labels.rs:134-163. -/
def meanLabelTurn (A : Arith) (a : Nat → F) (nrows window wait : Nat) (s : F × Nat) (i : Nat) : (F × Nat) × Option F :=
  let s2 := meanSums A a nrows window wait s i
  (s2, if s2.2 ≥ window then some (div A (sub A (div A s2.1 (fin s2.2)) (a i)) (a i)) else none)

/-- `mean_labels_apply_rolling_c`, rust/src/labels.rs:126-166. -/
def meanLabelsC (A : Arith) (a : View2) (window wait : Nat) : Nat → F :=
  (fillCells (fun col => meanLabelTurn A (a.sliceCol col) a.nrows window wait) (fun _ => (zero, 0)) (fun _ => nan) a.ncols
    (List.range a.nrows).reverse).2

/-- `mean_labels_apply`, rust/src/labels.rs:350-381. -/
def meanLabels (A : Arith) (a : View2) (window : Nat) (ewm : Bool) (wait : Nat) (adjust : Bool) : Nat → Nat → F :=
  if !ewm && a.standard then cells a.ncols (meanLabelsC A a window wait)
  else
    let future := futureMean A a window ewm wait adjust
    if a.standard then
      cells a.ncols (fillRows (fun (_ : Unit) k =>
        ((), some (div A (sub A (future (k / a.ncols) (k % a.ncols)) (a.slice k)) (a.slice k))))
        () (fun _ => nan) (List.range (a.nrows * a.ncols))).2
    else
      byCol ⟨a.nrows, a.ncols, fun i c => div A (sub A (future i c) (a.get i c)) (a.get i c), true⟩ fun col _ => col

/-! ## Local extrema -/

/-- `FlexArray::as_full_2d`, rust/src/generic.rs:297-302. -/
def asFull2d {α : Type} : Rs.FlexArray α → Option ((Nat → α) × Nat)
  | .twoDFull data cols => some (data, cols)
  | _ => none

/-- How the kernels with two thresholds read them, e.g. rust/src/labels.rs:390-397 and 444-445: both arrays are read directly if
both are full, otherwise both through `FlexArray::get`. -/
def thresholds (pos neg : Rs.FlexArray F) : (Nat → Nat → F) × (Nat → Nat → F) :=
  match asFull2d pos, asFull2d neg with
  | some (p, pc), some (n, nc) => (fun i c => p (i * pc + c), fun i c => n (i * nc + c))
  | _, _ => (pos.get, neg.get)

/-- The branches of the loop of `local_extrema_apply`, rust/src/labels.rs:405-429 and 453-479. -/
def extTurnBranch (A : Arith) (a pos neg : Nat → F) (s : ExtState) (i : Nat) : ExtState :=
  let p := s.prev
  let up := mul A (a p) (add A one (abs (pos p)))
  let down := mul A (a p) (sub A one (abs (neg p)))
  if s.dir = 1 then
    if lt (a i) (a p) then { s with prev := i }
    else if ge (a i) up then { out := setAt s.out p (-1), prev := i, dir := -1 }
    else s
  else if s.dir = -1 then
    if gt (a i) (a p) then { s with prev := i }
    else if le (a i) down then { out := setAt s.out p 1, prev := i, dir := 1 }
    else s
  else if ge (a i) up then { out := setAt s.out p (-1), prev := i, dir := -1 }
  else if le (a i) down then { out := setAt s.out p 1, prev := i, dir := 1 }
  else s

/-- One turn of `local_extrema_apply`, rust/src/labels.rs:395-434 and 443-484. -/
def extTurn (A : Arith) (a pos neg : Nat → F) (nrows : Nat) (s : ExtState) (i : Nat) : Except Err ExtState :=
  if eqb (abs (pos s.prev)) zero then .error (.valueError "Positive threshold cannot be 0")
  else if eqb (abs (neg s.prev)) zero then .error (.valueError "Negative threshold cannot be 0")
  else
    let s := extTurnBranch A a pos neg s i
    if i = nrows - 1 ∧ s.dir ≠ 0 then .ok { s with out := setAt s.out s.prev (-s.dir) } else .ok s

/-- `local_extrema_apply`, rust/src/labels.rs:383-487. -/
def localExtrema (A : Arith) (a : View2) (pos neg : Rs.FlexArray F) : Except Err (Nat → Nat → Int) :=
  let th := thresholds pos neg
  nbCols (fun c =>
    match loopE (extTurn A (a.column c) (fun i => th.1 i c) (fun i => th.2 i c) a.nrows) ⟨fun _ => 0, 0, 0⟩
      (List.range' 1 (a.nrows - 1)) with
    | .error e => .error e
    | .ok s => .ok s.out) (fun _ _ => 0) a.ncols

/-! ## Trend labels -/

/-- The array of extrema. -/
structure IntView where
  nrows : Nat
  ncols : Nat
  get : Nat → Nat → Int

/-- `validate_matching_shape`, rust/src/labels.rs:24-31. -/
def sameShape (a : View2) (e : IntView) : Except Err Unit :=
  if a.nrows ≠ e.nrows ∨ a.ncols ≠ e.ncols then .error (.valueError "`local_extrema` must have the same shape as `close`")
  else .ok ()

/-- One turn of the loops over rows of the trend labels, e.g. rust/src/labels.rs:494-512: (`prev_i_opt`, output); `f` writes the
rows between two extrema. -/
def trendTurn (f : Nat → Nat → (Nat → F) → Except Err (Nat → F)) (ext : Nat → Int) (s : Option Nat × (Nat → F)) (next : Nat) :
    Except Err (Option Nat × (Nat → F)) :=
  if ext next = 0 then .ok s
  else
    match s.1 with
    | none => .ok (some next, s.2)
    | some prev =>
      match f prev next s.2 with
      | .error e => .error e
      | .ok out => .ok (some next, out)

/-- The loop over rows. -/
def trendLoop (f : Nat → Nat → (Nat → F) → Except Err (Nat → F)) (ext : Nat → Int) (nrows : Nat) : Except Err (Nat → F) :=
  match loopE (trendTurn f ext) (none, fun _ => nan) (List.range nrows) with
  | .error e => .error e
  | .ok s => .ok s.2

/-- `for i in prev_i..next_i { out[[i, col]] = … }`. -/
def writeRows (p q : Nat) (g : Nat → F) (out : Nat → F) : Nat → F :=
  (List.range' p (q - p)).foldl (fun out i => setAt out i (g i)) out

/-- `bn_trend_labels`, rust/src/labels.rs:489-515. -/
def bnTrend (a : View2) (ext : Nat → Nat → Int) : Except Err (Nat → Nat → F) :=
  nbCols (fun c => trendLoop (fun p q out =>
    let fill := if gt (a.get q c) (a.get p c) then one else zero
    .ok (writeRows p q (fun _ => fill) out)) (fun i => ext i c) a.nrows) (fun _ _ => nan) a.ncols

/-- The loop of `slice_min_max`, rust/src/labels.rs:520-531. -/
def minMaxFrom (a : Nat → F) : List Nat → F × F → F × F
  | [], s => s
  | i :: is, s =>
    if (a i).isnan then (nan, nan)
    else minMaxFrom a is (if lt (a i) s.1 then a i else s.1, if gt (a i) s.2 then a i else s.2)

/-- `slice_min_max`, rust/src/labels.rs:517-533. -/
def sliceMinMax (a : Nat → F) (start stop : Nat) : F × F := minMaxFrom a (List.range' start (stop + 1 - start)) (pinf, ninf)

/-- `bn_cont_trend_labels`, rust/src/labels.rs:535-558. -/
def bnCont (A : Arith) (a : View2) (ext : Nat → Nat → Int) : Except Err (Nat → Nat → F) :=
  nbCols (fun c => trendLoop (fun p q out =>
    let r := sliceMinMax (a.column c) p q
    let range := sub A r.2 r.1
    .ok (writeRows p q (fun i => sub A one (div A (sub A (a.get i c) r.1) range)) out)) (fun i => ext i c) a.nrows)
    (fun _ _ => nan) a.ncols

/-- One label of `bn_cont_sat_trend_labels`, rust/src/labels.rs:591-610 and 641-659. -/
def satValue (A : Arith) (goingUp : Bool) (c pt nt : F) (r : F × F) : F :=
  if goingUp then
    let start := div A r.2 (add A one pt)
    let stop := mul A r.1 (add A one pt)
    if ge r.2 stop && le c start then one else sub A one (div A (sub A c start) (sub A r.2 start))
  else
    let start := div A r.1 (sub A one nt)
    let stop := mul A r.2 (sub A one nt)
    if le r.1 stop && ge c start then zero else sub A one (div A (sub A c r.1) (sub A start r.1))

/-- `bn_cont_sat_trend_labels`, rust/src/labels.rs:560-664. -/
def bnContSat (A : Arith) (a : View2) (ext : Nat → Nat → Int) (pos neg : Rs.FlexArray F) : Except Err (Nat → Nat → F) :=
  let th := thresholds pos neg
  nbCols (fun c => trendLoop (fun p q out =>
    let pt := abs (th.1 p c)
    let nt := abs (th.2 p c)
    if eqb pt zero then .error (.valueError "Positive threshold cannot be 0")
    else if eqb nt zero then .error (.valueError "Negative threshold cannot be 0")
    else
      let r := sliceMinMax (a.column c) p q
      let goingUp := gt (a.get q c) (a.get p c)
      .ok (writeRows p q (fun i => satValue A goingUp (a.get i c) pt nt r) out)) (fun i => ext i c) a.nrows)
    (fun _ _ => nan) a.ncols

/-- `pct_trend_labels`, rust/src/labels.rs:666-698. -/
def pctTrend (A : Arith) (a : View2) (ext : Nat → Nat → Int) (normalize : Bool) : Except Err (Nat → Nat → F) :=
  nbCols (fun c => trendLoop (fun p q out =>
    let goingUp := gt (a.get q c) (a.get p c)
    .ok (writeRows p q (fun i =>
      let v := a.get i c
      let next := a.get q c
      if goingUp && normalize then div A (sub A next v) next else div A (sub A next v) v) out)) (fun i => ext i c) a.nrows)
    (fun _ _ => nan) a.ncols

/-- `trend_labels_apply`, rust/src/labels.rs:700-716. -/
def trendLabels (A : Arith) (a : View2) (pos neg : Rs.FlexArray F) (mode : Int) : Except Err (Nat → Nat → F) :=
  match localExtrema A a pos neg with
  | .error e => .error e
  | .ok ext =>
    if mode = 0 then bnTrend a ext
    else if mode = 1 then bnCont A a ext
    else if mode = 2 then bnContSat A a ext pos neg
    else if mode = 3 then pctTrend A a ext false
    else if mode = 4 then pctTrend A a ext true
    else .error (.valueError "Trend mode is not recognized")

/-! ## Breakouts -/

/-- The inner loop of `breakout_labels`, rust/src/labels.rs:737-746 and 761-770. -/
def breakoutLoop (A : Arith) (a : Nat → F) (i : Nat) (pt nt : F) : List Nat → F
  | [] => zero
  | j :: js =>
    if gt pt zero && ge (a j) (mul A (a i) (add A one pt)) then one
    else if gt nt zero && le (a j) (mul A (a i) (sub A one nt)) then fin (-1)
    else breakoutLoop A a i pt nt js

/-- `breakout_labels`, rust/src/labels.rs:718-774. -/
def breakout (A : Arith) (a : View2) (window : Nat) (pos neg : Rs.FlexArray F) (wait : Nat) : Except Err (Nat → Nat → F) :=
  let th := thresholds pos neg
  nbCols (fun c => .ok (fillRows (fun (_ : Unit) i =>
    let start := i + wait
    let stop := min (i + window + wait) a.nrows
    ((), if start ≥ stop then none
      else some (breakoutLoop A (a.column c) i (abs (th.1 i c)) (abs (th.2 i c)) (List.range' start (stop - start)))))
    () (fun _ => zero) (List.range a.nrows)).2) (fun _ _ => zero) a.ncols

/-! ## The functions called from Python -/

/-- The two thresholds of the `*_rs` functions, e.g. rust/src/labels.rs:870-871. -/
def readThresholds (pos neg : NArr F) (nrows ncols : Nat) (flex2d : Bool) : Except Err (Rs.FlexArray F × Rs.FlexArray F) :=
  match Rs.fromPyarray "pos_th" pos nrows ncols flex2d with
  | .error e => .error e
  | .ok p =>
    match Rs.fromPyarray "neg_th" neg nrows ncols flex2d with
    | .error e => .error e
    | .ok n => .ok (p, n)

/-- `local_extrema_apply_rs`, rust/src/labels.rs:859-874. -/
def localExtremaPy (A : Arith) (a : View2) (pos neg : NArr F) (flex2d : Bool) : Except Err (Nat → Nat → Int) :=
  match readThresholds pos neg a.nrows a.ncols flex2d with
  | .error e => .error e
  | .ok th => localExtrema A a th.1 th.2

/-- `bn_trend_labels_rs`, rust/src/labels.rs:876-887. -/
def bnTrendPy (a : View2) (e : IntView) : Except Err (Nat → Nat → F) :=
  match sameShape a e with
  | .error x => .error x
  | .ok _ => bnTrend a e.get

/-- `bn_cont_trend_labels_rs`, rust/src/labels.rs:889-900. -/
def bnContPy (A : Arith) (a : View2) (e : IntView) : Except Err (Nat → Nat → F) :=
  match sameShape a e with
  | .error x => .error x
  | .ok _ => bnCont A a e.get

/-- `bn_cont_sat_trend_labels_rs`, rust/src/labels.rs:902-920. -/
def bnContSatPy (A : Arith) (a : View2) (e : IntView) (pos neg : NArr F) (flex2d : Bool) : Except Err (Nat → Nat → F) :=
  match sameShape a e with
  | .error x => .error x
  | .ok _ =>
    match readThresholds pos neg a.nrows a.ncols flex2d with
    | .error x => .error x
    | .ok th => bnContSat A a e.get th.1 th.2

/-- `pct_trend_labels_rs`, rust/src/labels.rs:922-934. -/
def pctTrendPy (A : Arith) (a : View2) (e : IntView) (normalize : Bool) : Except Err (Nat → Nat → F) :=
  match sameShape a e with
  | .error x => .error x
  | .ok _ => pctTrend A a e.get normalize

/-- `trend_labels_apply_rs`, rust/src/labels.rs:936-952. -/
def trendLabelsPy (A : Arith) (a : View2) (pos neg : NArr F) (mode : Int) (flex2d : Bool) : Except Err (Nat → Nat → F) :=
  match readThresholds pos neg a.nrows a.ncols flex2d with
  | .error e => .error e
  | .ok th => trendLabels A a th.1 th.2 mode

/-- `breakout_labels_rs`, rust/src/labels.rs:954-971. -/
def breakoutPy (A : Arith) (a : View2) (window : Nat) (pos neg : NArr F) (wait : Nat) (flex2d : Bool) :
    Except Err (Nat → Nat → F) :=
  match readThresholds pos neg a.nrows a.ncols flex2d with
  | .error e => .error e
  | .ok th => breakout A a window th.1 th.2 wait

end Vbt.RsLab
