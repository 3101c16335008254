import Verif.Model.Ratios
import Verif.Model.RustGeneric
import Verif.Model.RustRecords

/-!
# Returns and risk ratios in the Rust engine: `rust/src/returns.rs:11-1605`

A slice (a column, or a window of one) is a list, a 2-dim array is the `View2` of `Model/RustGeneric`: its cells and whether its
layout is the standard one.  `as_slice()` is `Some` for the standard layout only.  Square root and power are parameters, as in
`Model/Ratios`.

Simplifications: the place of a quantile between two observations is computed exactly; `select_nth_unstable_by` is reading the
sorted slice.  `chunks_exact(0)` panics, which is `panicked` here.  The three `rolling_…` drivers take the kernel as an argument,
as they do in Rust.  Not modelled: conversions from Python.
-/

namespace Vbt.RsRet
open F RsGen

/-! ## Loops over columns -/

/-- `reduce_2d_by_col`, rust/src/generic.rs:381-395. -/
def reduceCols (a : View2) (kernel : List F → F) : Nat → F :=
  (List.range a.ncols).foldl (fun out col => setAt out col (kernel (slice (a.column col) 0 a.nrows))) fun _ => nan

/-- `reduce_pair_2d_by_col`, rust/src/returns.rs:20-38. -/
def reducePair (a b : View2) (kernel : List F → List F → F) : Nat → F :=
  (List.range a.ncols).foldl (fun out col =>
    setAt out col (kernel (slice (a.column col) 0 a.nrows) (slice (b.column col) 0 a.nrows))) fun _ => nan

/-- One row of `rolling_apply_2d_by_col`, rust/src/returns.rs:54-68; the state is (`nancnt`, `nancnt_arr`). -/
def rollTurn (a : Nat → F) (window minp : Nat) (f : Nat → Nat → F) (s : Nat × (Nat → Nat)) (i : Nat) :
    (Nat × (Nat → Nat)) × Option F :=
  let nancnt := if (a i).isnan then s.1 + 1 else s.1
  let arr := setAt s.2 i nancnt
  let validCnt := if i < window then i + 1 - nancnt else window - (nancnt - arr (i - window))
  ((nancnt, arr), if validCnt ≥ minp then some (f (i + 1 - window) (i + 1)) else none)

/-- The loops of `rolling_apply_2d_by_col` and `rolling_apply_pair_2d_by_col`, rust/src/returns.rs:40-73 and 75-118: `nancnt_arr`
is shared by the columns, `f col start stop` is the kernel on the rows from `start` to `stop` of the column. -/
def rollCols (a : View2) (window minp : Nat) (f : Nat → Nat → Nat → F) : Nat → Nat → F :=
  ((List.range a.ncols).foldl (fun (s : (Nat → Nat) × (Nat → Nat → F)) col =>
    let r := fillRows (rollTurn (a.column col) window minp (f col)) (0, s.1) (fun i => s.2 i col) (List.range a.nrows)
    (r.1.2, fun i c => if c = col then r.2 i else s.2 i c)) (fun _ => 0, fun _ _ => nan)).2

/-- `rolling_apply_2d_by_col`, rust/src/returns.rs:40-73. -/
def rollingCols (a : View2) (window minp : Nat) (kernel : List F → F) : Nat → Nat → F :=
  rollCols a window minp fun col start stop => kernel (slice (a.column col) start (stop - start))

/-- `rolling_apply_pair_2d_by_col`, rust/src/returns.rs:75-118. -/
def rollingPair (a b : View2) (window minp : Nat) (kernel : List F → List F → F) : Nat → Nat → F :=
  rollCols a window minp fun col start stop =>
    kernel (slice (a.column col) start (stop - start)) (slice (b.column col) start (stop - start))

/-- The functions exported to Python that apply a kernel to windows, e.g. `rolling_sharpe_ratio_rs`, rust/src/returns.rs:1216-1234,
also 1011-1024, 1039-1052, 1070-1088, 1114-1125, 1145-1158, 1180-1198, 1251-1268, 1285-1302, 1426-1437, 1453-1465 and 1481-1494. -/
def rollingPy (a : View2) (window : Nat) (minp : Option Nat) (kernel : List F → F) : Except Err (Nat → Nat → F) :=
  match validMinp window minp "window" with
  | .error e => .error e
  | .ok m => .ok (rollingCols a window m kernel)

/-- `validate_same_shape_2d`, rust/src/returns.rs:11-18. -/
def sameShape (a b : View2) : Except Err Unit :=
  if a.nrows ≠ b.nrows ∨ a.ncols ≠ b.ncols then .error (.valueError "benchmark_rets must have the same shape as input") else .ok ()

/-- The functions exported to Python that apply a kernel to windows of two arrays, e.g. `rolling_beta_rs`,
rust/src/returns.rs:1357-1371, also 1321-1340, 1395-1415, 1512-1531, 1549-1568 and 1586-1605. -/
def rollingPairPy (a b : View2) (window : Nat) (minp : Option Nat) (kernel : List F → List F → F) :
    Except Err (Nat → Nat → F) :=
  match validMinp window minp "window" with
  | .error e => .error e
  | .ok m => match sameShape a b with
    | .error e => .error e
    | .ok _ => .ok (rollingPair a b window m kernel)

/-- The functions exported to Python that take two arrays, e.g. `information_ratio_rs`, rust/src/returns.rs:1306-1318, also
1343-1353, 1375-1391, 1497-1508, 1534-1545 and 1571-1582: the check of the shapes before the kernel. -/
def pairPy (a b : View2) (kernel : Except Err (Nat → F)) : Except Err (Nat → F) :=
  match sameShape a b with
  | .error e => .error e
  | .ok _ => kernel

/-- The row-major loops `for row in src.chunks_exact(ncols) { for (col, &ret) in row.iter().enumerate() { … } }`, e.g.
rust/src/returns.rs:364-370, with one state per column. -/
def chunkFold {σ : Type} (step : Nat → σ → Nat → σ) (s0 : Nat → σ) (nrows ncols : Nat) : Except Err (Nat → σ) :=
  if ncols = 0 then .error panicked
  else .ok ((List.range nrows).foldl (fun s row =>
    (List.range ncols).foldl (fun s col => setAt s col (step col (s col) row)) s) s0)

/-! ## Means and deviations -/

/-- `nanmean_shifted`, rust/src/returns.rs:154-169, of the shifted values; `nanmean_1d` of rust/src/generic.rs:1066-1080,
`nanmean_pair_diff` (rust/src/returns.rs:193-208) and `nanmean_alpha_series` (232-247) are the same loop over other values.  The
state is (`sum`, `count`). -/
def meanOfSome (A : Arith) {α : Type} (value : α → F) (l : List α) : F :=
  let s := l.foldl (fun (s : F × Nat) x => if !(value x).isnan then (add A s.1 (value x), s.2 + 1) else s) (zero, 0)
  if s.2 = 0 then nan else div A s.1 (fin s.2)

/-- `nanstd_shifted`, rust/src/returns.rs:171-191, of the shifted values; also `nanstd_1d` (rust/src/generic.rs:1098-1117) and
`nanstd_pair_diff` (rust/src/returns.rs:210-230).  The state is (`count`, `sq`). -/
def stdOfSome (A : Arith) (sqrt : F → F) {α : Type} (value : α → F) (l : List α) (ddof : Nat) : F :=
  let mean := meanOfSome A value l
  if mean.isnan then nan
  else
    let s := l.foldl (fun (s : Nat × F) x =>
      if !(value x).isnan then
        let diff := sub A (value x) mean
        (s.1 + 1, add A s.2 (mul A diff diff))
      else s) (0, zero)
    if s.1 ≤ ddof then nan else sqrt (div A s.2 (fin (s.1 - ddof : Nat)))

/-- `mean_strict`, rust/src/returns.rs:120-132; `none` is the early `return f64::NAN`. -/
def meanStrict (A : Arith) (l : List F) : F :=
  if l.isEmpty then nan
  else match l.foldl (fun (s : Option F) x => match s with
      | none => none
      | some s => if x.isnan then none else some (add A s x)) (some zero) with
    | none => nan
    | some s => div A s (fin l.length)

/-! ## Returns -/

/-- `get_return`, rust/src/returns.rs:250-265.  `copysign` of an infinity; zero and NaN are caught before. -/
def getReturn (A : Arith) (input output : F) : F :=
  if eqb input zero then
    if eqb output zero then zero
    else if output.isnan then nan
    else if lt output zero then ninf else pinf
  else
    let r := div A (sub A output input) input
    if lt input zero then mul A r (fin (-1)) else r

/-- One row of `returns_1d` and `returns_2d`, rust/src/returns.rs:270-273, 286-288 and 297-299; the state is `input_value`. -/
def returnsTurn (A : Arith) (value : Nat → F) (input : F) (i : Nat) : F × Option F :=
  (value i, some (getReturn A input (value i)))

/-- `returns_1d`, rust/src/returns.rs:267-275. -/
def returns1 (A : Arith) (value : Nat → F) (init : F) (len : Nat) : Nat → F :=
  (fillRows (returnsTurn A value) init (fun _ => zero) (List.range len)).2

/-- `returns_2d`, rust/src/returns.rs:277-303. -/
def returns2 (A : Arith) (value : View2) (init : Nat → F) : Nat → Nat → F :=
  if value.standard then
    cells value.ncols (fillCells (fun col => returnsTurn A (value.sliceCol col)) init (fun _ => zero) value.ncols
      (List.range value.nrows)).2
  else
    (List.range value.ncols).foldl (fun out col => fun i c =>
      if c = col then (fillRows (returnsTurn A (value.column col)) (init col) (fun i => out i col) (List.range value.nrows)).2 i
      else out i c) fun _ _ => zero

/-- `returns_rs`, rust/src/returns.rs:952-966. -/
def returnsPy (A : Arith) (value : View2) (init : List F) : Except Err (Nat → Nat → F) :=
  if init.length ≠ value.ncols then .error (.valueError "init_value must match the number of columns in value")
  else .ok (returns2 A value fun col => init.getD col nan)

/-- `if start_value == 0.0 { cumprod - 1.0 } else { cumprod * start_value }`, e.g. rust/src/returns.rs:312-316. -/
def scaled (A : Arith) (start prod : F) : F := if eqb start zero then sub A prod one else mul A prod start

/-- `if !ret.is_nan() { cumprod *= ret + 1.0; }`, e.g. rust/src/returns.rs:309-311. -/
def grow (A : Arith) (prod ret : F) : F := if !ret.isnan then mul A prod (add A ret one) else prod

/-- One row of `cum_returns_1d` and `cum_returns_2d`, rust/src/returns.rs:308-317 and 330-339. -/
def cumTurn (A : Arith) (rets : Nat → F) (start prod : F) (i : Nat) : F × Option F :=
  (grow A prod (rets i), some (scaled A start (grow A prod (rets i))))

/-- `cum_returns_1d`, rust/src/returns.rs:305-319. -/
def cumReturns1 (A : Arith) (start : F) (rets : Nat → F) (len : Nat) : Nat → F :=
  (fillRows (cumTurn A rets start) one (fun _ => nan) (List.range len)).2

/-- `cum_returns_2d`, rust/src/returns.rs:321-344. -/
def cumReturns2 (A : Arith) (rets : View2) (start : F) : Nat → Nat → F :=
  if rets.standard then
    cells rets.ncols (fillCells (fun col => cumTurn A (rets.sliceCol col) start) (fun _ => one) (fun _ => zero) rets.ncols
      (List.range rets.nrows)).2
  else byCol rets (cumReturns1 A start)

/-- `cum_returns_final_1d`, rust/src/returns.rs:346-358. -/
def finalReturn (A : Arith) (start : F) (l : List F) : F := scaled A start (l.foldl (grow A) one)

/-- The products of the columns, rust/src/returns.rs:363-370 and 396-403. -/
def products (A : Arith) (rets : View2) : Except Err (Nat → F) :=
  chunkFold (fun col p row => grow A p (rets.sliceCol col row)) (fun _ => one) rets.nrows rets.ncols

/-- `cum_returns_final_2d`, rust/src/returns.rs:360-383. -/
def finalReturn2 (A : Arith) (rets : View2) (start : F) : Except Err (Nat → F) :=
  if rets.standard then
    match products A rets with
    | .error e => .error e
    | .ok out => .ok fun col => scaled A start (out col)
  else .ok (reduceCols rets (finalReturn A start))

/-- `annualized_return_1d`, rust/src/returns.rs:385-391. -/
def annReturn (A : Arith) (pow : F → F → F) (ann : F) (l : List F) : F :=
  if l.isEmpty then nan else sub A (pow (finalReturn A one l) (div A ann (fin l.length))) one

/-- `annualized_return_from_product`, rust/src/returns.rs:412-417. -/
def annFromProduct (A : Arith) (pow : F → F → F) (prod : F) (len : Nat) (ann : F) : F :=
  if len = 0 then nan else sub A (pow prod (div A ann (fin len))) one

/-- `annualized_return_2d`, rust/src/returns.rs:393-410. -/
def annReturn2 (A : Arith) (pow : F → F → F) (rets : View2) (ann : F) : Except Err (Nat → F) :=
  if rets.standard then
    match products A rets with
    | .error e => .error e
    | .ok p => .ok fun col => annFromProduct A pow (p col) rets.nrows ann
  else .ok (reduceCols rets (annReturn A pow ann))

/-! ## Volatility and the Sharpe ratio -/

/-- `annualized_volatility_1d`, rust/src/returns.rs:419-424. -/
def volatility (A : Arith) (sqrt : F → F) (pow : F → F → F) (ann levy : F) (ddof : Nat) (l : List F) : F :=
  if l.length < 2 then nan else mul A (stdOfSome A sqrt id l ddof) (pow ann (div A one levy))

/-- The first loop of `annualized_volatility_2d`, `sharpe_ratio_2d` and `information_ratio_2d`, rust/src/returns.rs:434-443,
553-563 and 642-652: (`sums`, `counts`) of the values `value col row`. -/
def sumsOf (A : Arith) (value : Nat → Nat → F) (nrows ncols : Nat) : Except Err (Nat → F × Nat) :=
  chunkFold (fun col (s : F × Nat) row => if !(value col row).isnan then (add A s.1 (value col row), s.2 + 1) else s)
    (fun _ => (zero, 0)) nrows ncols

/-- The second loop, rust/src/returns.rs:444-452, 564-573 and 653-662: `sq`. -/
def squaresOf (A : Arith) (value : Nat → Nat → F) (sums : Nat → F × Nat) (nrows ncols : Nat) : Except Err (Nat → F) :=
  chunkFold (fun col sq row => if !(value col row).isnan then
      let diff := sub A (value col row) (div A (sums col).1 (fin (sums col).2))
      add A sq (mul A diff diff)
    else sq) (fun _ => zero) nrows ncols

/-- Both loops and the last one, rust/src/returns.rs:454-459, 575-586 and 663-670: `last mean std` is the result of a column. -/
def twoPass (A : Arith) (sqrt : F → F) (value : Nat → Nat → F) (nrows ncols ddof : Nat) (last : F → F → F) : Except Err (Nat → F) :=
  match sumsOf A value nrows ncols with
  | .error e => .error e
  | .ok sums => match squaresOf A value sums nrows ncols with
    | .error e => .error e
    | .ok sq => .ok ((List.range ncols).foldl (fun out col =>
        if 2 ≤ nrows ∧ ddof < (sums col).2 then
          setAt out col (last (div A (sums col).1 (fin (sums col).2)) (sqrt (div A (sq col) (fin ((sums col).2 - ddof : Nat)))))
        else out) fun _ => nan)

/-- `annualized_volatility_2d`, rust/src/returns.rs:426-465. -/
def volatility2 (A : Arith) (sqrt : F → F) (pow : F → F → F) (rets : View2) (ann levy : F) (ddof : Nat) : Except Err (Nat → F) :=
  if rets.standard then
    twoPass A sqrt rets.sliceCol rets.nrows rets.ncols ddof fun _ std => mul A std (pow ann (div A one levy))
  else .ok (reduceCols rets (volatility A sqrt pow ann levy ddof))

/-- `sharpe_ratio_1d`, rust/src/returns.rs:538-548. -/
def sharpe (A : Arith) (sqrt : F → F) (ann riskFree : F) (ddof : Nat) (l : List F) : F :=
  if l.length < 2 then nan
  else
    let mean := meanOfSome A (fun x => sub A x riskFree) l
    let std := stdOfSome A sqrt (fun x => sub A x riskFree) l ddof
    if eqb std zero then pinf else mul A (div A mean std) (sqrt ann)

/-- `sharpe_ratio_2d`, rust/src/returns.rs:550-590. -/
def sharpe2 (A : Arith) (sqrt : F → F) (rets : View2) (ann riskFree : F) (ddof : Nat) : Except Err (Nat → F) :=
  if rets.standard then
    twoPass A sqrt (fun col row => sub A (rets.sliceCol col row) riskFree) rets.nrows rets.ncols ddof fun mean std =>
      if eqb std zero then pinf else mul A (div A mean std) (sqrt ann)
  else .ok (reduceCols rets (sharpe A sqrt ann riskFree ddof))

/-! ## Drawdowns -/

/-- One turn of `drawdown_1d` and `max_drawdown_1d`, rust/src/returns.rs:471-478 and 487-494: (`cum_return`, `max_return`) and the
drawdown. -/
def drawTurn (A : Arith) (s : F × F) (ret : F) : (F × F) × F :=
  let cum := grow A s.1 ret
  let mx := if s.2.isnan || gt cum s.2 then cum else s.2
  ((cum, mx), sub A (div A cum mx) one)

/-- `drawdown_1d`, rust/src/returns.rs:467-481. -/
def drawdown1 (A : Arith) (rets : Nat → F) (len : Nat) : Nat → F :=
  (fillRows (fun s i => ((drawTurn A s (rets i)).1, some (drawTurn A s (rets i)).2)) (fin 100, nan) (fun _ => nan)
    (List.range len)).2

/-- `drawdown_rs`, rust/src/returns.rs:1091-1095. -/
def drawdownPy (A : Arith) (rets : View2) : Nat → Nat → F := byCol rets (drawdown1 A)

/-- `max_drawdown_1d`, rust/src/returns.rs:483-503; the state is (`cum_return`, `max_return`) and `out`, `none` after the early
`return f64::NAN`. -/
def maxDrawdown1 (A : Arith) (l : List F) : F :=
  match (l.foldl (fun (s : (F × F) × Option F) ret =>
      let d := drawTurn A s.1 ret
      (d.1, match s.2 with
        | none => none
        | some out => if d.2.isnan then none else some (if lt d.2 out then d.2 else out))) ((fin 100, nan), some pinf)).2 with
  | none => nan
  | some out => out

/-- The check of `max_drawdown_rs` and `calmar_ratio_rs`, rust/src/returns.rs:1103-1107 and 1134-1138. -/
def needsRows (rets : View2) (out : Nat → F) : Except Err (Nat → F) :=
  if rets.nrows = 0 then .error (.valueError "zero-size array to reduction operation minimum which has no identity") else .ok out

/-- `max_drawdown_rs`, rust/src/returns.rs:1098-1110. -/
def maxDrawdownPy (A : Arith) (rets : View2) : Except Err (Nat → F) := needsRows rets (reduceCols rets (maxDrawdown1 A))

/-- `calmar_ratio_1d`, rust/src/returns.rs:505-512. -/
def calmar (A : Arith) (pow : F → F → F) (ann : F) (l : List F) : F :=
  let dd := maxDrawdown1 A l
  if eqb dd zero then nan else div A (annReturn A pow ann l) dd.abs

/-- `calmar_ratio_rs`, rust/src/returns.rs:1128-1141. -/
def calmarPy (A : Arith) (pow : F → F → F) (rets : View2) (ann : F) : Except Err (Nat → F) :=
  needsRows rets (reduceCols rets (calmar A pow ann))

/-! ## Ratios of one column -/

/-- `omega_ratio_1d` once the threshold is known, rust/src/returns.rs:522-535; the state is (`numer`, `denom`). -/
def omegaFrom (A : Arith) (riskFree threshold : F) (l : List F) : F :=
  let s := l.foldl (fun (s : F × F) ret =>
    let adj := sub A (sub A ret riskFree) threshold
    if gt adj zero then (add A s.1 adj, s.2)
    else if lt adj zero then (s.1, sub A s.2 adj)
    else s) (zero, zero)
  if eqb s.2 zero then pinf else div A s.1 s.2

/-- `omega_ratio_1d`, rust/src/returns.rs:514-536. -/
def omega (A : Arith) (pow : F → F → F) (ann riskFree required : F) (l : List F) : F :=
  if eqb ann one then omegaFrom A riskFree required l
  else if le ann (fin (-1)) then nan
  else omegaFrom A riskFree (sub A (pow (add A one required) (div A one ann)) one) l

/-- `downside_risk_1d`, rust/src/returns.rs:592-609; the state is (`sum`, `count`). -/
def downside (A : Arith) (sqrt : F → F) (ann required : F) (l : List F) : F :=
  let s := l.foldl (fun (s : F × Nat) ret =>
    let adj := sub A ret required
    let adj := if gt adj zero then zero else adj
    if !adj.isnan then (add A s.1 (mul A adj adj), s.2 + 1) else s) (zero, 0)
  if s.2 = 0 then nan else mul A (sqrt (div A s.1 (fin s.2))) (sqrt ann)

/-- `sortino_ratio_1d`, rust/src/returns.rs:611-621. -/
def sortino (A : Arith) (sqrt : F → F) (ann required : F) (l : List F) : F :=
  if l.length < 2 then nan
  else
    let avg := mul A (meanOfSome A (fun x => sub A x required) l) ann
    let risk := downside A sqrt ann required l
    if eqb risk zero then pinf else div A avg risk

/-! ## Ratios against a benchmark -/

/-- `information_ratio_1d`, rust/src/returns.rs:623-633. -/
def information (A : Arith) (sqrt : F → F) (ddof : Nat) (l b : List F) : F :=
  if l.length < 2 then nan
  else
    let mean := meanOfSome A (fun p : F × F => sub A p.1 p.2) (l.zip b)
    let std := stdOfSome A sqrt (fun p : F × F => sub A p.1 p.2) (l.zip b) ddof
    if eqb std zero then pinf else div A mean std

/-- `information_ratio_2d`, rust/src/returns.rs:635-676. -/
def information2 (A : Arith) (sqrt : F → F) (rets bench : View2) (ddof : Nat) : Except Err (Nat → F) :=
  if rets.standard && bench.standard then
    twoPass A sqrt (fun col row => sub A (rets.sliceCol col row) (bench.sliceCol col row)) rets.nrows rets.ncols ddof
      fun mean std => if eqb std zero then pinf else div A mean std
  else .ok (reducePair rets bench (information A sqrt ddof))

/-- The second loop of `beta_1d`, rust/src/returns.rs:697-714: (`cov_sum`, `cov_count`) and (`var_sum`, `var_count`). -/
def betaTurn (A : Arith) (mean : F) (s : (F × Nat) × (F × Nat)) (p : F × F) : (F × Nat) × (F × Nat) :=
  let ind := if p.1.isnan then nan else p.2
  let res := sub A ind mean
  let cov := mul A res p.1
  let var := mul A res res
  (if !cov.isnan then (add A s.1.1 cov, s.1.2 + 1) else s.1, if !var.isnan then (add A s.2.1 var, s.2.2 + 1) else s.2)

/-- `beta_1d`, rust/src/returns.rs:678-733. -/
def beta (A : Arith) (l b : List F) : F :=
  if b.length < 2 then nan
  else
    let s := (l.zip b).foldl (fun (s : F × Nat) p =>
      if !p.1.isnan && !p.2.isnan then (add A s.1 p.2, s.2 + 1) else s) (zero, 0)
    let mean := if s.2 = 0 then nan else div A s.1 (fin s.2)
    let s := (l.zip b).foldl (betaTurn A mean) ((zero, 0), (zero, 0))
    let cov := if s.1.2 = 0 then nan else div A s.1.1 (fin s.1.2)
    let var := if s.2.2 = 0 then nan else div A s.2.1 (fin s.2.2)
    let var := if lt var (fin (1 / 1000000000000000000000000000000)) then nan else var
    if eqb var zero then pinf else div A cov var

/-- `alpha_1d`, rust/src/returns.rs:735-741. -/
def alpha (A : Arith) (pow : F → F → F) (ann riskFree : F) (l b : List F) : F :=
  if l.length < 2 then nan
  else
    let bt := beta A l b
    let mean := meanOfSome A (fun p : F × F => sub A (sub A p.1 riskFree) (mul A bt (sub A p.2 riskFree))) (l.zip b)
    sub A (pow (add A mean one) ann) one

/-- `capture_1d`, rust/src/returns.rs:779-796; the state is (`returns_prod`, `benchmark_prod`). -/
def capture (A : Arith) (pow : F → F → F) (ann : F) (l b : List F) : F :=
  let s := (l.zip b).foldl (fun (s : F × F) p => (grow A s.1 p.1, grow A s.2 p.2)) (one, one)
  let r1 := annFromProduct A pow s.1 l.length ann
  let r2 := annFromProduct A pow s.2 b.length ann
  if eqb r2 zero then pinf else div A r1 r2

/-- `capture_2d`, rust/src/returns.rs:846-883; the row-major loop has no `chunks_exact`. -/
def capture2 (A : Arith) (pow : F → F → F) (rets bench : View2) (ann : F) : Nat → F :=
  if rets.standard && bench.standard then
    let s := (List.range rets.nrows).foldl (fun s row =>
      (List.range rets.ncols).foldl (fun (s : Nat → F × F) col =>
        setAt s col (grow A (s col).1 (rets.sliceCol col row), grow A (s col).2 (bench.sliceCol col row))) s) fun _ => (one, one)
    (List.range rets.ncols).foldl (fun out col =>
      let r1 := annFromProduct A pow (s col).1 rets.nrows ann
      let r2 := annFromProduct A pow (s col).2 rets.nrows ann
      setAt out col (if eqb r2 zero then pinf else div A r1 r2)) fun _ => nan
  else reducePair rets bench (capture A pow ann)

/-- The loops of `up_capture_1d` and `down_capture_1d`, rust/src/returns.rs:802-810 and 826-834: (`returns_prod`,
`benchmark_prod`, `count`); `test` is the test of the benchmark. -/
def captureTurn (A : Arith) (test : F → Bool) (s : F × F × Nat) (x y : F) : F × F × Nat :=
  if test y then (grow A s.1 x, mul A s.2.1 (add A y one), s.2.2 + 1) else s

/-- The ends of `up_capture_1d` and `down_capture_1d`, rust/src/returns.rs:811-819 and 835-843. -/
def captureEnd (A : Arith) (pow : F → F → F) (ann : F) (s : F × F × Nat) : F :=
  if s.2.2 = 0 then nan
  else
    let r1 := annFromProduct A pow s.1 s.2.2 ann
    let r2 := annFromProduct A pow s.2.1 s.2.2 ann
    if eqb r2 zero then pinf else div A r1 r2

/-- `up_capture_1d`, rust/src/returns.rs:798-820. -/
def upCapture1 (A : Arith) (pow : F → F → F) (ann : F) (l b : List F) : F :=
  captureEnd A pow ann ((l.zip b).foldl (fun s p => captureTurn A (fun y => gt y zero) s p.1 p.2) (one, one, 0))

/-- `down_capture_1d`, rust/src/returns.rs:822-844. -/
def downCapture1 (A : Arith) (pow : F → F → F) (ann : F) (l b : List F) : F :=
  captureEnd A pow ann ((l.zip b).foldl (fun s p => captureTurn A (fun y => lt y zero) s p.1 p.2) (one, one, 0))

/-- `filtered_capture_2d`, rust/src/returns.rs:885-933. -/
def filteredCapture2 (A : Arith) (pow : F → F → F) (rets bench : View2) (ann : F) (up : Bool) : Except Err (Nat → F) :=
  if rets.standard && bench.standard then
    match chunkFold (fun col s row => captureTurn A (fun y => (up && gt y zero) || (!up && lt y zero)) s
        (rets.sliceCol col row) (bench.sliceCol col row)) (fun _ => (one, one, 0)) rets.nrows rets.ncols with
    | .error e => .error e
    | .ok s => .ok ((List.range rets.ncols).foldl (fun out col =>
        if 0 < (s col).2.2 then setAt out col (captureEnd A pow ann (s col)) else out) fun _ => nan)
  else if up then .ok (reducePair rets bench (upCapture1 A pow ann))
  else .ok (reducePair rets bench (downCapture1 A pow ann))

/-! ## Quantiles -/

/-- `percentile_unsorted(vals, 100 * c)`, rust/src/returns.rs:134-152, of values without NaN.  `as usize` turns negative numbers
into 0; a rank beyond the last value panics. -/
def percentileOf (A : Arith) (l : List F) (c : ℚ) : Except Err F :=
  if l.isEmpty then .ok nan
  else if l.length = 1 then .ok (l.getD 0 nan)
  else
    let rank : ℚ := c * ((l.length - 1 : Nat) : ℚ)
    let lo := ⌊rank⌋.toNat
    let hi := ⌈rank⌉.toNat
    let sorted := l.insertionSort fun x y => sortLe x y = true
    if l.length ≤ hi then .error panicked
    else if lo = hi then .ok (sorted.getD hi nan)
    else .ok (add A (mul A (sorted.getD lo nan) (fin ((hi : ℚ) - rank))) (mul A (sorted.getD hi nan) (fin (rank - (lo : ℚ)))))

/-- `value_at_risk_1d`, rust/src/returns.rs:756-762. -/
def valueAtRisk1 (A : Arith) (cutoff : ℚ) (l : List F) : Except Err F :=
  let vals := l.filter fun x => !x.isnan
  if vals.isEmpty then .ok nan else percentileOf A vals cutoff

/-- `tail_ratio_1d`, rust/src/returns.rs:743-754. -/
def tailRatio1 (A : Arith) (l : List F) : Except Err F :=
  let vals := l.filter fun x => !x.isnan
  if vals.isEmpty then .ok nan
  else match percentileOf A vals (95 / 100) with
    | .error e => .error e
    | .ok p95 => match percentileOf A vals (5 / 100) with
      | .error e => .error e
      | .ok p5 => if eqb p5.abs zero then .ok pinf else .ok (div A p95.abs p5.abs)

/-- `cond_value_at_risk_1d`, rust/src/returns.rs:764-777.  `select_nth_unstable_by` puts the `cutoff_index + 1` smallest values
first, NaN last, in the order `order`. -/
def condValueAtRisk1 (A : Arith) (order : List F → List F) (cutoff : ℚ) (l : List F) : F :=
  if l.isEmpty then nan
  else
    let k := ⌊((l.length - 1 : Nat) : ℚ) * cutoff⌋.toNat
    meanStrict A (order ((l.insertionSort fun x y => sortLe x y = true).take (k + 1)))

end Vbt.RsRet
