import Verif.Model.Apply
import Verif.Model.Generic
import Verif.Model.Records

/-!
# Risk and performance ratios, returns/nb.py:131-776

A column of returns (or a window of one) is a list.  Every 2-dim function of the file runs the 1-dim one on each column, every
rolling one runs it on each window (`rollingMetric`, `rollingAgainst`).  Square root and power are parameters: the libm functions
have no rational values.

Simplifications: the place of a quantile between two observations is computed exactly; quantiles are modelled for cutoffs between 0
and 1 and arrays without infinities (numba returns NaN for some arrays with infinities).
-/

namespace Vbt
open F

/-- `np.nanvar` as compiled by numba: the mean, then the squared distances of the values that are not NaN, over their number. -/
def nanvar (A : Arith) (l : List F) : F :=
  let m := nanmean A l
  div A (l.foldl (fun s v => if v.isnan then s else add A s (mul A (sub A v m) (sub A v m))) zero) (fin (countReduce l))

/-- `nanstd_1d_nb`, generic/nb.py:626-632. -/
def nanstd (A : Arith) (sqrt : F → F) (l : List F) (ddof : Nat) : F :=
  let cnt := countReduce l
  let rcount := cnt - ddof
  if rcount = 0 then nan
  else sqrt (div A (mul A (nanvar A l) (fin cnt)) (fin rcount))

/-- `cum_returns_final_1d_nb(returns, 1.0)`, returns/nb.py:99-104, of a list. -/
def endValue (A : Arith) (l : List F) : F := cumReturnsFinal A (fun i => l.getD i nan) one l.length

/-- `annualized_return_1d_nb`, returns/nb.py:132-139. -/
def annualizedReturn (A : Arith) (pow : F → F → F) (l : List F) (ann : F) : F :=
  if l.length = 0 then nan
  else sub A (pow (endValue A l) (div A ann (fin l.length))) one

/-- `annualized_volatility_1d_nb`, returns/nb.py:167-177. -/
def annualizedVolatility (A : Arith) (sqrt : F → F) (pow : F → F → F) (l : List F) (ann levy : F) (ddof : Nat) : Except Err F :=
  if l.length < 2 then .ok nan
  else match divE A one levy with
    | .error e => .error e
    | .ok p => .ok (mul A (nanstd A sqrt l ddof) (pow ann p))

/-- `calmar_ratio_1d_nb`, returns/nb.py:254-262. -/
def calmarRatio (A : Arith) (pow : F → F → F) (l : List F) (ann : F) (junk junk' : Nat → F) : Except Err F :=
  match maxDrawdown A (fun i => l.getD i nan) junk junk' l.length with
  | .error e => .error e
  | .ok dd =>
    if eqb dd zero then .ok nan
    else
      let r := annualizedReturn A pow l ann
      if eqb dd zero then .ok pinf
      else .ok (div A r dd.abs)

/-- `return_threshold` of `omega_ratio_1d_nb`, returns/nb.py:292-297; `none` is the early `return np.nan`. -/
def omegaThreshold (A : Arith) (pow : F → F → F) (ann required : F) : Except Err (Option F) :=
  if eqb ann one then .ok (some required)
  else if le ann (fin (-1)) then .ok none
  else match divE A one ann with
    | .error e => .error e
    | .ok p => .ok (some (sub A (pow (add A one required) p) one))

/-- `omega_ratio_1d_nb` once the threshold is known, returns/nb.py:298-303. -/
def omegaAt (A : Arith) (l : List F) (riskFree threshold : F) : F :=
  let less := l.map fun x => sub A (sub A x riskFree) threshold
  let numer := npSum A (less.filter fun x => gt x zero)
  let denom := mul A (fin (-1)) (npSum A (less.filter fun x => lt x zero))
  if eqb denom zero then pinf else div A numer denom

/-- `omega_ratio_1d_nb`, returns/nb.py:285-303. -/
def omegaRatio (A : Arith) (pow : F → F → F) (l : List F) (ann riskFree required : F) : Except Err F :=
  match omegaThreshold A pow ann required with
  | .error e => .error e
  | .ok none => .ok nan
  | .ok (some thr) => .ok (omegaAt A l riskFree thr)

/-- `sharpe_ratio_1d_nb`, returns/nb.py:338-348. -/
def sharpeRatio (A : Arith) (sqrt : F → F) (l : List F) (ann riskFree : F) (ddof : Nat) : F :=
  if l.length < 2 then nan
  else
    let adj := l.map fun x => sub A x riskFree
    let mean := nanmean A adj
    let std := nanstd A sqrt adj ddof
    if eqb std zero then pinf else mul A (div A mean std) (sqrt ann)

/-- `downside_risk_1d_nb`, returns/nb.py:378-382. -/
def downsideRisk (A : Arith) (sqrt : F → F) (l : List F) (ann required : F) : F :=
  let adj := (l.map fun x => sub A x required).map fun x => if gt x zero then zero else x
  mul A (sqrt (nanmean A (adj.map fun x => mul A x x))) (sqrt ann)

/-- `sortino_ratio_1d_nb`, returns/nb.py:411-421. -/
def sortinoRatio (A : Arith) (sqrt : F → F) (l : List F) (ann required : F) : F :=
  if l.length < 2 then nan
  else
    let avg := mul A (nanmean A (l.map fun x => sub A x required)) ann
    let risk := downsideRisk A sqrt l ann required
    if eqb risk zero then pinf else div A avg risk

/-- `information_ratio_1d_nb`, returns/nb.py:450-460. -/
def informationRatio (A : Arith) (sqrt : F → F) (l b : List F) (ddof : Nat) : F :=
  if l.length < 2 then nan
  else
    let active := l.zipWith (sub A) b
    let mean := nanmean A active
    let std := nanstd A sqrt active ddof
    if eqb std zero then pinf else div A mean std

/-- `beta_1d_nb`, returns/nb.py:489-507. -/
def betaRatio (A : Arith) (l b : List F) : F :=
  if b.length < 2 then nan
  else
    let independent := l.zipWith (fun x y => if x.isnan then nan else y) b
    let m := nanmean A independent
    let residual := independent.map fun y => sub A y m
    let cov := nanmean A (residual.zipWith (mul A) l)
    let var := nanmean A (residual.map fun y => mul A y y)
    let var := if lt var (fin (1 / 1000000000000000000000000000000)) then nan else var
    if eqb var zero then pinf else div A cov var

/-- `alpha_1d_nb`, returns/nb.py:530-539. -/
def alphaRatio (A : Arith) (pow : F → F → F) (l b : List F) (ann riskFree : F) : F :=
  if l.length < 2 then nan
  else
    let adjL := l.map fun x => sub A x riskFree
    let adjB := b.map fun x => sub A x riskFree
    let bt := betaRatio A l b
    let series := adjL.zipWith (fun x y => sub A x (mul A bt y)) adjB
    sub A (pow (add A (nanmean A series) one) ann) one

/-- `np.percentile(returns, 100 * c)` as compiled by numba (the rank `1 + (n - 1) * c`, linear interpolation between the closest
ranks) of an array without NaN. -/
def percentile (A : Arith) (l : List F) (c : ℚ) : Except Err F :=
  if c < 0 ∨ 1 < c then .error (.valueError "Percentiles must be in the range [0, 100]")
  else
    let sorted := l.insertionSort fun x y => sortLe x y = true
    let n := l.length
    if n = 1 then .ok (l.getD 0 nan)
    else if c = 1 then .ok (sorted.getD (n - 1) nan)
    else if c = 0 then .ok (sorted.getD 0 nan)
    else
      let rank : ℚ := 1 + ((n : ℚ) - 1) * c
      let f := ⌊rank⌋
      let m := rank - f
      let lower := sorted.getD (f - 1).toNat nan
      let upper := sorted.getD ((f - 1).toNat + 1) nan
      .ok (add A (mul A lower (fin (1 - m))) (mul A upper (fin m)))

/-- `value_at_risk_1d_nb`, returns/nb.py:601-606. -/
def valueAtRisk (A : Arith) (l : List F) (cutoff : ℚ) : Except Err F :=
  let l := l.filter fun x => !x.isnan
  if l.length < 1 then .ok nan else percentile A l cutoff

/-- `tail_ratio_1d_nb`, returns/nb.py:569-578. -/
def tailRatio (A : Arith) (l : List F) : Except Err F :=
  let l := l.filter fun x => !x.isnan
  if l.length < 1 then .ok nan
  else match percentile A l (95 / 100) with
    | .error e => .error e
    | .ok p95 => match percentile A l (5 / 100) with
      | .error e => .error e
      | .ok p5 =>
        let p95 := p95.abs
        let p5 := p5.abs
        if eqb p5 zero then .ok pinf else .ok (div A p95 p5)

/-- `np.mean`. -/
def npMean (A : Arith) (l : List F) : F := div A (npSum A l) (fin l.length)

/-- `cond_value_at_risk_1d_nb`, returns/nb.py:634-639.  `np.partition` puts the `cutoff_index + 1` smallest values first, in an
order of its own; here they are sorted. -/
def condValueAtRisk (A : Arith) (l : List F) (cutoff : ℚ) : F :=
  if l.length = 0 then nan
  else
    let k := ⌊((l.length - 1 : Nat) : ℚ) * cutoff⌋.toNat
    npMean A ((l.insertionSort fun x y => sortLe x y = true).take (k + 1))

/-- `capture_1d_nb`, returns/nb.py:667-673. -/
def captureRatio (A : Arith) (pow : F → F → F) (l b : List F) (ann : F) : F :=
  let r1 := annualizedReturn A pow l ann
  let r2 := annualizedReturn A pow b ann
  if eqb r2 zero then pinf else div A r1 r2

/-- `returns[mask]`. -/
def whereTrue (l : List F) (mask : List Bool) : List F := ((l.zip mask).filter fun p => p.2).map Prod.fst

/-- `up_capture_1d_nb`, returns/nb.py:702-712. -/
def upCapture (A : Arith) (pow : F → F → F) (l b : List F) (ann : F) : F :=
  let l := whereTrue l (b.map fun y => gt y zero)
  let b := whereTrue b (b.map fun y => gt y zero)
  if l.length < 1 then nan
  else
    let r1 := annualizedReturn A pow l ann
    let r2 := annualizedReturn A pow b ann
    if eqb r2 zero then pinf else div A r1 r2

/-- `down_capture_1d_nb`, returns/nb.py:741-751. -/
def downCapture (A : Arith) (pow : F → F → F) (l b : List F) (ann : F) : F :=
  let l := whereTrue l (b.map fun y => lt y zero)
  let b := whereTrue b (b.map fun y => lt y zero)
  if l.length < 1 then nan
  else
    let r1 := annualizedReturn A pow l ann
    let r2 := annualizedReturn A pow b ann
    if eqb r2 zero then pinf else div A r1 r2

/-- The rolling version of a metric of one column, e.g. `rolling_sharpe_ratio_nb`, returns/nb.py:361-374, also 117-128, 152-163,
321-334, 395-407, 434-446 and 652-663. -/
def rollingMetric (metric : List F → F) (a : Nat → Nat → F) (window : Nat) (minp : Option Nat) (junkCnt : Nat → Nat)
    (junk : Nat → Nat → F) (rows cols : Nat) : Nat → Nat → F :=
  rollingApply2 a window minp (fun _ _ l => metric l) junkCnt junk rows cols

/-- The rolling version of a metric of a column against a benchmark, e.g. `rolling_beta_nb`, returns/nb.py:520-526, also 473-485,
552-565, 686-698, 725-737 and 764-776: the benchmark is cut to `benchmark_rets[i + 1 - len(_returns) : i + 1, col]`. -/
def rollingAgainst (metric : List F → List F → F) (a bench : Nat → Nat → F) (window : Nat) (minp : Option Nat)
    (junkCnt : Nat → Nat) (junk : Nat → Nat → F) (rows cols : Nat) : Nat → Nat → F :=
  rollingApply2 a window minp
    (fun i col l => metric l (slice (fun j => bench j col) (i + 1 - l.length) (i + 1 - (i + 1 - l.length)))) junkCnt junk rows cols

/-- The 2-dim version of a metric, e.g. `sharpe_ratio_nb`, returns/nb.py:352-357: the metric of every column. -/
def metricColumns (metric : List F → F) (a : Nat → Nat → F) (junk : Nat → F) (rows cols : Nat) : Nat → F :=
  (List.range cols).foldl (fun out col => setAt out col (metric (slice (fun i => a i col) 0 rows))) junk

end Vbt
