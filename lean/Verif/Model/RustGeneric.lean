import Verif.Model.Generic

/-!
# The Rust engine of the time series functions

`rust/src/generic.rs`.  A `Vec<f64>` or slice of length `n` is a function of the row, as in `Model/Generic`; `usize` is `Nat`
and `i64` is `Int` without overflow.  A 2-dim array view is its shape, its cells and whether its layout is the standard (C
contiguous) one; only then it can be read as one slice, and the kernels ending in `_2d_c` are used.  Their bodies are those
of the 1-dim kernels with one state per column, so the two share their steps here.

Not modelled: conversions from Python and panics for lengths that do not fit.
-/

namespace Vbt
open F

/-- The 2-dim versions of the Numba functions, `out[:, col] = f(a[:, col])` for each column, e.g. generic/nb.py:751-757. -/
def nb2d {α β : Type} (f : (Nat → α) → Except Err (Nat → β)) (a : Nat → Nat → α) (junk : Nat → Nat → β) (ncols : Nat) :
    Except Err (Nat → Nat → β) :=
  loopE (fun out col =>
    match f (fun i => a i col) with
    | .error e => .error e
    | .ok v => .ok fun i c => if c = col then v i else out i c) junk (List.range ncols)

end Vbt

namespace Vbt.RsGen
open Vbt F

/-! ## Loops -/

/-- A loop over `rows` that carries a state and writes at most one row of `out` per turn. -/
def fillRows {σ β : Type} (step : σ → Nat → σ × Option β) (s0 : σ) (out0 : Nat → β) (rows : List Nat) : σ × (Nat → β) :=
  rows.foldl (fun s i =>
    ((step s.1 i).1, match (step s.1 i).2 with | none => s.2 | some v => setAt s.2 i v)) (s0, out0)

/-- The loops `for row in … { for col in 0..ncols { … } }` of the kernels for standard layouts, e.g.
rust/src/generic.rs:681-703: one state per column, and cell (`row`, `col`) is element `row * ncols + col` of `dst`. -/
def fillCells {σ β : Type} (step : Nat → σ → Nat → σ × Option β) (s0 : Nat → σ) (dst0 : Nat → β) (ncols : Nat)
    (rows : List Nat) : (Nat → σ) × (Nat → β) :=
  rows.foldl (fun s row =>
    (List.range ncols).foldl (fun s col =>
      (setAt s.1 col (step col (s.1 col) row).1,
       match (step col (s.1 col) row).2 with
       | none => s.2
       | some v => setAt s.2 (row * ncols + col) v)) s) (s0, dst0)

/-- `ArrayView2<f64>`. -/
structure View2 where
  nrows : Nat
  ncols : Nat
  get : Nat → Nat → F
  standard : Bool

/-- `a.as_slice()` of a view in standard layout. -/
def View2.slice (a : View2) (k : Nat) : F := a.get (k / a.ncols) (k % a.ncols)

/-- The column `col` read from the slice, `src[row * ncols + col]`. -/
def View2.sliceCol (a : View2) (col : Nat) : Nat → F := fun row => a.slice (row * a.ncols + col)

/-- `a.column(col)`. -/
def View2.column (a : View2) (col : Nat) : Nat → F := fun row => a.get row col

/-- An array from its elements in standard layout. -/
def cells {β : Type} (ncols : Nat) (dst : Nat → β) : Nat → Nat → β := fun row col => dst (row * ncols + col)

/-- `apply_2d_by_col`, rust/src/generic.rs:340-358. -/
def byCol (a : View2) (kernel : (Nat → F) → Nat → (Nat → F)) : Nat → Nat → F :=
  (List.range a.ncols).foldl (fun out col => fun row c =>
    if c = col ∧ row < a.nrows then kernel (a.column col) a.nrows row else out row c) fun _ _ => nan

/-- `apply_2d_by_col_inplace`, rust/src/generic.rs:360-379: `out_buf` keeps its contents from column to column. -/
def byColInplace (a : View2) (kernel : (Nat → F) → (Nat → F) → Nat → (Nat → F)) : Nat → Nat → F :=
  ((List.range a.ncols).foldl (fun (s : (Nat → F) × (Nat → Nat → F)) col =>
    let buf := kernel (a.column col) s.1 a.nrows
    (buf, fun row c => if c = col ∧ row < a.nrows then buf row else s.2 row c)) (fun _ => zero, fun _ _ => nan)).2

/-- `dst[start..start + n].copy_from_slice(…)`. -/
def setRange {β : Type} (dst : Nat → β) (start n : Nat) (v : Nat → β) : Nat → β := fun k =>
  if start ≤ k ∧ k < start + n then v (k - start) else dst k

/-! ## Shifting and filling -/

/-- `bshift_1d_into`, rust/src/generic.rs:886-895. -/
def bshiftInto (a : Nat → F) (out : Nat → F) (n : Nat) (fill : F) (len : Nat) : Nat → F :=
  (List.range len).foldl (fun out i => if i + n < len then setAt out i (a (i + n)) else setAt out i fill) out

/-- `bshift_1d`, rust/src/generic.rs:879-884. -/
def bshift1 (a : Nat → F) (n : Nat) (fill : F) (len : Nat) : Nat → F := bshiftInto a (fun _ => fill) n fill len

/-- `fshift_1d_into`, rust/src/generic.rs:904-912. -/
def fshiftInto (a : Nat → F) (out : Nat → F) (n : Nat) (fill : F) (len : Nat) : Nat → F :=
  let out := (List.range (min n len)).foldl (fun out i => setAt out i fill) out
  (List.range' n (len - n)).foldl (fun out i => setAt out i (a (i - n))) out

/-- `fshift_1d`, rust/src/generic.rs:897-902. -/
def fshift1 (a : Nat → F) (n : Nat) (fill : F) (len : Nat) : Nat → F := fshiftInto a (fun _ => fill) n fill len

/-- `diff_1d_into`, rust/src/generic.rs:921-929. -/
def diffInto (A : Arith) (a : Nat → F) (out : Nat → F) (n len : Nat) : Nat → F :=
  let out := (List.range (min n len)).foldl (fun out i => setAt out i nan) out
  (List.range' n (len - n)).foldl (fun out i => setAt out i (sub A (a i) (a (i - n)))) out

/-- `diff_1d`, rust/src/generic.rs:914-919. -/
def diff1 (A : Arith) (a : Nat → F) (n len : Nat) : Nat → F := diffInto A a (fun _ => nan) n len

/-- `pct_change_1d_into`, rust/src/generic.rs:938-946. -/
def pctChangeInto (A : Arith) (a : Nat → F) (out : Nat → F) (n len : Nat) : Nat → F :=
  let out := (List.range (min n len)).foldl (fun out i => setAt out i nan) out
  (List.range' n (len - n)).foldl (fun out i => setAt out i (sub A (div A (a i) (a (i - n))) one)) out

/-- `pct_change_1d`, rust/src/generic.rs:931-936. -/
def pctChange1 (A : Arith) (a : Nat → F) (n len : Nat) : Nat → F := pctChangeInto A a (fun _ => nan) n len

/-- The loop body of `bfill_1d_into` and `ffill_1d_into`, rust/src/generic.rs:961-968 and 985-992; the state is `lastval`. -/
def fillStep (a : Nat → F) (last : F) (i : Nat) : F × Option F :=
  if (a i).isnan then (last, some last) else (a i, some (a i))

/-- `bfill_1d_into`, rust/src/generic.rs:955-969. -/
def bfillInto (a : Nat → F) (out : Nat → F) (len : Nat) : Nat → F :=
  if len = 0 then out else (fillRows (fillStep a) (a (len - 1)) out (List.range len).reverse).2

/-- `bfill_1d`, rust/src/generic.rs:948-953. -/
def bfill1 (a : Nat → F) (len : Nat) : Nat → F := bfillInto a (fun _ => nan) len

/-- `ffill_1d_into`, rust/src/generic.rs:978-992. -/
def ffillInto (a : Nat → F) (out : Nat → F) (len : Nat) : Nat → F :=
  if len = 0 then out else (fillRows (fillStep a) (a 0) out (List.range len)).2

/-- `ffill_1d`, rust/src/generic.rs:971-976. -/
def ffill1 (a : Nat → F) (len : Nat) : Nat → F := ffillInto a (fun _ => nan) len

/-- `bshift_2d_c`, rust/src/generic.rs:407-428. -/
def bshiftC (a : View2) (n : Nat) (fill : F) : Nat → F :=
  if a.ncols = 1 then bshift1 a.slice n fill a.nrows
  else (List.range a.nrows).foldl (fun dst row =>
    if row + n < a.nrows then setRange dst (row * a.ncols) a.ncols fun k => a.slice ((row + n) * a.ncols + k)
    else setRange dst (row * a.ncols) a.ncols fun _ => fill) fun _ => zero

/-- `fshift_2d_c`, rust/src/generic.rs:430-451. -/
def fshiftC (a : View2) (n : Nat) (fill : F) : Nat → F :=
  if a.ncols = 1 then fshift1 a.slice n fill a.nrows
  else (List.range a.nrows).foldl (fun dst row =>
    if row < n then setRange dst (row * a.ncols) a.ncols fun _ => fill
    else setRange dst (row * a.ncols) a.ncols fun k => a.slice ((row - n) * a.ncols + k)) fun _ => zero

/-- `diff_2d_c`, rust/src/generic.rs:453-469. -/
def diffC (A : Arith) (a : View2) (n : Nat) : Nat → F :=
  if a.ncols = 1 then diff1 A a.slice n a.nrows
  else (fillCells (fun col (_ : Unit) row => ((), some (sub A (a.sliceCol col row) (a.sliceCol col (row - n))))) (fun _ => ())
    (fun _ => nan) a.ncols (List.range' n (a.nrows - n))).2

/-- `pct_change_2d_c`, rust/src/generic.rs:471-487. -/
def pctChangeC (A : Arith) (a : View2) (n : Nat) : Nat → F :=
  if a.ncols = 1 then pctChange1 A a.slice n a.nrows
  else (fillCells (fun col (_ : Unit) row =>
    ((), some (sub A (div A (a.sliceCol col row) (a.sliceCol col (row - n))) one))) (fun _ => ())
    (fun _ => nan) a.ncols (List.range' n (a.nrows - n))).2

/-- `ffill_2d_c`, rust/src/generic.rs:489-511. -/
def ffillC (a : View2) : Nat → F :=
  if a.nrows = 0 then fun _ => nan
  else (fillCells (fun col => fillStep (a.sliceCol col)) (fun _ => nan) (fun _ => nan) a.ncols (List.range a.nrows)).2

/-- `bfill_2d_c`, rust/src/generic.rs:513-535. -/
def bfillC (a : View2) : Nat → F :=
  if a.nrows = 0 then fun _ => nan
  else (fillCells (fun col => fillStep (a.sliceCol col)) (fun _ => nan) (fun _ => nan) a.ncols (List.range a.nrows).reverse).2

/-- `bshift_rs`, rust/src/generic.rs:2222-2237. -/
def bshiftPy (a : View2) (n : Nat) (fill : F) : Nat → Nat → F :=
  if a.standard then cells a.ncols (bshiftC a n fill) else byColInplace a fun col out => bshiftInto col out n fill

/-- `fshift_rs`, rust/src/generic.rs:2242-2257. -/
def fshiftPy (a : View2) (n : Nat) (fill : F) : Nat → Nat → F :=
  if a.standard then cells a.ncols (fshiftC a n fill) else byColInplace a fun col out => fshiftInto col out n fill

/-- `diff_rs`, rust/src/generic.rs:2262-2272. -/
def diffPy (A : Arith) (a : View2) (n : Nat) : Nat → Nat → F :=
  if a.standard then cells a.ncols (diffC A a n) else byColInplace a fun col out => diffInto A col out n

/-- `pct_change_rs`, rust/src/generic.rs:2277-2291. -/
def pctChangePy (A : Arith) (a : View2) (n : Nat) : Nat → Nat → F :=
  if a.standard then cells a.ncols (pctChangeC A a n) else byColInplace a fun col out => pctChangeInto A col out n

/-- `bfill_rs`, rust/src/generic.rs:2294-2304. -/
def bfillPy (a : View2) : Nat → Nat → F :=
  if a.standard then cells a.ncols (bfillC a) else byColInplace a bfillInto

/-- `ffill_rs`, rust/src/generic.rs:2307-2317. -/
def ffillPy (a : View2) : Nat → Nat → F :=
  if a.standard then cells a.ncols (ffillC a) else byColInplace a ffillInto

/-! ## Rolling functions -/

/-- `minp.unwrap_or(window)` and `validate_window`, rust/src/generic.rs:155-160 and e.g. 2533-2534. -/
def validMinp (window : Nat) (minp : Option Nat) (name : String) : Except Err Nat :=
  let minp := minp.getD window
  if window < minp then .error (.valueError s!"minp must be <= {name}") else .ok minp

/-- The inner loop of `rolling_min_1d`, rust/src/generic.rs:1126-1134: (`minv`, `cnt`). -/
def minTurn (a : Nat → F) (s : F × Nat) (j : Nat) : F × Nat :=
  if (a j).isnan then s
  else
    let minv := if s.1.isnan || lt (a j) s.1 then a j else s.1
    (minv, s.2 + 1)

/-- The inner loop of `rolling_max_1d`, rust/src/generic.rs:1149-1157. -/
def maxTurn (a : Nat → F) (s : F × Nat) (j : Nat) : F × Nat :=
  if (a j).isnan then s
  else
    let maxv := if s.1.isnan || gt (a j) s.1 then a j else s.1
    (maxv, s.2 + 1)

/-- The outer loops of `rolling_min_1d` and `rolling_max_1d`, rust/src/generic.rs:1122-1138 and 1145-1161. -/
def rollExtreme (turn : (Nat → F) → F × Nat → Nat → F × Nat) (a : Nat → F) (window minp len : Nat) : Nat → F :=
  (fillRows (fun (_ : Unit) i =>
    let start := if i + 1 ≥ window then i + 1 - window else 0
    let s := (List.range' start (i + 1 - start)).foldl (turn a) (a i, 0)
    ((), if s.2 ≥ minp then some s.1 else none)) () (fun _ => nan) (List.range len)).2

/-- `rolling_min_1d`, rust/src/generic.rs:1119-1140. -/
def rollingMin1 (a : Nat → F) (window minp len : Nat) : Nat → F := rollExtreme minTurn a window minp len

/-- `rolling_max_1d`, rust/src/generic.rs:1142-1163. -/
def rollingMax1 (a : Nat → F) (window minp len : Nat) : Nat → F := rollExtreme maxTurn a window minp len

/-- `rolling_min_rs`, rust/src/generic.rs:2467-2478. -/
def rollingMinPy (a : View2) (window : Nat) (minp : Option Nat) : Except Err (Nat → Nat → F) :=
  match validMinp window minp "window" with
  | .error e => .error e
  | .ok m => .ok (byCol a fun col => rollingMin1 col window m)

/-- `rolling_max_rs`, rust/src/generic.rs:2497-2508. -/
def rollingMaxPy (a : View2) (window : Nat) (minp : Option Nat) : Except Err (Nat → Nat → F) :=
  match validMinp window minp "window" with
  | .error e => .error e
  | .ok m => .ok (byCol a fun col => rollingMax1 col window m)

/-- One row of `rolling_mean_1d` and `rolling_mean_2d_c`, rust/src/generic.rs:1170-1186 and 687-701: (`sum`, `cnt`). -/
def meanTurn (A : Arith) (a : Nat → F) (window minp : Nat) (s : F × Nat) (i : Nat) : (F × Nat) × Option F :=
  let s1 : F × Nat := if !(a i).isnan then (add A s.1 (a i), s.2 + 1) else s
  let s2 : F × Nat :=
    if i ≥ window then (if !(a (i - window)).isnan then (sub A s1.1 (a (i - window)), s1.2 - 1) else s1) else s1
  (s2, if s2.2 ≥ minp ∧ s2.2 > 0 then some (div A s2.1 (fin s2.2)) else none)

/-- `rolling_mean_1d`, rust/src/generic.rs:1165-1188. -/
def rollingMean1 (A : Arith) (a : Nat → F) (window minp len : Nat) : Nat → F :=
  (fillRows (meanTurn A a window minp) (zero, 0) (fun _ => nan) (List.range len)).2

/-- `rolling_mean_2d_c`, rust/src/generic.rs:679-705. -/
def rollingMeanC (A : Arith) (a : View2) (window minp : Nat) : Nat → F :=
  (fillCells (fun col => meanTurn A (a.sliceCol col) window minp) (fun _ => (zero, 0)) (fun _ => nan) a.ncols
    (List.range a.nrows)).2

/-- `rolling_mean_rs`, rust/src/generic.rs:2527-2544. -/
def rollingMeanPy (A : Arith) (a : View2) (window : Nat) (minp : Option Nat) : Except Err (Nat → Nat → F) :=
  match validMinp window minp "window" with
  | .error e => .error e
  | .ok m =>
    .ok (if a.standard then cells a.ncols (rollingMeanC A a window m) else byCol a fun col => rollingMean1 A col window m)

/-- `INV_COND_TOL`, rust/src/generic.rs:21; `f64::EPSILON` is 2⁻⁵². -/
def invCondTol : F := fin (1 / 2 ^ 52 * 1000)

/-- `RollingVarState`, rust/src/generic.rs:707-715. -/
structure RollingVar where
  count : Nat
  mean : F
  m2 : F
  compAdd : F
  compRemove : F
  unstable : Bool

/-- `RollingVarState::default`. -/
def RollingVar.default : RollingVar := ⟨0, zero, zero, zero, zero, false⟩

/-- `RollingVarState::add`, rust/src/generic.rs:718-733. -/
def RollingVar.add (A : Arith) (s : RollingVar) (val : F) : RollingVar :=
  if val.isnan then s
  else
    let prevM2 := s.m2
    let count := s.count + 1
    let prevMean := sub A s.mean s.compAdd
    let y := sub A val s.compAdd
    let delta := sub A y s.mean
    let compAdd := sub A (F.add A delta s.mean) y
    let mean := F.add A s.mean (div A delta (fin count))
    let m2 := F.add A s.m2 (mul A (sub A val prevMean) (sub A val mean))
    { s with count := count, mean := mean, m2 := m2, compAdd := compAdd,
             unstable := if gt (mul A prevM2 invCondTol) m2 then true else s.unstable }

/-- `RollingVarState::remove`, rust/src/generic.rs:735-756. -/
def RollingVar.remove (A : Arith) (s : RollingVar) (val : F) : RollingVar :=
  if val.isnan then s
  else
    let prevM2 := s.m2
    let count := s.count - 1
    if count > 0 then
      let prevMean := sub A s.mean s.compRemove
      let y := sub A val s.compRemove
      let delta := sub A y s.mean
      let compRemove := sub A (F.add A delta s.mean) y
      let mean := sub A s.mean (div A delta (fin count))
      let m2 := sub A s.m2 (mul A (sub A val prevMean) (sub A val mean))
      { s with count := count, mean := mean, m2 := m2, compRemove := compRemove,
               unstable := if gt (mul A prevM2 invCondTol) m2 then true else s.unstable }
    else { s with count := count, mean := zero, m2 := zero, unstable := false }

/-- `RollingVarState::std`, rust/src/generic.rs:762-768. -/
def RollingVar.std (A : Arith) (sqrt : F → F) (s : RollingVar) (minp ddof : Nat) : F :=
  if s.count ≥ minp ∧ s.count > ddof then sqrt (div A s.m2 (fin ((s.count - ddof : Nat) : ℚ))) else nan

/-- One row of `rolling_std_1d` and `rolling_std_2d_c`, rust/src/generic.rs:1195-1211 and 781-797. -/
def stdTurn (A : Arith) (sqrt : F → F) (a : Nat → F) (window minp ddof : Nat) (s : RollingVar) (i : Nat) :
    RollingVar × Option F :=
  let recompute := decide (i = 0) || decide (window = 0)
  let s1 := if !recompute && decide (i ≥ window) then s.remove A (a (i - window)) else s
  let s2 := if !recompute then s1.add A (a i) else s1
  let s3 : RollingVar :=
    if recompute || s2.unstable then
      let start := i + 1 - window
      { (List.range' start (i + 1 - start)).foldl (fun s j => s.add A (a j)) RollingVar.default with unstable := false }
    else s2
  (s3, some (s3.std A sqrt minp ddof))

/-- `rolling_std_1d`, rust/src/generic.rs:1190-1214. -/
def rollingStd1 (A : Arith) (sqrt : F → F) (a : Nat → F) (window minp ddof len : Nat) : Nat → F :=
  (fillRows (stdTurn A sqrt a window (max minp 1) ddof) RollingVar.default (fun _ => nan) (List.range len)).2

/-- `rolling_std_2d_c`, rust/src/generic.rs:771-800. -/
def rollingStdC (A : Arith) (sqrt : F → F) (a : View2) (window minp ddof : Nat) : Nat → F :=
  (fillCells (fun col => stdTurn A sqrt (a.sliceCol col) window (max minp 1) ddof) (fun _ => RollingVar.default) (fun _ => nan)
    a.ncols (List.range a.nrows)).2

/-- `rolling_std_rs`, rust/src/generic.rs:2564-2582. -/
def rollingStdPy (A : Arith) (sqrt : F → F) (a : View2) (window : Nat) (minp : Option Nat) (ddof : Nat) :
    Except Err (Nat → Nat → F) :=
  match validMinp window minp "window" with
  | .error e => .error e
  | .ok m =>
    .ok (if a.standard then cells a.ncols (rollingStdC A sqrt a window m ddof)
      else byCol a fun col => rollingStd1 A sqrt col window m ddof)

/-! ## Exponential functions -/

/-- The weights of the ewm functions, e.g. rust/src/generic.rs:1262-1265: (`old_wt_factor`, `new_wt`). -/
def ewmWeights (A : Arith) (span : Nat) (adjust : Bool) : F × F :=
  let com := div A (sub A (fin span) one) (fin 2)
  let alpha := div A one (add A one com)
  (sub A one alpha, if adjust then one else alpha)

/-- One row after the first of `ewm_mean_1d` and `ewm_mean_2d_c`, rust/src/generic.rs:1273-1297 and 1326-1354. -/
def ewmTurn (A : Arith) (a : Nat → F) (minp : Nat) (factor newWt : F) (adjust : Bool) (s : EwmState) (i : Nat) :
    EwmState × Option F :=
  let cur := a i
  let isObs := !cur.isnan
  let nobs := if isObs then s.nobs + 1 else s.nobs
  let s' : EwmState :=
    if !s.avg.isnan then
      let oldWt := mul A s.oldWt factor
      if isObs then
        let avg := if !eqb s.avg cur then div A (add A (mul A oldWt s.avg) (mul A newWt cur)) (add A oldWt newWt) else s.avg
        ⟨avg, if adjust then add A oldWt newWt else one, nobs⟩
      else ⟨s.avg, oldWt, nobs⟩
    else if isObs then ⟨cur, s.oldWt, nobs⟩
    else ⟨s.avg, s.oldWt, nobs⟩
  (s', if s'.nobs ≥ minp then some s'.avg else none)

/-- The variables before row 1, rust/src/generic.rs:1266-1272 and 1316-1325. -/
def ewmInit (a : Nat → F) : EwmState := ⟨a 0, one, if !(a 0).isnan then 1 else 0⟩

/-- `ewm_mean_1d`, rust/src/generic.rs:1256-1299. -/
def ewmMean1 (A : Arith) (a : Nat → F) (span minp : Nat) (adjust : Bool) (len : Nat) : Nat → F :=
  if len = 0 then fun _ => nan
  else
    let w := ewmWeights A span adjust
    let out : Nat → F := if (ewmInit a).nobs ≥ minp then setAt (fun _ => nan) 0 (a 0) else fun _ => nan
    (fillRows (ewmTurn A a minp w.1 w.2 adjust) (ewmInit a) out (List.range' 1 (len - 1))).2

/-- `ewm_mean_2d_c`, rust/src/generic.rs:1301-1356. -/
def ewmMeanC (A : Arith) (a : View2) (span minp : Nat) (adjust : Bool) : Nat → F :=
  if a.nrows = 0 then fun _ => nan
  else
    let w := ewmWeights A span adjust
    let dst := (List.range a.ncols).foldl (fun (dst : Nat → F) col =>
      if (ewmInit (a.sliceCol col)).nobs ≥ minp then setAt dst col (a.sliceCol col 0) else dst) fun _ => nan
    (fillCells (fun col => ewmTurn A (a.sliceCol col) minp w.1 w.2 adjust) (fun col => ewmInit (a.sliceCol col)) dst a.ncols
      (List.range' 1 (a.nrows - 1))).2

/-- `ewm_mean_rs`, rust/src/generic.rs:2601-2612; it does not use `ewm_mean_2d_c`. -/
def ewmMeanPy (A : Arith) (a : View2) (span minp : Nat) (adjust : Bool) : Except Err (Nat → Nat → F) :=
  match validMinp span (some minp) "span" with
  | .error e => .error e
  | .ok m => .ok (byCol a fun col => ewmMean1 A col span m adjust)

/-- One row after the first of `ewm_std_1d` and `ewm_std_2d_c`, rust/src/generic.rs:1380-1420 and 1457-1503. -/
def ewmStdTurn (A : Arith) (sqrt : F → F) (a : Nat → F) (minp : Nat) (factor newWt : F) (adjust : Bool) (s : EwmStdState)
    (i : Nat) : EwmStdState × Option F :=
  let cur := a i
  let isObs := !cur.isnan && !cur.isnan
  let nobs := if isObs then s.nobs + 1 else s.nobs
  let s' : EwmStdState :=
    if !s.meanX.isnan then
      let sumWt := mul A s.sumWt factor
      let sumWt2 := mul A s.sumWt2 (mul A factor factor)
      let oldWt := mul A s.oldWt factor
      if isObs then
        let meanX := if !eqb s.meanX cur then div A (add A (mul A oldWt s.meanX) (mul A newWt cur)) (add A oldWt newWt)
          else s.meanX
        let meanY := if !eqb s.meanY cur then div A (add A (mul A oldWt s.meanY) (mul A newWt cur)) (add A oldWt newWt)
          else s.meanY
        let cov := div A (add A
            (mul A oldWt (add A s.cov (mul A (sub A s.meanX meanX) (sub A s.meanY meanY))))
            (mul A newWt (mul A (sub A cur meanX) (sub A cur meanY)))) (add A oldWt newWt)
        let sumWt := add A sumWt newWt
        let sumWt2 := add A sumWt2 (mul A newWt newWt)
        let oldWt := add A oldWt newWt
        if !adjust then ⟨meanX, meanY, cov, div A sumWt oldWt, div A sumWt2 (mul A oldWt oldWt), one, nobs⟩
        else ⟨meanX, meanY, cov, sumWt, sumWt2, oldWt, nobs⟩
      else ⟨s.meanX, s.meanY, s.cov, sumWt, sumWt2, oldWt, nobs⟩
    else if isObs then { s with meanX := cur, meanY := cur, nobs := nobs }
    else { s with nobs := nobs }
  let numerator := mul A s'.sumWt s'.sumWt
  let denominator := sub A numerator s'.sumWt2
  (s', if s'.nobs ≥ minp ∧ gt denominator zero then some (sqrt (mul A (div A numerator denominator) s'.cov)) else none)

/-- The variables before row 1, rust/src/generic.rs:1368-1379 and 1442-1456. -/
def ewmStdInit (a : Nat → F) : EwmStdState :=
  let isObs := !(a 0).isnan && !(a 0).isnan
  ⟨if isObs then a 0 else nan, if isObs then a 0 else nan, zero, one, one, one, if isObs then 1 else 0⟩

/-- `ewm_std_1d`, rust/src/generic.rs:1358-1422. -/
def ewmStd1 (A : Arith) (sqrt : F → F) (a : Nat → F) (span minp : Nat) (adjust : Bool) (len : Nat) : Nat → F :=
  if len = 0 then fun _ => nan
  else
    let w := ewmWeights A span adjust
    (fillRows (ewmStdTurn A sqrt a minp w.1 w.2 adjust) (ewmStdInit a) (fun _ => nan) (List.range' 1 (len - 1))).2

/-- `ewm_std_2d_c`, rust/src/generic.rs:1424-1506. -/
def ewmStdC (A : Arith) (sqrt : F → F) (a : View2) (span minp : Nat) (adjust : Bool) : Nat → F :=
  if a.nrows = 0 then fun _ => nan
  else
    let w := ewmWeights A span adjust
    (fillCells (fun col => ewmStdTurn A sqrt (a.sliceCol col) minp w.1 w.2 adjust) (fun col => ewmStdInit (a.sliceCol col))
      (fun _ => nan) a.ncols (List.range' 1 (a.nrows - 1))).2

/-- `ewm_std_rs`, rust/src/generic.rs:2636-2648; it does not use `ewm_std_2d_c`. -/
def ewmStdPy (A : Arith) (sqrt : F → F) (a : View2) (span minp : Nat) (adjust : Bool) : Except Err (Nat → Nat → F) :=
  match validMinp span (some minp) "span" with
  | .error e => .error e
  | .ok m => .ok (byCol a fun col => ewmStd1 A sqrt col span m adjust)

/-! ## Expanding functions -/

/-- One row of `expanding_min_1d`, rust/src/generic.rs:1516-1525. -/
def expMinTurn (a : Nat → F) (minp : Nat) (s : F × Nat) (i : Nat) : (F × Nat) × Option F :=
  let minv := if s.1.isnan || lt (a i) s.1 then a i else s.1
  let cnt := if !(a i).isnan then s.2 + 1 else s.2
  ((minv, cnt), if cnt ≥ minp then some minv else none)

/-- `expanding_min_1d`, rust/src/generic.rs:1508-1528. -/
def expandingMin1 (a : Nat → F) (minp len : Nat) : Nat → F :=
  if len = 0 then fun _ => nan else (fillRows (expMinTurn a minp) (a 0, 0) (fun _ => nan) (List.range len)).2

/-- One row of `expanding_max_1d`, rust/src/generic.rs:1538-1547. -/
def expMaxTurn (a : Nat → F) (minp : Nat) (s : F × Nat) (i : Nat) : (F × Nat) × Option F :=
  let maxv := if s.1.isnan || gt (a i) s.1 then a i else s.1
  let cnt := if !(a i).isnan then s.2 + 1 else s.2
  ((maxv, cnt), if cnt ≥ minp then some maxv else none)

/-- `expanding_max_1d`, rust/src/generic.rs:1530-1550. -/
def expandingMax1 (a : Nat → F) (minp len : Nat) : Nat → F :=
  if len = 0 then fun _ => nan else (fillRows (expMaxTurn a minp) (a 0, 0) (fun _ => nan) (List.range len)).2

/-- `expanding_min_rs`, rust/src/generic.rs:2651-2659. -/
def expandingMinPy (a : View2) (minp : Nat) : Nat → Nat → F := byCol a fun col => expandingMin1 col minp

/-- `expanding_max_rs`, rust/src/generic.rs:2662-2670. -/
def expandingMaxPy (a : View2) (minp : Nat) : Nat → Nat → F := byCol a fun col => expandingMax1 col minp

/-- One row of `expanding_mean_1d` and `expanding_mean_2d_c`, rust/src/generic.rs:1221-1230 and 811-821. -/
def expMeanTurn (A : Arith) (a : Nat → F) (minp : Nat) (s : F × Nat) (i : Nat) : (F × Nat) × Option F :=
  let s' : F × Nat := if !(a i).isnan then (add A s.1 (a i), s.2 + 1) else s
  (s', if s'.2 ≥ minp ∧ s'.2 > 0 then some (div A s'.1 (fin s'.2)) else none)

/-- `expanding_mean_1d`, rust/src/generic.rs:1216-1232. -/
def expandingMean1 (A : Arith) (a : Nat → F) (minp len : Nat) : Nat → F :=
  (fillRows (expMeanTurn A a minp) (zero, 0) (fun _ => nan) (List.range len)).2

/-- `expanding_mean_2d_c`, rust/src/generic.rs:802-824. -/
def expandingMeanC (A : Arith) (a : View2) (minp : Nat) : Nat → F :=
  (fillCells (fun col => expMeanTurn A (a.sliceCol col) minp) (fun _ => (zero, 0)) (fun _ => nan) a.ncols
    (List.range a.nrows)).2

/-- `expanding_mean_rs`, rust/src/generic.rs:2684-2698. -/
def expandingMeanPy (A : Arith) (a : View2) (minp : Nat) : Nat → Nat → F :=
  if a.standard then cells a.ncols (expandingMeanC A a minp) else byCol a fun col => expandingMean1 A col minp

/-- The sums of `expanding_std_1d`: `sum`, `sum_sq`, `cnt`. -/
structure SumSq where
  sum : F
  sumSq : F
  cnt : Nat

/-- One row of `expanding_std_1d` and `expanding_std_2d_c`, rust/src/generic.rs:1240-1252 and 836-849. -/
def expStdTurn (A : Arith) (sqrt : F → F) (a : Nat → F) (minp ddof : Nat) (s : SumSq) (i : Nat) : SumSq × Option F :=
  let s' : SumSq := if !(a i).isnan then ⟨add A s.sum (a i), add A s.sumSq (mul A (a i) (a i)), s.cnt + 1⟩ else s
  let mean := div A s'.sum (fin s'.cnt)
  let variance := div A (add A (sub A s'.sumSq (mul A (mul A (fin 2) s'.sum) mean)) (mul A (mul A (fin s'.cnt) mean) mean))
    (fin ((s'.cnt - ddof : Nat) : ℚ))
  (s', if s'.cnt ≥ minp ∧ s'.cnt > ddof then some (sqrt (F.abs variance)) else none)

/-- `expanding_std_1d`, rust/src/generic.rs:1234-1254. -/
def expandingStd1 (A : Arith) (sqrt : F → F) (a : Nat → F) (minp ddof len : Nat) : Nat → F :=
  (fillRows (expStdTurn A sqrt a minp ddof) ⟨zero, zero, 0⟩ (fun _ => nan) (List.range len)).2

/-- `expanding_std_2d_c`, rust/src/generic.rs:826-852. -/
def expandingStdC (A : Arith) (sqrt : F → F) (a : View2) (minp ddof : Nat) : Nat → F :=
  (fillCells (fun col => expStdTurn A sqrt (a.sliceCol col) minp ddof) (fun _ => ⟨zero, zero, 0⟩) (fun _ => nan) a.ncols
    (List.range a.nrows)).2

/-- `expanding_std_rs`, rust/src/generic.rs:2713-2728. -/
def expandingStdPy (A : Arith) (sqrt : F → F) (a : View2) (minp ddof : Nat) : Nat → Nat → F :=
  if a.standard then cells a.ncols (expandingStdC A sqrt a minp ddof)
  else byCol a fun col => expandingStd1 A sqrt col minp ddof

/-! ## Crossover -/

/-- One row of `crossed_above_1d`, rust/src/generic.rs:2059-2073; the state is (`was_below`, `crossed_ago`). -/
def crossTurn (a b : Nat → F) (wait : Nat) (s : Bool × Int) (i : Nat) : (Bool × Int) × Option Bool :=
  if (a i).isnan || (b i).isnan then ((false, -1), none)
  else if gt (a i) (b i) then
    if s.1 then ((s.1, s.2 + 1), some (decide (s.2 + 1 = wait))) else (s, none)
  else if eqb (a i) (b i) then ((s.1, -1), none)
  else ((true, -1), none)

/-- `crossed_above_1d`, rust/src/generic.rs:2055-2075. -/
def crossedAbove1 (a b : Nat → F) (wait len : Nat) : Nat → Bool :=
  (fillRows (crossTurn a b wait) (false, -1) (fun _ => false) (List.range len)).2

/-- One row of `crossed_above_rs`, rust/src/generic.rs:3129-3146, where the last two cases are exchanged. -/
def crossTurn2 (a b : Nat → F) (wait : Nat) (s : Bool × Int) (i : Nat) : (Bool × Int) × Option Bool :=
  if (a i).isnan || (b i).isnan then ((false, -1), none)
  else if gt (a i) (b i) then
    if s.1 then ((s.1, s.2 + 1), some (decide (s.2 + 1 = wait))) else (s, none)
  else if lt (a i) (b i) then ((true, -1), none)
  else ((s.1, -1), none)

/-- `crossed_above_rs`, rust/src/generic.rs:3113-3151. -/
def crossedAbovePy (a b : View2) (wait : Nat) : Nat → Nat → Bool :=
  (List.range a.ncols).foldl (fun out col => fun row c =>
    if c = col ∧ row < a.nrows then
      (fillRows (crossTurn2 (a.column col) (b.column col) wait) (false, -1) (fun r => out r col) (List.range a.nrows)).2 row
    else out row c) fun _ _ => false

end Vbt.RsGen
