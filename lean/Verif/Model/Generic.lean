import Verif.Model.Signals
import Verif.Model.Records
import Verif.Model.Recon

/-!
# Time series functions

`vectorbt/generic/nb.py` and the 1-dim part of `vectorbt/returns/nb.py`.  An array of length `n` is a function of the row
(and of the column for 2-dim arrays); rows from `n` on are never read nor written.  The 2-dim versions apply the 1-dim ones
column by column and are not repeated here.

Simplifications: all arrays are float arrays; row counts are integers also where the code keeps them in float arrays
(`nancnt_arr`, `nobs`); `window`, `span`, `minp` and shifts are natural numbers; `np.sqrt` is a parameter.
-/

namespace Vbt
open F

/-! ## Loops that write one row per turn -/

/-- The state of a loop `for i in range(n)` before turn `i`. -/
def scanState {σ β : Type} (step : σ → Nat → σ × β) (s0 : σ) (i : Nat) : σ :=
  (List.range i).foldl (fun s k => (step s k).1) s0

/-- A loop `for i in range(n)` that carries a state and writes one row of `out` per turn; `junk` is the uninitialised
`np.empty` array. -/
def scanRows {σ β : Type} (step : σ → Nat → σ × β) (s0 : σ) (junk : Nat → β) (n : Nat) : σ × (Nat → β) :=
  (List.range n).foldl (fun s i => ((step s.1 i).1, setAt s.2 i (step s.1 i).2)) (s0, junk)

/-- The same for a body that may raise. -/
def scanRowsE {σ β : Type} (step : σ → Nat → Except Err (σ × β)) (s0 : σ) (junk : Nat → β) (n : Nat) :
    Except Err (σ × (Nat → β)) :=
  loopE (fun s i =>
    match step s.1 i with
    | .error e => .error e
    | .ok r => .ok (r.1, setAt s.2 i r.2)) (s0, junk) (List.range n)

/-! ## Shifting and filling -/

/-- `fshift_1d_nb`, generic/nb.py:300-336. -/
def fshift {α : Type} (a : Nat → α) (n : Nat) (fill : α) (junk : Nat → α) (len : Nat) : Nat → α :=
  (scanRows (fun (_ : Unit) i => ((), if (i : Int) - n ≥ 0 then a (i - n) else fill)) () junk len).2

/-- `bshift_1d_nb`, generic/nb.py:224-260. -/
def bshift {α : Type} (a : Nat → α) (n : Nat) (fill : α) (junk : Nat → α) (len : Nat) : Nat → α :=
  (scanRows (fun (_ : Unit) i => ((), if (i : Int) + n ≤ len - 1 then a (i + n) else fill)) () junk len).2

/-- `diff_1d_nb`, generic/nb.py:374-381 (for `n ≥ 1`). -/
def diff (A : Arith) (a : Nat → F) (n : Nat) : Nat → F := fun i => if i < n then nan else sub A (a i) (a (i - n))

/-- `pct_change_1d_nb`, generic/nb.py:394-401 (for `n ≥ 1`). -/
def pctChange (A : Arith) (a : Nat → F) (n : Nat) : Nat → F := fun i =>
  if i < n then nan else sub A (div A (a i) (a (i - n))) one

/-- `ffill_1d_nb`, generic/nb.py:441-452; the state is `lastval`. -/
def ffill (a : Nat → F) (junk : Nat → F) (len : Nat) : Nat → F :=
  (scanRows (fun lastval i => if (a i).isnan then (lastval, lastval) else (a i, a i)) (a 0) junk len).2

/-- `bfill_1d_nb`, generic/nb.py:414-428; the loop runs backwards. -/
def bfill (a : Nat → F) (junk : Nat → F) (len : Nat) : Nat → F :=
  ((List.range len).reverse.foldl (fun (s : F × (Nat → F)) i =>
    if (a i).isnan then (s.1, setAt s.2 i s.1) else (a i, setAt s.2 i (a i))) (a (len - 1), junk)).2

/-! ## Rolling functions -/

/-- `minp = window` if it is `None`, and the check `minp <= window`, e.g. generic/nb.py:652-655. -/
def resolveMinp (window : Nat) (minp : Option Nat) (what : String) : Except Err Nat :=
  let m := minp.getD window
  if window < m then .error (.valueError s!"minp must be <= {what}") else .ok m

/-- The inner loop of `rolling_min_1d_nb`, generic/nb.py:658-665: (`minv`, `cnt`). -/
def minStep (a : Nat → F) (s : F × Nat) (j : Nat) : F × Nat :=
  if (a j).isnan then s else (if s.1.isnan || lt (a j) s.1 then a j else s.1, s.2 + 1)

/-- The inner loop of `rolling_max_1d_nb`, generic/nb.py:693-700. -/
def maxStep (a : Nat → F) (s : F × Nat) (j : Nat) : F × Nat :=
  if (a j).isnan then s else (if s.1.isnan || gt (a j) s.1 then a j else s.1, s.2 + 1)

/-- One row of `rolling_min_1d_nb` and `rolling_max_1d_nb`, generic/nb.py:657-669 and 692-704. -/
def rollRow (step : (Nat → F) → F × Nat → Nat → F × Nat) (a : Nat → F) (window minp i : Nat) : F :=
  let s := (List.range' (i + 1 - window) (i + 1 - (i + 1 - window))).foldl (step a) (a i, 0)
  if s.2 < minp then nan else s.1

/-- `rolling_min_1d_nb`, generic/nb.py:648-670. -/
def rollingMin (a : Nat → F) (window : Nat) (minp : Option Nat) (junk : Nat → F) (len : Nat) : Except Err (Nat → F) :=
  match resolveMinp window minp "window" with
  | .error e => .error e
  | .ok m => .ok (scanRows (fun (_ : Unit) i => ((), rollRow minStep a window m i)) () junk len).2

/-- `rolling_max_1d_nb`, generic/nb.py:683-705. -/
def rollingMax (a : Nat → F) (window : Nat) (minp : Option Nat) (junk : Nat → F) (len : Nat) : Except Err (Nat → F) :=
  match resolveMinp window minp "window" with
  | .error e => .error e
  | .ok m => .ok (scanRows (fun (_ : Unit) i => ((), rollRow maxStep a window m i)) () junk len).2

/-- The local variables of `rolling_mean_1d_nb`, generic/nb.py:727-730. -/
structure MeanState where
  cumsum : F
  nancnt : Nat
  cumsumArr : Nat → F
  nancntArr : Nat → Nat

/-- One row of `rolling_mean_1d_nb`, generic/nb.py:732-747. -/
def meanStep (A : Arith) (a : Nat → F) (window minp : Nat) (s : MeanState) (i : Nat) : Except Err (MeanState × F) :=
  let nancnt := if (a i).isnan then s.nancnt + 1 else s.nancnt
  let cumsum := if (a i).isnan then s.cumsum else add A s.cumsum (a i)
  let s' : MeanState := ⟨cumsum, nancnt, setAt s.cumsumArr i cumsum, setAt s.nancntArr i nancnt⟩
  let windowLen : Int :=
    if i < window then i + 1 - nancnt else window - (nancnt - s'.nancntArr (i - window))
  let windowCumsum := if i < window then cumsum else sub A cumsum (s'.cumsumArr (i - window))
  if windowLen < minp then .ok (s', nan)
  else
    match divE A windowCumsum (fin windowLen) with
    | .error e => .error e
    | .ok v => .ok (s', v)

/-- `rolling_mean_1d_nb`, generic/nb.py:718-748. -/
def rollingMean (A : Arith) (a : Nat → F) (window : Nat) (minp : Option Nat) (junk : Nat → F) (len : Nat) :
    Except Err (Nat → F) :=
  match resolveMinp window minp "window" with
  | .error e => .error e
  | .ok m =>
    match scanRowsE (meanStep A a window m) ⟨zero, 0, fun _ => zero, fun _ => 0⟩ junk len with
    | .error e => .error e
    | .ok s => .ok s.2

/-- `_INV_COND_TOL`, generic/nb.py:40. -/
def invCondTol : F := fin (1000 / 4503599627370496)

/-- The running variance of `_add_var_nb` and `_remove_var_nb`: `nobs`, `mean`, `m2`, `compensation`,
`numerically_unstable`. -/
structure VarState where
  nobs : Int
  mean : F
  m2 : F
  comp : F
  unstable : Bool

/-- `_add_var_nb`, generic/nb.py:761-782. -/
def addVar (A : Arith) (val : F) (s : VarState) : VarState :=
  if val.isnan then s
  else
    let nobs := s.nobs + 1
    let prevMean := sub A s.mean s.comp
    let y := sub A val s.comp
    let delta := sub A y s.mean
    let comp := sub A (add A delta s.mean) y
    let mean := add A s.mean (div A delta (fin nobs))
    let m2 := add A s.m2 (mul A (sub A val prevMean) (sub A val mean))
    ⟨nobs, mean, m2, comp, if gt (mul A s.m2 invCondTol) m2 then true else s.unstable⟩

/-- `_remove_var_nb`, generic/nb.py:786-812. -/
def removeVar (A : Arith) (val : F) (s : VarState) : VarState :=
  if val.isnan then s
  else
    let nobs := s.nobs - 1
    if nobs ≠ 0 then
      let prevMean := sub A s.mean s.comp
      let y := sub A val s.comp
      let delta := sub A y s.mean
      let comp := sub A (add A delta s.mean) y
      let mean := sub A s.mean (div A delta (fin nobs))
      let m2 := sub A s.m2 (mul A (sub A val prevMean) (sub A val mean))
      ⟨nobs, mean, m2, comp, if gt (mul A s.m2 invCondTol) m2 then true else s.unstable⟩
    else ⟨nobs, zero, zero, s.comp, false⟩

/-- The local variables of `rolling_std_1d_nb`: the running variance without compensation, and the two compensations. -/
structure StdState where
  nobs : Int
  mean : F
  m2 : F
  compAdd : F
  compRemove : F
  unstable : Bool

/-- A call of `_add_var_nb` in `rolling_std_1d_nb`. -/
def StdState.add (A : Arith) (val : F) (s : StdState) : StdState :=
  let v := addVar A val ⟨s.nobs, s.mean, s.m2, s.compAdd, s.unstable⟩
  ⟨v.nobs, v.mean, v.m2, v.comp, s.compRemove, v.unstable⟩

/-- A call of `_remove_var_nb` in `rolling_std_1d_nb`. -/
def StdState.remove (A : Arith) (val : F) (s : StdState) : StdState :=
  let v := removeVar A val ⟨s.nobs, s.mean, s.m2, s.compRemove, s.unstable⟩
  ⟨v.nobs, v.mean, v.m2, s.compAdd, v.comp, v.unstable⟩

/-- One row of `rolling_std_1d_nb`, generic/nb.py:834-860; `numerically_unstable` keeps its value in the recomputation until
the end. -/
def stdStep (A : Arith) (sqrt : F → F) (a : Nat → F) (window minp ddof : Nat) (s : StdState) (i : Nat) : StdState × F :=
  let recompute := decide (i = 0) || decide (window = 0)
  let s1 : StdState :=
    if !recompute then ((if window ≤ i then s.remove A (a (i - window)) else s).add A (a i)) else s
  let s2 : StdState :=
    if recompute || s1.unstable then
      { (List.range' (i + 1 - window) (i + 1 - (i + 1 - window))).foldl (fun s j => s.add A (a j))
          (⟨0, zero, zero, zero, zero, s1.unstable⟩ : StdState) with unstable := false }
    else s1
  (s2, if s2.nobs ≥ minp ∧ s2.nobs > ddof then sqrt (div A s2.m2 (fin (s2.nobs - ddof))) else nan)

/-- `rolling_std_1d_nb`, generic/nb.py:816-861. -/
def rollingStd (A : Arith) (sqrt : F → F) (a : Nat → F) (window : Nat) (minp : Option Nat) (ddof : Nat) (junk : Nat → F)
    (len : Nat) : Except Err (Nat → F) :=
  match resolveMinp window minp "window" with
  | .error e => .error e
  | .ok m => .ok (scanRows (stdStep A sqrt a window (max m 1) ddof) ⟨0, zero, zero, zero, zero, false⟩ junk len).2

/-- The weights of the ewm functions, generic/nb.py:886-889: (`old_wt_factor`, `new_wt`). -/
def ewmWeights (A : Arith) (span : Nat) (adjust : Bool) : Except Err (F × F) :=
  let com := div A (fin (span - 1)) (fin 2)
  match divE A one (add A one com) with
  | .error e => .error e
  | .ok alpha => .ok (sub A one alpha, if adjust then one else alpha)

/-- The local variables of `ewm_mean_1d_nb`. -/
structure EwmState where
  avg : F
  oldWt : F
  nobs : Nat

/-- One row after the first of `ewm_mean_1d_nb`, generic/nb.py:896-911; `x == x` is false exactly for NaN. -/
def ewmStep (A : Arith) (a : Nat → F) (minp : Nat) (factor newWt : F) (adjust : Bool) (s : EwmState) (i : Nat) :
    Except Err (EwmState × F) :=
  let cur := a i
  let isObs := eqb cur cur
  let nobs := if isObs then s.nobs + 1 else s.nobs
  let next : Except Err EwmState :=
    if eqb s.avg s.avg then
      let oldWt := mul A s.oldWt factor
      if isObs then
        let avg : Except Err F :=
          if !eqb s.avg cur then divE A (add A (mul A oldWt s.avg) (mul A newWt cur)) (add A oldWt newWt) else .ok s.avg
        match avg with
        | .error e => .error e
        | .ok v => .ok ⟨v, if adjust then add A oldWt newWt else one, nobs⟩
      else .ok ⟨s.avg, oldWt, nobs⟩
    else if isObs then .ok ⟨cur, s.oldWt, nobs⟩
    else .ok ⟨s.avg, s.oldWt, nobs⟩
  match next with
  | .error e => .error e
  | .ok s' => .ok (s', if s'.nobs ≥ minp then s'.avg else nan)

/-- `ewm_mean_1d_nb`, generic/nb.py:873-912; the first row (890-894) is the case `i = 0` of the loop. -/
def ewmMean (A : Arith) (a : Nat → F) (span : Nat) (minp : Option Nat) (adjust : Bool) (junk : Nat → F) (len : Nat) :
    Except Err (Nat → F) :=
  match resolveMinp span minp "span" with
  | .error e => .error e
  | .ok m =>
    if len = 0 then .ok junk
    else
      match ewmWeights A span adjust with
      | .error e => .error e
      | .ok w =>
        match scanRowsE (fun s i =>
          if i = 0 then
            let nobs := if eqb (a 0) (a 0) then 1 else 0
            .ok (⟨a 0, one, nobs⟩, if nobs ≥ m then a 0 else nan)
          else ewmStep A a m w.1 w.2 adjust s i) ⟨nan, one, 0⟩ junk len with
        | .error e => .error e
        | .ok s => .ok s.2

/-- The local variables of `ewm_std_1d_nb`. -/
structure EwmStdState where
  meanX : F
  meanY : F
  cov : F
  sumWt : F
  sumWt2 : F
  oldWt : F
  nobs : Nat

/-- `mean = ((old_wt * old_mean) + (new_wt * cur)) / (old_wt + new_wt)` unless the value is unchanged,
generic/nb.py:971-977. -/
def ewmMeanStep (A : Arith) (oldWt newWt mean cur : F) : Except Err F :=
  if !eqb mean cur then divE A (add A (mul A oldWt mean) (mul A newWt cur)) (add A oldWt newWt) else .ok mean

/-- An observation after the first one in `ewm_std_1d_nb`, generic/nb.py:967-988; the weights are already decayed. -/
def ewmStdObs (A : Arith) (cur newWt : F) (adjust : Bool) (s : EwmStdState) : Except Err EwmStdState :=
  match ewmMeanStep A s.oldWt newWt s.meanX cur with
  | .error e => .error e
  | .ok meanX =>
    match ewmMeanStep A s.oldWt newWt s.meanY cur with
    | .error e => .error e
    | .ok meanY =>
      match divE A (add A
          (mul A s.oldWt (add A s.cov (mul A (sub A s.meanX meanX) (sub A s.meanY meanY))))
          (mul A newWt (mul A (sub A cur meanX) (sub A cur meanY)))) (add A s.oldWt newWt) with
      | .error e => .error e
      | .ok cov =>
        let sumWt := add A s.sumWt newWt
        let sumWt2 := add A s.sumWt2 (mul A newWt newWt)
        let oldWt := add A s.oldWt newWt
        if !adjust then
          match divE A sumWt oldWt with
          | .error e => .error e
          | .ok sumWt' =>
            match divE A sumWt2 (mul A oldWt oldWt) with
            | .error e => .error e
            | .ok sumWt2' => .ok ⟨meanX, meanY, cov, sumWt', sumWt2', one, s.nobs⟩
        else .ok ⟨meanX, meanY, cov, sumWt, sumWt2, oldWt, s.nobs⟩

/-- One row after the first of `ewm_std_1d_nb`, generic/nb.py:958-1001; the square root of the result (1002) included. -/
def ewmStdStep (A : Arith) (sqrt : F → F) (a : Nat → F) (minp : Nat) (factor newWt : F) (adjust : Bool) (s : EwmStdState)
    (i : Nat) : Except Err (EwmStdState × F) :=
  let cur := a i
  let isObs := eqb cur cur && eqb cur cur
  let nobs := if isObs then s.nobs + 1 else s.nobs
  let next : Except Err EwmStdState :=
    if eqb s.meanX s.meanX then
      let s1 : EwmStdState := { s with sumWt := mul A s.sumWt factor, sumWt2 := mul A s.sumWt2 (mul A factor factor),
                                       oldWt := mul A s.oldWt factor, nobs := nobs }
      if isObs then ewmStdObs A cur newWt adjust s1 else .ok s1
    else if isObs then .ok { s with meanX := cur, meanY := cur, nobs := nobs }
    else .ok { s with nobs := nobs }
  match next with
  | .error e => .error e
  | .ok s' =>
    if s'.nobs ≥ minp then
      let numerator := mul A s'.sumWt s'.sumWt
      let denominator := sub A numerator s'.sumWt2
      if gt denominator zero then .ok (s', sqrt (mul A (div A numerator denominator) s'.cov)) else .ok (s', sqrt nan)
    else .ok (s', sqrt nan)

/-- `ewm_std_1d_nb`, generic/nb.py:927-1002 (`ddof` is not used); the first row (945-956) is the case `i = 0` of the
loop. -/
def ewmStd (A : Arith) (sqrt : F → F) (a : Nat → F) (span : Nat) (minp : Option Nat) (adjust : Bool) (junk : Nat → F)
    (len : Nat) : Except Err (Nat → F) :=
  match resolveMinp span minp "span" with
  | .error e => .error e
  | .ok m =>
    if len = 0 then .ok junk
    else
      match ewmWeights A span adjust with
      | .error e => .error e
      | .ok w =>
        match scanRowsE (fun s i =>
          if i = 0 then
            .ok (⟨a 0, a 0, zero, one, one, one, if eqb (a 0) (a 0) then 1 else 0⟩, sqrt nan)
          else ewmStdStep A sqrt a m w.1 w.2 adjust s i) ⟨nan, nan, zero, one, one, one, 0⟩ junk len with
        | .error e => .error e
        | .ok s => .ok s.2

/-! ## Expanding functions -/

/-- One row of `expanding_min_1d_nb`, generic/nb.py:1026-1033. -/
def expandMinStep (a : Nat → F) (minp : Nat) (s : F × Nat) (i : Nat) : (F × Nat) × F :=
  let minv := if s.1.isnan || lt (a i) s.1 then a i else s.1
  let cnt := if !(a i).isnan then s.2 + 1 else s.2
  ((minv, cnt), if cnt < minp then nan else minv)

/-- `expanding_min_1d_nb`, generic/nb.py:1018-1034. -/
def expandingMin (a : Nat → F) (minp : Nat) (junk : Nat → F) (len : Nat) : Nat → F :=
  (scanRows (expandMinStep a minp) (a 0, 0) junk len).2

/-- One row of `expanding_max_1d_nb`, generic/nb.py:1055-1062. -/
def expandMaxStep (a : Nat → F) (minp : Nat) (s : F × Nat) (i : Nat) : (F × Nat) × F :=
  let maxv := if s.1.isnan || gt (a i) s.1 then a i else s.1
  let cnt := if !(a i).isnan then s.2 + 1 else s.2
  ((maxv, cnt), if cnt < minp then nan else maxv)

/-- `expanding_max_1d_nb`, generic/nb.py:1047-1063. -/
def expandingMax (a : Nat → F) (minp : Nat) (junk : Nat → F) (len : Nat) : Nat → F :=
  (scanRows (expandMaxStep a minp) (a 0, 0) junk len).2

/-- `expanding_mean_1d_nb`, generic/nb.py:1076-1080. -/
def expandingMean (A : Arith) (a : Nat → F) (minp : Nat) (junk : Nat → F) (len : Nat) : Except Err (Nat → F) :=
  rollingMean A a len (some minp) junk len

/-- `expanding_std_1d_nb`, generic/nb.py:1090-1094. -/
def expandingStd (A : Arith) (sqrt : F → F) (a : Nat → F) (minp ddof : Nat) (junk : Nat → F) (len : Nat) :
    Except Err (Nat → F) :=
  rollingStd A sqrt a len (some minp) ddof junk len

/-! ## Applying a function to windows -/

/-- One row of `rolling_apply_nb`, generic/nb.py:1152-1164, one column; the state is (`nancnt`, `nancnt_arr`). -/
def applyStep (a : Nat → F) (window minp : Nat) (f : Nat → List F → F) (s : Nat × (Nat → Nat)) (i : Nat) :
    (Nat × (Nat → Nat)) × F :=
  let nancnt := if (a i).isnan then s.1 + 1 else s.1
  let arr := setAt s.2 i nancnt
  let validCnt : Int := if i < window then i + 1 - nancnt else window - (nancnt - arr (i - window))
  ((nancnt, arr), if validCnt < minp then nan else f i (slice a (i + 1 - window) (i + 1 - (i + 1 - window))))

/-- `rolling_apply_nb`, generic/nb.py:1135-1165, one column.  `nancnt_arr` is reused for the next column without
initialisation, so it starts with arbitrary values. -/
def rollingApply (a : Nat → F) (window : Nat) (minp : Option Nat) (f : Nat → List F → F) (junkCnt : Nat → Nat)
    (junk : Nat → F) (len : Nat) : Nat → F :=
  (scanRows (applyStep a window (minp.getD window) f) (0, junkCnt) junk len).2

/-- `expanding_apply_nb`, generic/nb.py:1203-1205, one column. -/
def expandingApply (a : Nat → F) (minp : Option Nat) (f : Nat → List F → F) (junkCnt : Nat → Nat) (junk : Nat → F)
    (len : Nat) : Nat → F :=
  rollingApply a len minp f junkCnt junk len

/-! ## Ranges -/

/-- The gap test of `find_ranges_nb`, generic/nb.py:1689. -/
def isGap (gap x : F) : Bool := eqb x gap || x.isnan && gap.isnan

/-- The local variables of `find_ranges_nb` for one column. -/
structure FindState where
  started : Bool
  start : Int
  stop : Int
  store : Bool
  status : Int
  out : List (Nat × Nat × Int)

/-- One row of `find_ranges_nb`, generic/nb.py:1687-1721. -/
def findStep (n : Nat) (ts : Nat → F) (gap : F) (s : FindState) (i : Nat) : FindState :=
  let s1 : FindState :=
    if isGap gap (ts i) then
      if s.started then { s with stop := i, started := false, store := true, status := RangeStatus.Closed } else s
    else if !s.started then { s with start := i, started := true } else s
  let s2 : FindState :=
    if i = n - 1 ∧ s1.started = true then
      { s1 with stop := (n : Int) - 1, started := false, store := true, status := RangeStatus.Open }
    else s1
  if s2.store then { s2 with out := s2.out ++ [(s2.start.toNat, s2.stop.toNat, s2.status)], store := false } else s2

/-- One column of `find_ranges_nb`, generic/nb.py:1680-1721. -/
def findCol (n : Nat) (ts : Nat → F) (gap : F) : List (Nat × Nat × Int) :=
  ((List.range n).foldl (findStep n ts gap) ⟨false, -1, -1, false, -1, []⟩).out

/-- `find_ranges_nb`, generic/nb.py:1650-1723. -/
def findRanges (n cols : Nat) (ts : Nat → Nat → F) (gap : F) : List RangeRec :=
  rangesOf cols fun c => findCol n (fun i => ts i c) gap

/-- `range_duration_nb`, generic/nb.py:1730-1738. -/
def rangeDuration (r : RangeRec) : Int :=
  if r.status = RangeStatus.Open then (r.stop : Int) - r.start + 1 else (r.stop : Int) - r.start

/-- The end of the slice of rows of a range record, generic/nb.py:1768-1771 and 1806-1809. -/
def rangeSliceEnd (r : RangeRec) : Nat := if r.status = RangeStatus.Open then r.stop + 1 else r.stop

/-- The array `temp` of `range_coverage_nb`, generic/nb.py:1766-1771. -/
def coverageCounts (rs : List RangeRec) : Nat → Nat :=
  rs.foldl (fun t r => fun i => if r.start ≤ i ∧ i < rangeSliceEnd r then t i + 1 else t i) fun _ => 0

/-- `range_coverage_nb`, generic/nb.py:1742-1783; the divisions are scalar ones. -/
def rangeCoverage (A : Arith) (records : List RangeRec) (m : ColMap) (nCols : Nat) (indexLens : Nat → Nat)
    (overlapping normalize : Bool) : Except Err (List F) :=
  (List.range nCols).foldl (fun out col =>
    match out with
    | .error e => .error e
    | .ok l =>
      if m.lens col = 0 then .ok (l ++ [nan])
      else
        let temp := coverageCounts (takeIdxs records (m.col col))
        let over : ℚ := ((List.range (indexLens col)).countP fun i => decide (1 < temp i) : Nat)
        let any : ℚ := ((List.range (indexLens col)).countP fun i => decide (0 < temp i) : Nat)
        let v : Except Err F :=
          if overlapping then (if normalize then divE A (fin over) (fin any) else .ok (fin over))
          else (if normalize then divE A (fin any) (fin (indexLens col : ℚ)) else .ok (fin any))
        match v with
        | .error e => .error e
        | .ok x => .ok (l ++ [x])) (.ok [])

/-- `ranges_to_mask_nb`, generic/nb.py:1787-1811. -/
def rangesToMask (records : List RangeRec) (m : ColMap) (nCols : Nat) : Nat → Nat → Bool :=
  (List.range nCols).foldl (fun out col =>
    if m.lens col = 0 then out
    else (takeIdxs records (m.col col)).foldl (fun out r => fun i c =>
      if c = col ∧ r.start ≤ i ∧ i < rangeSliceEnd r then true else out i c) out) fun _ _ => false

/-! ## Drawdowns -/

/-- `DrawdownStatus`, generic/enums.py. -/
def DrawdownStatus.Active : Int := 0
def DrawdownStatus.Recovered : Int := 1

/-- A record of `get_drawdowns_nb` without id and column (`drawdown_dt`, generic/enums.py). -/
structure Drawdown where
  peakIdx : Int
  startIdx : Int
  valleyIdx : Int
  endIdx : Int
  peakVal : F
  valleyVal : F
  endVal : F
  status : Int
deriving DecidableEq

/-- The local variables of `get_drawdowns_nb` for one column. -/
structure DdState where
  started : Bool
  peakIdx : Int
  valleyIdx : Int
  peakVal : F
  valleyVal : F
  store : Bool
  status : Int
  out : List Drawdown

/-- One row of `get_drawdowns_nb`, generic/nb.py:1860-1915. -/
def ddStep (n : Nat) (ts : Nat → F) (s : DdState) (i : Nat) : DdState :=
  let cur := ts i
  if cur.isnan then s
  else
    let s1 : DdState :=
      if s.peakVal.isnan || ge cur s.peakVal then
        if !s.started then { s with peakVal := cur, peakIdx := i }
        else if ge cur s.peakVal then { s with started := false, store := true, status := DrawdownStatus.Recovered }
        else s
      else if !s.started then { s with started := true, valleyVal := cur, valleyIdx := i }
      else if lt cur s.valleyVal then { s with valleyVal := cur, valleyIdx := i }
      else s
    let s2 : DdState :=
      if i = n - 1 ∧ s1.started = true then { s1 with started := false, store := true, status := DrawdownStatus.Active }
      else s1
    if s2.store then
      { s2 with
        out := s2.out ++ [⟨s2.peakIdx, s2.peakIdx + 1, s2.valleyIdx, i, s2.peakVal, s2.valleyVal, cur, s2.status⟩]
        peakIdx := i, valleyIdx := i, peakVal := cur, valleyVal := cur, store := false, status := -1 }
    else s2

/-- One column of `get_drawdowns_nb`, generic/nb.py:1850-1915. -/
def drawdownsCol (n : Nat) (ts : Nat → F) : List Drawdown :=
  ((List.range n).foldl (ddStep n ts) ⟨false, -1, -1, ts 0, ts 0, false, -1, []⟩).out

/-- A record with its id and column. -/
structure DrawdownRec where
  id : Nat
  col : Nat
  dd : Drawdown

/-- `get_drawdowns_nb`, generic/nb.py:1818-1917. -/
def getDrawdowns (n cols : Nat) (ts : Nat → Nat → F) : List DrawdownRec :=
  (List.range cols).foldl (fun out c =>
    (drawdownsCol n fun i => ts i c).foldl (fun out d => out ++ [⟨out.length, c, d⟩]) out) []

/-- `dd_drawdown_nb`, generic/nb.py:1921-1923. -/
def ddDrawdown (A : Arith) (d : Drawdown) : F := div A (sub A d.valleyVal d.peakVal) d.peakVal

/-- `dd_decline_duration_nb`, generic/nb.py:1927-1929. -/
def ddDeclineDuration (d : Drawdown) : Int := d.valleyIdx - d.startIdx + 1

/-- `dd_recovery_duration_nb`, generic/nb.py:1933-1935. -/
def ddRecoveryDuration (d : Drawdown) : Int := d.endIdx - d.valleyIdx

/-! ## Crossover -/

/-- One row of `crossed_above_1d_nb`, generic/nb.py:1967-1984; the state is (`was_below`, `crossed_ago`). -/
def crossStep (a b : Nat → F) (wait : Int) (s : Bool × Int) (i : Nat) : (Bool × Int) × Bool :=
  if (a i).isnan || (b i).isnan then ((false, -1), false)
  else if gt (a i) (b i) then
    if s.1 then ((s.1, s.2 + 1), decide (s.2 + 1 = wait)) else (s, false)
  else if eqb (a i) (b i) then ((s.1, -1), false)
  else ((true, -1), false)

/-- `crossed_above_1d_nb`, generic/nb.py:1960-1985. -/
def crossedAbove (a b : Nat → F) (wait : Int) (junk : Nat → Bool) (len : Nat) : Nat → Bool :=
  (scanRows (crossStep a b wait) (false, -1) junk len).2

/-! ## Returns -/

/-- One row of `returns_1d_nb`, returns/nb.py:53-56; the state is `input_value`. -/
def returnsStep (A : Arith) (value : Nat → F) (input : F) (i : Nat) : Except Err (F × F) :=
  match getReturn A input (value i) with
  | .error e => .error e
  | .ok r => .ok (value i, r)

/-- `returns_1d_nb`, returns/nb.py:49-57. -/
def returns (A : Arith) (value : Nat → F) (init : F) (junk : Nat → F) (len : Nat) : Except Err (Nat → F) :=
  match scanRowsE (returnsStep A value) init junk len with
  | .error e => .error e
  | .ok s => .ok s.2

/-- The array `out` of `cum_returns_1d_nb` before the last step, returns/nb.py:78-83; the state is `cumprod`. -/
def cumProds (A : Arith) (rets : Nat → F) (junk : Nat → F) (len : Nat) : Nat → F :=
  (scanRows (fun c i =>
    let c' := if !(rets i).isnan then mul A c (add A (rets i) one) else c
    (c', c')) one junk len).2

/-- `cum_returns_1d_nb`, returns/nb.py:76-86. -/
def cumReturns (A : Arith) (rets : Nat → F) (start : F) (junk : Nat → F) (len : Nat) : Nat → F :=
  let out := cumProds A rets junk len
  if eqb start zero then fun i => sub A (out i) one else fun i => mul A (out i) start

/-- `np.nanprod`. -/
def nanprod (A : Arith) (l : List F) : F := l.foldl (fun c v => if v.isnan then c else mul A c v) one

/-- `cum_returns_final_1d_nb`, returns/nb.py:99-104. -/
def cumReturnsFinal (A : Arith) (rets : Nat → F) (start : F) (len : Nat) : F :=
  let out := nanprod A ((List.range len).map fun i => add A (rets i) one)
  if eqb start zero then sub A out one else mul A out start

/-- `drawdown_1d_nb`, returns/nb.py:212-216 (numpy division). -/
def drawdown (A : Arith) (rets : Nat → F) (junk junk' : Nat → F) (len : Nat) : Nat → F :=
  let cum := cumReturns A rets (fin 100) junk len
  let mx := expandingMax cum 1 junk' len
  fun i => sub A (div A (cum i) (mx i)) one

/-- `np.min` of a non-empty array as compiled by numba: NaN if there is one. -/
def npMin (l : List F) : Except Err F :=
  match l with
  | [] => .error (.valueError "zero-size array to reduction operation not possible")
  | x :: xs => .ok (xs.foldl (fun m v => if m.isnan then m else if v.isnan then v else if lt v m then v else m) x)

/-- `max_drawdown_1d_nb`, returns/nb.py:229-231. -/
def maxDrawdown (A : Arith) (rets : Nat → F) (junk junk' : Nat → F) (len : Nat) : Except Err F :=
  npMin ((List.range len).map (drawdown A rets junk junk' len))

end Vbt
