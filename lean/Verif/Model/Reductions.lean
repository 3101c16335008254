import Verif.Model.Apply
import Verif.Model.Ratios
import Verif.Model.Portfolio
import Verif.Model.Indicators

/-!
# Masks, medians, summaries and drawdown arrays of the Numba engine

`generic/nb.py`.  What `np.median` selects is the element of the sorted array; how it is selected is not modelled.  The sign of
zero is not modelled.
-/

namespace Vbt
open F

/-! ## Masks -/

/-- `set_by_mask_1d_nb`, generic/nb.py:86-112: `out[mask] = value` visits the rows in order. -/
def setByMask1 (a : Nat → F) (mask : Nat → Bool) (value : F) (len : Nat) : Nat → F :=
  (List.range len).foldl (fun out i => if mask i then setAt out i value else out) a

/-- `set_by_mask_nb`, generic/nb.py:115-143. -/
def setByMask (a : Nat → Nat → F) (mask : Nat → Nat → Bool) (value : F) (rows cols : Nat) : Nat → Nat → F :=
  (List.range cols).foldl (fun out col =>
    (List.range rows).foldl (fun out i => if mask i col then writeCell i col value out else out) out) a

/-- `set_by_mask_mult_1d_nb`, generic/nb.py:146-174. -/
def setByMaskMult1 (a : Nat → F) (mask : Nat → Bool) (values : Nat → F) (len : Nat) : Nat → F :=
  (List.range len).foldl (fun out i => if mask i then setAt out i (values i) else out) a

/-- `set_by_mask_mult_nb`, generic/nb.py:177-204. -/
def setByMaskMult (a : Nat → Nat → F) (mask : Nat → Nat → Bool) (values : Nat → Nat → F) (rows cols : Nat) : Nat → Nat → F :=
  (List.range cols).foldl (fun out col =>
    (List.range rows).foldl (fun out i => if mask i col then writeCell i col (values i col) out else out) out) a

/-- `fillna_1d_nb`, generic/nb.py:207-212. -/
def fillna1 (a : Nat → F) (value : F) (len : Nat) : Nat → F := setByMask1 a (fun i => (a i).isnan) value len

/-- `fillna_nb`, generic/nb.py:215-218. -/
def fillna (a : Nat → Nat → F) (value : F) (rows cols : Nat) : Nat → Nat → F :=
  setByMask a (fun i c => (a i c).isnan) value rows cols

/-! ## Statistics -/

/-- `np.nancumprod` of a column, generic/nb.py:517-541. -/
def nancumprod (A : Arith) (a : Nat → F) (junk : Nat → F) (len : Nat) : Nat → F :=
  (scanRows (fun c i => let c' := if (a i).isnan then c else mul A c (a i); (c', c')) one junk len).2

/-- `np.nanmedian`, e.g. `median_reduce_nb`, generic/nb.py:1537-1539, and a column of `nanmedian_nb`, 615-622. -/
def nanmedian (A : Arith) (a : List F) : F :=
  let vals := a.filter fun x => !x.isnan
  let sorted := vals.insertionSort fun x y => sortLe x y = true
  let half := vals.length / 2
  if vals.length = 0 then nan
  else if vals.length % 2 = 0 then div A (add A (sorted.getD (half - 1) nan) (sorted.getD half nan)) (fin 2)
  else sorted.getD half nan

/-- `describe_reduce_nb`, generic/nb.py:1583-1599: count, mean, standard deviation, least, percentiles and greatest value. -/
def describe (A : Arith) (sqrt : F → F) (a : List F) (perc : List ℚ) (ddof : Nat) : Except Err (List F) :=
  let vals := a.filter fun x => !x.isnan
  if 0 < vals.length then
    match npMin vals with
    | .error e => .error e
    | .ok least => match mapE (percentile A vals) perc with
      | .error e => .error e
      | .ok ps => match npMax vals with
        | .error e => .error e
        | .ok greatest => .ok (fin vals.length :: div A (vals.foldl (add A) zero) (fin vals.length) ::
            nanstd A sqrt vals ddof :: least :: (ps ++ [greatest]))
  else .ok (fin 0 :: List.replicate (4 + perc.length) nan)

/-! ## Value counts -/

/-- A position of an axis of length `n`; negative positions count from the end.  Numba does not check the bounds. -/
def wrapPos (n : Nat) (k : Int) : Nat := if k < 0 then (n + k).toNat else k.toNat

/-- `value_counts_nb`, generic/nb.py:1605-1616, of signed codes: `out[code, group]`. -/
def valueCountsInt (codes : Nat → Nat → Int) (nUniques : Nat) (lens : List Nat) (rows : Nat) : Nat → Nat → Nat :=
  valueCounts (fun i c => wrapPos nUniques (codes i c)) lens rows

/-! ## Drawdown arrays -/

/-- The values of an operation on two 1-dim arrays, one of which may have a single element. -/
def npZip {α β γ : Type} (f : α → β → γ) (xs : List α) (ys : List β) : Except Err (List γ) :=
  if xs.length = ys.length then .ok (List.zipWith f xs ys)
  else match xs, ys with
    | [x], _ => .ok (ys.map (f x))
    | _, [y] => .ok (xs.map fun x => f x y)
    | _, _ => .error (.valueError "unable to broadcast argument 1 to output array")

/-- `dd_drawdown_nb`, generic/nb.py:1921-1923. -/
def ddDrawdowns (A : Arith) (peak valley : List F) : Except Err (List F) :=
  match npZip (sub A) valley peak with
  | .error e => .error e
  | .ok d => npZip (div A) d peak

/-- `dd_decline_duration_nb`, generic/nb.py:1927-1929. -/
def ddDeclines (start valley : List Int) : Except Err (List Int) :=
  match npZip (· - ·) valley start with
  | .error e => .error e
  | .ok d => .ok (d.map (· + 1))

/-- `dd_recovery_duration_nb`, generic/nb.py:1933-1935. -/
def ddRecoveries (valley stop : List Int) : Except Err (List Int) := npZip (· - ·) stop valley

/-- `dd_recovery_duration_ratio_nb`, generic/nb.py:1939-1947. -/
def ddRecoveryRatios (A : Arith) (start valley stop : List Int) : Except Err (List F) :=
  match ddRecoveries valley stop with
  | .error e => .error e
  | .ok r => match ddDeclines start valley with
    | .error e => .error e
    | .ok d => npZip (fun x y : Int => div A (fin x) (fin y)) r d

/-- `dd_recovery_return_nb`, generic/nb.py:1951-1953. -/
def ddRecoveryReturns (A : Arith) (valley stop : List F) : Except Err (List F) :=
  match npZip (sub A) stop valley with
  | .error e => .error e
  | .ok d => npZip (div A) d valley

end Vbt
