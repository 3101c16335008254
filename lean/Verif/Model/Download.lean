import Mathlib.Algebra.Order.Ring.Int
import Verif.Model.Float

/-!
# Downloads page by page: `BinanceData.download_symbol` and `CCXTData.download_symbol`, `vectorbt/data/custom.py`

Times are milliseconds.  A candle is its opening time and whatever else it holds.  What the exchange answers is an argument; it
may depend on the number of the call.
-/

namespace Vbt

/-- The loop of `BinanceData.download_symbol`, data/custom.py:483-509, and of `CCXTData.download_symbol`, data/custom.py:714-734,
which have the same text but for the call: `srv i since` is the answer to call `i`.  `none`: not finished within `fuel`
calls. -/
def fetchLoop {α : Type} (srv : Nat → Int → Except Err (List (Int × α))) (endTs : Int) :
    Nat → Nat → Int → List (Int × α) → Option (Except Err (List (Int × α)))
  | 0, _, _, _ => none
  | fuel + 1, i, next, data =>
    match srv i next with
    | .error e => some (.error e)
    | .ok page =>
      let page' :=
        if data.length > 0 then page.filter (fun d => decide (next < d.1) && decide (d.1 < endTs))
        else page.filter (fun d => decide (d.1 < endTs))
      match page'.getLast? with
      | none => some (.ok data)
      | some k => fetchLoop srv endTs fuel (i + 1) k.1 (data ++ page')

/-- The start of a download, data/custom.py:471-477 and 702-708: not before the first candle of the exchange; any error, also that
there is none, leaves the start as it is. -/
def firstStart {α : Type} (first : Except Err (List (Int × α))) (start : Int) : Int :=
  match first with
  | .ok (k :: _) => max start k.1
  | _ => start

/-- `download_symbol` up to the conversion into a frame. -/
def downloadPages {α : Type} (first : Except Err (List (Int × α))) (srv : Nat → Int → Except Err (List (Int × α)))
    (start endTs : Int) (fuel : Nat) : Option (Except Err (List (Int × α))) :=
  fetchLoop srv endTs fuel 0 (firstStart first start) []

/-- What a call of the exchange ends with: a value, an error that is worth another try (`NetworkError`, `ExchangeError`) or
another one. -/
inductive CallEnd (β : Type) where
  | value (v : β)
  | again (e : Err)
  | fatal (e : Err)

/-- The loop of `_retry`, data/custom.py:683-695, from try `i` on with `left` tries left; `none` is Python's `None`, returned after
the loop. -/
def retryFrom {β : Type} (tries : Nat → CallEnd β) (i : Nat) : (left : Nat) → Except Err (Option β)
  | 0 => .ok none
  | left + 1 =>
    match tries i with
    | .value v => .ok (some v)
    | .fatal e => .error e
    | .again e => if left = 0 then .error e else retryFrom tries (i + 1) left

end Vbt
