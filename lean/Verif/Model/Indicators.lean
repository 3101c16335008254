import Verif.Model.Generic

/-!
# Indicators: `vectorbt/indicators/nb.py`

One column at a time.  `sqrt` is a parameter as in the standard deviations.  The dictionaries filled by the `*_cache_nb`
functions are lists of key and value; the hash function of the keys is a parameter.
-/

namespace Vbt
open F

/-- `ma_nb`, indicators/nb.py:24-28. -/
def maNb (A : Arith) (a : Nat → F) (window : Nat) (ewm adjust : Bool) (junk : Nat → F) (len : Nat) : Except Err (Nat → F) :=
  if ewm then ewmMean A a window (some window) adjust junk len else rollingMean A a window (some window) junk len

/-- `mstd_nb`, indicators/nb.py:32-36. -/
def mstdNb (A : Arith) (sqrt : F → F) (a : Nat → F) (window : Nat) (ewm adjust : Bool) (ddof : Nat) (junk : Nat → F)
    (len : Nat) : Except Err (Nat → F) :=
  if ewm then ewmStd A sqrt a window (some window) adjust junk len
  else rollingStd A sqrt a window (some window) ddof junk len

/-- One turn of the caching loops, e.g. indicators/nb.py:48-51. -/
def cacheStep {K H V : Type} [DecidableEq H] (hash : K → H) (compute : K → Except Err V) (d : List (H × V)) (k : K) :
    Except Err (List (H × V)) :=
  if hash k ∈ d.map Prod.fst then .ok d
  else
    match compute k with
    | .error e => .error e
    | .ok v => .ok (d ++ [(hash k, v)])

/-- The caching loops of `ma_cache_nb` (indicators/nb.py:47-52), `mstd_cache_nb` (77-82), `rsi_cache_nb` (147-155),
`stoch_cache_nb` (184-191) and `atr_cache_nb` (279-285). -/
def cacheLoop {K H V : Type} [DecidableEq H] (hash : K → H) (compute : K → Except Err V) (params : List K) :
    Except Err (List (H × V)) :=
  loopE (cacheStep hash compute) [] params

/-- `cache_dict[h]`, e.g. indicators/nb.py:64-65. -/
def cacheGet {K H V : Type} [DecidableEq H] (hash : K → H) (d : List (H × V)) (k : K) : Except Err V :=
  match d.find? fun p => p.1 = hash k with
  | none => .error (.keyError "")
  | some p => .ok p.2

/-- The parameters that `macd_cache_nb` passes to `ma_cache_nb`, indicators/nb.py:224-228: fast and slow windows with the
`macd_ewms` of their position. -/
def macdParams (fast slow : List Nat) (ewms : List Bool) : List (Nat × Bool) := (fast ++ slow).zip (ewms ++ ewms)

/-- `bb_apply_nb`, indicators/nb.py:126-131: middle, upper and lower band. -/
def bbApply (A : Arith) (ma mstd : Nat → F) (alpha : F) (i : Nat) : F × F × F :=
  (ma i, add A (ma i) (mul A alpha (mstd i)), sub A (ma i) (mul A alpha (mstd i)))

/-- `up` in `rsi_cache_nb`, indicators/nb.py:142-144. -/
def rsiUp (A : Arith) (close : Nat → F) (i : Nat) : F := if lt (diff A close 1 i) zero then zero else diff A close 1 i

/-- `down` in `rsi_cache_nb`, indicators/nb.py:142-145. -/
def rsiDown (A : Arith) (close : Nat → F) (i : Nat) : F := abs (if gt (diff A close 1 i) zero then zero else diff A close 1 i)

/-- The value computed for one parameter combination in `rsi_cache_nb`, indicators/nb.py:152-154. -/
def rsiRolls (A : Arith) (close : Nat → F) (window : Nat) (ewm adjust : Bool) (junk : Nat → F) (len : Nat) :
    Except Err ((Nat → F) × (Nat → F)) :=
  match maNb A (rsiUp A close) window ewm adjust junk len with
  | .error e => .error e
  | .ok u =>
    match maNb A (rsiDown A close) window ewm adjust junk len with
    | .error e => .error e
    | .ok d => .ok (u, d)

/-- `rsi_apply_nb`, indicators/nb.py:167-170, array division. -/
def rsiApply (A : Arith) (up down : Nat → F) (i : Nat) : F :=
  sub A (fin 100) (div A (fin 100) (add A one (div A (up i) (down i))))

/-- The value computed for one window in `stoch_cache_nb`, indicators/nb.py:188-190. -/
def stochRolls (high low : Nat → F) (window : Nat) (junk : Nat → F) (len : Nat) : Except Err ((Nat → F) × (Nat → F)) :=
  match rollingMin low window none junk len with
  | .error e => .error e
  | .ok mn =>
    match rollingMax high window none junk len with
    | .error e => .error e
    | .ok mx => .ok (mn, mx)

/-- `percent_k` in `stoch_apply_nb`, indicators/nb.py:208. -/
def stochK (A : Arith) (close rollMin rollMax : Nat → F) (i : Nat) : F :=
  div A (mul A (fin 100) (sub A (close i) (rollMin i))) (sub A (rollMax i) (rollMin i))

/-- `percent_d` in `stoch_apply_nb`, indicators/nb.py:209. -/
def stochD (A : Arith) (close rollMin rollMax : Nat → F) (window : Nat) (ewm adjust : Bool) (junk : Nat → F) (len : Nat) :
    Except Err (Nat → F) :=
  maNb A (stochK A close rollMin rollMax) window ewm adjust junk len

/-- `macd_apply_nb`, indicators/nb.py:243-249, given the two cached averages. -/
def macdApply (A : Arith) (fast slow : Nat → F) (signalWindow : Nat) (signalEwm adjust : Bool) (junk : Nat → F) (len : Nat) :
    Except Err ((Nat → F) × (Nat → F)) :=
  match maNb A (fun i => sub A (fast i) (slow i)) signalWindow signalEwm adjust junk len with
  | .error e => .error e
  | .ok s => .ok (fun i => sub A (fast i) (slow i), s)

/-- `true_range_nb`, indicators/nb.py:253-265. -/
def trueRange (A : Arith) (high low close : Nat → F) (i : Nat) : F :=
  let tr1 := sub A (high i) (low i)
  if i = 0 then tr1
  else
    let tr2 := abs (sub A (high i) (close (i - 1)))
    let tr3 := abs (sub A (low i) (close (i - 1)))
    pmax (pmax tr1 tr2) tr3

/-- The signed volume in `obv_custom_nb`, indicators/nb.py:307. -/
def obvSigned (close volume : Nat → F) (junk : Nat → F) (len : Nat) (i : Nat) : F :=
  if lt (close i) (fshift close 1 nan junk len i) then neg (volume i) else volume i

/-- `np.nancumsum` of a column, generic/nb.py:505. -/
def nancumsum (A : Arith) (a : Nat → F) (junk : Nat → F) (len : Nat) : Nat → F :=
  (scanRows (fun c i => let c' := if (a i).isnan then c else add A c (a i); (c', c')) zero junk len).2

/-- `obv_custom_nb`, indicators/nb.py:305-309. -/
def obv (A : Arith) (close volume : Nat → F) (junk junk' : Nat → F) (len : Nat) : Nat → F :=
  nancumsum A (obvSigned close volume junk len) junk' len

end Vbt
