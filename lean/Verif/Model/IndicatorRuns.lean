import Verif.Model.Indicators
import Verif.Model.RustGeneric

/-!
# Indicators of 2-dim arrays: `vectorbt/indicators/nb.py`

The caching and apply functions of `Verif.Model.Indicators` for arrays of many columns and lists of parameters.  The arrays of one
call share a shape; broadcasting arrays of different shapes against each other is not modelled.  `junk` and `junk2` are what
`np.empty` returns.
-/

namespace Vbt
open F

/-- Rows and columns of the arrays of a call, and the contents of their uninitialised memory. -/
structure RunFrame where
  nrows : Nat
  ncols : Nat
  junk : Nat → F
  junk2 : Nat → Nat → F

/-- `ma_nb`, indicators/nb.py:24-28. -/
def maNb2 (A : Arith) (fr : RunFrame) (a : Nat → Nat → F) (window : Nat) (ewm adjust : Bool) : Except Err (Nat → Nat → F) :=
  nb2d (fun col => maNb A col window ewm adjust fr.junk fr.nrows) a fr.junk2 fr.ncols

/-- `mstd_nb`, indicators/nb.py:32-36. -/
def mstdNb2 (A : Arith) (sqrt : F → F) (fr : RunFrame) (a : Nat → Nat → F) (window : Nat) (ewm adjust : Bool) (ddof : Nat) :
    Except Err (Nat → Nat → F) :=
  nb2d (fun col => mstdNb A sqrt col window ewm adjust ddof fr.junk fr.nrows) a fr.junk2 fr.ncols

/-- The loops `for i in range(len(windows))`, e.g. indicators/nb.py:47-52: `ewms[i]` past the end of the list raises. -/
def cacheLists {H V : Type} [DecidableEq H] (hash : Nat × Bool → H) (compute : Nat × Bool → Except Err V) (windows : List Nat)
    (ewms : List Bool) : Except Err (List (H × V)) :=
  loopE (fun d i =>
    match windows[i]?, ewms[i]? with
    | some w, some e => cacheStep hash compute d (w, e)
    | _, _ => .error (.indexError "getitem out of range")) [] (List.range windows.length)

/-- `ma_cache_nb`, indicators/nb.py:40-52. -/
def maCacheNb {H : Type} [DecidableEq H] (A : Arith) (fr : RunFrame) (hash : Nat × Bool → H) (close : Nat → Nat → F)
    (windows : List Nat) (ewms : List Bool) (adjust : Bool) : Except Err (List (H × (Nat → Nat → F))) :=
  cacheLists hash (fun k => maNb2 A fr close k.1 k.2 adjust) windows ewms

/-- `mstd_cache_nb`, indicators/nb.py:69-82. -/
def mstdCacheNb {H : Type} [DecidableEq H] (A : Arith) (sqrt : F → F) (fr : RunFrame) (hash : Nat × Bool → H)
    (close : Nat → Nat → F) (windows : List Nat) (ewms : List Bool) (adjust : Bool) (ddof : Nat) :
    Except Err (List (H × (Nat → Nat → F))) :=
  cacheLists hash (fun k => mstdNb2 A sqrt fr close k.1 k.2 adjust ddof) windows ewms

/-- `bb_cache_nb`, indicators/nb.py:100-111. -/
def bbCacheNb {H : Type} [DecidableEq H] (A : Arith) (sqrt : F → F) (fr : RunFrame) (hash : Nat × Bool → H)
    (close : Nat → Nat → F) (windows : List Nat) (ewms : List Bool) (adjust : Bool) (ddof : Nat) :
    Except Err (List (H × (Nat → Nat → F)) × List (H × (Nat → Nat → F))) :=
  match maCacheNb A fr hash close windows ewms adjust with
  | .error e => .error e
  | .ok ma =>
    match mstdCacheNb A sqrt fr hash close windows ewms adjust ddof with
    | .error e => .error e
    | .ok mstd => .ok (ma, mstd)

/-- `bb_apply_nb`, indicators/nb.py:115-131. -/
def bbApplyNb {H : Type} [DecidableEq H] (A : Arith) (hash : Nat × Bool → H) (window : Nat) (ewm : Bool) (alpha : F)
    (maDict mstdDict : List (H × (Nat → Nat → F))) :
    Except Err ((Nat → Nat → F) × (Nat → Nat → F) × (Nat → Nat → F)) :=
  match cacheGet hash maDict (window, ewm) with
  | .error e => .error e
  | .ok ma =>
    match cacheGet hash mstdDict (window, ewm) with
    | .error e => .error e
    | .ok mstd =>
      .ok (ma, fun i c => add A (ma i c) (mul A alpha (mstd i c)), fun i c => sub A (ma i c) (mul A alpha (mstd i c)))

/-- `rsi_cache_nb`, indicators/nb.py:135-155. -/
def rsiCacheNb {H : Type} [DecidableEq H] (A : Arith) (fr : RunFrame) (hash : Nat × Bool → H) (close : Nat → Nat → F)
    (windows : List Nat) (ewms : List Bool) (adjust : Bool) :
    Except Err (List (H × ((Nat → Nat → F) × (Nat → Nat → F)))) :=
  cacheLists hash (fun k =>
    match maNb2 A fr (fun i c => rsiUp A (fun i => close i c) i) k.1 k.2 adjust with
    | .error e => .error e
    | .ok up =>
      match maNb2 A fr (fun i c => rsiDown A (fun i => close i c) i) k.1 k.2 adjust with
      | .error e => .error e
      | .ok down => .ok (up, down)) windows ewms

/-- `rsi_apply_nb`, indicators/nb.py:159-170. -/
def rsiApplyNb {H : Type} [DecidableEq H] (A : Arith) (hash : Nat × Bool → H) (window : Nat) (ewm : Bool)
    (dict : List (H × ((Nat → Nat → F) × (Nat → Nat → F)))) : Except Err (Nat → Nat → F) :=
  match cacheGet hash dict (window, ewm) with
  | .error e => .error e
  | .ok (up, down) => .ok fun i c => rsiApply A (fun i => up i c) (fun i => down i c) i

/-- `stoch_cache_nb`, indicators/nb.py:174-191. -/
def stochCacheNb {H : Type} [DecidableEq H] (fr : RunFrame) (hash : Nat → H) (high low : Nat → Nat → F) (kWindows : List Nat) :
    Except Err (List (H × ((Nat → Nat → F) × (Nat → Nat → F)))) :=
  cacheLoop hash (fun w =>
    match nb2d (fun col => rollingMin col w none fr.junk fr.nrows) low fr.junk2 fr.ncols with
    | .error e => .error e
    | .ok mn =>
      match nb2d (fun col => rollingMax col w none fr.junk fr.nrows) high fr.junk2 fr.ncols with
      | .error e => .error e
      | .ok mx => .ok (mn, mx)) kWindows

/-- `stoch_apply_nb`, indicators/nb.py:195-210. -/
def stochApplyNb {H : Type} [DecidableEq H] (A : Arith) (fr : RunFrame) (hash : Nat → H) (close : Nat → Nat → F)
    (kWindow dWindow : Nat) (dEwm adjust : Bool) (dict : List (H × ((Nat → Nat → F) × (Nat → Nat → F)))) :
    Except Err ((Nat → Nat → F) × (Nat → Nat → F)) :=
  match cacheGet hash dict kWindow with
  | .error e => .error e
  | .ok (mn, mx) =>
    let percentK : Nat → Nat → F := fun i c => stochK A (fun i => close i c) (fun i => mn i c) (fun i => mx i c) i
    match maNb2 A fr percentK dWindow dEwm adjust with
    | .error e => .error e
    | .ok percentD => .ok (percentK, percentD)

/-- `macd_cache_nb`, indicators/nb.py:214-228. -/
def macdCacheNb {H : Type} [DecidableEq H] (A : Arith) (fr : RunFrame) (hash : Nat × Bool → H) (close : Nat → Nat → F)
    (fast slow : List Nat) (ewms : List Bool) (adjust : Bool) : Except Err (List (H × (Nat → Nat → F))) :=
  maCacheNb A fr hash close (fast ++ slow) (ewms ++ ewms) adjust

/-- `macd_apply_nb`, indicators/nb.py:232-249. -/
def macdApplyNb {H : Type} [DecidableEq H] (A : Arith) (fr : RunFrame) (hash : Nat × Bool → H) (fast slow signal : Nat)
    (macdEwm signalEwm adjust : Bool) (dict : List (H × (Nat → Nat → F))) : Except Err ((Nat → Nat → F) × (Nat → Nat → F)) :=
  match cacheGet hash dict (fast, macdEwm) with
  | .error e => .error e
  | .ok fastMa =>
    match cacheGet hash dict (slow, macdEwm) with
    | .error e => .error e
    | .ok slowMa =>
      let macd : Nat → Nat → F := fun i c => sub A (fastMa i c) (slowMa i c)
      match maNb2 A fr macd signal signalEwm adjust with
      | .error e => .error e
      | .ok sig => .ok (macd, sig)

/-- `true_range_nb`, indicators/nb.py:253-265. -/
def trueRangeNb (A : Arith) (high low close : Nat → Nat → F) : Nat → Nat → F := fun i c =>
  trueRange A (fun i => high i c) (fun i => low i c) (fun i => close i c) i

/-- `atr_cache_nb`, indicators/nb.py:269-285. -/
def atrCacheNb {H : Type} [DecidableEq H] (A : Arith) (fr : RunFrame) (hash : Nat × Bool → H) (high low close : Nat → Nat → F)
    (windows : List Nat) (ewms : List Bool) (adjust : Bool) :
    Except Err ((Nat → Nat → F) × List (H × (Nat → Nat → F))) :=
  match cacheLists hash (fun k => maNb2 A fr (trueRangeNb A high low close) k.1 k.2 adjust) windows ewms with
  | .error e => .error e
  | .ok d => .ok (trueRangeNb A high low close, d)

/-- `atr_apply_nb`, indicators/nb.py:289-301. -/
def atrApplyNb {H V : Type} [DecidableEq H] (hash : Nat × Bool → H) (window : Nat) (ewm : Bool) (tr : V) (dict : List (H × V)) :
    Except Err (V × V) :=
  match cacheGet hash dict (window, ewm) with
  | .error e => .error e
  | .ok atr => .ok (tr, atr)

/-- `obv_custom_nb`, indicators/nb.py:305-309. -/
def obvNb (A : Arith) (fr : RunFrame) (close volume : Nat → Nat → F) : Nat → Nat → F := fun i c =>
  obv A (fun i => close i c) (fun i => volume i c) fr.junk fr.junk fr.nrows i

end Vbt
