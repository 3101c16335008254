import Verif.Model.RustRecords
import Verif.Model.RustOrder

/-!
# Generation, ranges, ranks and indices of signals in the Rust engine

`rust/src/signals.rs`, together with those parts of `vectorbt/signals/nb.py` that `Model/Signals` leaves out: the stop
generators, whose choice function for OHLC stops writes two arrays and can raise, all columns of an array at once, and the
indices.

A 2-dim array is a function of row and column together with its shape, `a[[row, col]] = v` is `set2`.  `usize` is `Nat`, `i64`
is `Int` without overflow; `FlexArray::get` is a function of row and column.  Loops that are left by `return` or `break` are
recursive over the rows that are left.  Waits are natural numbers (the Numba engine accepts negative ones, the Rust engine
does not).

Not modelled: the random generators (they draw from another generator than NumPy), conversions from Python, the checks of
shapes, panics for arrays of other shapes.
-/

namespace Vbt
open F

/-- `a[row, col] = v`. -/
def set2 {β : Type} (a : Nat → Nat → β) (row col : Nat) (v : β) : Nat → Nat → β :=
  fun i c => if i = row ∧ c = col then v else a i c

/-- `a[:, col] = v`. -/
def putCol {β : Type} (a : Nat → Nat → β) (col : Nat) (v : Nat → β) : Nat → Nat → β :=
  fun i c => if c = col then v i else a i c

/-- `a[:, col]`. -/
def getCol {β : Type} (a : Nat → Nat → β) (col : Nat) : Nat → β := fun i => a i col

/-- A loop whose turns may raise or not come to an end (`none`). -/
def loopOE {σ α : Type} (f : σ → α → Option (Except Err σ)) : σ → List α → Option (Except Err σ)
  | s, [] => some (.ok s)
  | s, x :: xs =>
    match f s x with
    | none => none
    | some (.error e) => some (.error e)
    | some (.ok s') => loopOE f s' xs

/-! ## The Numba engine -/

/-- `clean_enex_nb`, signals/nb.py:283-290: `clean_enex_1d_nb` for each column; `junk` are the two arrays of `np.empty`. -/
def cleanEnex2d (n cols : Nat) (en ex : Nat → Nat → Bool) (entryFirst : Bool)
    (junk : (Nat → Nat → Bool) × (Nat → Nat → Bool)) : (Nat → Nat → Bool) × (Nat → Nat → Bool) :=
  (List.range cols).foldl (fun s c =>
    let r := cleanEnex n (getCol en c) (getCol ex c) entryFirst
    (putCol s.1 c r.1, putCol s.2 c r.2)) junk

/-- The arguments of `generate_stop_ex_nb` and `generate_stop_enex_nb` that are arrays. -/
structure StopArrays where
  entries : Nat → Nat → Bool
  ts : Nat → Nat → F
  stop : Nat → Nat → F
  trailing : Nat → Nat → Bool

/-- `stop_choice_nb` as a choice function for column `c`. -/
def stopChoiceFn (A : Arith) (x : StopArrays) (c wait : Nat) (pickFirst : Bool) : Choice := fun f t =>
  (stopChoice A (getCol x.ts c) (getCol x.stop c) (getCol x.trailing c) wait pickFirst f.toNat t.toNat).map Int.ofNat

/-- `generate_stop_ex_nb`, signals/nb.py:647-698: `generate_ex_nb` with `stop_choice_nb`, column by column. -/
def generateStopEx (A : Arith) (n cols : Nat) (x : StopArrays) (wait : Nat) (untilNext skipUntilExit pickFirst : Bool) :
    Except Err (Nat → Nat → Bool) :=
  loopE (fun out c =>
    match generateEx n (getCol x.entries c) wait untilNext skipUntilExit pickFirst (stopChoiceFn A x c wait pickFirst) with
    | .error e => .error e
    | .ok v => .ok (putCol out c v)) (fun _ _ => false) (List.range cols)

/-- The arguments of `generate_enex_nb` in `generate_stop_enex_nb`, signals/nb.py:721-732, for column `c`. -/
def stopEnexInputs (A : Arith) (n : Nat) (x : StopArrays) (c entryWait exitWait : Nat) (pickFirst : Bool) : EnexInputs where
  n := n
  entryWait := entryWait
  exitWait := exitWait
  entryPickFirst := true
  exitPickFirst := pickFirst
  entryChoice := fun _ f t => (firstChoice (getCol x.entries c) f.toNat t.toNat).map Int.ofNat
  exitChoice := fun _ => stopChoiceFn A x c exitWait pickFirst

/-- `generate_stop_enex_nb`, signals/nb.py:704-732: the check of the waits, signals/nb.py:200-201, is the same for each
column. -/
def generateStopEnex (A : Arith) (n cols : Nat) (x : StopArrays) (entryWait exitWait : Nat) (pickFirst : Bool)
    (fuel : Nat) : Option (Except Err ((Nat → Nat → Bool) × (Nat → Nat → Bool))) :=
  if entryWait = 0 ∧ exitWait = 0 then some (.error (.valueError "entry_wait and exit_wait cannot be both 0"))
  else
    loopOE (fun out c =>
      match enexLoop (stopEnexInputs A n x c entryWait exitWait pickFirst) fuel ⟨fun _ => false, fun _ => false, -2, -1, 0⟩ with
      | none => none
      | some (.error e) => some (.error e)
      | some (.ok s) => some (.ok (putCol out.1 c s.entries, putCol out.2 c s.exits)))
      (fun _ _ => false, fun _ _ => false) (List.range cols)

/-- A choice function that raises, or reads and writes arrays `σ`. -/
abbrev ChoiceE (σ : Type) := Int → Int → σ → Except Err (List Int × σ)

/-- The local variables of `generate_ex_nb` for one column and the arrays of the choice function. -/
structure ExStateE (σ : Type) where
  exits : Nat → Bool
  lastExit : Int
  arrs : σ

/-- The loop over the entries of one column of `generate_ex_nb`, signals/nb.py:130-154: `exLoop` for choice functions that
raise or write. -/
def exLoopE {σ : Type} (n wait : Nat) (untilNext skipUntilExit pickFirst : Bool) (choice : ChoiceE σ) :
    List Nat → ExStateE σ → Except Err (ExStateE σ)
  | [], s => .ok s
  | e :: rest, s =>
    if skipUntilExit && decide ((e : Int) ≤ s.lastExit) then
      exLoopE n wait untilNext skipUntilExit pickFirst choice rest s
    else
      let fromI := e + wait
      let toI := exTo n untilNext rest
      if toI > fromI then
        match choice fromI toI s.arrs with
        | .error err => .error err
        | .ok ([], arrs) => exLoopE n wait untilNext skipUntilExit pickFirst choice rest { s with arrs := arrs }
        | .ok (first :: more, arrs) =>
          if pickFirst then
            if first < fromI ∨ first ≥ toI then .error (.valueError "First returned index is out of bounds")
            else
              exLoopE n wait untilNext skipUntilExit pickFirst choice rest ⟨setRows s.exits [first], first, arrs⟩
          else if (first :: more).any (fun x => decide (x < fromI)) || (first :: more).any (fun x => decide (x ≥ toI)) then
            .error (.valueError "Returned indices are out of bounds")
          else
            exLoopE n wait untilNext skipUntilExit pickFirst choice rest
              ⟨setRows s.exits (first :: more), (first :: more).getLast (List.cons_ne_nil _ _), arrs⟩
      else exLoopE n wait untilNext skipUntilExit pickFirst choice rest s

/-- The arguments of `generate_ohlc_stop_ex_nb` and `generate_ohlc_stop_enex_nb`. -/
structure OhlcArrays where
  entries : Nat → Nat → Bool
  open_ : Nat → Nat → F
  high : Nat → Nat → F
  low : Nat → Nat → F
  close : Nat → Nat → F
  slStop : Nat → Nat → F
  slTrail : Nat → Nat → Bool
  tpStop : Nat → Nat → F
  reverse : Nat → Nat → Bool
  isOpenSafe : Bool

/-- The arguments of `ohlc_stop_choice_nb` for column `c`. -/
def OhlcArrays.col (x : OhlcArrays) (c wait : Nat) (pickFirst : Bool) : OhlcInputs :=
  ⟨getCol x.open_ c, getCol x.high c, getCol x.low c, getCol x.close c, getCol x.slStop c, getCol x.slTrail c,
    getCol x.tpStop c, getCol x.reverse c, x.isOpenSafe, wait, pickFirst⟩

/-- `ohlc_stop_choice_nb` as a choice function for column `c`; it writes `stop_price_out[:, c]` and `stop_type_out[:, c]`. -/
def ohlcChoiceFn (A : Arith) (x : OhlcArrays) (c wait : Nat) (pickFirst : Bool) : ChoiceE ((Nat → F) × (Nat → Int)) :=
  fun f t s =>
    match ohlcStopChoice A (x.col c wait pickFirst) s.1 s.2 f.toNat t.toNat with
    | .error e => .error e
    | .ok (l, p, ty) => .ok (l.map Int.ofNat, p, ty)

/-- The arrays written by the generators of OHLC stops: exits, `stop_price_out`, `stop_type_out`. -/
structure OhlcOut where
  exits : Nat → Nat → Bool
  price : Nat → Nat → F
  type : Nat → Nat → Int

/-- `generate_ohlc_stop_ex_nb`, signals/nb.py:892-997, for the arrays `price` and `type` to write to. -/
def generateOhlcStopEx (A : Arith) (n cols : Nat) (x : OhlcArrays) (price : Nat → Nat → F) (type : Nat → Nat → Int)
    (wait : Nat) (untilNext skipUntilExit pickFirst : Bool) : Except Err OhlcOut :=
  loopE (fun (out : OhlcOut) c =>
    match exLoopE n wait untilNext skipUntilExit pickFirst (ohlcChoiceFn A x c wait pickFirst)
        (flatnonzero n (getCol x.entries c)) ⟨fun _ => false, -1, getCol out.price c, getCol out.type c⟩ with
    | .error e => .error e
    | .ok s => .ok ⟨putCol out.exits c s.exits, putCol out.price c s.arrs.1, putCol out.type c s.arrs.2⟩)
    ⟨fun _ _ => false, price, type⟩ (List.range cols)

/-- The local variables of `generate_enex_nb` for one column and the arrays of the choice functions. -/
structure EnexStateE (σ : Type) where
  entries : Nat → Bool
  exits : Nat → Bool
  prevPrev : Int
  prev : Int
  i : Nat
  arrs : σ

/-- The arguments of `generate_enex_nb` for one column and choice functions that raise or write. -/
structure EnexInputsE (σ : Type) where
  n : Nat
  entryWait : Nat
  exitWait : Nat
  entryPickFirst : Bool
  exitPickFirst : Bool
  entryChoice : ChoiceE σ
  exitChoice : ChoiceE σ

/-- One turn of the loop of `generate_enex_nb`, signals/nb.py:208-250: `enexStep` for such choice functions. -/
def enexStepE {σ : Type} (x : EnexInputsE σ) (s : EnexStateE σ) : Except Err (EnexStateE σ × Bool) :=
  let toI : Int := x.n
  let isEntry := decide (s.i % 2 = 0)
  let fromI : Int := if s.i % 2 = 0 then (if s.i = 0 then 0 else s.prev + x.entryWait) else s.prev + x.exitWait
  if fromI ≥ toI then .ok (s, false)
  else
    let pickFirst := if isEntry then x.entryPickFirst else x.exitPickFirst
    match (if isEntry then x.entryChoice fromI toI s.arrs else x.exitChoice fromI toI s.arrs) with
    | .error e => .error e
    | .ok ([], arrs) => .ok ({ s with arrs := arrs }, false)
    | .ok (first :: more, arrs) =>
      if first = s.prev ∧ s.prev = s.prevPrev then .error (.valueError "Infinite loop detected")
      else if first < fromI then .error (.valueError "First index is out of bounds")
      else if pickFirst then
        if first ≥ toI then .error (.valueError "First index is out of bounds")
        else
          .ok ({ entries := if isEntry then setWrapped x.n s.entries [first] else s.entries,
                 exits := if isEntry then s.exits else setWrapped x.n s.exits [first],
                 prevPrev := s.prev, prev := first, i := s.i + 1, arrs := arrs }, true)
      else
        let last := (first :: more).getLast (List.cons_ne_nil _ _)
        if last ≥ toI then .error (.valueError "Last index is out of bounds")
        else
          .ok ({ entries := if isEntry then setWrapped x.n s.entries (first :: more) else s.entries,
                 exits := if isEntry then s.exits else setWrapped x.n s.exits (first :: more),
                 prevPrev := s.prev, prev := last, i := s.i + 1, arrs := arrs }, true)

/-- `while True` of `generate_enex_nb`, cut after `fuel` turns; a turn ends with whether the loop goes on. -/
def enexLoopE {σ : Type} (x : EnexInputsE σ) : Nat → EnexStateE σ → Option (Except Err (EnexStateE σ))
  | 0, _ => none
  | fuel + 1, s =>
    match enexStepE x s with
    | .error e => some (.error e)
    | .ok (s', false) => some (.ok s')
    | .ok (s', true) => enexLoopE x fuel s'

/-- The arguments of `generate_enex_nb` in `generate_ohlc_stop_enex_nb`, signals/nb.py:1026-1052, for column `c`. -/
def ohlcEnexInputs (A : Arith) (n : Nat) (x : OhlcArrays) (c entryWait exitWait : Nat) (pickFirst : Bool) :
    EnexInputsE ((Nat → F) × (Nat → Int)) where
  n := n
  entryWait := entryWait
  exitWait := exitWait
  entryPickFirst := true
  exitPickFirst := pickFirst
  entryChoice := fun f t s => .ok ((firstChoice (getCol x.entries c) f.toNat t.toNat).map Int.ofNat, s)
  exitChoice := ohlcChoiceFn A x c exitWait pickFirst

/-- The arrays of `generate_ohlc_stop_enex_nb`. -/
structure OhlcEnexOut where
  entries : Nat → Nat → Bool
  exits : Nat → Nat → Bool
  price : Nat → Nat → F
  type : Nat → Nat → Int

/-- `generate_ohlc_stop_enex_nb`, signals/nb.py:1000-1052. -/
def generateOhlcStopEnex (A : Arith) (n cols : Nat) (x : OhlcArrays) (price : Nat → Nat → F) (type : Nat → Nat → Int)
    (entryWait exitWait : Nat) (pickFirst : Bool) (fuel : Nat) : Option (Except Err OhlcEnexOut) :=
  if entryWait = 0 ∧ exitWait = 0 then some (.error (.valueError "entry_wait and exit_wait cannot be both 0"))
  else
    loopOE (fun (out : OhlcEnexOut) c =>
      match enexLoopE (ohlcEnexInputs A n x c entryWait exitWait pickFirst) fuel
          ⟨fun _ => false, fun _ => false, -2, -1, 0, getCol out.price c, getCol out.type c⟩ with
      | none => none
      | some (.error e) => some (.error e)
      | some (.ok s) => some (.ok ⟨putCol out.entries c s.entries, putCol out.exits c s.exits, putCol out.price c s.arrs.1,
          putCol out.type c s.arrs.2⟩))
      ⟨fun _ _ => false, fun _ _ => false, price, type⟩ (List.range cols)

/-- `rank_nb`, signals/nb.py:1192-1229: all columns. -/
def rank2d (n cols : Nat) (a : Nat → Nat → Bool) (resetBy : Option (Nat → Nat → Bool)) (afterFalse : Bool) (f : RankFunc) :
    Nat → Nat → Int :=
  (List.range cols).foldl (fun out c =>
    putCol out c (rank n (getCol a c) (resetBy.map fun r => getCol r c) afterFalse f)) fun _ _ => -1

/-- The loops of `nth_index_1d_nb`, signals/nb.py:1278-1290, over the rows that are left; `step` is what `found` changes by. -/
def nthScan (a : Nat → Bool) (n step : Int) : List Nat → Int → Int
  | [], _ => -1
  | i :: rest, found =>
    if a i then if found + step = n then i else nthScan a n step rest (found + step)
    else nthScan a n step rest found

/-- `nth_index_1d_nb`, signals/nb.py:1272-1291. -/
def nthIndex1d (len : Nat) (a : Nat → Bool) (n : Int) : Int :=
  if n ≥ 0 then nthScan a n 1 (List.range len) (-1) else nthScan a n (-1) (List.range len).reverse 0

/-- `nth_index_nb`, signals/nb.py:1295-1300. -/
def nthIndex (len cols : Nat) (a : Nat → Nat → Bool) (n : Int) (junk : Nat → Int) : Nat → Int :=
  (List.range cols).foldl (fun out c => setAt out c (nthIndex1d len (getCol a c) n)) junk

/-- `renormalize`, utils/array_.py:76-84. -/
def renormalize (A : Arith) (a from0 from1 to0 to1 : F) : F :=
  F.add A (div A (mul A (sub A to1 to0) (sub A a from0)) (sub A from1 from0)) to0

/-- `norm_avg_index_1d_nb`, signals/nb.py:1304-1309.  The sum inside of `np.mean` is a sum of integers. -/
def normAvgIndex1d (A : Arith) (len : Nat) (a : Nat → Bool) : F :=
  if len ≤ 1 ∨ !(List.range len).any a then nan
  else
    let idxs := flatnonzero len a
    let meanIndex := div A (A.rnd (idxs.sum : Nat)) (A.rnd (idxs.length : Nat))
    renormalize A meanIndex zero (A.rnd ((len - 1 : Nat) : ℚ)) (neg one) one

/-- `norm_avg_index_nb`, signals/nb.py:1313-1318. -/
def normAvgIndex (A : Arith) (len cols : Nat) (a : Nat → Nat → Bool) (junk : Nat → F) : Nat → F :=
  (List.range cols).foldl (fun out c => setAt out c (normAvgIndex1d A len (getCol a c))) junk

end Vbt

namespace Vbt.RsSig
open Vbt F

/-! ## Cleaning -/

/-- One row of `clean_enex_1d`, rust/src/signals.rs:19-31. -/
def cleanStep (en ex : Nat → Bool) (entryFirst : Bool) (s : Int × (Nat → Bool) × (Nat → Bool)) (i : Nat) :
    Int × (Nat → Bool) × (Nat → Bool) :=
  if en i && ex i then s
  else
    let s := if en i && (decide (s.1 = -1) || decide (s.1 = 0)) then (1, setAt s.2.1 i true, s.2.2) else s
    if ex i && ((!entryFirst && decide (s.1 = -1)) || decide (s.1 = 1)) then (0, s.2.1, setAt s.2.2 i true) else s

/-- `clean_enex_1d`, rust/src/signals.rs:14-34. -/
def cleanEnex1d (n : Nat) (en ex : Nat → Bool) (entryFirst : Bool) : (Nat → Bool) × (Nat → Bool) :=
  ((List.range n).foldl (cleanStep en ex entryFirst) (-1, fun _ => false, fun _ => false)).2

/-- One row of `clean_enex_2d`, rust/src/signals.rs:48-61. -/
def cleanCell (en ex : Nat → Nat → Bool) (entryFirst : Bool) (col : Nat)
    (s : Int × (Nat → Nat → Bool) × (Nat → Nat → Bool)) (row : Nat) : Int × (Nat → Nat → Bool) × (Nat → Nat → Bool) :=
  let entry := en row col
  let exit := ex row col
  if entry && exit then s
  else
    let s := if entry && (decide (s.1 = -1) || decide (s.1 = 0)) then (1, set2 s.2.1 row col true, s.2.2) else s
    if exit && ((!entryFirst && decide (s.1 = -1)) || decide (s.1 = 1)) then (0, s.2.1, set2 s.2.2 row col true) else s

/-- `clean_enex_2d`, rust/src/signals.rs:36-65. -/
def cleanEnex2d (nrows ncols : Nat) (en ex : Nat → Nat → Bool) (entryFirst : Bool) :
    (Nat → Nat → Bool) × (Nat → Nat → Bool) :=
  (List.range ncols).foldl (fun s col => ((List.range nrows).foldl (cleanCell en ex entryFirst col) (-1, s)).2)
    (fun _ _ => false, fun _ _ => false)

/-! ## Exits after entries -/

/-- `next_true_in_col`, rust/src/signals.rs:116-118. -/
def nextTrue (a : Nat → Nat → Bool) (col start nrows : Nat) : Option Nat :=
  (List.range' start (nrows - start)).find? fun row => a row col

theorem nextTrue_bounds {a : Nat → Nat → Bool} {col start nrows e : Nat} (h : nextTrue a col start nrows = some e) :
    start ≤ e ∧ e < nrows := by
  have := List.mem_of_find?_eq_some h
  rw [List.mem_range'_1] at this
  omega

/-- `init_i`, e.g. rust/src/signals.rs:519-520. -/
def initIdx (fromI wait : Nat) : Nat :=
  let d : Int := (fromI : Int) - (wait : Int)
  if d < 0 then 0 else d.toNat

/-- `curr_stop_price`, rust/src/signals.rs:528-540. -/
def stopPrice (A : Arith) (initTs initStop : F) (initTrailing : Bool) (maxHigh minLow : F) : F :=
  if !initStop.isnan then
    if initTrailing then
      if ge initStop zero then mul A minLow (F.add A one initStop.abs) else mul A maxHigh (sub A one initStop.abs)
    else mul A initTs (F.add A one initStop)
  else nan

/-- Whether the row is an exit, rust/src/signals.rs:541-551. -/
def stopSignal (initStop currTs price : F) : Bool :=
  !initStop.isnan && (if ge initStop zero then ge currTs price else le currTs price)

/-- `max_high` and `min_low` after the row, rust/src/signals.rs:552-558. -/
def stopExtremes (initTrailing : Bool) (currTs maxHigh minLow : F) : F × F :=
  if initTrailing then
    if lt currTs minLow then (maxHigh, currTs) else if gt currTs maxHigh then (currTs, minLow) else (maxHigh, minLow)
  else (maxHigh, minLow)

/-- The loop of `stop_choice_first`, rust/src/signals.rs:527-560. -/
def stopFirstLoop (A : Arith) (ts : Nat → F) (initTs initStop : F) (initTrailing : Bool) :
    List Nat → F → F → Option Nat
  | [], _, _ => none
  | i :: rest, maxHigh, minLow =>
    if stopSignal initStop (ts i) (stopPrice A initTs initStop initTrailing maxHigh minLow) then some i
    else
      let e := stopExtremes initTrailing (ts i) maxHigh minLow
      stopFirstLoop A ts initTs initStop initTrailing rest e.1 e.2

/-- `stop_choice_first`, rust/src/signals.rs:510-561. -/
def stopChoiceFirst (A : Arith) (x : StopArrays) (fromI toI col wait : Nat) : Option Nat :=
  let initI := initIdx fromI wait
  let initTs := x.ts initI col
  stopFirstLoop A (fun i => x.ts i col) initTs (x.stop initI col) (x.trailing initI col) (List.range' fromI (toI - fromI))
    initTs initTs

/-- One row of `stop_choice_all`, rust/src/signals.rs:585-617; the variables are `max_high`, `min_low` and `out`. -/
def stopAllStep (A : Arith) (ts : Nat → F) (initTs initStop : F) (initTrailing : Bool) (s : F × F × List Nat) (i : Nat) :
    F × F × List Nat :=
  let hit := stopSignal initStop (ts i) (stopPrice A initTs initStop initTrailing s.1 s.2.1)
  let out := if hit then s.2.2 ++ [i] else s.2.2
  let e := stopExtremes initTrailing (ts i) s.1 s.2.1
  (e.1, e.2, out)

/-- `stop_choice_all`, rust/src/signals.rs:567-619. -/
def stopChoiceAll (A : Arith) (x : StopArrays) (fromI toI col wait : Nat) : List Nat :=
  let initI := initIdx fromI wait
  let initTs := x.ts initI col
  ((List.range' fromI (toI - fromI)).foldl
    (stopAllStep A (fun i => x.ts i col) initTs (x.stop initI col) (x.trailing initI col)) (initTs, initTs, [])).2.2

/-- `while let Some(entry_i) = entry_i_opt { … entry_i_opt = next_entry_i; }`, rust/src/signals.rs:636-663 and 918-960: the
body gets the entry and the next one. -/
def exWhile {σ : Type} (entries : Nat → Nat → Bool) (col nrows : Nat) (body : σ → Nat → Option Nat → Except Err σ)
    (opt : Option Nat) (s : σ) : Except Err σ :=
  match opt with
  | none => .ok s
  | some e =>
    match body s e (nextTrue entries col (e + 1) nrows) with
    | .error err => .error err
    | .ok s' =>
      if h : (nextTrue entries col (e + 1) nrows).isSome then
        exWhile entries col nrows body (some ((nextTrue entries col (e + 1) nrows).get h)) s'
      else .ok s'
termination_by match opt with | none => 0 | some e => nrows - e
decreasing_by
  have hb := nextTrue_bounds (Option.some_get h).symm
  omega

/-- `to_i`, rust/src/signals.rs:640-644 and 922-926. -/
def exTo (untilNext : Bool) (next : Option Nat) (nrows : Nat) : Nat := if untilNext then next.getD nrows else nrows

/-- `for &idx in &hits { exits[[idx, col]] = true; }`, e.g. rust/src/signals.rs:654-656. -/
def markAll (a : Nat → Nat → Bool) (hits : List Nat) (col : Nat) : Nat → Nat → Bool :=
  hits.foldl (fun a idx => set2 a idx col true) a

/-- One entry of `generate_stop_ex`, rust/src/signals.rs:638-661; the variables are `exits` and `last_exit_i`. -/
def stopExBody (A : Arith) (nrows : Nat) (x : StopArrays) (wait : Nat) (untilNext skipUntilExit pickFirst : Bool)
    (col : Nat) (s : (Nat → Nat → Bool) × Int) (entryI : Nat) (next : Option Nat) :
    Except Err ((Nat → Nat → Bool) × Int) :=
  if !(skipUntilExit && decide ((entryI : Int) ≤ s.2)) then
    let fromI := entryI + wait
    let toI := exTo untilNext next nrows
    if toI > fromI then
      if pickFirst then
        match stopChoiceFirst A x fromI toI col wait with
        | some idx => .ok (set2 s.1 idx col true, idx)
        | none => .ok s
      else
        let hits := stopChoiceAll A x fromI toI col wait
        match hits.getLast? with
        | some last => .ok (markAll s.1 hits col, last)
        | none => .ok s
    else .ok s
  else .ok s

/-- `generate_stop_ex`, rust/src/signals.rs:621-667. -/
def generateStopEx (A : Arith) (nrows ncols : Nat) (x : StopArrays) (wait : Nat)
    (untilNext skipUntilExit pickFirst : Bool) : Except Err (Nat → Nat → Bool) :=
  loopE (fun exits col =>
    match exWhile x.entries col nrows (stopExBody A nrows x wait untilNext skipUntilExit pickFirst col)
        (nextTrue x.entries col 0 nrows) (exits, -1) with
    | .error e => .error e
    | .ok s => .ok s.1) (fun _ _ => false) (List.range ncols)

/-! ## Entries and exits in turns -/

/-- The variables of `generate_stop_enex` for one column. -/
structure TurnState where
  entries : Nat → Nat → Bool
  exits : Nat → Nat → Bool
  prevPrev : Int
  prev : Int
  i : Nat

/-- `from_i_raw`, rust/src/signals.rs:691-700 and 996-1005. -/
def fromRaw (entryWait exitWait : Nat) (prev : Int) (i : Nat) : Int :=
  if i % 2 = 0 then (if i = 0 then 0 else prev + entryWait) else prev + exitWait

/-- One turn of the loop of `generate_stop_enex`, rust/src/signals.rs:690-748; `none` is `break`. -/
def stopTurn (A : Arith) (nrows : Nat) (x : StopArrays) (entryWait exitWait : Nat) (pickFirst : Bool) (col : Nat)
    (s : TurnState) : Except Err (Option TurnState) :=
  let isEntry := decide (s.i % 2 = 0)
  let raw := fromRaw entryWait exitWait s.prev s.i
  if raw ≥ nrows then .ok none
  else
    let fromI := (max raw 0).toNat
    let toI := nrows
    let first := if isEntry then (List.range' fromI (toI - fromI)).find? fun r => x.entries r col
      else stopChoiceFirst A x fromI toI col exitWait
    match first with
    | none => .ok none
    | some firstI =>
      if (firstI : Int) = s.prev ∧ s.prev = s.prevPrev then .error (.valueError "Infinite loop detected")
      else
        let pickFirstHere := if isEntry then true else pickFirst
        if pickFirstHere then
          if firstI ≥ toI then .error (.valueError "First index is out of bounds")
          else
            .ok (some { entries := if isEntry then set2 s.entries firstI col true else s.entries,
                        exits := if isEntry then s.exits else set2 s.exits firstI col true,
                        prevPrev := s.prev, prev := firstI, i := s.i + 1 })
        else
          let hits := stopChoiceAll A x fromI toI col exitWait
          match hits.getLast? with
          | none => .ok none
          | some lastI =>
            if lastI ≥ toI then .error (.valueError "Last index is out of bounds")
            else
              .ok (some { entries := if isEntry then markAll s.entries hits col else s.entries,
                          exits := if isEntry then s.exits else markAll s.exits hits col,
                          prevPrev := s.prev, prev := lastI, i := s.i + 1 })

/-- `loop { … }` of `generate_stop_enex`, cut after `fuel` turns. -/
def stopTurns (A : Arith) (nrows : Nat) (x : StopArrays) (entryWait exitWait : Nat) (pickFirst : Bool) (col : Nat) :
    Nat → TurnState → Option (Except Err TurnState)
  | 0, _ => none
  | fuel + 1, s =>
    match stopTurn A nrows x entryWait exitWait pickFirst col s with
    | .error e => some (.error e)
    | .ok none => some (.ok s)
    | .ok (some s') => stopTurns A nrows x entryWait exitWait pickFirst col fuel s'

/-- `generate_stop_enex`, rust/src/signals.rs:669-752. -/
def generateStopEnex (A : Arith) (nrows ncols : Nat) (x : StopArrays) (entryWait exitWait : Nat) (pickFirst : Bool)
    (fuel : Nat) : Option (Except Err ((Nat → Nat → Bool) × (Nat → Nat → Bool))) :=
  if entryWait = 0 ∧ exitWait = 0 then some (.error (.valueError "entry_wait and exit_wait cannot be both 0"))
  else
    loopOE (fun (out : (Nat → Nat → Bool) × (Nat → Nat → Bool)) col =>
      match stopTurns A nrows x entryWait exitWait pickFirst col fuel ⟨out.1, out.2, -2, -1, 0⟩ with
      | none => none
      | some (.error e) => some (.error e)
      | some (.ok s) => some (.ok (s.entries, s.exits))) (fun _ _ => false, fun _ _ => false) (List.range ncols)

/-! ## OHLC stops -/

/-- The variables of `ohlc_stop_choice` that change and the two arrays it writes. -/
structure OhlcScan where
  maxP : F
  minP : F
  out : List Nat
  price : Nat → Nat → F
  type : Nat → Nat → Int

/-- `curr_open`, `curr_high_raw`, `curr_low_raw` and `curr_close`, rust/src/signals.rs:801-813: high and low. -/
def barRange (x : OhlcArrays) (i col : Nat) : F × F :=
  let currClose := x.close i col
  let currOpen := if (x.open_ i col).isnan then currClose else x.open_ i col
  let low := if (x.low i col).isnan then Rs.fmin currOpen currClose else x.low i col
  let high := if (x.high i col).isnan then Rs.fmax currOpen currClose else x.high i col
  (high, low)

/-- `curr_sl_stop_price`, rust/src/signals.rs:815-829. -/
def slPrice (A : Arith) (initOpen sl : F) (trail reverse : Bool) (maxP minP : F) : F :=
  if !sl.isnan then
    if trail then
      if reverse then mul A minP (F.add A one sl) else mul A maxP (sub A one sl)
    else if reverse then mul A initOpen (F.add A one sl)
    else mul A initOpen (sub A one sl)
  else nan

/-- `curr_tp_stop_price`, rust/src/signals.rs:830-838. -/
def tpPrice (A : Arith) (initOpen tp : F) (reverse : Bool) : F :=
  if !tp.isnan then
    if reverse then mul A initOpen (sub A one tp) else mul A initOpen (F.add A one tp)
  else nan

/-- One row of `ohlc_stop_choice`, rust/src/signals.rs:799-888: the variables after the row, and whether the row is the first
exit and `pick_first` is set. -/
def ohlcScanStep (A : Arith) (x : OhlcArrays) (col initI : Nat) (pickFirst : Bool) (s : OhlcScan) (i : Nat) :
    OhlcScan × Bool :=
  let initOpen := x.open_ initI col
  let sl := x.slStop initI col
  let trail := x.slTrail initI col
  let tp := x.tpStop initI col
  let reverse := x.reverse initI col
  let slP := slPrice A initOpen sl trail reverse s.maxP s.minP
  let tpP := tpPrice A initOpen tp reverse
  let raw := barRange x i col
  let hl := if decide (i > initI) || x.isOpenSafe then raw else (x.close i col, x.close i col)
  let slHit := !sl.isnan && (if !reverse then le hl.2 slP else ge hl.1 slP)
  let s : OhlcScan :=
    if slHit then { s with price := set2 s.price i col slP,
                           type := set2 s.type i col (if trail then StopType.TrailStop else StopType.StopLoss) }
    else s
  let tpHit := !slHit && !tp.isnan && (if !reverse then ge hl.1 tpP else le hl.2 tpP)
  let s : OhlcScan :=
    if tpHit then { s with price := set2 s.price i col tpP, type := set2 s.type i col StopType.TakeProfit } else s
  let exit := slHit || tpHit
  let s : OhlcScan := if exit then { s with out := s.out ++ [i] } else s
  if exit && pickFirst then (s, true)
  else if trail then
    let s : OhlcScan := if lt hl.2 s.minP then { s with minP := hl.2 } else s
    let s : OhlcScan := if gt hl.1 s.maxP then { s with maxP := hl.1 } else s
    (s, false)
  else (s, false)

/-- The loop of `ohlc_stop_choice`, rust/src/signals.rs:799-889. -/
def ohlcScanLoop (A : Arith) (x : OhlcArrays) (col initI : Nat) (pickFirst : Bool) : List Nat → OhlcScan → OhlcScan
  | [], s => s
  | i :: rest, s =>
    let r := ohlcScanStep A x col initI pickFirst s i
    if r.2 then r.1 else ohlcScanLoop A x col initI pickFirst rest r.1

/-- `ohlc_stop_choice`, rust/src/signals.rs:764-892. -/
def ohlcStopChoice (A : Arith) (x : OhlcArrays) (price : Nat → Nat → F) (type : Nat → Nat → Int) (fromI toI col wait : Nat)
    (pickFirst : Bool) : Except Err (List Nat × (Nat → Nat → F) × (Nat → Nat → Int)) :=
  let initI := initIdx fromI wait
  if !(x.slStop initI col).isnan && lt (x.slStop initI col) zero then
    .error (.valueError "Stop value must be 0 or greater")
  else if !(x.tpStop initI col).isnan && lt (x.tpStop initI col) zero then
    .error (.valueError "Stop value must be 0 or greater")
  else
    let s := ohlcScanLoop A x col initI pickFirst (List.range' fromI (toI - fromI))
      ⟨x.open_ initI col, x.open_ initI col, [], price, type⟩
    .ok (s.out, s.price, s.type)

/-- One entry of `generate_ohlc_stop_ex`, rust/src/signals.rs:920-959; the variables are the three arrays and `last_exit_i`. -/
def ohlcExBody (A : Arith) (nrows : Nat) (x : OhlcArrays) (wait : Nat) (untilNext skipUntilExit pickFirst : Bool)
    (col : Nat) (s : OhlcOut × Int) (entryI : Nat) (next : Option Nat) : Except Err (OhlcOut × Int) :=
  if !(skipUntilExit && decide ((entryI : Int) ≤ s.2)) then
    let fromI := entryI + wait
    let toI := exTo untilNext next nrows
    if toI > fromI then
      match ohlcStopChoice A x s.1.price s.1.type fromI toI col wait pickFirst with
      | .error e => .error e
      | .ok ([], price, type) => .ok (⟨s.1.exits, price, type⟩, s.2)
      | .ok (hit :: hits, price, type) =>
        if pickFirst then .ok (⟨set2 s.1.exits hit col true, price, type⟩, hit)
        else
          .ok (⟨markAll s.1.exits (hit :: hits) col, price, type⟩, (hit :: hits).getLast (List.cons_ne_nil _ _))
    else .ok s
  else .ok s

/-- `generate_ohlc_stop_ex`, rust/src/signals.rs:894-965. -/
def generateOhlcStopEx (A : Arith) (nrows ncols : Nat) (x : OhlcArrays) (price : Nat → Nat → F) (type : Nat → Nat → Int)
    (wait : Nat) (untilNext skipUntilExit pickFirst : Bool) : Except Err OhlcOut :=
  loopE (fun (out : OhlcOut) col =>
    match exWhile x.entries col nrows (ohlcExBody A nrows x wait untilNext skipUntilExit pickFirst col)
        (nextTrue x.entries col 0 nrows) (out, -1) with
    | .error e => .error e
    | .ok s => .ok s.1) ⟨fun _ _ => false, price, type⟩ (List.range ncols)

/-- The variables of `generate_ohlc_stop_enex` for one column. -/
structure OhlcTurnState where
  out : OhlcEnexOut
  prevPrev : Int
  prev : Int
  i : Nat

/-- One turn of the loop of `generate_ohlc_stop_enex`, rust/src/signals.rs:995-1070: the variables after the turn and whether
the loop goes on. -/
def ohlcTurn (A : Arith) (nrows : Nat) (x : OhlcArrays) (entryWait exitWait : Nat) (pickFirst : Bool) (col : Nat)
    (s : OhlcTurnState) : Except Err (OhlcTurnState × Bool) :=
  let raw := fromRaw entryWait exitWait s.prev s.i
  if raw ≥ nrows then .ok (s, false)
  else
    let fromI := (max raw 0).toNat
    let toI := nrows
    if s.i % 2 = 0 then
      match (List.range' fromI (toI - fromI)).find? fun r => x.entries r col with
      | none => .ok (s, false)
      | some firstI =>
        if (firstI : Int) = s.prev ∧ s.prev = s.prevPrev then .error (.valueError "Infinite loop detected")
        else if firstI ≥ toI then .error (.valueError "First index is out of bounds")
        else
          .ok ({ out := { s.out with entries := set2 s.out.entries firstI col true },
                 prevPrev := s.prev, prev := firstI, i := s.i + 1 }, true)
    else
      match ohlcStopChoice A x s.out.price s.out.type fromI toI col exitWait pickFirst with
      | .error e => .error e
      | .ok ([], price, type) => .ok ({ s with out := { s.out with price := price, type := type } }, false)
      | .ok (firstI :: more, price, type) =>
        if (firstI : Int) = s.prev ∧ s.prev = s.prevPrev then .error (.valueError "Infinite loop detected")
        else if pickFirst then
          if firstI ≥ toI then .error (.valueError "First index is out of bounds")
          else
            .ok ({ out := { s.out with exits := set2 s.out.exits firstI col true, price := price, type := type },
                   prevPrev := s.prev, prev := firstI, i := s.i + 1 }, true)
        else
          let lastI := (firstI :: more).getLast (List.cons_ne_nil _ _)
          if lastI ≥ toI then .error (.valueError "Last index is out of bounds")
          else
            .ok ({ out := { s.out with exits := markAll s.out.exits (firstI :: more) col, price := price, type := type },
                   prevPrev := s.prev, prev := lastI, i := s.i + 1 }, true)

/-- `loop { … }` of `generate_ohlc_stop_enex`, cut after `fuel` turns. -/
def ohlcTurns (A : Arith) (nrows : Nat) (x : OhlcArrays) (entryWait exitWait : Nat) (pickFirst : Bool) (col : Nat) :
    Nat → OhlcTurnState → Option (Except Err OhlcTurnState)
  | 0, _ => none
  | fuel + 1, s =>
    match ohlcTurn A nrows x entryWait exitWait pickFirst col s with
    | .error e => some (.error e)
    | .ok (s', false) => some (.ok s')
    | .ok (s', true) => ohlcTurns A nrows x entryWait exitWait pickFirst col fuel s'

/-- `generate_ohlc_stop_enex`, rust/src/signals.rs:967-1076. -/
def generateOhlcStopEnex (A : Arith) (nrows ncols : Nat) (x : OhlcArrays) (price : Nat → Nat → F) (type : Nat → Nat → Int)
    (entryWait exitWait : Nat) (pickFirst : Bool) (fuel : Nat) : Option (Except Err OhlcEnexOut) :=
  if entryWait = 0 ∧ exitWait = 0 then some (.error (.valueError "entry_wait and exit_wait cannot be both 0"))
  else
    loopOE (fun (out : OhlcEnexOut) col =>
      match ohlcTurns A nrows x entryWait exitWait pickFirst col fuel ⟨out, -2, -1, 0⟩ with
      | none => none
      | some (.error e) => some (.error e)
      | some (.ok s) => some (.ok s.out)) ⟨fun _ _ => false, fun _ _ => false, price, type⟩ (List.range ncols)

/-! ## Ranges -/

/-- One row of `between_ranges`, rust/src/signals.rs:1086-1092; the variables are `prev_idx`, `ridx` and `out`. -/
def betweenRow (a : Nat → Nat → Bool) (col : Nat) (s : Int × RsGen.RangeOut) (row : Nat) : Int × RsGen.RangeOut :=
  if a row col then
    let o := if s.1 ≥ 0 then s.2.push col s.1 row RangeStatus.Closed else s.2
    (row, o)
  else s

/-- `between_ranges`, rust/src/signals.rs:1078-1097. -/
def betweenRanges (nrows ncols : Nat) (a : Nat → Nat → Bool) : List RangeRec :=
  ((List.range ncols).foldl (fun (o : RsGen.RangeOut) col =>
    ((List.range nrows).foldl (betweenRow a col) (-1, o)).2) ⟨0, []⟩).out

/-- `a_idxs`, rust/src/signals.rs:1109-1118. -/
def idxsOf (nrows : Nat) (a : Nat → Nat → Bool) (col : Nat) : List Nat :=
  (List.range nrows).foldl (fun l row => if a row col then l ++ [row] else l) []

/-- `while a_pos + 1 < a_idxs.len() && a_idxs[a_pos + 1] <= to_i`, rust/src/signals.rs:1126-1128. -/
def advancePos (as : List Nat) (toI pos : Nat) : Nat :=
  if h : pos + 1 < as.length then
    if as[pos + 1] ≤ toI then advancePos as toI (pos + 1) else pos
  else pos
termination_by as.length - pos

/-- `while b_pos < b_idxs.len() && b_idxs[b_pos] < from_i`, rust/src/signals.rs:1137-1139. -/
def skipPos (bs : List Nat) (fromI pos : Nat) : Nat :=
  if h : pos < bs.length then
    if bs[pos] < fromI then skipPos bs fromI (pos + 1) else pos
  else pos
termination_by bs.length - pos

/-- One signal of `b` for `from_other`, rust/src/signals.rs:1125-1133; the variables are `a_pos`, `ridx` and `out`.
`a_idxs[a_pos]` exists, since `a_idxs` is not empty. -/
def prevSignal (as : List Nat) (col : Nat) (s : Nat × RsGen.RangeOut) (toI : Nat) : Nat × RsGen.RangeOut :=
  let pos := advancePos as toI s.1
  let from_ := as.getD pos 0
  if from_ ≤ toI then (pos, s.2.push col from_ toI RangeStatus.Closed) else (pos, s.2)

/-- One signal of `a`, rust/src/signals.rs:1136-1144; the variables are `b_pos`, `ridx` and `out`. -/
def nextSignal (bs : List Nat) (col : Nat) (s : Nat × RsGen.RangeOut) (fromI : Nat) : Nat × RsGen.RangeOut :=
  let pos := skipPos bs fromI s.1
  if h : pos < bs.length then (pos, s.2.push col fromI (bs[pos]) RangeStatus.Closed) else (pos, s.2)

/-- One column of `between_two_ranges`, rust/src/signals.rs:1107-1146. -/
def betweenTwoCol (nrows : Nat) (a b : Nat → Nat → Bool) (fromOther : Bool) (o : RsGen.RangeOut) (col : Nat) :
    RsGen.RangeOut :=
  let as := idxsOf nrows a col
  let bs := idxsOf nrows b col
  if as.isEmpty || bs.isEmpty then o
  else if fromOther then (bs.foldl (prevSignal as col) (0, o)).2
  else (as.foldl (nextSignal bs col) (0, o)).2

/-- `between_two_ranges`, rust/src/signals.rs:1099-1148. -/
def betweenTwoRanges (nrows ncols : Nat) (a b : Nat → Nat → Bool) (fromOther : Bool) : List RangeRec :=
  ((List.range ncols).foldl (betweenTwoCol nrows a b fromOther) ⟨0, []⟩).out

/-- The variables of `partition_ranges` and `between_partition_ranges`. -/
structure PartScan where
  isPartition : Bool
  fromI : Int
  recs : RsGen.RangeOut

/-- One row of `partition_ranges`, rust/src/signals.rs:1158-1178. -/
def partitionRow (nrows : Nat) (a : Nat → Nat → Bool) (col : Nat) (s : PartScan) (row : Nat) : PartScan :=
  let s : PartScan :=
    if a row col then
      let s : PartScan := if !s.isPartition then { s with fromI := row } else s
      { s with isPartition := true }
    else if s.isPartition then
      { s with recs := s.recs.push col s.fromI row RangeStatus.Closed, isPartition := false }
    else s
  if row = nrows - 1 ∧ s.isPartition = true then
    { s with recs := s.recs.push col s.fromI ((nrows - 1 : Nat) : Int) RangeStatus.Open }
  else s

/-- `partition_ranges`, rust/src/signals.rs:1150-1183. -/
def partitionRanges (nrows ncols : Nat) (a : Nat → Nat → Bool) : List RangeRec :=
  ((List.range ncols).foldl (fun (o : RsGen.RangeOut) col =>
    ((List.range nrows).foldl (partitionRow nrows a col) ⟨false, -1, o⟩).recs) ⟨0, []⟩).out

/-- One row of `between_partition_ranges`, rust/src/signals.rs:1193-1204. -/
def betweenPartitionRow (a : Nat → Nat → Bool) (col : Nat) (s : PartScan) (row : Nat) : PartScan :=
  if a row col then
    let s : PartScan :=
      if !s.isPartition && decide (s.fromI ≠ -1) then { s with recs := s.recs.push col s.fromI row RangeStatus.Closed }
      else s
    { s with isPartition := true, fromI := row }
  else { s with isPartition := false }

/-- `between_partition_ranges`, rust/src/signals.rs:1185-1208. -/
def betweenPartitionRanges (nrows ncols : Nat) (a : Nat → Nat → Bool) : List RangeRec :=
  ((List.range ncols).foldl (fun (o : RsGen.RangeOut) col =>
    ((List.range nrows).foldl (betweenPartitionRow a col) ⟨false, -1, o⟩).recs) ⟨0, []⟩).out

/-! ## Ranks -/

/-- The variables of `sig_pos_rank` and `part_pos_rank`. -/
structure RankScan where
  temp : Int
  resetI : Nat
  prevPartEnd : Int
  partStart : Int
  inPartition : Bool
  falseSeen : Bool
  out : Nat → Nat → Int

/-- `if let Some(reset) = reset_by { if reset[[row, col]] { reset_i = row; } }`, rust/src/signals.rs:1227-1231. -/
def resetRow (resetBy : Option (Nat → Nat → Bool)) (row col resetI : Nat) : Nat :=
  match resetBy with
  | some reset => if reset row col then row else resetI
  | none => resetI

/-- A row without a signal, rust/src/signals.rs:1246-1252 and 1291-1297. -/
def falseRow (s : RankScan) (row : Nat) : RankScan :=
  let s : RankScan := if s.inPartition then { s with prevPartEnd := (row : Int) - 1 } else s
  { s with inPartition := false, falseSeen := true }

/-- One row of `sig_pos_rank`, rust/src/signals.rs:1226-1253. -/
def sigRow (a : Nat → Nat → Bool) (resetBy : Option (Nat → Nat → Bool)) (afterFalse allowGaps : Bool) (col : Nat)
    (s : RankScan) (row : Nat) : RankScan :=
  let s : RankScan := { s with resetI := resetRow resetBy row col s.resetI }
  let signal := a row col
  if signal && (!afterFalse || s.falseSeen) then
    let s : RankScan := if !s.inPartition then { s with partStart := row } else s
    let s : RankScan := { s with inPartition := true }
    let s : RankScan :=
      if decide ((s.resetI : Int) > s.prevPartEnd) && decide (max s.resetI s.partStart.toNat = row) then { s with temp := -1 }
      else if !allowGaps && decide (s.partStart = row) then { s with temp := -1 }
      else s
    let s : RankScan := { s with temp := s.temp + 1 }
    { s with out := set2 s.out row col s.temp }
  else if !signal then falseRow s row
  else s

/-- `sig_pos_rank`, rust/src/signals.rs:1210-1256. -/
def sigPosRank (nrows ncols : Nat) (a : Nat → Nat → Bool) (resetBy : Option (Nat → Nat → Bool))
    (afterFalse allowGaps : Bool) : Nat → Nat → Int :=
  (List.range ncols).foldl (fun out col =>
    ((List.range nrows).foldl (sigRow a resetBy afterFalse allowGaps col) ⟨-1, 0, -1, -1, false, !afterFalse, out⟩).out)
    fun _ _ => -1

/-- One row of `part_pos_rank`, rust/src/signals.rs:1273-1298. -/
def partRow (a : Nat → Nat → Bool) (resetBy : Option (Nat → Nat → Bool)) (afterFalse : Bool) (col : Nat)
    (s : RankScan) (row : Nat) : RankScan :=
  let s : RankScan := { s with resetI := resetRow resetBy row col s.resetI }
  let signal := a row col
  if signal && (!afterFalse || s.falseSeen) then
    let s : RankScan := if !s.inPartition then { s with partStart := row } else s
    let s : RankScan := { s with inPartition := true }
    let s : RankScan :=
      if decide ((s.resetI : Int) > s.prevPartEnd) && decide (max s.resetI s.partStart.toNat = row) then { s with temp := 0 }
      else if s.partStart = row then { s with temp := s.temp + 1 }
      else s
    { s with out := set2 s.out row col s.temp }
  else if !signal then falseRow s row
  else s

/-- `part_pos_rank`, rust/src/signals.rs:1258-1302. -/
def partPosRank (nrows ncols : Nat) (a : Nat → Nat → Bool) (resetBy : Option (Nat → Nat → Bool)) (afterFalse : Bool) :
    Nat → Nat → Int :=
  (List.range ncols).foldl (fun out col =>
    ((List.range nrows).foldl (partRow a resetBy afterFalse col) ⟨-1, 0, -1, -1, false, !afterFalse, out⟩).out)
    fun _ _ => -1

/-! ## Indices -/

/-- The loop for `n >= 0`, rust/src/signals.rs:1307-1314 and 1336-1344: the row found. -/
def nthForward (a : Nat → Bool) (n : Int) : List Nat → Int → Option Nat
  | [], _ => none
  | i :: rest, found =>
    if a i then if found + 1 = n then some i else nthForward a n rest (found + 1) else nthForward a n rest found

/-- The loop for `n < 0`, rust/src/signals.rs:1317-1324 and 1347-1355. -/
def nthBackward (a : Nat → Bool) (n : Int) : List Nat → Int → Option Nat
  | [], _ => none
  | i :: rest, found =>
    if a i then if found - 1 = n then some i else nthBackward a n rest (found - 1) else nthBackward a n rest found

/-- `nth_index_1d`, rust/src/signals.rs:1304-1327. -/
def nthIndex1d (len : Nat) (a : Nat → Bool) (n : Int) : Int :=
  match (if n ≥ 0 then nthForward a n (List.range len) (-1) else nthBackward a n (List.range len).reverse 0) with
  | some i => i
  | none => -1

/-- `nth_index`, rust/src/signals.rs:1329-1360. -/
def nthIndex (nrows ncols : Nat) (a : Nat → Nat → Bool) (n : Int) : Nat → Int :=
  (List.range ncols).foldl (fun out col =>
    match (if n ≥ 0 then nthForward (fun row => a row col) n (List.range nrows) (-1)
      else nthBackward (fun row => a row col) n (List.range nrows).reverse 0) with
    | some row => setAt out col (row : Int)
    | none => out) fun _ => -1

/-- `sum += i as f64; cnt += 1`, e.g. rust/src/signals.rs:1365-1370; `i as f64` rounds. -/
def sumStep (A : Arith) (a : Nat → Bool) (s : F × Nat) (i : Nat) : F × Nat :=
  if a i then (F.add A s.1 (A.rnd (i : ℚ)), s.2 + 1) else s

/-- `(2.0 * mean_index / (len as f64 - 1.0)) - 1.0` with `mean_index = sum / cnt as f64`, e.g.
rust/src/signals.rs:1371-1372. -/
def normIndex (A : Arith) (s : F × Nat) (len : Nat) : F :=
  let meanIndex := div A s.1 (A.rnd (s.2 : ℚ))
  sub A (div A (mul A (fin 2) meanIndex) (sub A (A.rnd (len : ℚ)) one)) one

/-- `norm_avg_index_1d`, rust/src/signals.rs:1362-1373. -/
def normAvgIndex1d (A : Arith) (len : Nat) (a : Nat → Bool) : F :=
  normIndex A ((List.range len).foldl (sumStep A a) (zero, 0)) len

/-- `norm_avg_index`, rust/src/signals.rs:1375-1416: arrays in standard layout are read row by row with one sum per column. -/
def normAvgIndex (A : Arith) (nrows ncols : Nat) (a : Nat → Nat → Bool) (standard : Bool) : Nat → F :=
  if standard then
    let slice : Nat → Bool := fun k => a (k / ncols) (k % ncols)
    let s := (List.range nrows).foldl (fun (s : (Nat → F) × (Nat → Nat)) row =>
      let base := row * ncols
      (List.range ncols).foldl (fun (s : (Nat → F) × (Nat → Nat)) col =>
        if slice (base + col) then
          (setAt s.1 col (F.add A (s.1 col) (A.rnd (row : ℚ))), setAt s.2 col (s.2 col + 1))
        else s) s) ((fun _ => zero), fun _ => 0)
    (List.range ncols).foldl (fun out col =>
      if s.2 col > 0 then setAt out col (normIndex A (s.1 col, s.2 col) nrows) else out) fun _ => nan
  else
    (List.range ncols).foldl (fun out col =>
      let s := (List.range nrows).foldl (sumStep A fun row => a row col) (zero, 0)
      if s.2 > 0 then setAt out col (normIndex A s nrows) else out) fun _ => nan

end Vbt.RsSig
