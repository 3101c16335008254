import Verif.Model.Sim

/-!
# Signals: `vectorbt/signals/nb.py`

One column at a time: every function below is applied to each column separately in the code, columns share nothing but
the record counter of the range functions (`rangesOf`).

Simplifications:
* a boolean column of `n` rows is a function of the row together with `n`; `a[i, col] = True` is `setAt`;
* waits are natural numbers (the code accepts negative ones);
* a choice function is a function of the arguments that can differ between its calls for one column (`from_i`, `to_i`,
  and for `generate_enex_nb` the number of the call), so random and stateful choice functions are covered;
* the temporary array `temp_idx_arr` is a list;
* the Numba engine is modelled, not the Rust one.
-/

namespace Vbt
open F

/-- `np.flatnonzero(a[:, col])`. -/
def flatnonzero (n : Nat) (a : Nat → Bool) : List Nat := (List.range n).filter a

/-- `out[idxs, col] = True` for indices that were checked to be rows. -/
def setRows (a : Nat → Bool) (idxs : List Int) : Nat → Bool := fun j => a j || idxs.contains (j : Int)

/-! ## Cleaning -/

/-- The local variables of `clean_enex_1d_nb`. -/
structure CleanState where
  phase : Int
  entries : Nat → Bool
  exits : Nat → Bool

/-- One row of `clean_enex_1d_nb`, signals/nb.py:267-277. -/
def cleanStep (en ex : Nat → Bool) (entryFirst : Bool) (s : CleanState) (i : Nat) : CleanState :=
  if en i && ex i then s
  else
    let s1 : CleanState :=
      if en i then
        if s.phase = -1 ∨ s.phase = 0 then { s with phase := 1, entries := setAt s.entries i true } else s
      else s
    if ex i then
      if (!entryFirst ∧ s1.phase = -1) ∨ s1.phase = 1 then { s1 with phase := 0, exits := setAt s1.exits i true } else s1
    else s1

/-- `clean_enex_1d_nb`, signals/nb.py:259-279. -/
def cleanEnex (n : Nat) (en ex : Nat → Bool) (entryFirst : Bool) : (Nat → Bool) × (Nat → Bool) :=
  let s := (List.range n).foldl (cleanStep en ex entryFirst) ⟨-1, fun _ => false, fun _ => false⟩
  (s.entries, s.exits)

/-! ## Generation -/

/-- A choice function, called with `from_i` and `to_i`. -/
abbrev Choice := Int → Int → List Int

/-- One column of `generate_nb`, signals/nb.py:76-87. -/
def generateCol (n : Nat) (pickFirst : Bool) (choice : Choice) : Except Err (Nat → Bool) :=
  match choice 0 n with
  | [] => .ok (fun _ => false)
  | first :: rest =>
    if pickFirst then
      if first < 0 ∨ first ≥ n then .error (.valueError "First returned index is out of bounds")
      else .ok (setRows (fun _ => false) [first])
    else if (first :: rest).any (fun x => decide (x < 0)) || (first :: rest).any (fun x => decide (x ≥ n)) then
      .error (.valueError "Returned indices are out of bounds")
    else .ok (setRows (fun _ => false) (first :: rest))

/-- The local variables of `generate_ex_nb` for one column. -/
structure ExState where
  exits : Nat → Bool
  lastExit : Int

/-- The end of the range to choose from, signals/nb.py:135-138; `rest` are the entries that follow. -/
def exTo (n : Nat) (untilNext : Bool) (rest : List Nat) : Nat :=
  match rest with
  | e :: _ => if untilNext then e else n
  | [] => n

/-- The loop over the entries of one column of `generate_ex_nb`, signals/nb.py:130-154. -/
def exLoop (n wait : Nat) (untilNext skipUntilExit pickFirst : Bool) (choice : Choice) :
    List Nat → ExState → Except Err ExState
  | [], s => .ok s
  | e :: rest, s =>
    if skipUntilExit && decide ((e : Int) ≤ s.lastExit) then
      exLoop n wait untilNext skipUntilExit pickFirst choice rest s
    else
      let fromI := e + wait
      let toI := exTo n untilNext rest
      if toI > fromI then
        match choice fromI toI with
        | [] => exLoop n wait untilNext skipUntilExit pickFirst choice rest s
        | first :: more =>
          if pickFirst then
            if first < fromI ∨ first ≥ toI then .error (.valueError "First returned index is out of bounds")
            else
              exLoop n wait untilNext skipUntilExit pickFirst choice rest ⟨setRows s.exits [first], first⟩
          else if (first :: more).any (fun x => decide (x < fromI)) || (first :: more).any (fun x => decide (x ≥ toI)) then
            .error (.valueError "Returned indices are out of bounds")
          else
            exLoop n wait untilNext skipUntilExit pickFirst choice rest
              ⟨setRows s.exits (first :: more), (first :: more).getLast (List.cons_ne_nil _ _)⟩
      else exLoop n wait untilNext skipUntilExit pickFirst choice rest s

/-- One column of `generate_ex_nb`, signals/nb.py:92-155. -/
def generateEx (n : Nat) (entries : Nat → Bool) (wait : Nat) (untilNext skipUntilExit pickFirst : Bool)
    (choice : Choice) : Except Err (Nat → Bool) :=
  match exLoop n wait untilNext skipUntilExit pickFirst choice (flatnonzero n entries) ⟨fun _ => false, -1⟩ with
  | .error e => .error e
  | .ok s => .ok s.exits

/-- The local variables of `generate_enex_nb` for one column. -/
structure EnexState where
  entries : Nat → Bool
  exits : Nat → Bool
  prevPrev : Int
  prev : Int
  i : Nat

/-- The arguments of `generate_enex_nb` for one column; the choice functions also get the number of the call. -/
structure EnexInputs where
  n : Nat
  entryWait : Nat
  exitWait : Nat
  entryPickFirst : Bool
  exitPickFirst : Bool
  entryChoice : Nat → Choice
  exitChoice : Nat → Choice

/-- `a[idxs, col] = True` for indices of which only the first and the last were checked: a negative index counts from
the end, as in NumPy; anything else outside of the array is not modelled (Numba does not check it). -/
def setWrapped (n : Nat) (a : Nat → Bool) (idxs : List Int) : Nat → Bool :=
  fun j => a j || idxs.any (fun x => x == (j : Int) || (decide (x < 0) && x + n == (j : Int)))

/-- `from_i`, signals/nb.py:210-221. -/
def enexFrom (x : EnexInputs) (s : EnexState) : Int :=
  if s.i % 2 = 0 then (if s.i = 0 then 0 else s.prev + x.entryWait) else s.prev + x.exitWait

/-- One turn of the loop of `generate_enex_nb`, signals/nb.py:208-250; `none`: the loop is left. -/
def enexStep (x : EnexInputs) (s : EnexState) : Except Err (Option EnexState) :=
  let toI : Int := x.n
  let fromI := enexFrom x s
  if fromI ≥ toI then .ok none
  else
    let isEntry := decide (s.i % 2 = 0)
    let idxs := if isEntry then x.entryChoice s.i fromI toI else x.exitChoice s.i fromI toI
    let pickFirst := if isEntry then x.entryPickFirst else x.exitPickFirst
    match idxs with
    | [] => .ok none
    | first :: more =>
      if first = s.prev ∧ s.prev = s.prevPrev then .error (.valueError "Infinite loop detected")
      else if first < fromI then .error (.valueError "First index is out of bounds")
      else if pickFirst then
        if first ≥ toI then .error (.valueError "First index is out of bounds")
        else
          .ok (some { entries := if isEntry then setWrapped x.n s.entries [first] else s.entries,
                      exits := if isEntry then s.exits else setWrapped x.n s.exits [first],
                      prevPrev := s.prev, prev := first, i := s.i + 1 })
      else
        let last := (first :: more).getLast (List.cons_ne_nil _ _)
        if last ≥ toI then .error (.valueError "Last index is out of bounds")
        else
          .ok (some { entries := if isEntry then setWrapped x.n s.entries (first :: more) else s.entries,
                      exits := if isEntry then s.exits else setWrapped x.n s.exits (first :: more),
                      prevPrev := s.prev, prev := last, i := s.i + 1 })

/-- `while True`, cut after `fuel` turns: `none` means that the loop is still running. -/
def enexLoop (x : EnexInputs) : Nat → EnexState → Option (Except Err EnexState)
  | 0, _ => none
  | fuel + 1, s =>
    match enexStep x s with
    | .error e => some (.error e)
    | .ok none => some (.ok s)
    | .ok (some s') => enexLoop x fuel s'

/-- One column of `generate_enex_nb`, signals/nb.py:159-252, cut after `fuel` turns of its loop. -/
def generateEnex (x : EnexInputs) (fuel : Nat) : Option (Except Err ((Nat → Bool) × (Nat → Bool))) :=
  if x.entryWait = 0 ∧ x.exitWait = 0 then some (.error (.valueError "entry_wait and exit_wait cannot be both 0"))
  else
    match enexLoop x fuel ⟨fun _ => false, fun _ => false, -2, -1, 0⟩ with
    | none => none
    | some (.error e) => some (.error e)
    | some (.ok s) => some (.ok (s.entries, s.exits))

/-! ## Stop exits -/

/-- `first_choice_nb`, signals/nb.py:560-567. -/
def firstChoice (a : Nat → Bool) (fromI toI : Nat) : List Nat :=
  match (List.range' fromI (toI - fromI)).find? a with
  | some i => [i]
  | none => []

/-- The local variables of `stop_choice_nb`. -/
structure StopState where
  maxHigh : F
  minLow : F
  hits : List Nat
  done : Bool

/-- `curr_stop_price`, signals/nb.py:613-622. -/
def stopLevelAt (A : Arith) (initTs stop : F) (trailing : Bool) (s : StopState) : F :=
  if trailing then
    if ge stop zero then mul A s.minLow (add A one stop.abs)
    else mul A s.maxHigh (sub A one stop.abs)
  else mul A initTs (add A one stop)

/-- One row of `stop_choice_nb`, signals/nb.py:613-642. -/
def stopStep (A : Arith) (ts : Nat → F) (initTs stop : F) (trailing pickFirst : Bool) (s : StopState) (i : Nat) :
    StopState :=
  if s.done then s
  else
    let curr := ts i
    let hit := !stop.isnan && (if ge stop zero then ge curr (stopLevelAt A initTs stop trailing s)
      else le curr (stopLevelAt A initTs stop trailing s))
    if hit && pickFirst then { s with hits := s.hits ++ [i], done := true }
    else
      let s1 : StopState := if hit then { s with hits := s.hits ++ [i] } else s
      if trailing then
        if lt curr s1.minLow then { s1 with minLow := curr }
        else if gt curr s1.maxHigh then { s1 with maxHigh := curr }
        else s1
      else s1

/-- `stop_choice_nb`, signals/nb.py:571-643; `done` is the early `return`. -/
def stopChoice (A : Arith) (ts stop : Nat → F) (trailing : Nat → Bool) (wait : Nat) (pickFirst : Bool)
    (fromI toI : Nat) : List Nat :=
  let initI := fromI - wait
  ((List.range' fromI (toI - fromI)).foldl (stopStep A ts (ts initI) (stop initI) (trailing initI) pickFirst)
    ⟨ts initI, ts initI, [], false⟩).hits

/-- Stop types, signals/enums.py:19-22. -/
def StopType.StopLoss : Int := 0
def StopType.TrailStop : Int := 1
def StopType.TakeProfit : Int := 2

/-- The arguments of `ohlc_stop_choice_nb` for one column. -/
structure OhlcInputs where
  open_ : Nat → F
  high : Nat → F
  low : Nat → F
  close : Nat → F
  slStop : Nat → F
  slTrail : Nat → Bool
  tpStop : Nat → F
  reverse : Nat → Bool
  isOpenSafe : Bool
  wait : Nat
  pickFirst : Bool

/-- The local variables of `ohlc_stop_choice_nb` and its two output arrays. -/
structure OhlcState where
  maxP : F
  minP : F
  hits : List Nat
  price : Nat → F
  type : Nat → Int
  done : Bool

/-- The bar, signals/nb.py:818-827: open, high, low, close. -/
def ohlcBar (x : OhlcInputs) (i : Nat) : F × F × F × F :=
  let o := if (x.open_ i).isnan then x.close i else x.open_ i
  let l := if (x.low i).isnan then pmin o (x.close i) else x.low i
  let h := if (x.high i).isnan then pmax o (x.close i) else x.high i
  (o, h, l, x.close i)

/-- `curr_high`, `curr_low`, signals/nb.py:848-855. -/
def ohlcRange (x : OhlcInputs) (initI i : Nat) : F × F :=
  let b := ohlcBar x i
  if decide (i > initI) || x.isOpenSafe then (b.2.1, b.2.2.1) else (b.2.2.2, b.2.2.2)

/-- `curr_sl_stop_price`, signals/nb.py:830-840. -/
def slLevel (A : Arith) (x : OhlcInputs) (initI : Nat) (maxP minP : F) : F :=
  let sl := x.slStop initI
  if x.slTrail initI then
    if x.reverse initI then mul A minP (add A one sl) else mul A maxP (sub A one sl)
  else if x.reverse initI then mul A (x.open_ initI) (add A one sl)
  else mul A (x.open_ initI) (sub A one sl)

/-- `curr_tp_stop_price`, signals/nb.py:841-845. -/
def tpLevel (A : Arith) (x : OhlcInputs) (initI : Nat) : F :=
  if x.reverse initI then mul A (x.open_ initI) (sub A one (x.tpStop initI))
  else mul A (x.open_ initI) (add A one (x.tpStop initI))

/-- One row of `ohlc_stop_choice_nb`, signals/nb.py:817-886. -/
def ohlcStep (A : Arith) (x : OhlcInputs) (initI : Nat) (s : OhlcState) (i : Nat) : OhlcState :=
  if s.done then s
  else
    let hl := ohlcRange x initI i
    let sl := slLevel A x initI s.maxP s.minP
    let tp := tpLevel A x initI
    let slHit := !(x.slStop initI).isnan && (if x.reverse initI then ge hl.1 sl else le hl.2 sl)
    let tpHit := !slHit && !(x.tpStop initI).isnan && (if x.reverse initI then le hl.2 tp else ge hl.1 tp)
    let s1 : OhlcState :=
      if slHit then
        { s with price := setAt s.price i sl,
                 type := setAt s.type i (if x.slTrail initI then StopType.TrailStop else StopType.StopLoss) }
      else if tpHit then { s with price := setAt s.price i tp, type := setAt s.type i StopType.TakeProfit }
      else s
    if (slHit || tpHit) && x.pickFirst then { s1 with hits := s1.hits ++ [i], done := true }
    else
      let s2 : OhlcState := if slHit || tpHit then { s1 with hits := s1.hits ++ [i] } else s1
      if x.slTrail initI then
        { s2 with minP := if lt hl.2 s2.minP then hl.2 else s2.minP,
                  maxP := if gt hl.1 s2.maxP then hl.1 else s2.maxP }
      else s2

/-- `ohlc_stop_choice_nb`, signals/nb.py:736-888: the chosen rows and the two output arrays. -/
def ohlcStopChoice (A : Arith) (x : OhlcInputs) (price : Nat → F) (type : Nat → Int) (fromI toI : Nat) :
    Except Err (List Nat × (Nat → F) × (Nat → Int)) :=
  let initI := fromI - x.wait
  if lt (x.slStop initI) zero then .error (.valueError "Stop value must be 0 or greater")
  else if lt (x.tpStop initI) zero then .error (.valueError "Stop value must be 0 or greater")
  else
    let s := (List.range' fromI (toI - fromI)).foldl (ohlcStep A x initI)
      ⟨x.open_ initI, x.open_ initI, [], price, type, false⟩
    .ok (s.hits, s.price, s.type)

/-! ## Ranges -/

/-- Range statuses, generic/enums.py:21-26. -/
def RangeStatus.Open : Int := 0
def RangeStatus.Closed : Int := 1

/-- A record of type `range_dt`, generic/enums.py:58-61. -/
structure RangeRec where
  id : Nat
  col : Nat
  start : Nat
  stop : Nat
  status : Int
  deriving DecidableEq

/-- The loop over the columns with the shared record counter: column `c` contributes the ranges `f c` (start, end,
status) in order. -/
def rangesOf (cols : Nat) (f : Nat → List (Nat × Nat × Int)) : List RangeRec :=
  (List.range cols).foldl (fun out c =>
    (f c).foldl (fun out r => out ++ [⟨out.length, c, r.1, r.2.1, r.2.2⟩]) out) []

/-- One column of `between_ranges_nb`, signals/nb.py:1065-1076: `a_idxs[j - 1]`, `a_idxs[j]` for `j ≥ 1`. -/
def betweenCol (n : Nat) (a : Nat → Bool) : List (Nat × Nat × Int) :=
  let idxs := flatnonzero n a
  (idxs.zip idxs.tail).map fun p => (p.1, p.2, RangeStatus.Closed)

/-- `between_ranges_nb`, signals/nb.py:1059-1076. -/
def betweenRanges (n cols : Nat) (a : Nat → Nat → Bool) : List RangeRec :=
  rangesOf cols fun c => betweenCol n fun i => a i c

/-- `while b_pos < len and b_idxs[b_pos] < from_i: b_pos += 1`, signals/nb.py:1114-1115: what is left of `b_idxs`. -/
def skipBelow (fromI : Nat) : List Nat → List Nat
  | [] => []
  | b :: bs => if b < fromI then skipBelow fromI bs else b :: bs

/-- From each signal in `a` to the succeeding one in `b`, signals/nb.py:1112-1123; `bs` is `b_idxs[b_pos:]`. -/
def toNext : List Nat → List Nat → List (Nat × Nat × Int)
  | [], _ => []
  | fromI :: as, bs =>
    match skipBelow fromI bs with
    | [] => toNext as []
    | b :: bs' => (fromI, b, RangeStatus.Closed) :: toNext as (b :: bs')

/-- `while a_pos + 1 < len and a_idxs[a_pos + 1] <= to_i: a_pos += 1`, signals/nb.py:1101-1102: `a_idxs[a_pos]` and
what follows. -/
def advance (toI : Nat) : Nat → List Nat → Nat × List Nat
  | a, [] => (a, [])
  | a, a' :: as => if a' ≤ toI then advance toI a' as else (a, a' :: as)

/-- From each signal in `b` to the preceding one in `a`, signals/nb.py:1099-1110; `a :: as` is `a_idxs[a_pos:]`. -/
def fromPrev : Nat → List Nat → List Nat → List (Nat × Nat × Int)
  | _, _, [] => []
  | a, as, toI :: bs =>
    let p := advance toI a as
    if p.1 ≤ toI then (p.1, toI, RangeStatus.Closed) :: fromPrev p.1 p.2 bs
    else fromPrev p.1 p.2 bs

/-- One column of `between_two_ranges_nb`, signals/nb.py:1091-1123. -/
def betweenTwoCol (n : Nat) (a b : Nat → Bool) (fromOther : Bool) : List (Nat × Nat × Int) :=
  match flatnonzero n a with
  | [] => []
  | a0 :: as =>
    match flatnonzero n b with
    | [] => []
    | b0 :: bs => if fromOther then fromPrev a0 as (b0 :: bs) else toNext (a0 :: as) (b0 :: bs)

/-- `between_two_ranges_nb`, signals/nb.py:1080-1124. -/
def betweenTwoRanges (n cols : Nat) (a b : Nat → Nat → Bool) (fromOther : Bool) : List RangeRec :=
  rangesOf cols fun c => betweenTwoCol n (fun i => a i c) (fun i => b i c) fromOther

/-- The local variables of `partition_ranges_nb` and `between_partition_ranges_nb` for one column. -/
structure PartState where
  isPartition : Bool
  fromI : Int
  out : List (Nat × Nat × Int)

/-- One row of `partition_ranges_nb`, signals/nb.py:1137-1158. -/
def partStep (n : Nat) (a : Nat → Bool) (s : PartState) (i : Nat) : PartState :=
  let s1 : PartState :=
    if a i then { s with fromI := if !s.isPartition then i else s.fromI, isPartition := true }
    else if s.isPartition then
      { s with out := s.out ++ [(s.fromI.toNat, i, RangeStatus.Closed)], isPartition := false }
    else s
  if i = n - 1 ∧ s1.isPartition then { s1 with out := s1.out ++ [(s1.fromI.toNat, n - 1, RangeStatus.Open)] } else s1

/-- One column of `partition_ranges_nb`. -/
def partitionCol (n : Nat) (a : Nat → Bool) : List (Nat × Nat × Int) :=
  ((List.range n).foldl (partStep n a) ⟨false, -1, []⟩).out

/-- `partition_ranges_nb`, signals/nb.py:1128-1159. -/
def partitionRanges (n cols : Nat) (a : Nat → Nat → Bool) : List RangeRec :=
  rangesOf cols fun c => partitionCol n fun i => a i c

/-- One row of `between_partition_ranges_nb`, signals/nb.py:1172-1184. -/
def betweenPartStep (a : Nat → Bool) (s : PartState) (i : Nat) : PartState :=
  if a i then
    let s1 : PartState :=
      if !s.isPartition ∧ s.fromI ≠ -1 then { s with out := s.out ++ [(s.fromI.toNat, i, RangeStatus.Closed)] } else s
    { s1 with isPartition := true, fromI := i }
  else { s with isPartition := false }

/-- One column of `between_partition_ranges_nb`. -/
def betweenPartitionCol (n : Nat) (a : Nat → Bool) : List (Nat × Nat × Int) :=
  ((List.range n).foldl (betweenPartStep a) ⟨false, -1, []⟩).out

/-- `between_partition_ranges_nb`, signals/nb.py:1163-1185. -/
def betweenPartitionRanges (n cols : Nat) (a : Nat → Nat → Bool) : List RangeRec :=
  rangesOf cols fun c => betweenPartitionCol n fun i => a i c

/-! ## Ranking -/

/-- The local variables of `rank_nb` for one column and the entry `temp` of the temporary array of the rank function. -/
structure RankState where
  resetI : Int
  prevPartEnd : Int
  partStart : Int
  inPartition : Bool
  falseSeen : Bool
  temp : Int
  out : Nat → Int

/-- A rank function: row, last reset, end of the previous partition, start of the current one and `temp[col]`; returns
the rank and the new `temp[col]`. -/
abbrev RankFunc := Int → Int → Int → Int → Int → Int × Int

/-- `reset_i` in row `i`, signals/nb.py:1217-1219. -/
def rankReset (resetBy : Option (Nat → Bool)) (i : Nat) (resetI : Int) : Int :=
  match resetBy with
  | some r => if r i then i else resetI
  | none => resetI

/-- One row of `rank_nb`, signals/nb.py:1216-1229. -/
def rankStep (a : Nat → Bool) (resetBy : Option (Nat → Bool)) (afterFalse : Bool) (f : RankFunc) (s : RankState)
    (i : Nat) : RankState :=
  let s1 : RankState := { s with resetI := rankReset resetBy i s.resetI }
  if a i && !(afterFalse && !s1.falseSeen) then
    let start : Int := if !s1.inPartition then i else s1.partStart
    let p := f i s1.resetI s1.prevPartEnd start s1.temp
    { s1 with partStart := start, inPartition := true, out := setAt s1.out i p.1, temp := p.2 }
  else if !a i then
    { s1 with prevPartEnd := if s1.inPartition then (i : Int) - 1 else s1.prevPartEnd, inPartition := false,
              falseSeen := true }
  else s1

/-- One column of `rank_nb`, signals/nb.py:1192-1229, with `temp` initialised to -1
(signals/dispatch.py:1141 and 1162). -/
def rank (n : Nat) (a : Nat → Bool) (resetBy : Option (Nat → Bool)) (afterFalse : Bool) (f : RankFunc) : Nat → Int :=
  ((List.range n).foldl (rankStep a resetBy afterFalse f) ⟨0, -1, -1, false, !afterFalse, -1, fun _ => -1⟩).out

/-- `sig_pos_rank_nb`, signals/nb.py:1233-1248. -/
def sigPosRank (allowGaps : Bool) : RankFunc := fun i resetI prevEnd start temp =>
  let t := if resetI > prevEnd ∧ max resetI start = i then -1
    else if !allowGaps ∧ start = i then -1 else temp
  (t + 1, t + 1)

/-- `part_pos_rank_nb`, signals/nb.py:1252-1265. -/
def partPosRank : RankFunc := fun i resetI prevEnd start temp =>
  let t := if resetI > prevEnd ∧ max resetI start = i then 0
    else if start = i then temp + 1 else temp
  (t, t)

end Vbt
