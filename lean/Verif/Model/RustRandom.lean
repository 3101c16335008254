import Verif.Model.RandomSignals

/-!
# Random signals in the Rust engine: `rust/src/signals.rs`

One column at a time, with the draws as arguments as in `Model/RandomSignals`: `rng.random::<f64>()` is `k / 2 ^ 53` for an
arbitrary `k < 2 ^ 53`, `rng.random_range(0..m)` is an arbitrary number modulo `m`, and `rand::seq::index::sample` returns
different numbers.  The two paths for probabilities of full shape and of flexible shape differ in the access only and are one
here.  `usize` is `Nat`, with `Int` for differences that could become negative; `i64` is `Int` without overflow.
-/

namespace Vbt.RsSig
open Vbt F

/-- `generate_rand`, rust/src/signals.rs:67-80. -/
def generateRand (nrows n : Nat) (sample : Nat → Nat → List Nat) : Nat → Bool :=
  let size := min n nrows
  if size = 0 then fun _ => false
  else (sample nrows size).foldl (fun out idx => setAt out idx true) (fun _ => false)

/-- The loop over the rows of `generate_rand_by_prob`, rust/src/signals.rs:103-111. -/
def probScan (prob : Nat → F) (pickFirst : Bool) (u : Nat → Nat) : List Nat → (Nat → Bool) → (Nat → Bool)
  | [], out => out
  | row :: rest, out =>
    if lt (unitFloat (u row)) (prob row) then
      let out := setAt out row true
      if pickFirst then out else probScan prob pickFirst u rest out
    else probScan prob pickFirst u rest out

/-- `generate_rand_by_prob`, rust/src/signals.rs:82-114. -/
def generateRandByProb (nrows : Nat) (prob : Nat → F) (pickFirst : Bool) (u : Nat → Nat) : Nat → Bool :=
  probScan prob pickFirst u (List.range nrows) (fun _ => false)

/-- One entry of `generate_rand_ex`, rust/src/signals.rs:134-147; `draw from_i` is drawn for the window from `from_i` on. -/
def randExBody (nrows wait : Nat) (untilNext skipUntilExit : Bool) (draw : Nat → Nat) (s : (Nat → Bool) × Int) (entryI : Nat)
    (next : Option Nat) : Except Err ((Nat → Bool) × Int) :=
  if !(skipUntilExit && decide ((entryI : Int) ≤ s.2)) then
    let fromI := entryI + wait
    let toI := exTo untilNext next nrows
    if toI > fromI then
      let exitI := fromI + draw fromI % (toI - fromI)
      .ok (setAt s.1 exitI true, exitI)
    else .ok s
  else .ok s

/-- `generate_rand_ex`, rust/src/signals.rs:120-151. -/
def generateRandEx (nrows : Nat) (entries : Nat → Bool) (wait : Nat) (untilNext skipUntilExit : Bool) (draw : Nat → Nat) :
    Except Err ((Nat → Bool) × Int) :=
  exWhile (fun i _ => entries i) 0 nrows (randExBody nrows wait untilNext skipUntilExit draw)
    (nextTrue (fun i _ => entries i) 0 0 nrows) (fun _ => false, -1)

/-- `for idx in from_i..to_i { if … { …; break; } }`, rust/src/signals.rs:205-211. -/
def probFind (prob : Nat → F) (u : Nat → Nat) : List Nat → Option Nat
  | [] => none
  | idx :: rest => if lt (unitFloat (u idx)) (prob idx) then some idx else probFind prob u rest

/-- One entry of `generate_rand_ex_by_prob`, rust/src/signals.rs:197-214. -/
def randExByProbBody (nrows : Nat) (prob : Nat → F) (wait : Nat) (untilNext skipUntilExit : Bool) (u : Int → Nat → Nat)
    (s : (Nat → Bool) × Int) (entryI : Nat) (next : Option Nat) : Except Err ((Nat → Bool) × Int) :=
  if !(skipUntilExit && decide ((entryI : Int) ≤ s.2)) then
    let fromI := entryI + wait
    let toI := exTo untilNext next nrows
    if toI > fromI then
      match probFind prob (u (fromI : Nat)) (List.range' fromI (toI - fromI)) with
      | some idx => .ok (setAt s.1 idx true, idx)
      | none => .ok s
    else .ok s
  else .ok s

/-- `generate_rand_ex_by_prob`, rust/src/signals.rs:153-218. -/
def generateRandExByProb (nrows : Nat) (entries : Nat → Bool) (prob : Nat → F) (wait : Nat) (untilNext skipUntilExit : Bool)
    (u : Int → Nat → Nat) : Except Err ((Nat → Bool) × Int) :=
  exWhile (fun i _ => entries i) 0 nrows (randExByProbBody nrows prob wait untilNext skipUntilExit u)
    (nextTrue (fun i _ => entries i) 0 0 nrows) (fun _ => false, -1)

/-- `uniform_summing_to_one`, rust/src/signals.rs:220-233, for `n ≥ 1`. -/
def uniformOne (A : Arith) (n : Nat) (u : Nat → Nat) : List F :=
  let fs := ((0 :: 2 ^ 53 :: (List.range (n - 1)).map u).mergeSort (fun a b => decide (a ≤ b))).map unitFloat
  (List.range n).map fun i => sub A (fs.getD (i + 1) nan) (fs.getD i nan)

/-- `rescale_float_to_int`, rust/src/signals.rs:235-250. -/
def rescaleInt (A : Arith) (floats : List F) (lo hi total : Int) (pos : Nat → Nat) : List Int :=
  let delta := sub A (fin hi) (fin lo)
  let ints := floats.map fun f => floorInt (F.add A (mul A delta f) (fin lo))
  let leftover := total - ints.sum
  if leftover > 0 ∧ ints ≠ [] then (List.range leftover.toNat).foldl (fun l i => bump l (pos i)) ints else ints

/-- `entry_idx += r; entries[[entry_idx, col]] = true;`, rust/src/signals.rs:325-330. -/
def markSums : List Int → Int → (Nat → Bool) → (Nat → Bool)
  | [], _, out => out
  | r :: rest, idx, out => markSums rest (idx + r) (setAt out (idx + r).toNat true)

/-- The entries of one column, rust/src/signals.rs:284-331. -/
def enexEntries (A : Arith) (nrows n entryWait exitWait : Nat) (d : EnexDraws) : Except Err (Nat → Bool) :=
  if n = 1 then
    if nrows ≤ exitWait then .error (.valueError "Cannot fit entry before exit_wait")
    else .ok (setAt (fun _ => false) (d.first % (nrows - exitWait)) true)
  else if n > 1 then
    let minRange := entryWait + exitWait
    let minTotalRange := minRange * (n - 1)
    if nrows < minTotalRange + exitWait + 1 then .error (.valueError "Cannot take a larger sample than population")
    else
      let maxFreeSpace := nrows - minTotalRange - 1
      let pre := min maxFreeSpace (3 * nrows / (n + 1))
      let freeSpace := if pre > exitWait then pre - exitWait else 0
      let spaces := rescaleInt A (uniformOne A 6 d.spaces) 0 freeSpace freeSpace d.spacePos
      let firstIdx := (spaces.headD 0).toNat
      let tailSum := (spaces.drop (spaces.length - 2)).sum
      let lastIdx := ((nrows : Int) - tailSum - exitWait - 1).toNat
      let totalRange : Int := (lastIdx : Int) - firstIdx
      let maxRange := totalRange - ((n : Int) - 2) * minRange
      let ranges := rescaleInt A (uniformOne A (n - 1) d.ranges) minRange maxRange totalRange d.rangePos
      .ok (markSums ranges firstIdx (setAt (fun _ => false) firstIdx true))
  else .ok (fun _ => false)

/-- `exit_i`, rust/src/signals.rs:339-343. -/
def enexExitI (nrows entryWait : Nat) (next : Option Nat) : Int :=
  match next with
  | some nextIdx => (nextIdx : Int) - entryWait
  | none => (nrows : Int) - 1

/-- One entry of the loop for the exits, rust/src/signals.rs:337-346; the number of the entry picks the draw.  A range that ends
in front of its start would panic. -/
def enexExitBody (nrows entryWait exitWait : Nat) (draws : Nat → Nat) (s : (Nat → Bool) × Nat) (entryIdx : Nat)
    (next : Option Nat) : Except Err ((Nat → Bool) × Nat) :=
  let entryI := entryIdx + exitWait
  let exitI := enexExitI nrows entryWait next
  if exitI - entryI + 1 ≤ 0 then .error (.valueError "cannot sample empty range")
  else .ok (setAt s.1 (entryI + (draws s.2 : Int) % (exitI - entryI + 1)).toNat true, s.2 + 1)

/-- The loop over the rows with both waits 1, rust/src/signals.rs:270-280: `k % 2` picks the array. -/
def splitRows (both : Nat → Bool) : List Nat → Nat → (Nat → Bool) × (Nat → Bool) → (Nat → Bool) × (Nat → Bool)
  | [], _, s => s
  | row :: rest, k, s =>
    if both row then
      splitRows both rest (k + 1) (if k % 2 = 0 then (setAt s.1 row true, s.2) else (s.1, setAt s.2 row true))
    else splitRows both rest k s

/-- `generate_rand_enex`, rust/src/signals.rs:252-351. -/
def generateRandEnex (A : Arith) (nrows n entryWait exitWait : Nat) (d : EnexDraws) :
    Except Err ((Nat → Bool) × (Nat → Bool)) :=
  if entryWait = 0 ∧ exitWait = 0 then .error (.valueError "entry_wait and exit_wait cannot be both 0")
  else if entryWait = 1 ∧ exitWait = 1 then
    .ok (splitRows (generateRand nrows (n * 2) d.sample) (List.range nrows) 0 (fun _ => false, fun _ => false))
  else
    match enexEntries A nrows n entryWait exitWait d with
    | .error e => .error e
    | .ok E =>
      match exWhile (fun i _ => E i) 0 nrows (enexExitBody nrows entryWait exitWait d.exits)
          (nextTrue (fun i _ => E i) 0 0 nrows) (fun _ => false, 0) with
      | .error e => .error e
      | .ok s => .ok (E, s.1)

/-- The loop for the hits of one turn, rust/src/signals.rs:461-477: `first_i`, `last_i` and `hits`. -/
def probHits (prob : Nat → F) (pickFirst : Bool) (u : Nat → Nat) :
    List Nat → Option Nat × Option Nat × List Nat → Option Nat × Option Nat × List Nat
  | [], s => s
  | idx :: rest, s =>
    if lt (unitFloat (u idx)) (prob idx) then
      let first := if s.1.isNone then some idx else s.1
      let hits := if !pickFirst then s.2.2 ++ [idx] else s.2.2
      if pickFirst then (first, some idx, hits) else probHits prob pickFirst u rest (first, some idx, hits)
    else probHits prob pickFirst u rest s

/-- One turn of the loop of `generate_rand_enex_by_prob`, rust/src/signals.rs:441-497; `none`: the loop is left. -/
def enexByProbStep (nrows : Nat) (entryProb exitProb : Nat → F) (entryWait exitWait : Nat)
    (entryPickFirst exitPickFirst : Bool) (u : Nat → Int → Nat → Nat) (s : EnexState) : Except Err (Option EnexState) :=
  let isEntry := decide (s.i % 2 = 0)
  let fromRaw : Int :=
    if isEntry then (if s.i = 0 then 0 else s.prev + entryWait) else s.prev + exitWait
  if fromRaw ≥ nrows then .ok none
  else
    let fromI := fromRaw.toNat
    let prob := if isEntry then entryProb else exitProb
    let pickFirst := if isEntry then entryPickFirst else exitPickFirst
    let r := probHits prob pickFirst (u s.i fromRaw) (List.range' fromI (nrows - fromI)) (none, none, [])
    match r.1 with
    | none => .ok none
    | some first =>
      if (first : Int) = s.prev ∧ s.prev = s.prevPrev then .error (.valueError "Infinite loop detected")
      else if pickFirst then
        .ok (some { entries := if isEntry then setAt s.entries first true else s.entries,
                    exits := if isEntry then s.exits else setAt s.exits first true,
                    prevPrev := s.prev, prev := first, i := s.i + 1 })
      else
        .ok (some { entries := if isEntry then r.2.2.foldl (fun a i => setAt a i true) s.entries else s.entries,
                    exits := if isEntry then s.exits else r.2.2.foldl (fun a i => setAt a i true) s.exits,
                    prevPrev := s.prev, prev := (r.2.1.getD 0 : Nat), i := s.i + 1 })

/-- `loop`, cut after `fuel` turns. -/
def enexByProbLoop (nrows : Nat) (entryProb exitProb : Nat → F) (entryWait exitWait : Nat)
    (entryPickFirst exitPickFirst : Bool) (u : Nat → Int → Nat → Nat) : Nat → EnexState → Option (Except Err EnexState)
  | 0, _ => none
  | fuel + 1, s =>
    match enexByProbStep nrows entryProb exitProb entryWait exitWait entryPickFirst exitPickFirst u s with
    | .error e => some (.error e)
    | .ok none => some (.ok s)
    | .ok (some s') =>
      enexByProbLoop nrows entryProb exitProb entryWait exitWait entryPickFirst exitPickFirst u fuel s'

/-- `generate_rand_enex_by_prob_rs`, rust/src/signals.rs:1564-1600, and `generate_rand_enex_by_prob`,
rust/src/signals.rs:353-502. -/
def generateRandEnexByProb (nrows : Nat) (entryProb exitProb : Nat → F) (entryWait exitWait : Nat)
    (entryPickFirst exitPickFirst : Bool) (u : Nat → Int → Nat → Nat) (fuel : Nat) :
    Option (Except Err ((Nat → Bool) × (Nat → Bool))) :=
  if entryWait = 0 ∧ exitWait = 0 then some (.error (.valueError "entry_wait and exit_wait cannot be both 0"))
  else
    match enexByProbLoop nrows entryProb exitProb entryWait exitWait entryPickFirst exitPickFirst u fuel
        ⟨fun _ => false, fun _ => false, -2, -1, 0⟩ with
    | none => none
    | some (.error e) => some (.error e)
    | some (.ok s) => some (.ok (s.entries, s.exits))

end Vbt.RsSig
