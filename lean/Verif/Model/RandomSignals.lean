import Verif.Model.RustSignalGen
import Verif.Model.Double

/-!
# Random signals: `vectorbt/signals/nb.py`, `vectorbt/utils/array_.py`

One column at a time, like `Model/Signals.lean`.  The random generator is not modelled: whatever it returns is an
argument, so a theorem about these functions holds for every seed and every state of the generator.

* `np.random.uniform(0, 1)` is `k / 2 ^ 53` for an arbitrary `k < 2 ^ 53` (both NumPy and Numba build their uniform
  floats from 53 random bits; so does Rust's `rand`); `k` is the argument;
* `np.random.randint(m)` and `np.random.choice(m)` are an arbitrary number modulo `m`;
* `np.random.choice(m, size=size, replace=False)` is an argument: a list of `size` different numbers below `m` (`IsSample`
  in the specification);
* `n`, the waits and the numbers of rows are natural numbers, `n` and the probabilities are those of the column (the flexible
  indexing of `n` and `prob` is that of C13).
-/

namespace Vbt
open F

/-- The float in `[0, 1)` made of 53 random bits. -/
def unitFloat (k : Nat) : F := fin ((k : ℚ) / 2 ^ 53)

/-- `np.random.randint(m)`: a number below `m`; an empty range raises. -/
def randintE (m : Int) (draw : Nat) : Except Err Int :=
  if m ≤ 0 then .error (.valueError "empty range for randrange()") else .ok ((draw : Int) % m)

/-! ## `utils/array_.py` -/

/-- `uniform_summing_to_one_nb`, utils/array_.py:63-73.  The points are `k / 2 ^ 53`, so sorting them is sorting the `k`.
For `n ≤ 0` the code writes to the positions 0 and 1 of an array that has none or one of them, which Numba does not check,
and then asks for a negative number of floats, which raises. -/
def uniformSummingToOne (A : Arith) (n : Int) (u : Nat → Nat) : Except Err (List F) :=
  if n ≤ 0 then .error (.valueError "negative dimensions not allowed")
  else
    let pts := (0 :: 2 ^ 53 :: (List.range (n - 1).toNat).map u).mergeSort (fun a b => decide (a ≤ b))
    let fs := pts.map unitFloat
    .ok (List.zipWith (sub A) fs.tail fs)

/-- `np.floor` of a finite number (the other values do not get here). -/
def floorInt : F → Int
  | fin q => ⌊q⌋
  | _ => 0

/-- `ints[pos] += 1`. -/
def bump (l : List Int) (pos : Nat) : List Int := l.modify (pos % l.length) (· + 1)

/-- `rescale_float_to_int_nb`, utils/array_.py:127-134.  The array keeps floats that are integers far below `2 ^ 53`, whose
sums are exact: they are integers here; `renormalize` is that of `Model/RustSignalGen`.  `range(leftover)` of a negative number is empty. -/
def rescaleFloatToInt (A : Arith) (floats : List F) (lo hi total : Int) (pos : Nat → Nat) : List Int :=
  let ints := floats.map (fun f => floorInt (renormalize A f zero one (fin lo) (fin hi)))
  let leftover := total - ints.sum
  (List.range leftover.toNat).foldl (fun l i => bump l (pos i)) ints

/-! ## Random entries -/

/-- `rand_choice_nb`, signals/nb.py:297-303; `sample k size` is `np.random.choice(k, size=size, replace=False)`. -/
def randChoice (n : Nat) (sample : Int → Nat → Nat → List Nat) : Choice := fun fromI toI =>
  (sample fromI (toI - fromI).toNat (min (toI - fromI) n).toNat).map (fun k : Nat => fromI + (k : Int))

/-- One column of `generate_rand_nb`, signals/nb.py:307-315. -/
def generateRand (rows n : Nat) (sample : Int → Nat → Nat → List Nat) : Except Err (Nat → Bool) :=
  generateCol rows false (randChoice n sample)

/-- The loop of `rand_by_prob_choice_nb`, signals/nb.py:332-338, over the given rows. -/
def probLoop (prob : Nat → F) (pickFirst : Bool) (u : Nat → Nat) : List Nat → List Nat
  | [] => []
  | i :: rest =>
    if lt (unitFloat (u i)) (prob i) then
      if pickFirst then [i] else i :: probLoop prob pickFirst u rest
    else probLoop prob pickFirst u rest

/-- `rand_by_prob_choice_nb`, signals/nb.py:319-339; the draw of row `i` in the call for `from_i` is `u from_i i`. -/
def randByProbChoice (prob : Nat → F) (pickFirst : Bool) (u : Int → Nat → Nat) : Choice := fun fromI toI =>
  (probLoop prob pickFirst (u fromI) (List.range' fromI.toNat (toI.toNat - fromI.toNat))).map (fun k : Nat => (k : Int))

/-- One column of `generate_rand_by_prob_nb`, signals/nb.py:343-359. -/
def generateRandByProb (rows : Nat) (prob : Nat → F) (pickFirst : Bool) (u : Int → Nat → Nat) :
    Except Err (Nat → Bool) :=
  generateCol rows pickFirst (randByProbChoice prob pickFirst u)

/-! ## Random exits -/

/-- One column of `generate_rand_ex_nb`, signals/nb.py:365-378. -/
def generateRandEx (rows : Nat) (entries : Nat → Bool) (wait : Nat) (untilNext skipUntilExit : Bool)
    (sample : Int → Nat → Nat → List Nat) : Except Err (Nat → Bool) :=
  generateEx rows entries wait untilNext skipUntilExit true (randChoice 1 sample)

/-- One column of `generate_rand_ex_by_prob_nb`, signals/nb.py:382-409. -/
def generateRandExByProb (rows : Nat) (entries : Nat → Bool) (prob : Nat → F) (wait : Nat)
    (untilNext skipUntilExit : Bool) (u : Int → Nat → Nat) : Except Err (Nat → Bool) :=
  generateEx rows entries wait untilNext skipUntilExit true (randByProbChoice prob true u)

/-! ## Random entries and exits -/

/-- Everything that the generator returns while `generate_rand_enex_nb` works on one column. -/
structure EnexDraws where
  sample : Nat → Nat → List Nat
  first : Nat
  spaces : Nat → Nat
  spacePos : Nat → Nat
  ranges : Nat → Nat
  rangePos : Nat → Nat
  exits : Nat → Nat

/-- `a[0::2]` and `a[1::2]`. -/
def evens {α : Type} : List α → List α
  | [] => []
  | [a] => [a]
  | a :: _ :: l => a :: evens l

/-- The rows of the `n` entries of one column when the waits are not both 1, signals/nb.py:449-498. -/
def enexEntryRows (A : Arith) (rows n entryWait exitWait : Nat) (d : EnexDraws) : Except Err (List Int) :=
  if n = 1 then
    match randintE ((rows : Int) - exitWait) d.first with
    | .error e => .error e
    | .ok i => .ok [i]
  else
    let minRange : Int := entryWait + exitWait
    let minTotalRange : Int := minRange * ((n : Int) - 1)
    if (rows : Int) < minTotalRange + exitWait + 1 then
      .error (.valueError "Cannot take a larger sample than population")
    else
      let maxFreeSpace : Int := rows - minTotalRange - 1
      let freeSpace : Int := min maxFreeSpace (3 * rows / (n + 1)) - exitWait
      match uniformSummingToOne A 6 d.spaces with
      | .error e => .error e
      | .ok floats =>
        let chosenSpaces := rescaleFloatToInt A floats 0 freeSpace freeSpace d.spacePos
        let firstIdx := chosenSpaces.headD 0
        let lastIdx := rows - (chosenSpaces.drop (chosenSpaces.length - 2)).sum - exitWait - 1
        let totalRange := lastIdx - firstIdx
        let maxRange := totalRange - ((n : Int) - 2) * minRange
        match uniformSummingToOne A ((n : Int) - 1) d.ranges with
        | .error e => .error e
        | .ok floats =>
          let chosenRanges := rescaleFloatToInt A floats minRange maxRange totalRange d.rangePos
          .ok ((chosenRanges.scanl (· + ·) firstIdx))

/-- The last row that the exit may have, signals/nb.py:505-508; `rest` are the entries that follow. -/
def enexExitEnd (rows entryWait : Nat) (rest : List Nat) : Int :=
  match rest with
  | e' :: _ => e' - entryWait
  | [] => rows - 1

/-- The loop that places an exit after each entry, signals/nb.py:501-510, from the `j`-th entry on. -/
def enexExitLoop (rows entryWait exitWait : Nat) (draws : Nat → Nat) :
    Nat → List Nat → (Nat → Bool) → Except Err (Nat → Bool)
  | _, [], X => .ok X
  | j, e :: rest, X =>
    let entryI : Int := e + exitWait
    let exitI := enexExitEnd rows entryWait rest
    match randintE (exitI - entryI + 1) (draws j) with
    | .error err => .error err
    | .ok i => enexExitLoop rows entryWait exitWait draws (j + 1) rest (setRows X [entryI + i])

/-- One column of `generate_rand_enex_nb`, signals/nb.py:413-511. -/
def generateRandEnex (A : Arith) (rows n entryWait exitWait : Nat) (d : EnexDraws) :
    Except Err ((Nat → Bool) × (Nat → Bool)) :=
  if entryWait = 0 ∧ exitWait = 0 then .error (.valueError "entry_wait and exit_wait cannot be both 0")
  else if entryWait = 1 ∧ exitWait = 1 then
    match generateRand rows (n * 2) (fun _ => d.sample) with
    | .error e => .error e
    | .ok both =>
      let idxs := (flatnonzero rows both).map (fun k : Nat => (k : Int))
      .ok (setRows (fun _ => false) (evens idxs), setRows (fun _ => false) (evens idxs.tail))
  else
    match enexEntryRows A rows n entryWait exitWait d with
    | .error e => .error e
    | .ok idxs =>
      let E := setRows (fun _ => false) idxs
      match enexExitLoop rows entryWait exitWait d.exits 0 (flatnonzero rows E) (fun _ => false) with
      | .error e => .error e
      | .ok X => .ok (E, X)

/-- The choice functions of `generate_rand_enex_by_prob_nb`, signals/nb.py:525-553, for one column: the draws may depend on
the number of the call. -/
def randEnexByProb (rows : Nat) (entryProb exitProb : Nat → F) (entryWait exitWait : Nat)
    (entryPickFirst exitPickFirst : Bool) (u : Nat → Int → Nat → Nat) : EnexInputs where
  n := rows
  entryWait := entryWait
  exitWait := exitWait
  entryPickFirst := entryPickFirst
  exitPickFirst := exitPickFirst
  entryChoice := fun k => randByProbChoice entryProb entryPickFirst (u k)
  exitChoice := fun k => randByProbChoice exitProb exitPickFirst (u k)

end Vbt
