import Verif.Model.Sim

/-!
# Splitters: `vectorbt/generic/splitters.py`

Only the number of rows of the data matters.  Indices and lengths are rationals because lengths may be fractions and
`np.arange` works with fractional ends.  The product `set_len * range_len` is rounded by an arbitrary function `rnd`.
`np.linspace` is computed exactly.  Start and end labels (`pd.Index` arguments of `RangeSplitter`) are not modelled, only
positions are.  The generator is modelled by the list of everything it yields, or by the first error.
-/

namespace Vbt

/-- `np.arange(a, b)`. -/
def npArange (a b : ℚ) : List ℚ := (List.range (⌈b - a⌉).toNat).map fun k : Nat => a + k

/-- An argument given once or for each range. -/
inductive PerRange (α : Type) where
  | shared (x : α)
  | each (xs : List α)

/-- generic/splitters.py:65-72: the value for range `i`. -/
def PerRange.at {α : Type} (p : PerRange α) (i : Nat) : Except Err α :=
  match p with
  | .shared x => .ok x
  | .each xs =>
    match xs[i]? with
    | some x => .ok x
    | none => .error (.indexError "list index out of range")

/-- `len(set_lens) == 0`, generic/splitters.py:62. -/
def PerRange.isEmptyLens : PerRange (List ℚ) → Bool
  | .shared x => x.isEmpty
  | .each xs => xs.isEmpty

/-- generic/splitters.py:74-75. -/
def resolveSetLen (rnd : ℚ → ℚ) (rangeLen setLen : ℚ) : ℚ :=
  if 0 < setLen ∧ setLen < 1 then (⌊rnd (setLen * rangeLen)⌋ : ℚ) else setLen

/-- generic/splitters.py:73-78. -/
def setLenStep (rnd : ℚ → ℚ) (rangeLen : ℚ) (acc : List ℚ) (setLen : ℚ) : Except Err (List ℚ) :=
  let s := resolveSetLen rnd rangeLen setLen
  if s = 0 then .error (.valueError "Set in the range is empty") else .ok (acc ++ [s])

/-- generic/splitters.py:88-93: `idx_offset` and `set_ranges`. -/
def placeStep (start : ℚ) (acc : ℚ × List (List ℚ)) (setLen : ℚ) : ℚ × List (List ℚ) :=
  (acc.1 + setLen, acc.2 ++ [npArange (start + acc.1) (start + (acc.1 + setLen))])

/-- One range of `split_ranges_into_sets`, generic/splitters.py:57-95. -/
def splitRange (rnd : ℚ → ℚ) (setLens : PerRange (List ℚ)) (ltr : PerRange Bool) (start stop : ℚ) (i : Nat) :
    Except Err (List (List ℚ)) :=
  let rangeLen := stop - start + 1
  if setLens.isEmptyLens then .ok [npArange start (stop + 1)]
  else
    match setLens.at i with
    | .error e => .error e
    | .ok lens =>
      match ltr.at i with
      | .error e => .error e
      | .ok leftToRight =>
        match loopE (setLenStep rnd rangeLen) [] lens with
        | .error e => .error e
        | .ok newLens =>
          if newLens.sum < rangeLen then
            let all := if leftToRight then newLens ++ [rangeLen - newLens.sum] else [rangeLen - newLens.sum] ++ newLens
            .ok (all.foldl (placeStep start) (0, [])).2
          else .error (.valueError "Range too short to split")

/-- generic/splitters.py:57-95: the yielded values so far and the next range. -/
def splitSetsStep (rnd : ℚ → ℚ) (setLens : PerRange (List ℚ)) (ltr : PerRange Bool) (acc : List (List (List ℚ)))
    (x : (ℚ × ℚ) × Nat) : Except Err (List (List (List ℚ))) :=
  match splitRange rnd setLens ltr x.1.1 x.1.2 x.2 with
  | .error e => .error e
  | .ok sets => .ok (acc ++ [sets])

/-- `split_ranges_into_sets`, generic/splitters.py:22-95. -/
def splitRangesIntoSets (rnd : ℚ → ℚ) (starts stops : List ℚ) (setLens : PerRange (List ℚ)) (ltr : PerRange Bool) :
    Except Err (List (List (List ℚ))) :=
  if starts.length ≠ stops.length then .error (.typeError "Lengths do not match")
  else loopE (splitSetsStep rnd setLens ltr) [] (starts.zip stops).zipIdx

/-- `np.round` to an integer: halves go to the even neighbour. -/
def roundHalfEven (x : ℚ) : ℤ :=
  let f := ⌊x⌋
  if x - f < 1 / 2 then f else if 1 / 2 < x - f then f + 1 else if f % 2 = 0 then f else f + 1

/-- `np.round(np.linspace(0, m - 1, n)).astype(int)`. -/
def evenIdxs (m n : Nat) : List ℤ :=
  (List.range n).map fun k : Nat => roundHalfEven (if n ≤ 1 then 0 else (k : ℚ) * (((m : ℚ) - 1) / ((n : ℚ) - 1)))

/-- The part all splitters share: keep the ranges of at least `min_len`, evenly select `n` of them.
generic/splitters.py:165-180, 215-229, 251-265. -/
def selectRanges (n : Option ℤ) (minLen : ℤ) (ranges : List (ℚ × ℚ)) : Except Err (List (ℚ × ℚ)) :=
  let kept := ranges.filter fun p => decide ((minLen : ℚ) ≤ p.2 - p.1 + 1)
  if kept.isEmpty then .error (.valueError "There are no ranges that meet range_len>=min_len")
  else
    match n with
    | none => .ok kept
    | some n =>
      if (kept.length : ℤ) < n then .error (.valueError "n cannot be bigger than the maximum number of ranges")
      else if n < 0 then .error (.valueError "Number of samples must be non-negative")
      else .ok ((evenIdxs kept.length n.toNat).filterMap fun i => kept[i.toNat]?)

/-- Windows of a given length, generic/splitters.py:145-152, 206-213; `len` is `len(index)`. -/
def windowRanges (rnd : ℚ → ℚ) (len : Nat) (n : Option ℤ) (windowLen : Option ℚ) : Except Err (List (ℚ × ℚ)) :=
  let resolved (w : ℚ) : List (ℚ × ℚ) :=
    let w := if 0 < w ∧ w < 1 then (⌊rnd (w * len)⌋ : ℚ) else w
    (npArange 0 (len - w + 1)).zip (npArange (w - 1) len)
  match windowLen, n with
  | none, none => .error (.valueError "At least n or window_len must be set")
  | some w, _ => .ok (resolved w)
  | none, some n => if n = 0 then .error .zeroDivision else .ok (resolved ((len : ℤ) / n : ℤ))

/-- `RollingSplitter.split`, generic/splitters.py:188-231. -/
def rollingSplit (rnd : ℚ → ℚ) (len : Nat) (n : Option ℤ) (windowLen : Option ℚ) (minLen : ℤ)
    (setLens : PerRange (List ℚ)) (ltr : PerRange Bool) : Except Err (List (List (List ℚ))) :=
  match windowRanges rnd len n windowLen with
  | .error e => .error e
  | .ok ranges =>
    match selectRanges n minLen ranges with
    | .error e => .error e
    | .ok sel => splitRangesIntoSets rnd (sel.map (·.1)) (sel.map (·.2)) setLens ltr

/-- `ExpandingSplitter.split`, generic/splitters.py:237-267. -/
def expandingSplit (rnd : ℚ → ℚ) (len : Nat) (n : Option ℤ) (minLen : ℤ) (setLens : PerRange (List ℚ))
    (ltr : PerRange Bool) : Except Err (List (List (List ℚ))) :=
  match selectRanges n minLen ((List.replicate len (0 : ℚ)).zip (npArange 0 len)) with
  | .error e => .error e
  | .ok sel => splitRangesIntoSets rnd (sel.map (·.1)) (sel.map (·.2)) setLens ltr

/-- `np.broadcast_arrays` of two 1-d arrays. -/
def broadcastPair (a b : List ℚ) : Except Err (List (ℚ × ℚ)) :=
  if a.length = b.length then .ok (a.zip b)
  else
    match a, b with
    | [x], _ => .ok (b.map fun y => (x, y))
    | _, [y] => .ok (a.map fun x => (x, y))
    | _, _ => .error (.valueError "shape mismatch")

/-- `RangeSplitter.split`, generic/splitters.py:112-182, with positions for `start_idxs` and `end_idxs`. -/
def rangeSplit (rnd : ℚ → ℚ) (len : Nat) (n : Option ℤ) (rangeLen : Option ℚ) (minLen : ℤ) (starts stops : Option (List ℚ))
    (setLens : PerRange (List ℚ)) (ltr : PerRange Bool) : Except Err (List (List (List ℚ))) :=
  let ranges : Except Err (List (ℚ × ℚ)) :=
    match starts, stops with
    | none, none => windowRanges rnd len n rangeLen
    | some a, some b => broadcastPair a b
    | _, _ => .error (.valueError "Both start_idxs and end_idxs must be set")
  match ranges with
  | .error e => .error e
  | .ok ranges =>
    match selectRanges n minLen ranges with
    | .error e => .error e
    | .ok sel => splitRangesIntoSets rnd (sel.map (·.1)) (sel.map (·.2)) setLens ltr

end Vbt
