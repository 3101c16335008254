import Verif.Model.Order

/-!
# Call sequences: `vectorbt/portfolio/nb.py:849-1090`, `vectorbt/utils/array_.py:26-40`
-/

namespace Vbt
open F

/-! ## Insertion argsort -/

/-- The inner `while` of `insert_argsort_nb`, utils/array_.py:34-40: the sorted prefix is given from right to
left; entries that are greater or NaN are shifted to the right. -/
def insertRev {α : Type} (x : F × α) : List (F × α) → List (F × α)
  | [] => [x]
  | y :: ys => if gt y.1 x.1 || y.1.isnan then y :: insertRev x ys else x :: y :: ys

/-- `insert_argsort_nb`, utils/array_.py:27-40, on the two arrays zipped (the code moves `A` and `I` together). -/
def insertArgsort {α : Type} (l : List (F × α)) : List (F × α) :=
  (l.foldl (fun acc x => insertRev x acc) []).reverse

/-! ## Building call sequences -/

/-- `np.cumsum` of an integer array. -/
def cumsumFrom (acc : Int) : List Int → List Int
  | [] => []
  | x :: xs => (acc + x) :: cumsumFrom (acc + x) xs

/-- `np.cumsum`. -/
def cumsum (l : List Int) : List Int := cumsumFrom 0 l

/-- `a[idx] -= val` with integer arrays `idx`, `val` of the same length: the right hand sides are computed from the
old array; negative indices count from the end; an index outside of the array raises. -/
def subAtFrom (old : List Int) : List Int → List (Int × Int) → Except Err (List Int)
  | cur, [] => .ok cur
  | cur, (i, v) :: rest =>
    let n : Int := old.length
    let j := if i < 0 then i + n else i
    if j < 0 ∨ j ≥ n then .error (.indexError "index out of bounds")
    else subAtFrom old (cur.set j.toNat (old.getD j.toNat 0 - v)) rest

/-- `a[idx] -= val`. -/
def subAt (a : List Int) (iv : List (Int × Int)) : Except Err (List Int) := subAtFrom a a iv

/-- enums.py `CallSeqTypeT`. -/
inductive CallSeqType where
  | default | reversed | random | auto
deriving DecidableEq, Repr

/-- One row of the `Reversed` call sequence, portfolio/nb.py:867-870. -/
def callSeqRowReversed (ncols : Nat) (lens : List Int) : Except Err (List Int) :=
  let out := List.replicate ncols (1 : Int)
  let idx := List.zipWith (fun c l => c - l - 1) (cumsum lens).tail lens.tail
  match subAt out (idx.zip lens.tail) with
  | .error e => .error e
  | .ok out => .ok ((cumsum out.reverse).reverse.map (· - 1))

/-- One row of the `Default` call sequence in the compiled builder, portfolio/nb.py:873-875. -/
def callSeqRowDefault (ncols : Nat) (lens : List Int) : Except Err (List Int) :=
  let out := List.replicate ncols (1 : Int)
  match subAt out ((cumsum lens).dropLast.zip lens.dropLast) with
  | .error e => .error e
  | .ok out => .ok ((cumsum out).map (· - 1))

/-- One row of the `Default` call sequence in the plain builder, portfolio/nb.py:897-898
(`np.cumsum(group_lens[:-1])` instead of `np.cumsum(group_lens)[:-1]`). -/
def callSeqRowDefaultPy (ncols : Nat) (lens : List Int) : Except Err (List Int) :=
  let out := List.replicate ncols (1 : Int)
  match subAt out ((cumsum lens.dropLast).zip lens.dropLast) with
  | .error e => .error e
  | .ok out => .ok ((cumsum out).map (· - 1))

/-- Swap two positions of a list. -/
def swapAt {α : Type} (l : List α) (i j : Nat) : List α :=
  match l[i]?, l[j]? with
  | some a, some b => (l.set i b).set j a
  | _, _ => l

/-- `np.random.shuffle` on a 1-d array (Fisher-Yates from the right); `draw i` is the random position `≤ i`. -/
def shuffleFrom {α : Type} (draw : Nat → Nat) : Nat → List α → List α
  | 0, l => l
  | i + 1, l => shuffleFrom draw i (swapAt l (i + 1) (draw (i + 1) % (i + 2)))

/-- `np.random.shuffle`. -/
def shuffle {α : Type} (draw : Nat → Nat) (l : List α) : List α := shuffleFrom draw (l.length - 1) l

/-- `shuffle_call_seq_nb` on one row, portfolio/nb.py:850-857: every group's slice is shuffled.
The draws are given per group. -/
def shuffleRow (draw : Nat → Nat → Nat) : Nat → List Int → List Int → List Int
  | _, [], row => row
  | g, len :: lens, row =>
    shuffle (draw g) (row.take len.toNat) ++ shuffleRow draw (g + 1) lens (row.drop len.toNat)

/-- `build_call_seq_nb`, portfolio/nb.py:861-879: the list of rows.  `draw i g` are the random numbers for the
slice of group `g` in row `i`. -/
def buildCallSeqNb (nrows ncols : Nat) (lens : List Int) (ty : CallSeqType) (draw : Nat → Nat → Nat → Nat) :
    Except Err (List (List Int)) :=
  if ty = .reversed then
    match callSeqRowReversed ncols lens with
    | .error e => .error e
    | .ok row => .ok (List.replicate nrows row)
  else
    match callSeqRowDefault ncols lens with
    | .error e => .error e
    | .ok row =>
      let out := List.replicate nrows row
      if ty = .random then .ok (out.mapIdx fun i r => shuffleRow (draw i) 0 lens r) else .ok out

/-- `build_call_seq`, portfolio/nb.py:887-904. -/
def buildCallSeq (nrows ncols : Nat) (lens : List Int) (ty : CallSeqType) (draw : Nat → Nat → Nat → Nat) :
    Except Err (List (List Int)) :=
  let row := if ty = .reversed then callSeqRowReversed ncols lens else callSeqRowDefaultPy ncols lens
  match row with
  | .error e => .error e
  | .ok row =>
    let out := List.replicate nrows row
    if ty = .random then .ok (out.mapIdx fun i r => shuffleRow (draw i) 0 lens r) else .ok out

/-! ## Group value and approximate order value -/

/-- `get_group_value_nb`, portfolio/nb.py:927-941. -/
def groupValue (A : Arith) (cash : F) (position valPrice : Nat → F) (fromCol len : Nat) : F :=
  (List.range len).foldl (fun v k =>
    if !eqb (position (fromCol + k)) zero then
      add A v (mul A (position (fromCol + k)) (valPrice (fromCol + k)))
    else v) cash

/-- `approx_order_value_nb`, portfolio/nb.py:967-998. -/
def approxOrderValue (A : Arith) (size : F) (sizeType direction : Int) (cash position free valPrice value : F) : F :=
  let size := if direction = Direction.ShortOnly then neg size else size
  let asset := mul A position valPrice
  if sizeType = SizeType.Amount then mul A size valPrice
  else if sizeType = SizeType.Value then size
  else if sizeType = SizeType.Percent then
    if ge size zero then mul A size cash
    else if direction = Direction.LongOnly then mul A size asset
    else mul A size (add A (mul A two (pmax asset zero)) (pmax free zero))
  else if sizeType = SizeType.TargetAmount then sub A (mul A size valPrice) asset
  else if sizeType = SizeType.TargetValue then sub A size asset
  else if sizeType = SizeType.TargetPercent then sub A (mul A size value) asset
  else nan

/-- `sort_call_seq_out_nb`, portfolio/nb.py:1002-1070, with the inputs of the group's columns already selected
(lists of size, size type, direction, position and valuation price). -/
def sortCallSeqOut (A : Arith) (sharing : Bool) (cash free : F)
    (cols : List (F × Int × Int × F × F)) (seq : List Nat) : Except Err (List (F × Nat)) :=
  if sharing = false then .error (.valueError "Cash sharing must be enabled")
  else
    let value := cols.foldl (fun v c => if !eqb c.2.2.2.1 zero then add A v (mul A c.2.2.2.1 c.2.2.2.2) else v) cash
    if seq ≠ List.range cols.length then
      .error (.valueError "call_seq_out should follow CallSeqType.Default")
    else
      .ok (insertArgsort ((cols.map fun c =>
        approxOrderValue A c.1 c.2.1 c.2.2.1 cash c.2.2.2.1 free c.2.2.2.2 value).zip seq))

/-- The sorting step of `sort_call_seq_out_nb` (portfolio/nb.py:1041-1070) and of the simulators
(portfolio/nb.py:1480-1497): the call sequence of a group sorted by order value. -/
def sortCallSeq (values : List F) (seq : List Nat) : List Nat :=
  (insertArgsort (values.zip seq)).map (·.2)

end Vbt
