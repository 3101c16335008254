import Verif.Model.IndexFns

/-!
# Combining objects: `vectorbt/base/accessors.py`, `vectorbt/base/combine_fns.py`

An array is the list of its columns, of any type `C`; inputs are given after broadcasting (C103), so all have the labels of
the first.  Functions of the user see whole arrays.  Ray, `keep_pd`, `to_2d` and the checks of types for Numba are left out.
-/

namespace Vbt

variable {N V : Type} [DecidableEq N] [DecidableEq V] {C : Type}

/-- `combine_multiple`, base/combine_fns.py:195-200. -/
def combineMultiple {A : Type} (f : A → A → A) (obj : A) (others : List A) : A := others.foldl f obj

/-- `combine_multiple_nb`, base/combine_fns.py:203-220: all objects are visited, the first only sets the flag. -/
def combineMultipleNb {A : Type} (f : A → A → A) (objs : List A) : Option A :=
  match objs[0]? with
  | none => none
  | some first => some (objs.foldl (fun s x => if s.1 then (false, s.2) else (false, f s.2 x)) (true, first)).2

/-- `apply_and_concat_one`, base/combine_fns.py:50-70; `np.column_stack` of no arrays raises. -/
def applyConcatOne (n : Nat) (f : Nat → List C) : Except Err (List C) :=
  if n = 0 then .error (.valueError "need at least one array to concatenate")
  else .ok ((List.range n).flatMap f)

/-- `output[:, lo:hi] = block` with `hi - lo` the number of columns of the block. -/
def writeCols (out : List (Option C)) (lo : Nat) (block : List C) : List (Option C) :=
  out.take lo ++ block.map some ++ out.drop (lo + block.length)

/-- `apply_and_concat_one_nb`, base/combine_fns.py:83-101: columns are written into an array that is allocated for the
width of the first result; `none` is memory not yet written.  The type of the elements is not modelled. -/
def applyConcatOneNb (n : Nat) (f : Nat → List C) : List (Option C) :=
  (List.range n).foldl (fun out i => writeCols out (i * (f i).length) (f i)) (List.replicate (n * (f 0).length) none)

/-- `combine_and_concat`, base/combine_fns.py:159-173. -/
def combineConcat (f : List C → List C → List C) (obj : List C) (others : List (List C)) : Except Err (List C) :=
  applyConcatOne others.length fun i => f obj (others.getD i [])

/-- `ArrayWrapper.wrap` of a two-dimensional array, base/array_wrapper.py:580-594: the number of columns is that of the
labels. -/
def wrapCols (labels : Idx N V) (cols : List C) : Except Err (Labelled N V C) :=
  if cols.length = labels.len then .ok ⟨labels, cols⟩
  else .error (.rejected "Axis 1 of <class 'numpy.ndarray'> and axis 0 do not match")

/-- The column hierarchy, base/accessors.py:613-618, 759-764; `top` is the name of the level without keys. -/
def hierarchy (nat : Nat → V) (top : N) (keys : Option (Idx N V)) (n : Nat) (labels : Idx N V) : Except Err (Idx N V) :=
  match keys with
  | some k => combineIndexes nat true {} [k, labels]
  | none => combineIndexes nat true {} [.single ⟨some top, (List.range n).map nat⟩, labels]

/-- `BaseAccessor.apply_and_concat`, base/accessors.py:526-619. -/
def applyAndConcat (nat : Nat → V) (top : N) (x : Labelled N V C) (n : Nat) (f : Nat → List C → List C)
    (keys : Option (Idx N V)) : Except Err (Labelled N V C) :=
  match applyConcatOne n fun i => f i x.cols with
  | .error e => .error e
  | .ok cols =>
    match hierarchy nat top keys n x.labels with
    | .error e => .error e
    | .ok labels => wrapCols labels cols

/-- `BaseAccessor.combine`, base/accessors.py:621-779. -/
def combineObj (nat : Nat → V) (top : N) (x : Labelled N V C) (others : List (List C)) (f : List C → List C → List C)
    (concat : Bool) (keys : Option (Idx N V)) : Except Err (Labelled N V C) :=
  match others with
  | [other] => wrapCols x.labels (f x.cols other)
  | _ =>
    if concat then
      match combineConcat f x.cols others with
      | .error e => .error e
      | .ok cols =>
        match hierarchy nat top keys others.length x.labels with
        | .error e => .error e
        | .ok labels => wrapCols labels cols
    else wrapCols x.labels (combineMultiple f x.cols others)

/-- `np.logical_and`, `np.logical_or`, `np.logical_xor` of two masks of one shape. -/
def logical (op : Bool → Bool → Bool) (a b : List (List Bool)) : List (List Bool) := a.zipWith (List.zipWith op) b

/-- `SignalsAccessor.AND`, signals/accessors.py:1672-1678. -/
def accessorAnd (nat : Nat → V) (top : N) (x : Labelled N V (List Bool)) (others : List (List (List Bool))) (concat : Bool)
    (keys : Option (Idx N V)) : Except Err (Labelled N V (List Bool)) :=
  combineObj nat top x others (logical and) concat keys

/-- `SignalsAccessor.OR`, signals/accessors.py:1680-1699. -/
def accessorOr (nat : Nat → V) (top : N) (x : Labelled N V (List Bool)) (others : List (List (List Bool))) (concat : Bool)
    (keys : Option (Idx N V)) : Except Err (Labelled N V (List Bool)) :=
  combineObj nat top x others (logical or) concat keys

/-- `SignalsAccessor.XOR`, signals/accessors.py:1701-1706. -/
def accessorXor (nat : Nat → V) (top : N) (x : Labelled N V (List Bool)) (others : List (List (List Bool))) (concat : Bool)
    (keys : Option (Idx N V)) : Except Err (Labelled N V (List Bool)) :=
  combineObj nat top x others (logical xor) concat keys

end Vbt
