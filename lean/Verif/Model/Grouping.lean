import Verif.Model.Sim

/-!
# Groups of columns: `vectorbt/base/column_grouper.py`

Labels are values of any type with decidable equality; a missing label (NaN, None) is `none`.  The conversion of
`group_by` to an index of labels (`group_by_to_index`) is not modelled: the labels are given per column.
-/

namespace Vbt

/-- The local variables of `get_group_lens_nb`: `result[:j]`, `last_group`, `group_len`. -/
structure LensState where
  result : List Nat
  last : Int
  len : Nat
deriving DecidableEq

/-- One turn of `get_group_lens_nb`, base/column_grouper.py:79-95; `n` is the number of columns. -/
def lensStep (n : Nat) (s : LensState) (x : Int × Nat) : Except Err LensState :=
  if x.1 < s.last then .error (.valueError "Groups must be coherent and sorted (such as [0, 0, 1, 2, 2, ...])")
  else
    let s1 : LensState :=
      if x.1 ≠ s.last then
        let s0 : LensState := if s.last ≠ -1 then { s with result := s.result ++ [s.len], len := 0 } else s
        { s0 with last := x.1 }
      else s
    let s2 : LensState := { s1 with len := s1.len + 1 }
    .ok (if (x.2 : Int) = n - 1 then { s2 with result := s2.result ++ [s2.len], len := 0 } else s2)

/-- `get_group_lens_nb`, base/column_grouper.py:73-96. -/
def groupLensNb (groups : List Int) : Except Err (List Nat) :=
  match loopE (lensStep groups.length) ⟨[], -1, 0⟩ groups.zipIdx with
  | .error e => .error e
  | .ok s => .ok s.result

/-- One element of `pd.factorize`: codes count the labels in order of appearance, -1 is a missing label. -/
def factorizeStep {L : Type} [DecidableEq L] (s : List L × List Int) (x : Option L) : List L × List Int :=
  match x with
  | none => (s.1, s.2 ++ [-1])
  | some l => if l ∈ s.1 then (s.1, s.2 ++ [(s.1.idxOf l : Int)]) else (s.1 ++ [l], s.2 ++ [(s.1.length : Int)])

/-- `pd.factorize` as called in `get_groups_and_index`, base/column_grouper.py:54-69: unique labels and codes. -/
def factorize {L : Type} [DecidableEq L] (labels : List (Option L)) : List L × List Int :=
  labels.foldl factorizeStep ([], [])

/-- `is_sorted`, utils/array_.py:12-14. -/
def isSortedArr (a : List Int) : Bool := (a.zip a.tail).all fun p => decide (p.1 ≤ p.2)

/-- `ColumnGrouper.get_group_lens`, base/column_grouper.py:283-293; `none`: no grouping. -/
def getGroupLens {L : Type} [DecidableEq L] (nCols : Nat) (groupBy : Option (List (Option L))) : Except Err (List Nat) :=
  match groupBy with
  | none => .ok (List.replicate nCols 1)
  | some labels =>
    if !isSortedArr (factorize labels).2 then
      .error (.valueError "group_by must lead to groups that are coherent and sorted (such as [0, 0, 1, 2, 2, ...])")
    else groupLensNb (factorize labels).2

/-- `np.cumsum` of group lengths. -/
def cumLens (lens : List Nat) : List Nat := (List.range lens.length).map fun k => (lens.take (k + 1)).sum

/-- `ColumnGrouper.get_group_start_idxs`, base/column_grouper.py:301-304. -/
def groupStarts (lens : List Nat) : List Nat := List.zipWith (· - ·) (cumLens lens) lens

/-- `ColumnGrouper.get_group_end_idxs`, base/column_grouper.py:307-310. -/
def groupEnds (lens : List Nat) : List Nat := cumLens lens

end Vbt
