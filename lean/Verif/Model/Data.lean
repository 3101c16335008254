import Verif.Model.Sim
import Mathlib.Data.List.Sort

/-!
# Data: `vectorbt/data/base.py`

The data of a symbol is a frame: columns and labelled rows.  Labels are integers (positions or timestamps).  The dictionary of
symbols is the list of frames in the order of its keys; `update` builds the new dictionary by iterating over the old one, so
both lists are in the same order.  Downloading, time zones and the frequency of the index are not modelled; a series is a
frame with one column.  Set operations on indexes are modelled for distinct labels.
-/

namespace Vbt
open F

/-- A pandas frame: the columns, and a label and values per row. -/
structure Frame (C : Type) where
  cols : List C
  rows : List (Int × (C → F))

/-- `v.index`. -/
def Frame.index {C : Type} (f : Frame C) : List Int := f.rows.map Prod.fst

/-- The argument `missing` of `align_index` and `align_columns`. -/
inductive Missing where
  | nan | drop | raise | other
deriving DecidableEq

/-- `pd.Index.intersection`: in the order of the first index. -/
def pdInter {L : Type} [DecidableEq L] (a b : List L) : List L := a.filter fun x => decide (x ∈ b)

/-- The labels of `pd.Index.union`, without order. -/
def pdUnionSet {L : Type} [DecidableEq L] (a b : List L) : List L := a ++ b.filter fun x => decide (x ∉ a)

/-- `pd.Index.union`: sorted, unless one of the indexes is empty. -/
def pdUnion (a b : List Int) : List Int :=
  if a = [] then b else if b = [] then a else (pdUnionSet a b).insertionSort (· ≤ ·)

/-- One symbol of the loop of `align_index`, data/base.py:385-401. -/
def alignIndexStep {C : Type} (missing : Missing) (index : Option (List Int)) (v : Frame C) : Except Err (Option (List Int)) :=
  match index with
  | none => .ok (some v.index)
  | some idx =>
    if (pdInter idx v.index).length ≠ (pdUnion idx v.index).length then
      match missing with
      | .nan => .ok (some (pdUnion idx v.index))
      | .drop => .ok (some (pdInter idx v.index))
      | .raise => .error (.valueError "Symbols have mismatching index")
      | .other => .error (.valueError "missing='{missing}' is not recognized")
    else .ok (some idx)

/-- `v.reindex(index=index)`: missing rows are NaN. -/
def reindexRows {C : Type} (v : Frame C) (index : List Int) : Frame C :=
  { v with rows := index.map fun t =>
      match v.rows.find? (fun p => p.1 = t) with
      | some p => (t, p.2)
      | none => (t, fun _ => nan) }

/-- `Data.align_index`, data/base.py:372-405. -/
def alignIndex {C : Type} (missing : Missing) (data : List (Frame C)) : Except Err (List (Frame C)) :=
  if data.length = 1 then .ok data
  else
    match loopE (alignIndexStep missing) none data with
    | .error e => .error e
    | .ok none => .ok data
    | .ok (some index) => .ok (data.map fun v => reindexRows v index)

/-- One symbol of the loop of `align_columns`, data/base.py:425-444.  Columns of a union are not sorted: their order is lost in
`update`. -/
def alignColsStep {C : Type} [DecidableEq C] (missing : Missing) (cols : Option (List C)) (v : Frame C) :
    Except Err (Option (List C)) :=
  match cols with
  | none => .ok (some v.cols)
  | some cs =>
    if (pdInter cs v.cols).length ≠ (pdUnionSet cs v.cols).length then
      match missing with
      | .nan => .ok (some (pdUnionSet cs v.cols))
      | .drop => .ok (some (pdInter cs v.cols))
      | .raise => .error (.valueError "Symbols have mismatching columns")
      | .other => .error (.valueError "missing='{missing}' is not recognized")
    else .ok (some cs)

/-- `v.reindex(columns=columns)`: missing columns are NaN. -/
def reindexCols {C : Type} [DecidableEq C] (v : Frame C) (cols : List C) : Frame C :=
  { cols := cols, rows := v.rows.map fun p => (p.1, fun c => if c ∈ v.cols then p.2 c else nan) }

/-- `Data.align_columns`, data/base.py:407-457. -/
def alignColumns {C : Type} [DecidableEq C] (missing : Missing) (data : List (Frame C)) : Except Err (List (Frame C)) :=
  if data.length = 1 then .ok data
  else
    match loopE (alignColsStep missing) none data with
    | .error e => .error e
    | .ok none => .ok data
    | .ok (some cols) => .ok (data.map fun v => reindexCols v cols)

/-- `v[~v.index.duplicated(keep="last")]`, data/base.py:660. -/
def keepLast {R : Type} : List (Int × R) → List (Int × R)
  | [] => []
  | x :: xs => if x.1 ∈ xs.map Prod.fst then keepLast xs else x :: keepLast xs

/-- Concatenation of the old and the new data of a symbol, data/base.py:653-663. -/
def concatOne {C : Type} [DecidableEq C] (old new : Frame C) : Except Err (Frame C) :=
  if old.cols.all fun c => decide (c ∈ new.cols) then .ok { cols := old.cols, rows := keepLast (old.rows ++ new.rows) }
  else .error (.keyError "not in index")

/-- One symbol of the second loop of `update`. -/
def concatStep {C : Type} [DecidableEq C] (out : List (Frame C)) (p : Frame C × Frame C) : Except Err (List (Frame C)) :=
  match concatOne p.1 p.2 with
  | .error e => .error e
  | .ok f => .ok (out ++ [f])

/-- `Data.update`, data/base.py:611-667; `new` are the frames returned by `update_symbol`. -/
def updateData {C : Type} [DecidableEq C] (missIdx missCols : Missing) (data new : List (Frame C)) :
    Except Err (List (Frame C)) :=
  match alignIndex missIdx new with
  | .error e => .error e
  | .ok n1 =>
    match alignColumns missCols n1 with
    | .error e => .error e
    | .ok n2 => loopE concatStep [] (data.zip n2)

/-- The labels given to a new array without index, data/base.py:632: `v.index[-1]` and the following integers. -/
def arrayRows {R : Type} (last : Int) (values : List R) : List (Int × R) :=
  values.zipIdx.map fun p => (last + p.2, p.1)

end Vbt
