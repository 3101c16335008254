import Verif.Model.Float
import Mathlib.Order.Defs.LinearOrder
import Mathlib.Data.List.Dedup
import Mathlib.Data.List.Sort

/-!
# Reshaping by labels: `vectorbt/base/reshape_fns.py`

`R` are the labels of the rows of a multi-index (tuples), `K` what a level, or a tuple of levels, has as its values, in the
order in which NumPy sorts them; a level (or a tuple of levels) is the function that reads it from the label of a row.
Arrays of any number of dimensions are functions of the list of positions.
-/

namespace Vbt
open F

section
variable {R K : Type} [DecidableEq R] [LinearOrder K]

/-- `np.unique`: the different values in order. -/
def npUnique (l : List K) : List K := l.dedup.insertionSort (· ≤ ·)

/-- `pd.Index.unique` and `list(dict.fromkeys(l))`: the different values in the order of their first occurrences. -/
def pdUnique {α : Type} [DecidableEq α] : List α → List α
  | [] => []
  | a :: l => a :: (pdUnique l).filter (fun b => b ≠ a)

/-- The position that the value of a level has along its axis, reshape_fns.py:814-820. -/
def levelIdx (rows : List R) (f : R → K) (r : R) : Nat := (npUnique (rows.map f)).idxOf (f r)

/-- `a[positions] = x`. -/
def setCell (a : List Nat → F) (p : List Nat) (x : F) : List Nat → F := fun q => if q = p then x else a q

/-- `unstack_to_array`, reshape_fns.py:772-824, for a series with a multi-index and at least one level: the values along each
axis and the array.  NumPy assigns in order if positions occur more than once. -/
def unstackToArray (rows : List R) (vals : List F) (levels : List (R → K)) :
    Except Err (List (List K) × (List Nat → F)) :=
  if ¬ rows.Nodup then .error (.valueError "Index contains duplicate entries, cannot reshape")
  else
    .ok (levels.map (fun f => npUnique (rows.map f)),
      (rows.zip vals).foldl (fun a rv => setCell a (levels.map (fun f => levelIdx rows f rv.1)) rv.2) (fun _ => nan))

/-- A frame: labels of rows and columns, and cells by position. -/
structure LFrame (K : Type) where
  index : List K
  columns : List K
  cell : Nat → Nat → F

/-- `df.loc[a, b]` of labels that occur once. -/
def LFrame.loc (d : LFrame K) (a b : K) : F := d.cell (d.index.idxOf a) (d.columns.idxOf b)

/-- `unstack_to_df` with `symmetric=False`, reshape_fns.py:938-947. -/
def unstackToDf (rows : List R) (vals : List F) (fi fc : R → K) : Except Err (LFrame K) :=
  match unstackToArray rows vals [fi, fc] with
  | .error e => .error e
  | .ok (_, a) => .ok ⟨pdUnique (rows.map fi), pdUnique (rows.map fc), fun i j => a [i, j]⟩

/-- An axis of a frame: a multi-index or a plain index. -/
inductive Axis (R : Type) where
  | multi (rows : List R)
  | plain (len : Nat)

/-- `len`. -/
def Axis.len : Axis R → Nat
  | .multi rows => rows.length
  | .plain n => n

/-- `select_levels(index, f).unique()`, index_fns.py:193-200. -/
def axisUnique (f : R → K) : Axis R → Except Err (List K)
  | .multi rows => .ok (pdUnique (rows.map f))
  | .plain _ => .error (.rejected "assert_instance_of")

/-- `unstack_to_df` of a frame with one row or one column: `get_multiindex_series`, reshape_fns.py:756-769, takes the values
and their labels, but the labels of the result are read from the index of the frame, reshape_fns.py:939-940. -/
def unstackFrameToDf (index columns : Axis R) (vals : List F) (fi fc : R → K) : Except Err (LFrame K) :=
  if index.len ≠ 1 ∧ columns.len ≠ 1 then
    .error (.valueError "Supported are either Series or DataFrame with one column/row")
  else
    match (if index.len = 1 then columns else index) with
    | .plain _ => .error (.rejected "assert_instance_of")
    | .multi rows =>
      match axisUnique fi index with
      | .error e => .error e
      | .ok newIndex =>
        match axisUnique fc index with
        | .error e => .error e
        | .ok newColumns =>
          match unstackToArray rows vals [fi, fc] with
          | .error e => .error e
          | .ok (axes, a) =>
            if axes.map List.length = [newIndex.length, newColumns.length] then
              .ok ⟨newIndex, newColumns, fun i j => a [i, j]⟩
            else .error (.valueError "Shape of passed values does not match")

/-- The cell of two labels, missing if the frame does not have them. -/
def LFrame.get (d : LFrame K) (x y : K) : F := if x ∈ d.index ∧ y ∈ d.columns then d.loc x y else nan

/-- `make_symmetric`, reshape_fns.py:827-890: the labels, and the cell of two labels.  The assignments align the labels, which
pandas does only for labels without duplicates.  The names of the labels are not modelled. -/
def makeSymmetric (sort : Bool) (d : LFrame K) : Except Err (List K × (K → K → F)) :=
  if ¬ d.index.Nodup ∨ ¬ d.columns.Nodup then .error (.valueError "cannot reindex on an axis with duplicate labels")
  else
    let idxVals := if sort then npUnique (d.index ++ d.columns) else pdUnique (d.index ++ d.columns)
    .ok (idxVals, fun x y => if d.get x y = nan then d.get y x else d.get x y)

end
end Vbt
