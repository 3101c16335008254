import Mathlib.Data.List.Basic
import Verif.Model.Float

/-!
# Selecting one column or group: `vectorbt/base/array_wrapper.py`

An object has one entry per unit: per group if its columns are grouped, per column otherwise.  Labels of rows, columns and groups
are Python objects of one type; `asInt` tells which are integers.  Groups are selected as units (`group_select`, the default);
columns with several levels are looked up by full labels only.
-/

namespace Vbt

variable {L V : Type}

/-- What `select_one` reads of the wrapper after regrouping (C87): `groups` are the labels of the groups, if any;
`colOnly` is the attribute `column_only_select`. -/
structure SelCtx (L : Type) where
  ndim : Nat
  nRows : Nat
  columns : List L
  groups : Option (List L)
  colOnly : Option Bool

/-- The labels of the units: `get_columns()` of a grouped wrapper, `columns` otherwise, base/array_wrapper.py:387-389. -/
def SelCtx.labels (w : SelCtx L) : List L := w.groups.getD w.columns

/-- `grouped_ndim == 1` of a grouped wrapper, base/array_wrapper.py:498-505, and `ndim == 1` otherwise. -/
def SelCtx.one (w : SelCtx L) : Bool :=
  match w.groups with
  | none => w.ndim == 1
  | some g => g.length ≤ 1

/-- The effective `column_only_select`, base/array_wrapper.py:190-193. -/
def SelCtx.columnsOnly (setting : Bool) (w : SelCtx L) : Bool := w.colOnly.getD setting

/-- The positions of a label. -/
def labelPositions [DecidableEq L] (labels : List L) (c : L) : List Nat :=
  (List.range labels.length).filter fun i => labels[i]? = some c

/-- An integer position among `n`, as in `iloc`. -/
def pickInt (n : Nat) (z : Int) : Except Err Nat :=
  if 0 ≤ z ∧ z < n then .ok z.toNat
  else if z < 0 ∧ -(n : Int) ≤ z then .ok (n + z).toNat
  else .error (.indexError "single positional indexer is out-of-bounds")

/-- Indexing that selects one unit, base/array_wrapper.py:220-262: without `column_only_select` the frame of the positions of rows
must show two different rows (C111). -/
def indexUnit (setting : Bool) (w : SelCtx L) (i : Nat) : Except Err (Option Nat) :=
  if w.columnsOnly setting then .ok (some i)
  else if w.nRows < 2 then .error (.indexError "Must select at least two unique indices in one of both axes")
  else .ok (some i)

/-- `Wrapping.select_one`, base/array_wrapper.py:797-838; the result is the unit selected, `none` for the object itself.
`column_only_select` is read off the wrapper without the settings. -/
def selectOne [DecidableEq L] (asInt : L → Option Int) (setting : Bool) (w : SelCtx L) : Option L → Except Err (Option Nat)
  | none => if w.one then .ok none else .error (.typeError "Only one column is allowed. Use indexing or column argument.")
  | some c =>
    if w.one then .error (.typeError "This object already contains one column of data")
    else if c ∈ w.labels then
      match labelPositions w.labels c with
      | [i] => indexUnit setting w i
      | _ => .error (.typeError "Could not select one column: multiple columns returned")
    else
      match asInt c with
      | none => .error (.keyError "Column not found")
      | some z =>
        if w.colOnly = some true then
          match pickInt w.labels.length z with
          | .error e => .error e
          | .ok i => indexUnit setting w i
        else if w.columnsOnly setting then .error (.indexError "Too many indexers")
        else
          match pickInt w.labels.length z with
          | .error e => .error e
          | .ok i => indexUnit setting w i

/-- A pandas object: a DataFrame as the values of its columns, a Series, a number. -/
inductive SelObj (L V : Type) where
  | frame (columns index : List L) (values : List (List V))
  | series (index : List L) (values : List V)
  | scalar (v : V)
deriving DecidableEq

/-- One entry of a DataFrame or Series by position. -/
def SelObj.entry : SelObj L V → Nat → Except Err (SelObj L V)
  | .frame _ index values, i =>
    match values[i]? with
    | none => .error (.indexError "out of bounds")
    | some vs => .ok (.series index vs)
  | .series _ values, i =>
    match values[i]? with
    | none => .error (.indexError "out of bounds")
    | some v => .ok (.scalar v)
  | .scalar _, _ => .error (.rejected "no attribute 'iloc'")

/-- The labels of the entries. -/
def SelObj.entryLabels : SelObj L V → List L
  | .frame columns _ _ => columns
  | .series index _ => index
  | .scalar _ => []

/-- `obj.iloc[:, z]` of a DataFrame, `obj.iloc[z]` of a Series. -/
def SelObj.iloc (o : SelObj L V) (z : Int) : Except Err (SelObj L V) :=
  match pickInt o.entryLabels.length z with
  | .error e => .error e
  | .ok i => o.entry i

/-- The entries at some positions. -/
def SelObj.entries : SelObj L V → List Nat → SelObj L V
  | .frame columns index values, is => .frame (is.filterMap (columns[·]?)) index (is.filterMap (values[·]?))
  | .series index values, is => .series (is.filterMap (index[·]?)) (is.filterMap (values[·]?))
  | .scalar v, _ => .scalar v

/-- `obj[c]` for a label. -/
def SelObj.getLabel [DecidableEq L] (o : SelObj L V) (c : L) : Except Err (SelObj L V) :=
  match labelPositions o.entryLabels c with
  | [] => .error (.keyError "label")
  | [i] => o.entry i
  | is => .ok (o.entries is)

/-- `Wrapping.select_one_from_obj`, base/array_wrapper.py:840-869. -/
def selectOneFromObj [DecidableEq L] (asInt : L → Option Int) (w : SelCtx L) (o : SelObj L V) : Option L → Except Err (SelObj L V)
  | none => if w.one then .ok o else .error (.typeError "Only one column is allowed. Use indexing or column argument.")
  | some c =>
    if w.ndim = 1 then .error (.typeError "This object already contains one column of data")
    else if c ∈ w.labels then o.getLabel c
    else
      match asInt c with
      | none => .error (.keyError "Column not found")
      | some z => o.iloc z

end Vbt
