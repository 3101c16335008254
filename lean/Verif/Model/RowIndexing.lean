import Verif.Model.Grouping

/-!
# Selecting rows and columns: `ArrayWrapper.indexing_func_meta`, `vectorbt/base/array_wrapper.py`

The path with `column_only_select=False` and columns (not groups) selected; C86 has the path with columns only.  An indexing
operation of pandas (`[]`, `iloc`, `loc`, `xs`) is what it selects on each axis: one position or a list of positions.  It is a
black box for the method, which only sees the results on two frames that hold the numbers of their rows and columns.
Operations that change labels or fill cells (a mask of cells) are left out.
-/

namespace Vbt

/-- Selection on one axis. -/
inductive AxisSel where
  | one (k : Nat)
  | many (ks : List Nat)
deriving DecidableEq

/-- An indexing operation of pandas. -/
structure PdSel where
  rows : AxisSel
  cols : AxisSel
deriving DecidableEq

/-- A result of an indexing operation; a series has a name. -/
inductive PdRes (L V : Type) where
  | frame (index columns : List L) (rows : List (List V))
  | series (index : List L) (name : L) (vals : List V)
  | scalar (v : V)
deriving DecidableEq

variable {L V : Type} [Inhabited L]

/-- `index[positions]`. -/
def pickLabels (labels : List L) (ks : List Nat) : List L := ks.map fun k => labels.getD k default

/-- pandas: the operation on an object with two dimensions, or one. -/
def PdSel.apply (s : PdSel) (index columns : List L) (ndim : Nat) (cell : Nat → Nat → V) : PdRes L V :=
  if ndim = 1 then
    match s.rows with
    | .many rs => .series (pickLabels index rs) (columns.getD 0 default) (rs.map fun r => cell r 0)
    | .one r => .scalar (cell r 0)
  else
    match s.rows, s.cols with
    | .many rs, .many cs => .frame (pickLabels index rs) (pickLabels columns cs) (rs.map fun r => cs.map fun c => cell r c)
    | .many rs, .one c => .series (pickLabels index rs) (columns.getD c default) (rs.map fun r => cell r c)
    | .one r, .many cs => .series (pickLabels columns cs) (index.getD r default) (cs.map fun c => cell r c)
    | .one r, .one c => .scalar (cell r c)

/-- What `indexing_func_meta` returns: the parts of the new wrapper and the positions. -/
structure CellMeta (L : Type) where
  index : List L
  columns : List L
  ndim : Nat
  groupBy : Option (List L)
  idxIdxs : AxisSel
  colIdxs : AxisSel
deriving DecidableEq

/-- `np.all(values == values.item(0))`, base/array_wrapper.py:264-265; `item(0)` of an empty array raises. -/
def allFirst (vals : List Nat) : Except Err Bool :=
  match vals with
  | [] => .error (.indexError "index 0 is out of bounds for size 0")
  | v :: _ => .ok (vals.all (· = v))

/-- The positions on both axes, base/array_wrapper.py:239-281. -/
def cellIdxs (s : PdSel) (index columns : List L) (ndim : Nat) : Except Err (AxisSel × AxisSel) :=
  let idxMapper := s.apply index columns ndim fun r _ => r
  if ndim = 1 then
    match idxMapper with
    | .series _ _ vals => .ok (.many vals, .one 0)
    | _ => .error (.rejected "Selection of a scalar is not allowed")
  else
    let colMapper := s.apply index columns ndim fun _ c => c
    match idxMapper, colMapper with
    | .frame _ newCols rows, .frame _ _ colRows =>
      if newCols.length = 0 then .error (.indexError "index 0 is out of bounds for axis 1 with size 0")
      else
        match colRows with
        | [] => .error (.indexError "index 0 is out of bounds for axis 0 with size 0")
        | c :: _ => .ok (.many (rows.map fun r => r.getD 0 0), .many c)
    | .series _ _ idxVals, .series _ _ colVals =>
      match allFirst colVals, allFirst idxVals with
      | .ok oneCol, .ok oneIdx =>
        if oneCol && oneIdx then .error (.rejected "Must select at least two unique indices in one of both axes")
        else if oneCol then .ok (.many idxVals, .one (colVals.getD 0 0))
        else if oneIdx then .ok (.one (idxVals.getD 0 0), .many colVals)
        else .error (.rejected "IndexingError")
      | .error e, _ => .error e
      | _, .error e => .error e
    | _, _ => .error (.rejected "Selection of a scalar is not allowed")

/-- `get_index(idx_mapper, 0)` and `get_index(idx_mapper, 1)`, base/index_fns.py:28-41. -/
def PdRes.labels {W : Type} (x : PdRes L W) : List L × List L :=
  match x with
  | .frame i c _ => (i, c)
  | .series i n _ => (i, [n])
  | .scalar _ => ([], [])

/-- `ArrayWrapper.indexing_func_meta`, base/array_wrapper.py:196-351, with `column_only_select=False` and
`group_select=False`; `groupBy` has a label for each column. -/
def cellMeta (s : PdSel) (index columns : List L) (ndim : Nat) (groupBy : Option (List L)) : Except Err (CellMeta L) :=
  match cellIdxs s index columns ndim with
  | .error e => .error e
  | .ok (idxIdxs, colIdxs) =>
    let idxMapper := s.apply index columns ndim fun r _ => r
    let newIndex := idxMapper.labels.1
    let newColumns := match idxIdxs, colIdxs with
      | .one r, _ => pickLabels index [r]
      | _, .one c => pickLabels columns [c]
      | _, _ => idxMapper.labels.2
    let newNdim := match idxMapper with
      | .frame _ _ _ => 2
      | _ => 1
    match groupBy with
    | none => .ok ⟨newIndex, newColumns, newNdim, none, idxIdxs, colIdxs⟩
    | some g =>
      match idxIdxs with
      | .one _ => .error (.rejected "Flipping index and columns is not allowed")
      | .many _ =>
        let colArr := match colIdxs with
          | .one c => [c]
          | .many cs => cs
        .ok ⟨newIndex, newColumns, newNdim, some (pickLabels g colArr), idxIdxs, colIdxs⟩

end Vbt
