import Verif.Model.Grouping
import Verif.Model.Records

/-!
# Mapped arrays: `vectorbt/records/mapped_array.py`

A mapped array holds parallel arrays: values, columns, ids and optionally rows.  The grouping of its wrapper is the array
of group numbers of the columns, or none; caching and configuration are left out.
-/

namespace Vbt
open F

/-- The arrays of `MappedArray`, records/mapped_array.py:431-483. -/
structure Mapped where
  vals : List F
  cols : List Nat
  ids : List Nat
  idx : Option (List Nat)
deriving DecidableEq

/-- The argument `group_by` of a method: `None` keeps the grouping of the wrapper, `False` is `some none`;
`ColumnGrouper.get_groups` via base/column_grouper.py:252-269. -/
def resolveGroups (own : Option (Nat → Nat)) (arg : Option (Option (Nat → Nat))) : Option (Nat → Nat) := arg.getD own

/-- `ColumnMapper.get_col_arr`, records/col_mapper.py:53-60. -/
def getColArr (cols : List Nat) (groups : Option (Nat → Nat)) : List Nat :=
  match groups with
  | some g => cols.map g
  | none => cols

/-- `np.argsort(key, kind="stable")` of the positions of an array of length `n`. -/
def argsortStable (n : Nat) (before : Nat → Nat → Bool) : List Nat :=
  (List.range n).insertionSort fun i j => before i j = true

/-- `MappedArray.is_sorted`, records/mapped_array.py:574-579. -/
def Mapped.isSorted (m : Mapped) (inclId : Bool) : Bool :=
  if inclId then isColIdxSorted (m.cols.zip m.ids) else isColSorted m.cols

/-- The permutation of `MappedArray.sort`, records/mapped_array.py:596-599; the last key of `np.lexsort` is the primary
one. -/
def Mapped.order (m : Mapped) (inclId : Bool) : List Nat :=
  let col := fun i => m.cols.getD i 0
  let id := fun i => m.ids.getD i 0
  if inclId then argsortStable m.cols.length fun i j => decide (col i < col j ∨ (col i = col j ∧ id i ≤ id j))
  else argsortStable m.cols.length fun i j => decide (col i ≤ col j)

/-- `values[ind]`, `col_arr[ind]`, … of records/mapped_array.py:600-606, 621-627. -/
def Mapped.take (m : Mapped) (idxArr : Option (List Nat)) (ind : List Nat) : Mapped :=
  { vals := takeIdxs m.vals ind
    cols := takeIdxs m.cols ind
    ids := takeIdxs m.ids ind
    idx := idxArr.map fun l => takeIdxs l ind }

/-- `MappedArray.sort`, records/mapped_array.py:581-607; `Records.sort`, records/base.py:682-700, is the same on records. -/
def Mapped.sort (m : Mapped) (inclId : Bool) (idxArr : Option (List Nat)) : Mapped :=
  let idxArr := match idxArr with
    | none => m.idx
    | some l => some l
  if m.isSorted inclId then { m with idx := idxArr } else m.take idxArr (m.order inclId)

/-- `MappedArray.apply_mask`, records/mapped_array.py:609-628, with a mask of the length of the array. -/
def Mapped.applyMask (m : Mapped) (mask : Nat → Bool) (idxArr : Option (List Nat)) : Mapped :=
  let idxArr := match idxArr with
    | none => m.idx
    | some l => some l
  m.take idxArr ((List.range m.vals.length).filter mask)

/-- The number of columns or groups: `len(wrapper.get_columns(group_by))`. -/
structure MappedGroups where
  groups : Option (Nat → Nat)
  count : Nat

/-- `MappedArray.top_n` and `bottom_n`, records/mapped_array.py:637-663: `group_by` is passed to `apply_mask` only, which
regroups the result.  `f` is the map function of the mask; the second component is the grouping of the result. -/
def Mapped.pickN (f : List Nat → List F → (Nat → Bool) → (Nat → Bool)) (m : Mapped) (own : MappedGroups)
    (arg : Option (Option (Nat → Nat))) (junk : Nat → Nat) : Mapped × Option (Nat → Nat) :=
  (m.applyMask (mappedToMask f m.vals (colMap (getColArr m.cols own.groups) junk) own.count) none,
    resolveGroups own.groups arg)

/-- `combine_mapped_with_other`, records/mapped_array.py:379-392, with another mapped array. -/
def Mapped.combine (f : F → F → F) (m o : Mapped) : Except Err Mapped :=
  if m.ids ≠ o.ids then .error (.rejected "Arrays are not equal")
  else if m.cols ≠ o.cols then .error (.rejected "Arrays are not equal")
  else .ok { m with vals := m.vals.zipWith f o.vals }

/-! ## Counting values -/

/-- The options of `MappedArray.value_counts`, records/mapped_array.py:1022-1035. -/
structure VcOpts where
  normalize : Bool := false
  sortUniques : Bool := true
  sort : Bool := false
  ascending : Bool := false
  dropna : Bool := false
  inclAllKeys : Bool := false

/-- The keys of the mapping that do not occur, records/mapped_array.py:1054-1060; `in` of an array compares with `==`. -/
def missingKeys (uniques keys : List F) : List F :=
  keys.filter fun x => !(x.isnan && uniques.any isnan) && !(uniques.any fun u => eqb u x)

/-- The table of labels and counts per column, records/mapped_array.py:1049-1066, before sorting. -/
def vcTable (o : VcOpts) (keys : Option (List F)) (vals : List F) (cols : List Nat) (nCols : Nat) (junk : Nat → Nat) :
    List (F × List Nat) :=
  let fz := factorize (vals.map some)
  let counts := mappedValueCounts (fz.2.map Int.toNat) (colMap cols junk) nCols
  let rows := fz.1.zipIdx.map fun x => (x.1, (List.range nCols).map (counts x.2))
  let rows := match keys with
    | some ks => if o.inclAllKeys then rows ++ (missingKeys fz.1 ks).map fun x => (x, List.replicate nCols 0) else rows
    | none => rows
  if o.dropna then rows.filter fun r => !r.1.isnan else rows

/-- `MappedArray.value_counts`, records/mapped_array.py:1045-1081, before the labels are mapped: labels with the counts
(or shares) per column or group. -/
def valueCountsOf (A : Arith) (o : VcOpts) (keys : Option (List F)) (vals : List F) (cols : List Nat) (nCols : Nat)
    (junk : Nat → Nat) : List (F × List F) :=
  let rows := vcTable o keys vals cols nCols junk
  let rows := if o.sortUniques then rows.insertionSort fun a b => sortLe a.1 b.1 = true else rows
  let total := (rows.map fun r => r.2.sum).sum
  let cells := rows.map fun r => (r.1, r.2.sum, r.2.map fun k : Nat =>
    if o.normalize then div A (fin k) (fin total) else fin k)
  let cells :=
    if o.sort then
      if o.ascending then cells.insertionSort fun a b => a.2.1 ≤ b.2.1 else cells.insertionSort fun a b => b.2.1 ≤ a.2.1
    else cells
  cells.map fun r => (r.1, r.2.2)

end Vbt
