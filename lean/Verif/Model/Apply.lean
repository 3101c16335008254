import Verif.Model.Generic

/-!
# Applying user functions to columns, rows, windows and groups

`vectorbt/generic/nb.py:1107-1643` and `reduce` of `vectorbt/generic/accessors.py`.  A 2-dim array is a function of the row and
of the column, with `rows` and `cols` its shape; `junk` is an uninitialised `np.empty` array.

Simplifications: user functions are pure functions of their arguments (extra `*args` are part of the function) and do not raise;
a user function that may return "a single value or an array" returns a function of the position, constant for a single value;
arrays of a different length than required (numpy raises or broadcasts) are not modelled, except in `reduceToArray`.  Where the
code allocates `out` in the first turn of the loop, an array without columns raises `UnboundLocalError`; here it returns `junk`.
-/

namespace Vbt
open F

variable {α β : Type}

/-! ## Writing into arrays -/

/-- `out[:, col] = vals`. -/
def writeColumn (rows col : Nat) (vals : Nat → β) (out : Nat → Nat → β) : Nat → Nat → β := fun i c =>
  if c = col ∧ i < rows then vals i else out i c

/-- `out[i, :] = vals`. -/
def writeRow (cols row : Nat) (vals : Nat → β) (out : Nat → Nat → β) : Nat → Nat → β := fun i c =>
  if i = row ∧ c < cols then vals c else out i c

/-- `out[row, col] = v`. -/
def writeCell (row col : Nat) (v : β) (out : Nat → Nat → β) : Nat → Nat → β := fun i c =>
  if i = row ∧ c = col then v else out i c

/-- `a[:, col]`. -/
def column (a : Nat → Nat → α) (rows col : Nat) : List α := (List.range rows).map fun i => a i col

/-- `a[row, from:to]`. -/
def rowSlice (a : Nat → Nat → α) (row start stop : Nat) : List α := slice (a row) start (stop - start)

/-- The loop over groups `from_col = 0; for group in range(len(group_lens)): to_col = from_col + group_lens[group]; …;
from_col = to_col`, e.g. generic/nb.py:1347-1354; `body group from_col to_col` updates the output. -/
def overGroups (lens : List Nat) (body : Nat → Nat → Nat → β → β) (out : β) : β :=
  ((List.range lens.length).foldl (fun (s : Nat × β) g =>
    (s.1 + lens.getD g 0, body g s.1 (s.1 + lens.getD g 0) s.2)) (0, out)).2

/-! ## Apply functions -/

/-- `apply_nb`, generic/nb.py:1107-1117. -/
def applyCols (a : Nat → Nat → α) (f : Nat → List α → Nat → β) (junk : Nat → Nat → β) (rows cols : Nat) : Nat → Nat → β :=
  (List.range cols).foldl (fun out col => writeColumn rows col (f col (column a rows col)) out) junk

/-- `row_apply_nb`, generic/nb.py:1121-1131. -/
def applyRows (a : Nat → Nat → α) (f : Nat → List α → Nat → β) (junk : Nat → Nat → β) (rows cols : Nat) : Nat → Nat → β :=
  (List.range rows).foldl (fun out i => writeRow cols i (f i (rowSlice a i 0 cols)) out) junk

/-- `rolling_apply_nb`, generic/nb.py:1135-1165: `nancnt_arr` is shared by the columns. -/
def rollingApply2 (a : Nat → Nat → F) (window : Nat) (minp : Option Nat) (f : Nat → Nat → List F → F) (junkCnt : Nat → Nat)
    (junk : Nat → Nat → F) (rows cols : Nat) : Nat → Nat → F :=
  ((List.range cols).foldl (fun (s : (Nat → Nat) × (Nat → Nat → F)) col =>
    let r := scanRows (applyStep (fun i => a i col) window (minp.getD window) (fun i => f i col)) (0, s.1)
      (fun i => s.2 i col) rows
    (r.1.2, writeColumn rows col r.2 s.2)) (junkCnt, junk)).2

/-- `expanding_apply_nb`, generic/nb.py:1203-1205. -/
def expandingApply2 (a : Nat → Nat → F) (minp : Option Nat) (f : Nat → Nat → List F → F) (junkCnt : Nat → Nat)
    (junk : Nat → Nat → F) (rows cols : Nat) : Nat → Nat → F :=
  rollingApply2 a rows minp f junkCnt junk rows cols

/-- One row of `rolling_matrix_apply_nb`, generic/nb.py:1184-1198; the state is (`nancnt_arr`, `out`).  The window is a list of
rows. -/
def matrixStep (a : Nat → Nat → F) (window minp : Nat) (f : Nat → List (List F) → Nat → F) (cols : Nat)
    (s : (Nat → Nat) × (Nat → Nat → F)) (i : Nat) : (Nat → Nat) × (Nat → Nat → F) :=
  let nancnt := (List.range cols).foldl (fun n col => if (a i col).isnan then n + 1 else n) 0
  let arr := setAt s.1 i nancnt
  let validCnt : Int := if i < window then (i : Int) + 1 - nancnt else window - ((nancnt : Int) - arr (i - window))
  (arr, if validCnt < minp then writeRow cols i (fun _ => nan) s.2
    else writeRow cols i (f i ((slice (fun k => k) (i + 1 - window) (i + 1 - (i + 1 - window))).map
      fun k => rowSlice a k 0 cols)) s.2)

/-- `rolling_matrix_apply_nb`, generic/nb.py:1169-1199. -/
def rollingMatrixApply (a : Nat → Nat → F) (window : Nat) (minp : Option Nat) (f : Nat → List (List F) → Nat → F)
    (junkCnt : Nat → Nat) (junk : Nat → Nat → F) (rows cols : Nat) : Nat → Nat → F :=
  ((List.range rows).foldl (matrixStep a window (minp.getD window) f cols) (junkCnt, junk)).2

/-- `groupby_apply_nb`, generic/nb.py:1220-1235; `groups` lists the items of the dictionary. -/
def groupbyApply (a : Nat → Nat → α) (groups : List (Nat × List Nat)) (f : List Nat → Nat → List α → β)
    (junk : Nat → Nat → β) (cols : Nat) : Nat → Nat → β :=
  (List.range cols).foldl (fun out col =>
    groups.foldl (fun out g => writeCell g.1 col (f g.2 col (g.2.map fun i => a i col)) out) out) junk

/-- `groupby_matrix_apply_nb`, generic/nb.py:1239-1249. -/
def groupbyMatrixApply (a : Nat → Nat → α) (groups : List (Nat × List Nat)) (f : List Nat → List (List α) → Nat → β)
    (junk : Nat → Nat → β) (cols : Nat) : Nat → Nat → β :=
  groups.foldl (fun out g => writeRow cols g.1 (f g.2 (g.2.map fun i => rowSlice a i 0 cols)) out) junk

/-- `groups` of `groupby_apply` and `resample_apply`, generic/accessors.py:624-627 and 670-673: the items of the pandas
`indices` dictionary (label and rows), numbered from 0. -/
def enumGroups {L : Type} (indices : List (L × List Nat)) : List (Nat × List Nat) :=
  (List.range indices.length).zip (indices.map Prod.snd)

/-! ## Map, filter and reduce -/

/-- `np.flatnonzero(~np.isnan(a[:, col]))`. -/
def presentRows (a : Nat → Nat → F) (rows col : Nat) : List Nat := (List.range rows).filter fun i => !(a i col).isnan

/-- `applymap_nb`, generic/nb.py:1256-1267. -/
def applymap (a : Nat → Nat → F) (f : Nat → Nat → F → F) (rows cols : Nat) : Nat → Nat → F :=
  (List.range cols).foldl (fun out col =>
    (presentRows a rows col).foldl (fun out i => writeCell i col (f i col (a i col)) out) out) fun _ _ => nan

/-- `filter_nb`, generic/nb.py:1271-1284. -/
def filterNb (a : Nat → Nat → F) (f : Nat → Nat → F → Bool) (rows cols : Nat) : Nat → Nat → F :=
  (List.range cols).foldl (fun out col =>
    (presentRows a rows col).foldl (fun out i => if !f i col (a i col) then writeCell i col nan out else out) out) a

/-- `apply_and_reduce_nb`, generic/nb.py:1288-1308. -/
def applyAndReduce {γ : Type} (a : Nat → Nat → α) (f : Nat → List α → List γ) (g : Nat → List γ → β) (junk : Nat → β)
    (rows cols : Nat) : Nat → β :=
  (List.range cols).foldl (fun out col => setAt out col (g col (f col (column a rows col)))) junk

/-- `reduce_nb`, generic/nb.py:1312-1322. -/
def reduceCols (a : Nat → Nat → α) (f : Nat → List α → β) (junk : Nat → β) (rows cols : Nat) : Nat → β :=
  (List.range cols).foldl (fun out col => setAt out col (f col (column a rows col))) junk

/-- `reduce_to_array_nb`, generic/nb.py:1326-1338: (number of rows, `out`).  An array of another length than that of the
first column is refused. -/
def reduceToArray (a : Nat → Nat → α) (f : Nat → List α → List β) (junk : Nat → Nat → β) (rows cols : Nat) :
    Except Err (Nat → Nat → β) :=
  let k := (f 0 (column a rows 0)).length
  loopE (fun out col =>
    let r := f col (column a rows col)
    if r.length ≠ k then .error (.valueError "cannot assign slice from input of different size")
    else .ok (writeColumn k col (fun i => (r[i]?).getD (out i col)) out)) junk (List.range cols)

/-- `a[:, from_col:to_col]`, a list of rows. -/
def block (a : Nat → Nat → α) (rows start stop : Nat) : List (List α) :=
  (List.range rows).map fun i => rowSlice a i start stop

/-- `reduce_grouped_nb`, generic/nb.py:1342-1355. -/
def reduceGrouped (a : Nat → Nat → α) (lens : List Nat) (f : Nat → List (List α) → β) (junk : Nat → β) (rows : Nat) : Nat → β :=
  overGroups lens (fun g start stop out => setAt out g (f g (block a rows start stop))) junk

/-- `reduce_grouped_to_array_nb`, generic/nb.py:1391-1411; `k` is the length of the results. -/
def reduceGroupedToArray (a : Nat → Nat → α) (lens : List Nat) (f : Nat → List (List α) → Nat → β) (junk : Nat → Nat → β)
    (rows k : Nat) : Nat → Nat → β :=
  overGroups lens (fun g start stop out => writeColumn k g (f g (block a rows start stop)) out) junk

/-- `out[start:start + len] = vals`. -/
def writeSpan (out : Nat → β) (start len : Nat) (vals : Nat → β) : Nat → β := fun i =>
  if start ≤ i ∧ i < start + len then vals (i - start) else out i

/-- `flatten_forder_nb`, generic/nb.py:1359-1364. -/
def flattenF (a : Nat → Nat → α) (junk : Nat → α) (rows cols : Nat) : Nat → α :=
  (List.range cols).foldl (fun out col => writeSpan out (col * rows) ((col + 1) * rows - col * rows) fun i => a i col) junk

/-- `a[:, from_col:to_col].flatten()` or `flatten_forder_nb(a[:, from_col:to_col])`, generic/nb.py:1379-1382. -/
def flatBlock (a : Nat → Nat → α) (junk : Nat → α) (inC : Bool) (rows start stop : Nat) : List α :=
  if inC then (block a rows start stop).flatten
  else slice (flattenF (fun i c => a i (start + c)) junk rows (stop - start)) 0 (rows * (stop - start))

/-- `flat_reduce_grouped_nb`, generic/nb.py:1368-1387. -/
def flatReduceGrouped (a : Nat → Nat → α) (lens : List Nat) (inC : Bool) (f : Nat → List α → β) (junkA : Nat → α)
    (junk : Nat → β) (rows : Nat) : Nat → β :=
  overGroups lens (fun g start stop out => setAt out g (f g (flatBlock a junkA inC rows start stop))) junk

/-- `flat_reduce_grouped_to_array_nb`, generic/nb.py:1415-1434; `k` is the length of the results. -/
def flatReduceGroupedToArray (a : Nat → Nat → α) (lens : List Nat) (inC : Bool) (f : Nat → List α → Nat → β)
    (junkA : Nat → α) (nan : β) (rows k : Nat) : Nat → Nat → β :=
  overGroups lens (fun g start stop out => writeColumn k g (f g (flatBlock a junkA inC rows start stop)) out)
    fun _ _ => nan

/-- `squeeze_grouped_nb`, generic/nb.py:1438-1457. -/
def squeezeGrouped (a : Nat → Nat → α) (lens : List Nat) (f : Nat → Nat → List α → β) (junk : Nat → Nat → β) (rows : Nat) :
    Nat → Nat → β :=
  overGroups lens (fun g start stop out =>
    (List.range rows).foldl (fun out i => writeCell i g (f i g (rowSlice a i start stop)) out) out) junk

/-- The positions of a reduction over flattened groups turned into rows, generic/accessors.py:858-862: `out //= group_lens` or
`out %= shape[0]`. -/
def flatRow (inC : Bool) (lens : List Nat) (rows : Nat) (out : Nat → Nat) : Nat → Nat := fun g =>
  if inC then out g / lens.getD g 0 else out g % rows

/-! ## Reshaping -/

/-- `np.max(group_lens)`. -/
def maxLen (lens : List Nat) : Nat := lens.foldl max 0

/-- The body of `flatten_grouped_nb` and `flatten_uniform_grouped_nb`, generic/nb.py:1467-1477 and 1484-1494. -/
def flattenLoop (a : Nat → Nat → α) (lens : List Nat) (inC : Bool) (rows : Nat) (out : Nat → Nat → α) : Nat → Nat → α :=
  overGroups lens (fun g start stop out =>
    (List.range (stop - start)).foldl (fun out k =>
      fun i c => if c = g ∧ i < rows * maxLen lens ∧
          (if inC then k ≤ i ∧ (i - k) % maxLen lens = 0 else k * rows ≤ i ∧ i < (k + 1) * rows) then
        a (if inC then (i - k) / maxLen lens else i - k * rows) (start + k)
      else out i c) out) out

/-- `flatten_grouped_nb`, generic/nb.py:1464-1477. -/
def flattenGrouped (a : Nat → Nat → F) (lens : List Nat) (inC : Bool) (rows : Nat) : Nat → Nat → F :=
  flattenLoop a lens inC rows fun _ _ => nan

/-- `flatten_uniform_grouped_nb`, generic/nb.py:1481-1494. -/
def flattenUniform (a : Nat → Nat → α) (lens : List Nat) (inC : Bool) (junk : Nat → Nat → α) (rows : Nat) : Nat → Nat → α :=
  flattenLoop a lens inC rows junk

/-- `flatten_grouped` of the DataFrame accessor, generic/accessors.py:2808-2811 for a float array. -/
def flattenAccessor (a : Nat → Nat → F) (lens : List Nat) (inC : Bool) (junk : Nat → Nat → F) (rows : Nat) : Nat → Nat → F :=
  if lens.all fun n => n == lens.getD 0 0 then flattenUniform a lens inC junk rows else flattenGrouped a lens inC rows

/-! ## Reducers -/

/-- `nth_reduce_nb`, generic/nb.py:1501-1505. -/
def nthReduce (a : List α) (n : Int) : Except Err α :=
  if (n < 0 ∧ n.natAbs > a.length) ∨ n ≥ a.length then .error (.valueError "index is out of bounds")
  else
    match a[if n < 0 then (a.length + n).toNat else n.toNat]? with
    | some x => .ok x
    | none => .error (.indexError "index out of range")

/-- `nth_index_reduce_nb`, generic/nb.py:1509-1515. -/
def nthIndexReduce (a : List α) (n : Int) : Except Err Int :=
  if (n < 0 ∧ n.natAbs > a.length) ∨ n ≥ a.length then .error (.valueError "index is out of bounds")
  else .ok (if n ≥ 0 then n else a.length + n)

/-- `np.nanmin` and `np.nanmax` of Numba: NaN if every value is NaN, an error for an empty array. -/
def nanSel (better : F → F → Bool) (a : List F) : Except Err F :=
  if a.isEmpty then .error (.valueError "zero-size array")
  else .ok (a.foldl (fun best x => if x.isnan then best else if best.isnan || better x best then x else best) nan)

/-- `min_reduce_nb` and `min_squeeze_nb`, generic/nb.py:1519-1521 and 1623-1625. -/
def minReduce (a : List F) : Except Err F := nanSel lt a

/-- `max_reduce_nb` and `max_squeeze_nb`, generic/nb.py:1525-1527 and 1629-1631. -/
def maxReduce (a : List F) : Except Err F := nanSel gt a

/-- `np.nansum`, e.g. `sum_reduce_nb` and `sum_squeeze_nb`, generic/nb.py:1549-1551 and 1635-1637. -/
def nansum (A : Arith) (a : List F) : F := a.foldl (fun s x => if x.isnan then s else add A s x) zero

/-- `count_reduce_nb`, generic/nb.py:1555-1557. -/
def countReduce (a : List F) : Nat := (a.filter fun x => !x.isnan).length

/-- `np.nanmean`, e.g. `mean_reduce_nb`, generic/nb.py:1531-1533. -/
def nanmean (A : Arith) (a : List F) : F := div A (nansum A a) (fin (countReduce a))

/-- `np.argmin` and `np.argmax` of an array without NaN: the first position with no better one. -/
def argBest (better : F → F → Bool) (a : List F) : Nat :=
  ((List.range a.length).foldl (fun (s : Nat × F) i => if better (a.getD i nan) s.2 then (i, a.getD i nan) else s)
    (0, a.getD 0 nan)).1

/-- `argmin_reduce_nb`, generic/nb.py:1561-1568. -/
def argminReduce (a : List F) : Except Err Nat :=
  if a.all isnan then .error (.valueError "All-NaN slice encountered")
  else .ok (argBest lt (a.map fun x => if x.isnan then pinf else x))

/-- `argmax_reduce_nb`, generic/nb.py:1572-1579. -/
def argmaxReduce (a : List F) : Except Err Nat :=
  if a.all isnan then .error (.valueError "All-NaN slice encountered")
  else .ok (argBest gt (a.map fun x => if x.isnan then ninf else x))

/-- `any_squeeze_nb`, generic/nb.py:1641-1643: `np.any` of a float array takes every value but 0 for true, also NaN. -/
def anySqueeze (a : List F) : Bool := a.any fun x => !eqb x zero

/-! ## Value counts -/

/-- `value_counts_nb`, generic/nb.py:1605-1616: `out[code, group]`. -/
def valueCounts (codes : Nat → Nat → Nat) (lens : List Nat) (rows : Nat) : Nat → Nat → Nat :=
  overGroups lens (fun g start stop out =>
    (List.range' start (stop - start)).foldl (fun out col =>
      (List.range rows).foldl (fun out i => writeCell (codes i col) g (out (codes i col) g + 1) out) out) out) fun _ _ => 0

end Vbt
