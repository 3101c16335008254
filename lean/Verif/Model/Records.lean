import Verif.Model.Float
import Verif.Model.Sim
import Mathlib.Data.List.Sort

/-!
# Columns of records: `vectorbt/records/nb.py`

Arrays that are filled in place are functions `Nat → _`; arrays returned by `np.empty` start with arbitrary contents
(`junk`).  The column array of the records is a list of column numbers.
-/

namespace Vbt
open F

/-- `a[start : start + len]`. -/
def slice {α : Type} (a : Nat → α) (start len : Nat) : List α := (List.range len).map fun k => a (start + k)

/-! ## Column map -/

/-- `col_lens_out`, records/nb.py:107-110. -/
def colLens (cols : List Nat) : Nat → Nat :=
  cols.foldl (fun lens col => setAt lens col (lens col + 1)) (fun _ => 0)

/-- `np.cumsum(col_lens) - col_lens`, records/nb.py:112, 127, 150, 208. -/
def colStarts (lens : Nat → Nat) (col : Nat) : Nat := ((List.range (col + 1)).map lens).sum - lens col

/-- One step of the second loop, records/nb.py:115-118; the state is (col_idxs_out, col_i). -/
def colMapStep (starts : Nat → Nat) (s : (Nat → Nat) × (Nat → Nat)) (x : Nat × Nat) : (Nat → Nat) × (Nat → Nat) :=
  (setAt s.1 (starts x.1 + s.2 x.1) x.2, setAt s.2 x.1 (s.2 x.1 + 1))

/-- A column map: `col_idxs` and `col_lens`. -/
structure ColMap where
  idxs : Nat → Nat
  lens : Nat → Nat

/-- `col_map_nb`, records/nb.py:101-120; `junk` is the contents of the uninitialised array. -/
def colMap (cols : List Nat) (junk : Nat → Nat) : ColMap :=
  let lens := colLens cols
  { idxs := (cols.zipIdx.foldl (colMapStep (colStarts lens)) (junk, fun _ => 0)).1, lens := lens }

/-- `col_idxs[col_start_idx : col_start_idx + col_len]`, records/nb.py:135-139, 156-160, 212-216. -/
def ColMap.col (m : ColMap) (c : Nat) : List Nat := slice m.idxs (colStarts m.lens c) (m.lens c)

/-- `col_map_select_nb`, records/nb.py:124-143; the arrays filled segment by segment are appended. -/
def colMapSelect (m : ColMap) (newCols : List Nat) : List Nat × List Nat :=
  newCols.zipIdx.foldl (fun out x =>
    if m.lens x.1 = 0 then out
    else (out.1 ++ m.col x.1, out.2 ++ List.replicate (m.lens x.1) x.2)) ([], [])

/-- `records[ridxs]`: an index outside of the array is left out (it never happens, C45). -/
def takeIdxs {α : Type} (records : List α) (idxs : List Nat) : List α := idxs.filterMap fun r => records[r]?

/-- `record_col_map_select_nb`, records/nb.py:147-165; `setCol` writes the field "col". -/
def recordColMapSelect {α : Type} (setCol : α → Nat → α) (records : List α) (m : ColMap) (newCols : List Nat) : List α :=
  newCols.zipIdx.foldl (fun out x =>
    if m.lens x.1 = 0 then out
    else out ++ (takeIdxs records (m.col x.1)).map fun r => setCol r x.2) []

/-! ## Column range -/

/-- State of the loop of `col_range_nb`. -/
structure RangeState where
  from_ : Nat → Int
  to_ : Nat → Int
  last : Int

/-- One iteration of `col_range_nb`, records/nb.py:40-50; `n` is the number of records. -/
def colRangeStep (n : Nat) (s : RangeState) (x : Nat × Nat) : Except Err RangeState :=
  if (x.1 : Int) < s.last then .error (.valueError "col_arr must be in ascending order")
  else
    let s1 :=
      if (x.1 : Int) ≠ s.last then
        { from_ := setAt s.from_ x.1 x.2,
          to_ := if s.last ≠ -1 then setAt s.to_ s.last.toNat x.2 else s.to_,
          last := x.1 }
      else s
    .ok (if x.2 + 1 = n then { s1 with to_ := setAt s1.to_ x.1 (x.2 + 1) } else s1)

/-- `col_range_nb`, records/nb.py:30-51. -/
def colRange (cols : List Nat) : Except Err RangeState :=
  loopE (colRangeStep cols.length) { from_ := fun _ => -1, to_ := fun _ => -1, last := -1 } cols.zipIdx

/-- `col_range_select_nb`, records/nb.py:55-74. -/
def colRangeSelect (rg : RangeState) (newCols : List Nat) : List Nat × List Nat :=
  newCols.zipIdx.foldl (fun out x =>
    if rg.from_ x.1 = -1 ∨ rg.to_ x.1 = -1 then out
    else
      let len := (rg.to_ x.1 - rg.from_ x.1).toNat
      (out.1 ++ (List.range len).map (fun k => (rg.from_ x.1).toNat + k), out.2 ++ List.replicate len x.2)) ([], [])

/-- `record_col_range_select_nb`, records/nb.py:78-97. -/
def recordColRangeSelect {α : Type} (setCol : α → Nat → α) (records : List α) (rg : RangeState) (newCols : List Nat) :
    List α :=
  newCols.zipIdx.foldl (fun out x =>
    if rg.from_ x.1 = -1 ∨ rg.to_ x.1 = -1 then out
    else out ++ ((records.drop (rg.from_ x.1).toNat).take (rg.to_ x.1 - rg.from_ x.1).toNat).map
      fun r => setCol r x.2) []

/-- `is_col_sorted_nb`, records/nb.py:172-177. -/
def isColSorted : List Nat → Bool
  | a :: b :: rest => if b < a then false else isColSorted (b :: rest)
  | _ => true

/-- `is_col_idx_sorted_nb`, records/nb.py:181-188; pairs (col, id). -/
def isColIdxSorted : List (Nat × Nat) → Bool
  | a :: b :: rest =>
    if b.1 < a.1 then false
    else if b.1 = a.1 ∧ b.2 < a.2 then false
    else isColIdxSorted (b :: rest)
  | _ => true

/-- `ColumnMapper._col_idxs_meta`, records/col_mapper.py:28-40. -/
def colIdxsMeta (cols : List Nat) (junk : Nat → Nat) (newCols : List Nat) : Except Err (List Nat × List Nat) :=
  if isColSorted cols then
    match colRange cols with
    | .error e => .error e
    | .ok rg => .ok (colRangeSelect rg newCols)
  else .ok (colMapSelect (colMap cols junk) newCols)

/-! ## Masks -/

/-- The loops marking up to `n` positions satisfying `cond`, records/nb.py:238-242, 257-262, 275-280, 300-304,
319-324, 336-341; `is` are the positions in the order visited. -/
def markLoop (idxs : Nat → Nat) (cond : Nat → Bool) : List Nat → Nat → (Nat → Bool) → (Nat → Bool)
  | [], _, m => m
  | i :: is, n, m =>
    if cond i then
      let m1 := setAt m (idxs i) true
      if n - 1 = 0 then m1 else markLoop idxs cond is (n - 1) m1
    else markLoop idxs cond is n m

/-- The loops marking all positions satisfying `cond`, records/nb.py:253-255, 268-271, 315-317, 329-332. -/
def markAll (idxs : Nat → Nat) (cond : Nat → Bool) (is : List Nat) (m : Nat → Bool) : Nat → Bool :=
  is.foldl (fun m i => if cond i then setAt m (idxs i) true else m) m

/-- numpy's sorting order: NaN last. -/
def sortLe (x y : F) : Bool := y.isnan || le x y

/-- `np.partition(a, k)[k]`: the k-th smallest. -/
def partitionAt (a : List F) (k : Nat) : F := ((a.insertionSort fun x y => sortLe x y = true)[k]?).getD nan

/-- `top_n_inout_map_nb`, records/nb.py:222-280. -/
def topN (n : Int) (idxs : List Nat) (vals : List F) (m : Nat → Bool) : Nat → Bool :=
  let at_ := fun i => idxs.getD i 0
  let v := fun i => vals.getD i nan
  let len := vals.length
  if n ≤ 0 then m
  else if n ≥ len then idxs.foldl (fun m r => setAt m r true) m
  else
    let valid := vals.filter fun x => eqb x x
    if valid.length = 0 then markLoop at_ (fun _ => true) (List.range len).reverse n.toNat m
    else if n > valid.length then
      markLoop at_ (fun i => !eqb (v i) (v i)) (List.range len).reverse (n - valid.length).toNat
        (markAll at_ (fun i => eqb (v i) (v i)) (List.range len) m)
    else
      let pivot := partitionAt valid (valid.length - n.toNat)
      let greater := fun i => eqb (v i) (v i) && gt (v i) pivot
      let nGreater := ((List.range len).filter greater).length
      let m1 := markAll at_ greater (List.range len) m
      if n - nGreater ≤ 0 then m1
      else markLoop at_ (fun i => eqb (v i) (v i) && eqb (v i) pivot) (List.range len).reverse (n - nGreater).toNat m1

/-- `bottom_n_inout_map_nb`, records/nb.py:284-341. -/
def bottomN (n : Int) (idxs : List Nat) (vals : List F) (m : Nat → Bool) : Nat → Bool :=
  let at_ := fun i => idxs.getD i 0
  let v := fun i => vals.getD i nan
  let len := vals.length
  if n ≤ 0 then m
  else if n ≥ len then idxs.foldl (fun m r => setAt m r true) m
  else
    let valid := vals.filter fun x => eqb x x
    if valid.length = 0 then markLoop at_ (fun _ => true) (List.range len) n.toNat m
    else if n > valid.length then
      markLoop at_ (fun i => !eqb (v i) (v i)) (List.range len) (n - valid.length).toNat
        (markAll at_ (fun i => eqb (v i) (v i)) (List.range len) m)
    else
      let pivot := partitionAt valid (n.toNat - 1)
      let less := fun i => eqb (v i) (v i) && lt (v i) pivot
      let nLess := ((List.range len).filter less).length
      let m1 := markAll at_ less (List.range len) m
      if n - nLess ≤ 0 then m1
      else markLoop at_ (fun i => eqb (v i) (v i) && eqb (v i) pivot) (List.range len) (n - nLess).toNat m1

/-- `mapped_to_mask_nb`, records/nb.py:195-218; `f` is `inout_map_func_nb` given the indices and values of a column. -/
def mappedToMask (f : List Nat → List F → (Nat → Bool) → (Nat → Bool)) (mapped : List F) (m : ColMap) (nCols : Nat) :
    Nat → Bool :=
  (List.range nCols).foldl (fun inout c =>
    if m.lens c = 0 then inout else f (m.col c) (takeIdxs mapped (m.col c)) inout) (fun _ => false)

/-! ## Applying and reducing per column -/

/-- `reduce_mapped_nb`, records/nb.py:512-537. -/
def reduceMapped {β : Type} (f : Nat → List F → β) (fill : β) (mapped : List F) (m : ColMap) (nCols : Nat) : List β :=
  (List.range nCols).map fun c => if m.lens c = 0 then fill else f c (takeIdxs mapped (m.col c))

/-- `reduce_mapped_to_idx_nb`, records/nb.py:541-567; `idx_arr[ridxs][col_out]` outside of the array would raise in
Python (or read past the end under Numba) and is `none` here. -/
def reduceMappedToIdx {β : Type} (f : Nat → List F → Nat) (fill : β) (mapped : List F) (m : ColMap) (idxArr : List β)
    (nCols : Nat) : List (Option β) :=
  (List.range nCols).map fun c =>
    if m.lens c = 0 then some fill else (takeIdxs idxArr (m.col c))[f c (takeIdxs mapped (m.col c))]?

/-- `out[ridxs] = vals`. -/
def writeAll {β : Type} (out : Nat → β) (idxs : List Nat) (vals : List β) : Nat → β :=
  (idxs.zip vals).foldl (fun o x => setAt o x.1 x.2) out

/-- `apply_on_mapped_nb` and `apply_on_records_nb`, records/nb.py:345-394. -/
def applyOnMapped {α β : Type} (f : List Nat → Nat → List α → List β) (mapped : List α) (m : ColMap) (nCols : Nat)
    (junk : Nat → β) : Nat → β :=
  (List.range nCols).foldl (fun out c =>
    if m.lens c = 0 then out else writeAll out (m.col c) (f (m.col c) c (takeIdxs mapped (m.col c)))) junk

/-- `mapped_value_counts_nb`, records/nb.py:644-657: `out[code, col]`. -/
def mappedValueCounts (codes : List Nat) (m : ColMap) (nCols : Nat) : Nat → Nat → Nat :=
  (List.range nCols).foldl (fun out c =>
    (takeIdxs codes (m.col c)).foldl (fun o code => setAt o code (setAt (o code) c (o code c + 1))) out)
    (fun _ _ => 0)

/-! ## Expansion -/

/-- The loop of `is_mapped_expandable_nb`, records/nb.py:417-421; `temp` marks the cells seen. -/
def expandableLoop : List (Nat × Nat) → (Nat × Nat → Bool) → Bool
  | [], _ => true
  | x :: xs, temp => if temp x then false else expandableLoop xs (fun y => if y = x then true else temp y)

/-- `is_mapped_expandable_nb`, records/nb.py:413-421; cells are (idx, col). -/
def isMappedExpandable (cells : List (Nat × Nat)) : Bool := expandableLoop cells fun _ => false

/-- `expand_mapped_nb`, records/nb.py:440-445. -/
def expandMapped {β : Type} (cells : List (Nat × Nat)) (mapped : List β) (fill : β) : Nat × Nat → β :=
  (cells.zip mapped).foldl (fun out x => fun y => if y = x.1 then x.2 else out y) (fun _ => fill)

/-- `stack_expand_mapped_nb`, records/nb.py:478-491: `out[row, col]` for `row < max(col_lens)`. -/
def stackExpandMapped (mapped : List F) (m : ColMap) (fill : F) (row col : Nat) : F :=
  if m.lens col = 0 then fill
  else if row < m.lens col then ((takeIdxs mapped (m.col col))[row]?).getD nan
  else fill

end Vbt
