import Verif.Model.RustRecords
import Verif.Model.Records
import Verif.Model.Engine

/-!
# Columns of records on the Rust engine: `rust/src/records.rs`

Arrays of `i64` that are read are lists of integers; vectors that are filled in place are functions with a length beside them,
and an access outside of the length is `panicked`.  A panic anywhere loses the results of the whole call, so the indices of a
column are read before anything is written, although the loops do both in turn.  Overflow of additions and products of `usize`
is not modelled.  The fields of a record other than "col" are opaque: `setCol` writes this field.  `as_slice` and
`array1_as_slice_cow` (contiguous copies) are the identity.
-/

namespace Vbt.RsCol
open F

/-- `x as usize` for an `i64`. -/
def asUsize (x : Int) : Nat := if 0 ≤ x then x.toNat else (x + 18446744073709551616).toNat

/-- `v[i] = x` for a vector of length `n`. -/
def put {α : Type} (n : Nat) (v : Nat → α) (i : Nat) (x : α) : Except Err (Nat → α) :=
  if i < n then .ok (setAt v i x) else .error RsGen.panicked

/-- `v[i]` for a vector of length `n`. -/
def look {α : Type} (n : Nat) (v : Nat → α) (i : Nat) : Except Err α :=
  if i < n then .ok (v i) else .error RsGen.panicked

/-- `l[i]` for a slice. -/
def at_ {α : Type} (l : List α) (i : Nat) : Except Err α :=
  match l[i]? with
  | none => .error RsGen.panicked
  | some x => .ok x

/-- The vector after `seg` was written from position `j` on. -/
def over {α : Type} (v : Nat → α) (j : Nat) (seg : List α) : Nat → α :=
  fun i => if j ≤ i then (seg[i - j]?).getD (v i) else v i

/-- `v[j..j + seg.len()].copy_from_slice(seg)`, and loops doing the same, for a vector of length `n`. -/
def blit {α : Type} (n : Nat) (v : Nat → α) (j : Nat) (seg : List α) : Except Err (Nat → α) :=
  if j + seg.length ≤ n then .ok (over v j seg) else .error RsGen.panicked

/-! ## Column range -/

/-- `normalize_col`, rust/src/records.rs:14-23. -/
def normalizeCol (col : Int) (nCols : Nat) : Nat :=
  let c := asUsize col
  if c < nCols then c else if nCols = 1 then 0 else c

/-- State of the loop of `col_range`. -/
structure RangeSt where
  out : Nat → Int
  last : Int

/-- One turn of the loop, rust/src/records.rs:34-43. -/
def rangeStep (nCols : Nat) (s : RangeSt) (x : Int × Nat) : Except Err RangeSt :=
  if x.1 < s.last then .error (.valueError "col_arr must be in ascending order")
  else if x.1 ≠ s.last then
    match put (nCols * 2) s.out (normalizeCol s.last nCols * 2 + 1) (x.2 : Int) with
    | .error e => .error e
    | .ok o1 =>
      match put (nCols * 2) o1 (normalizeCol x.1 nCols * 2) (x.2 : Int) with
      | .error e => .error e
      | .ok o2 => .ok ⟨o2, x.1⟩
  else .ok s

/-- `col_range`, rust/src/records.rs:25-46: the pair of a column is in cells `2 * col` and `2 * col + 1`. -/
def colRange (cols : List Int) (nCols : Nat) : Except Err (Nat → Int) :=
  match cols with
  | [] => .ok fun _ => -1
  | c :: rest =>
    match put (nCols * 2) (fun _ => -1) (normalizeCol c nCols * 2) 0 with
    | .error e => .error e
    | .ok o =>
      match loopE (rangeStep nCols) ⟨o, c⟩ (rest.zipIdx 1) with
      | .error e => .error e
      | .ok s => put (nCols * 2) s.out (normalizeCol s.last nCols * 2 + 1) ((rest.length + 1 : Nat) : Int)

/-- `col_range[c * 2]` and `col_range[c * 2 + 1]`, rust/src/records.rs:66-68, 82-84; `m` is the length of the flat array. -/
def rangeOf (m : Nat) (rg : Nat → Int) (c : Int) : Except Err (Int × Int) :=
  match look m rg (asUsize c * 2) with
  | .error e => .error e
  | .ok f =>
    match look m rg (asUsize c * 2 + 1) with
    | .error e => .error e
    | .ok t => .ok (f, t)

/-- The first pass, rust/src/records.rs:64-72, 159-167. -/
def countStep (m : Nat) (rg : Nat → Int) (n : Nat) (c : Int) : Except Err Nat :=
  match rangeOf m rg c with
  | .error e => .error e
  | .ok ft => .ok (if ft.1 ≠ -1 ∧ ft.2 ≠ -1 then n + asUsize (ft.2 - ft.1) else n)

/-- State of the second pass. -/
structure Sel where
  j : Nat
  idxs : Nat → Int
  cols : Nat → Int

/-- One turn of the second pass, rust/src/records.rs:78-91. -/
def rangeSelStep (m : Nat) (rg : Nat → Int) (n : Nat) (s : Sel) (x : Int × Nat) : Except Err Sel :=
  match rangeOf m rg x.1 with
  | .error e => .error e
  | .ok ft =>
    if ft.1 = -1 ∨ ft.2 = -1 then .ok s
    else
      let count := asUsize (ft.2 - ft.1)
      match blit n s.idxs s.j ((List.range count).map fun k : Nat => ft.1 + (k : Int)) with
      | .error e => .error e
      | .ok idxs =>
        match blit n s.cols s.j (List.replicate count (x.2 : Int)) with
        | .error e => .error e
        | .ok cols => .ok ⟨s.j + count, idxs, cols⟩

/-- `col_range_select`, rust/src/records.rs:62-93. -/
def colRangeSelect (m : Nat) (rg : Nat → Int) (newCols : List Int) : Except Err (List Int × List Int) :=
  match loopE (countStep m rg) 0 newCols with
  | .error e => .error e
  | .ok n =>
    match loopE (rangeSelStep m rg n) ⟨0, fun _ => 0, fun _ => 0⟩ newCols.zipIdx with
    | .error e => .error e
    | .ok s => .ok (slice s.idxs 0 n, slice s.cols 0 n)

/-! ## Record arrays -/

/-- A structured array: the memory before and after its data pointer, the distance of its records (in records), and how many
there are. -/
structure RecArr (α : Type) where
  mem : Int → α
  stride : Int
  len : Nat

/-- The records of the array, as NumPy and Numba read them. -/
def RecArr.toList {α : Type} (r : RecArr α) : List α := (List.range r.len).map fun i : Nat => r.mem (r.stride * (i : Int))

/-- `src_data.add(i * itemsize)`, rust/src/records.rs:188-192, 364-368, 378-382 with `array_raw_parts` (263-271): the strides of
the array are not looked at. -/
def RecArr.raw {α : Type} (r : RecArr α) (i : Nat) : α := r.mem (i : Int)

/-- One turn of `record_col_range_select_rs`, rust/src/records.rs:176-201; the state is (j, output). -/
def recRangeStep {α : Type} (setCol : α → Nat → α) (r : RecArr α) (m : Nat) (rg : Nat → Int) (s : Nat × (Nat → α))
    (x : Int × Nat) : Except Err (Nat × (Nat → α)) :=
  match rangeOf m rg x.1 with
  | .error e => .error e
  | .ok ft =>
    if ft.1 = -1 ∨ ft.2 = -1 then .ok s
    else
      let count := asUsize (ft.2 - ft.1)
      .ok (s.1 + count, over s.2 s.1 ((List.range count).map fun k => setCol (r.raw (asUsize ft.1 + k)) x.2))

/-- `record_col_range_select_rs`, rust/src/records.rs:137-204; `junk` is the contents of `numpy.empty`. -/
def recordColRangeSelect {α : Type} (setCol : α → Nat → α) (r : RecArr α) (m : Nat) (rg : Nat → Int) (newCols : List Int)
    (junk : Nat → α) : Except Err (List α) :=
  match loopE (countStep m rg) 0 newCols with
  | .error e => .error e
  | .ok n =>
    match loopE (recRangeStep setCol r m rg) (0, junk) newCols.zipIdx with
    | .error e => .error e
    | .ok s => .ok (slice s.2 0 n)

/-! ## Column map -/

/-- The loop counting records, rust/src/records.rs:116-119. -/
def lensStep (nCols : Nat) (lens : Nat → Int) (col : Int) : Except Err (Nat → Int) :=
  match look nCols lens (normalizeCol col nCols) with
  | .error e => .error e
  | .ok l => put nCols lens (normalizeCol col nCols) (l + 1)

/-- `col_start_idxs`, rust/src/records.rs:121-124, 208-212, 340-343, 584-588, 634-637, 754-757. -/
def starts (nCols : Nat) (lens : Nat → Int) : Nat → Int :=
  (List.range' 1 (nCols - 1)).foldl (fun st i => setAt st i (st (i - 1) + lens (i - 1))) fun _ => 0

/-- One turn of the second loop, rust/src/records.rs:128-132; the state is (col_idxs_out, col_i). -/
def mapStep (nCols n : Nat) (st : Nat → Int) (s : (Nat → Int) × (Nat → Int)) (x : Int × Nat) :
    Except Err ((Nat → Int) × (Nat → Int)) :=
  let col := normalizeCol x.1 nCols
  match look nCols s.2 col with
  | .error e => .error e
  | .ok i =>
    match put n s.1 (asUsize (st col + i)) (x.2 : Int) with
    | .error e => .error e
    | .ok idxs =>
      match put nCols s.2 col (i + 1) with
      | .error e => .error e
      | .ok ci => .ok (idxs, ci)

/-- `col_map`, rust/src/records.rs:115-135. -/
def colMap (cols : List Int) (nCols : Nat) : Except Err (List Int × List Int) :=
  match loopE (lensStep nCols) (fun _ => 0) cols with
  | .error e => .error e
  | .ok lens =>
    match loopE (mapStep nCols cols.length (starts nCols lens)) (fun _ => 0, fun _ => 0) cols.zipIdx with
    | .error e => .error e
    | .ok s => .ok (slice s.1 0 cols.length, slice lens 0 nCols)

/-- `col_lens` as a vector. -/
def lensFn (lens : List Int) : Nat → Int := fun c => lens.getD c 0

/-- The indices of column `c`: `col_idxs[start..start + len]`, rust/src/records.rs:225-231, 353-361, 546-552, 595-600, 640-660. -/
def segment (idxs lens : List Int) (c len : Nat) : Except Err (List Int) :=
  let start := asUsize (starts lens.length (lensFn lens) c)
  if start + len ≤ idxs.length then .ok ((idxs.drop start).take len) else .error RsGen.panicked

/-- The count of the selected records, rust/src/records.rs:214-218, 344-347. -/
def lenStep (lens : List Int) (n : Nat) (c : Int) : Except Err Nat :=
  match at_ lens (asUsize c) with
  | .error e => .error e
  | .ok l => .ok (n + asUsize l)

/-- One turn of the loop of `col_map_select`, rust/src/records.rs:224-233. -/
def mapSelStep (idxs lens : List Int) (n : Nat) (s : Sel) (x : Int × Nat) : Except Err Sel :=
  match at_ lens (asUsize x.1) with
  | .error e => .error e
  | .ok l =>
    let len := asUsize l
    if len = 0 then .ok s
    else
      match segment idxs lens (asUsize x.1) len with
      | .error e => .error e
      | .ok seg =>
        match blit n s.idxs s.j seg with
        | .error e => .error e
        | .ok io =>
          match blit n s.cols s.j (List.replicate len (x.2 : Int)) with
          | .error e => .error e
          | .ok co => .ok ⟨s.j + len, io, co⟩

/-- `col_map_select`, rust/src/records.rs:205-235. -/
def colMapSelect (idxs lens : List Int) (newCols : List Int) : Except Err (List Int × List Int) :=
  match loopE (lenStep lens) 0 newCols with
  | .error e => .error e
  | .ok n =>
    match loopE (mapSelStep idxs lens n) ⟨0, fun _ => 0, fun _ => 0⟩ newCols.zipIdx with
    | .error e => .error e
    | .ok s => .ok (slice s.idxs 0 n, slice s.cols 0 n)

/-- The loop of `is_contiguous_indices`, rust/src/records.rs:310-316. -/
def contiguousFrom : Int → List Int → Bool
  | _, [] => true
  | expected, i :: is => if i ≠ expected then false else contiguousFrom (expected + 1) is

/-- `is_contiguous_indices`, rust/src/records.rs:305-318. -/
def isContiguous : List Int → Bool
  | [] => true
  | i :: is => contiguousFrom i (i :: is)

/-- The records copied for a column, rust/src/records.rs:362-389: one block if the indices follow each other. -/
def copied {α : Type} (r : RecArr α) (seg : List Int) : List α :=
  if isContiguous seg then (List.range seg.length).map fun k => r.raw (asUsize (seg.headD 0) + k)
  else seg.map fun i => r.raw (asUsize i)

/-- One turn of the loop of `record_col_map_select_rs`, rust/src/records.rs:354-391. -/
def recMapStep {α : Type} (setCol : α → Nat → α) (r : RecArr α) (idxs lens : List Int) (s : Nat × (Nat → α)) (x : Int × Nat) :
    Except Err (Nat × (Nat → α)) :=
  match at_ lens (asUsize x.1) with
  | .error e => .error e
  | .ok l =>
    let len := asUsize l
    if len = 0 then .ok s
    else
      match segment idxs lens (asUsize x.1) len with
      | .error e => .error e
      | .ok seg => .ok (s.1 + len, over s.2 s.1 ((copied r seg).map fun a => setCol a x.2))

/-- `record_col_map_select_rs`, rust/src/records.rs:319-393. -/
def recordColMapSelect {α : Type} (setCol : α → Nat → α) (r : RecArr α) (idxs lens newCols : List Int) (junk : Nat → α) :
    Except Err (List α) :=
  match loopE (lenStep lens) 0 newCols with
  | .error e => .error e
  | .ok n =>
    match loopE (recMapStep setCol r idxs lens) (0, junk) newCols.zipIdx with
    | .error e => .error e
    | .ok s => .ok (slice s.2 0 n)

/-! ## Sorting -/

/-- The loop of `is_col_sorted`, rust/src/records.rs:404-410. -/
def sortedFrom : Int → List Int → Bool
  | _, [] => true
  | prev, c :: cs => if c < prev then false else sortedFrom c cs

/-- `is_col_sorted`, rust/src/records.rs:397-413. -/
def isColSorted (cols : List Int) : Bool :=
  if cols.length < 2 then true
  else
    match cols with
    | [] => true
    | c :: cs => sortedFrom c cs

/-- The loop of `is_col_idx_sorted`, rust/src/records.rs:430-441; pairs (col, id). -/
def idxSortedFrom : Int × Int → List (Int × Int) → Bool
  | _, [] => true
  | prev, x :: xs =>
    if x.1 < prev.1 then false
    else if x.1 = prev.1 ∧ x.2 < prev.2 then false
    else idxSortedFrom x xs

/-- `is_col_idx_sorted`, rust/src/records.rs:421-444. -/
def isColIdxSorted (l : List (Int × Int)) : Bool :=
  if l.length < 2 then true
  else
    match l with
    | [] => true
    | x :: xs => idxSortedFrom x xs

/-- `ColumnMapper._col_idxs_meta`, records/col_mapper.py:37-51, with every call on the Rust engine. -/
def colIdxsMeta (cols : List Int) (nCols : Nat) (newCols : List Int) : Except Err (List Int × List Int) :=
  if isColSorted cols then
    match colRange cols nCols with
    | .error e => .error e
    | .ok rg => colRangeSelect (nCols * 2) rg newCols
  else
    match colMap cols nCols with
    | .error e => .error e
    | .ok m => colMapSelect m.1 m.2 newCols

/-! ## Expansion -/

/-- The cell of a record in the flat array: `idx_arr[i] as usize * ncols + col_arr[i] as usize`. -/
def cellOf (idxArr colArr : List Int) (ncols i : Nat) : Except Err Nat :=
  match at_ idxArr i with
  | .error e => .error e
  | .ok idx =>
    match at_ colArr i with
    | .error e => .error e
    | .ok col => .ok (asUsize idx * ncols + asUsize col)

/-- The loop of `is_mapped_expandable`, rust/src/records.rs:461-467; the positions still to visit are the list. -/
def expandableFrom (colArr idxArr : List Int) (nrows ncols : Nat) : List Nat → (Nat → Bool) → Except Err Bool
  | [], _ => .ok true
  | i :: is, seen =>
    match cellOf idxArr colArr ncols i with
    | .error e => .error e
    | .ok pos =>
      match look (nrows * ncols) seen pos with
      | .error e => .error e
      | .ok true => .ok false
      | .ok false => expandableFrom colArr idxArr nrows ncols is (setAt seen pos true)

/-- `is_mapped_expandable`, rust/src/records.rs:459-469. -/
def isMappedExpandable (colArr idxArr : List Int) (nrows ncols : Nat) : Except Err Bool :=
  expandableFrom colArr idxArr nrows ncols (List.range colArr.length) fun _ => false

/-- One turn of the loop of `expand_mapped`, rust/src/records.rs:494-496. -/
def expandStep (mapped : List F) (colArr idxArr : List Int) (nrows ncols : Nat) (dst : Nat → F) (i : Nat) :
    Except Err (Nat → F) :=
  match cellOf idxArr colArr ncols i with
  | .error e => .error e
  | .ok pos =>
    match at_ mapped i with
    | .error e => .error e
    | .ok v => put (nrows * ncols) dst pos v

/-- `expand_mapped`, rust/src/records.rs:484-498: `out[row, col]`. -/
def expandMapped (mapped : List F) (colArr idxArr : List Int) (nrows ncols : Nat) (fill : F) :
    Except Err (Nat → Nat → F) :=
  match loopE (expandStep mapped colArr idxArr nrows ncols) (fun _ => fill) (List.range mapped.length) with
  | .error e => .error e
  | .ok dst => .ok fun row col => dst (row * ncols + col)

/-- The values at the indices of a column. -/
def gather {α : Type} (l : List α) : List Int → Except Err (List α)
  | [] => .ok []
  | i :: is =>
    match at_ l (asUsize i) with
    | .error e => .error e
    | .ok x =>
      match gather l is with
      | .error e => .error e
      | .ok xs => .ok (x :: xs)

/-- The indices and values of column `c`. -/
def colOf {α : Type} (l : List α) (idxs lens : List Int) (c : Nat) : Except Err (List Int × List α) :=
  match segment idxs lens c (asUsize (lensFn lens c)) with
  | .error e => .error e
  | .ok seg =>
    match gather l seg with
    | .error e => .error e
    | .ok vals => .ok (seg, vals)

/-- `max_len`, rust/src/records.rs:531-540. -/
def maxLen (lens : List Int) : Nat := lens.foldl (fun m l => if asUsize l > m then asUsize l else m) 0

/-- One column of `stack_expand_mapped`, rust/src/records.rs:544-553. -/
def stackStep (mapped : List F) (idxs lens : List Int) (dst : Nat → F) (c : Nat) : Except Err (Nat → F) :=
  if asUsize (lensFn lens c) = 0 then .ok dst
  else
    match colOf mapped idxs lens c with
    | .error e => .error e
    | .ok sv => loopE (fun d x => put (maxLen lens * lens.length) d (x.2 * lens.length + c) x.1) dst sv.2.zipIdx

/-- `stack_expand_mapped`, rust/src/records.rs:526-556: the number of rows and the cells. -/
def stackExpandMapped (mapped : List F) (idxs lens : List Int) (fill : F) : Except Err (Nat × (Nat → Nat → F)) :=
  match loopE (stackStep mapped idxs lens) (fun _ => fill) (List.range lens.length) with
  | .error e => .error e
  | .ok dst => .ok (maxLen lens, fun row col => dst (row * lens.length + col))

/-- One column of `mapped_value_counts`, rust/src/records.rs:592-602. -/
def countCol (codes : List Int) (nUniques : Nat) (idxs lens : List Int) (dst : Nat → Int) (c : Nat) : Except Err (Nat → Int) :=
  if asUsize (lensFn lens c) = 0 then .ok dst
  else
    match colOf codes idxs lens c with
    | .error e => .error e
    | .ok sv =>
      loopE (fun d code =>
        match look (nUniques * lens.length) d (asUsize code * lens.length + c) with
        | .error e => .error e
        | .ok k => put (nUniques * lens.length) d (asUsize code * lens.length + c) (k + 1)) dst sv.2

/-- `mapped_value_counts`, rust/src/records.rs:581-604: `out[code, col]`. -/
def mappedValueCounts (codes : List Int) (nUniques : Nat) (idxs lens : List Int) : Except Err (Nat → Nat → Int) :=
  match loopE (countCol codes nUniques idxs lens) (fun _ => 0) (List.range lens.length) with
  | .error e => .error e
  | .ok dst => .ok fun code col => dst (code * lens.length + col)

/-! ## Masks -/

/-- The loops marking positions until `n` are marked, rust/src/records.rs:672-680, 690-699, 718-728, 790-798, 808-817, 835-845. -/
def mark (ids : Nat → Nat) (cond : Nat → Bool) : List Nat → Nat → (Nat → Bool) → (Nat → Bool)
  | [], _, out => out
  | k :: ks, remaining, out =>
    if cond k then
      if remaining - 1 = 0 then setAt out (ids k) true
      else mark ids cond ks (remaining - 1) (setAt out (ids k) true)
    else mark ids cond ks remaining out

/-- The loops marking every position that meets a condition, and counting them, rust/src/records.rs:649-652, 684-689, 706-714. -/
def markEach (ids : Nat → Nat) (cond : Nat → Bool) (len : Nat) (out : Nat → Bool) : (Nat → Bool) × Nat :=
  (List.range len).foldl (fun s k => if cond k then (setAt s.1 (ids k) true, s.2 + 1) else s) (out, 0)

/-- One column of `top_n_mapped_mask`, rust/src/records.rs:648-729; `pick l k` is the element at position `k` after
`select_nth_unstable_by(k, …)`. -/
def topCol (pick : List F → Nat → F) (n : Nat) (ids : List Nat) (vals : List F) (out : Nat → Bool) : Nat → Bool :=
  let g := fun k => ids.getD k 0
  let v := fun k => vals.getD k nan
  let len := vals.length
  if n ≥ len then (markEach g (fun _ => true) len out).1
  else if n = 0 then out
  else
    let valid := vals.filter fun x => !x.isnan
    if valid.length = 0 then mark g (fun _ => true) (List.range len).reverse n out
    else if n > valid.length then
      mark g (fun k => (v k).isnan) (List.range len).reverse (n - valid.length)
        (markEach g (fun k => !(v k).isnan) len out).1
    else
      let pivot := pick valid (valid.length - n)
      let s := markEach g (fun k => !(v k).isnan && gt (v k) pivot) len out
      if n - s.2 = 0 then s.1
      else mark g (fun k => !(v k).isnan && eqb (v k) pivot) (List.range len).reverse (n - s.2) s.1

/-- One column of `bottom_n_mapped_mask`, rust/src/records.rs:768-847. -/
def bottomCol (pick : List F → Nat → F) (n : Nat) (ids : List Nat) (vals : List F) (out : Nat → Bool) : Nat → Bool :=
  let g := fun k => ids.getD k 0
  let v := fun k => vals.getD k nan
  let len := vals.length
  if n ≥ len then (markEach g (fun _ => true) len out).1
  else if n = 0 then out
  else
    let valid := vals.filter fun x => !x.isnan
    if valid.length = 0 then mark g (fun _ => true) (List.range len) n out
    else if n > valid.length then
      mark g (fun k => (v k).isnan) (List.range len) (n - valid.length)
        (markEach g (fun k => !(v k).isnan) len out).1
    else
      let pivot := pick valid (n - 1)
      let s := markEach g (fun k => !(v k).isnan && lt (v k) pivot) len out
      if n - s.2 = 0 then s.1
      else mark g (fun k => !(v k).isnan && eqb (v k) pivot) (List.range len) (n - s.2) s.1

/-- One turn of the loop over columns, rust/src/records.rs:639-647, 759-767; a column is not read when `n` is 0. -/
def maskStep (kernel : List Nat → List F → (Nat → Bool) → (Nat → Bool)) (n : Nat) (mapped : List F) (idxs lens : List Int)
    (out : Nat → Bool) (c : Nat) : Except Err (Nat → Bool) :=
  if asUsize (lensFn lens c) = 0 ∨ n = 0 then .ok out
  else
    match colOf mapped idxs lens c with
    | .error e => .error e
    | .ok sv => .ok (kernel (sv.1.map asUsize) sv.2 out)

/-- `top_n_mapped_mask` and `bottom_n_mapped_mask`, rust/src/records.rs:629-733, 749-852. -/
def mappedMask (kernel : List Nat → List F → (Nat → Bool) → (Nat → Bool)) (n : Nat) (mapped : List F) (idxs lens : List Int) :
    Except Err (Nat → Bool) :=
  loopE (maskStep kernel n mapped idxs lens) (fun _ => false) (List.range lens.length)

/-- `top_n_mapped_mask_rs` and `bottom_n_mapped_mask_rs` called from Python, rust/src/records.rs:734-747, 853-867: PyO3 takes
only non-negative integers for `n: usize`. -/
def mappedMaskPy (kernel : Nat → List Nat → List F → (Nat → Bool) → (Nat → Bool)) (n : Int) (mapped : List F)
    (idxs lens : List Int) : Except Engine.Exc (Nat → Bool) :=
  if n < 0 then .error .overflowError
  else
    match mappedMask (kernel n.toNat) n.toNat mapped idxs lens with
    | .error e => .error (.kernel e)
    | .ok out => .ok out

/-! ## Which record arrays are given to Rust -/

/-- The fields of a structured array: names and whether they are `int64`. -/
structure RecType where
  isArray : Bool
  fields : Option (List (String × Bool))

/-- `record_array_compatible_with_rust`, records/dispatch.py:104-119. -/
def recordCompatible (t : RecType) : Engine.Support :=
  if !t.isArray then { supported := false, reason := "Rust engine requires `records` to be a NumPy array." }
  else
    match t.fields with
    | none => { supported := false, reason := "Rust engine requires `records` to be a structured array." }
    | some fs =>
      match fs.lookup "id", fs.lookup "col" with
      | some a, some b =>
        if !a || !b then { supported := false, reason := "Rust engine requires `id` and `col` record fields to be int64." }
        else { supported := true }
      | _, _ => { supported := false, reason := "Rust engine requires `records` to have `id` and `col` fields." }

end Vbt.RsCol
