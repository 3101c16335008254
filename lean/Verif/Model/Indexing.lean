import Verif.Model.Grouping
import Verif.Model.Portfolio

/-!
# Selecting columns and groups: `vectorbt/base/array_wrapper.py`, `Portfolio.indexing_func`

The selection is made by pandas on a Series that holds the number of each column (or group): what pandas returns is the
argument `Picked`.  The rows are not selected (`column_only_select=True`, as portfolios and records do).  Labels are values
of any type with decidable equality.  Caching, the index and the frequency are left out.  The methods of `Portfolio` return
one element per column, or per group if `grouped` (the grouping of the portfolio itself, `group_by=None`; otherwise
`group_by=False`).
-/

namespace Vbt
open F

/-- What pandas returns for the Series of column numbers: a Series (numbers and labels) or one number. -/
inductive Picked (L : Type) where
  | many (items : List (Nat × L))
  | one (k : Nat)
deriving DecidableEq

/-- `ArrayWrapper`, base/array_wrapper.py:120-161: columns, number of dimensions, labels of groups, `grouped_ndim`. -/
structure Wrapper (L : Type) where
  columns : List L
  ndim : Nat
  groupBy : Option (List L)
  groupedNdim : Option Nat
deriving DecidableEq

/-- What `indexing_func_meta` returns apart from the indices of rows. -/
structure PickMeta (L : Type) where
  wrapper : Wrapper L
  groupIdxs : List Nat
  colIdxs : List Nat
deriving DecidableEq

/-- Sum of the first elements. -/
def prefixSum (a : Nat → Int) (n : Nat) : Int := ((List.range n).map a).sum

/-- `get_ranges_arr`, utils/array_.py:43-59. -/
def rangesArr (starts ends : List Nat) : Except Err (List Int) :=
  let counts : List Int := List.zipWith (fun (e s : Nat) => (e : Int) - (s : Int)) ends starts
  let csum : List Int := (List.range counts.length).map fun k => (counts.take (k + 1)).sum
  match csum.getLast? with
  | none => .error (.indexError "index -1 is out of bounds for axis 0 with size 0")
  | some n =>
    if n ≤ 0 ∨ csum.dropLast.any (fun x => decide (n ≤ x)) then .error (.indexError "index out of bounds")
    else
      let ids0 : Nat → Int := setAt (fun _ => 1) 0 (starts.headD 0)
      let jumps : List Int := List.zipWith (fun (s e : Nat) => (s : Int) - (e : Int) + 1) starts.tail ends.dropLast
      let ids := (csum.dropLast.zip jumps).foldl (fun a x => setAt a x.1.toNat x.2) ids0
      .ok ((List.range n.toNat).map fun i => prefixSum ids (i + 1))

/-- The number of the selected group for each new column, base/array_wrapper.py:312-315; `n` is the number of the new
columns. -/
def groupMarks (lens : List Nat) (n : Nat) : Except Err (List Int) :=
  if lens.dropLast.any (fun l => decide (n ≤ l)) then .error (.indexError "index out of bounds")
  else
    let flags := lens.dropLast.foldl (fun a l => setAt a l 1) (fun _ => 0)
    .ok ((List.range n).map fun i => prefixSum flags (i + 1))

section
variable {L : Type} [DecidableEq L]

/-- `ColumnGrouper.get_group_lens` of a wrapper without missing labels. -/
def Wrapper.groupLens (w : Wrapper L) : Except Err (List Nat) :=
  getGroupLens w.columns.length (w.groupBy.map fun ls => ls.map some)

/-- `ArrayWrapper.grouped_ndim`, base/array_wrapper.py:498-505. -/
def Wrapper.getNdim (w : Wrapper L) : Except Err Nat :=
  match w.groupedNdim with
  | some d => .ok d
  | none =>
    match w.groupBy with
    | none => .ok w.ndim
    | some _ =>
      match w.groupLens with
      | .error e => .error e
      | .ok lens => .ok (if lens.length > 1 then 2 else 1)

/-- The positions, labels and dimensions of a selection, base/array_wrapper.py:231-238. -/
def Picked.parts (p : Picked L) (columns : List L) : List Nat × List L × Nat :=
  match p with
  | .many items => (items.map Prod.fst, items.map Prod.snd, 2)
  | .one k => ([k], takeIdxs columns [k], 1)

/-- The branch "Selection based on groups", base/array_wrapper.py:295-328. -/
def Wrapper.pickGroups (w : Wrapper L) (parts : List Nat × List L × Nat) : Except Err (PickMeta L) :=
  match w.groupLens with
  | .error e => .error e
  | .ok lens =>
    match rangesArr (takeIdxs (groupStarts lens) parts.1) (takeIdxs (groupEnds lens) parts.1) with
    | .error e => .error e
    | .ok cols =>
      let colIdxs := cols.map Int.toNat
      match groupMarks (takeIdxs lens parts.1) colIdxs.length with
      | .error e => .error e
      | .ok marks =>
        .ok { wrapper :=
                { columns := takeIdxs w.columns colIdxs,
                  ndim := if parts.2.2 = 1 ∧ colIdxs.length = 1 then 1 else 2,
                  groupBy := some (takeIdxs parts.2.1 (marks.map Int.toNat)),
                  groupedNdim := some parts.2.2 },
              groupIdxs := parts.1, colIdxs := colIdxs }

/-- `ArrayWrapper.indexing_func_meta` with `column_only_select=True`, base/array_wrapper.py:163-351 (branches 220-240 and
290-351). -/
def Wrapper.indexingMeta (w : Wrapper L) (groupSelect : Bool) (p : Picked L) : Except Err (PickMeta L) :=
  let ndim := if groupSelect && w.groupBy.isSome then w.getNdim else .ok w.ndim
  match ndim with
  | .error e => .error e
  | .ok d =>
    if d = 1 then .error (.indexError "Columns only: This object already contains one column of data")
    else
      match w.groupBy with
      | some labels =>
        if groupSelect then w.pickGroups (p.parts (factorize (labels.map some)).1)
        else
          let parts := p.parts w.columns
          .ok { wrapper := { columns := parts.2.1, ndim := parts.2.2, groupBy := some (takeIdxs labels parts.1),
                             groupedNdim := none },
                groupIdxs := parts.1, colIdxs := parts.1 }
      | none =>
        let parts := p.parts w.columns
        .ok { wrapper := { columns := parts.2.1, ndim := parts.2.2, groupBy := none, groupedNdim := none },
              groupIdxs := parts.1, colIdxs := parts.1 }

end

/-- `Records.get_by_col_idxs`, records/base.py:536-552. -/
def selectRecords {α : Type} (setCol : α → Nat → α) (col : α → Nat) (records : List α) (junk : Nat → Nat)
    (newCols : List Nat) : Except Err (List α) :=
  if isColSorted (records.map col) then
    match colRange (records.map col) with
    | .error e => .error e
    | .ok rg => .ok (recordColRangeSelect setCol records rg newCols)
  else .ok (recordColMapSelect setCol records (colMap (records.map col) junk) newCols)

/-- `Portfolio._init_cash`: an `InitCashMode` (an integer) or an array. -/
inductive InitCash where
  | auto
  | autoAlign
  | given (l : List F)
deriving DecidableEq

/-- `Portfolio.__init__`, portfolio/base.py:1571-1579; `rows` is the length of the index. -/
structure Pf (L : Type) where
  wrapper : Wrapper L
  rows : Nat
  close : Nat → Nat → F
  orders : List OrderRec
  logs : List LogRec
  initCash : InitCash
  sharing : Bool
  callSeq : Option (Nat → Nat → Nat)
  fillClose : Bool

/-- `a[:, idxs]`. -/
def takeCols {β : Type} (a : Nat → Nat → β) (idxs : List Nat) : Nat → Nat → β := fun i k => a i (idxs.getD k k)

/-- `to_1d_array(init_cash)[idxs]`. -/
def InitCash.take (c : InitCash) (idxs : List Nat) : Except Err InitCash :=
  match c with
  | .given l =>
    if idxs.any (fun k => decide (l.length ≤ k)) then .error (.indexError "index out of bounds")
    else .ok (.given (takeIdxs l idxs))
  | c => .ok c

section
variable {L : Type} [DecidableEq L]

/-- `Portfolio.indexing_func`, portfolio/base.py:1586-1614. -/
def Pf.index (pf : Pf L) (groupSelect : Bool) (p : Picked L) (junk : Nat → Nat) : Except Err (Pf L) :=
  match pf.wrapper.indexingMeta groupSelect p with
  | .error e => .error e
  | .ok m =>
    match selectRecords (fun (r : OrderRec) c => { r with col := c }) (·.col) pf.orders junk m.colIdxs with
    | .error e => .error e
    | .ok orders =>
      match selectRecords (fun (r : LogRec) c => { r with col := c }) (·.col) pf.logs junk m.colIdxs with
      | .error e => .error e
      | .ok logs =>
        match pf.initCash.take (if pf.sharing then m.groupIdxs else m.colIdxs) with
        | .error e => .error e
        | .ok cash =>
          .ok { pf with wrapper := m.wrapper, close := takeCols pf.close m.colIdxs, orders := orders, logs := logs,
                        initCash := cash, callSeq := pf.callSeq.map fun a => takeCols a m.colIdxs }

/-! ## Methods of a portfolio -/

/-- The column of a list of columns. -/
def colOf {β : Type} (l : List (Nat → β)) (d : β) (i c : Nat) : β := (l.getD c fun _ => d) i

/-- `Portfolio.asset_flow`, portfolio/base.py:4307-4323. -/
def Pf.assetFlow (A : Arith) (pf : Pf L) (direction : Int) (junk : Nat → Nat) : Except Err (List (Nat → F)) :=
  mapE (fun c => Vbt.assetFlow A direction pf.orders junk c) (List.range pf.wrapper.columns.length)

/-- `Portfolio.assets`, portfolio/base.py:4325-4340. -/
def Pf.assets (A : Arith) (pf : Pf L) (direction : Int) (junk : Nat → Nat) : Except Err (List (Nat → F)) :=
  match pf.assetFlow A Direction.Both junk with
  | .error e => .error e
  | .ok fl => .ok (fl.map fun f i => directedAssets direction (assetsAt A f i))

/-- Sums over the columns of each group: `cash_flow_grouped_nb`, `asset_value_grouped_nb`. -/
def groupSums (A : Arith) (l : List (Nat → F)) (lens : List Nat) : List (Nat → F) :=
  (layout lens).map fun g i => sumGrouped A (colOf l nan) g.2.1 g.2.2 i

/-- `Portfolio.cash_flow`, portfolio/base.py:4383-4404. -/
def Pf.cashFlow (A : Arith) (pf : Pf L) (free grouped : Bool) (junk : Nat → Nat) : Except Err (List (Nat → F)) :=
  match mapE (fun c => Vbt.cashFlow A free pf.orders junk c) (List.range pf.wrapper.columns.length) with
  | .error e => .error e
  | .ok fl =>
    if grouped then
      match pf.wrapper.groupLens with
      | .error e => .error e
      | .ok lens => .ok (groupSums A fl lens)
    else .ok fl

/-- `Portfolio.get_init_cash`, portfolio/base.py:4411-4437. -/
def Pf.getInitCash (A : Arith) (pf : Pf L) (grouped : Bool) (junk : Nat → Nat) : Except Err (List F) :=
  match pf.initCash with
  | .given l =>
    match pf.wrapper.groupLens with
    | .error e => .error e
    | .ok lens =>
      .ok (if grouped then initCashGrouped A l lens pf.sharing
        else (List.range pf.wrapper.columns.length).map fun c => initCashCol l lens pf.sharing c)
  | mode =>
    match pf.cashFlow A false grouped junk with
    | .error e => .error e
    | .ok fl => autoInitCashAll A (colOf fl nan) pf.rows fl.length (mode = .autoAlign)

/-- `Portfolio.cash` with `in_sim_order=False`, portfolio/base.py:4439-4476. -/
def Pf.cash (A : Arith) (pf : Pf L) (free grouped : Bool) (junk : Nat → Nat) : Except Err (List (Nat → F)) :=
  match pf.cashFlow A free grouped junk with
  | .error e => .error e
  | .ok fl =>
    match pf.getInitCash A grouped junk with
    | .error e => .error e
    | .ok init => .ok (List.zipWith (fun c f => cashAt A c f) init fl)

/-- Close of a column, filled if asked for, portfolio/base.py:4491-4494, 4588-4591. -/
def Pf.closeCol (pf : Pf L) (c : Nat) : Nat → F :=
  if pf.fillClose then filledClose (fun i => pf.close i c) (fun _ => nan) (fun _ => nan) pf.rows
  else fun i => pf.close i c

/-- Close of all columns. -/
def Pf.closes (pf : Pf L) : List (Nat → F) := (List.range pf.wrapper.columns.length).map pf.closeCol

/-- `Portfolio.asset_value`, portfolio/base.py:4480-4503. -/
def Pf.assetValue (A : Arith) (pf : Pf L) (direction : Int) (grouped : Bool) (junk : Nat → Nat) :
    Except Err (List (Nat → F)) :=
  match pf.assets A direction junk with
  | .error e => .error e
  | .ok as =>
    let vals := List.zipWith (fun c a (i : Nat) => assetValuePf A (c i) (a i)) pf.closes as
    if grouped then
      match pf.wrapper.groupLens with
      | .error e => .error e
      | .ok lens => .ok (groupSums A vals lens)
    else .ok vals

/-- `Portfolio.value` with `in_sim_order=False`, portfolio/base.py:4539-4573. -/
def Pf.value (A : Arith) (pf : Pf L) (grouped : Bool) (junk : Nat → Nat) : Except Err (List (Nat → F)) :=
  match pf.cash A false grouped junk with
  | .error e => .error e
  | .ok cash =>
    match pf.assetValue A Direction.Both grouped junk with
    | .error e => .error e
    | .ok av => .ok (List.zipWith (fun c v (i : Nat) => add A (c i) (v i)) cash av)

/-- `Portfolio.total_profit`, portfolio/base.py:4575-4600. -/
def Pf.totalProfit (A : Arith) (pf : Pf L) (grouped : Bool) (junk : Nat → Nat) : Except Err (List F) :=
  match mapE (fun c => Vbt.totalProfit A pf.orders junk (pf.closeCol c (pf.rows - 1)) c)
    (List.range pf.wrapper.columns.length) with
  | .error e => .error e
  | .ok l =>
    if grouped then
      match pf.wrapper.groupLens with
      | .error e => .error e
      | .ok lens => .ok ((layout lens).map fun g => totalProfitGrouped A (fun c => l.getD c nan) g.2.1 g.2.2)
    else .ok l

/-- `Portfolio.final_value`, portfolio/base.py:4602-4612. -/
def Pf.finalValue (A : Arith) (pf : Pf L) (grouped : Bool) (junk : Nat → Nat) : Except Err (List F) :=
  match pf.getInitCash A grouped junk with
  | .error e => .error e
  | .ok init =>
    match pf.totalProfit A grouped junk with
    | .error e => .error e
    | .ok profit => .ok (List.zipWith (fun p c => Vbt.finalValue A p c) profit init)

/-- `Portfolio.total_return`, portfolio/base.py:4614-4624. -/
def Pf.totalReturn (A : Arith) (pf : Pf L) (grouped : Bool) (junk : Nat → Nat) : Except Err (List F) :=
  match pf.getInitCash A grouped junk with
  | .error e => .error e
  | .ok init =>
    match pf.totalProfit A grouped junk with
    | .error e => .error e
    | .ok profit => .ok (List.zipWith (fun p c => Vbt.totalReturn A p c) profit init)

end

end Vbt
