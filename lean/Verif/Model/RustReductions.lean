import Verif.Model.Reductions
import Verif.Model.RustReturns
import Verif.Model.RustIndicators

/-!
# Masks, reductions and statistics of the Rust engine

`rust/src/generic.rs`.  A slice is a list where the code iterates over it and a function of the position where the code indexes
into it.  `select_nth_unstable_by` is a parameter, as is the square root.  The sign of zero is not modelled.
-/

namespace Vbt.RsRed
open F RsGen RsRet

/-! ## Masks -/

/-- `set_by_mask_1d`, rust/src/generic.rs:854-859. -/
def setByMask1 (a : List F) (mask : List Bool) (value : F) : List F :=
  (a.zip mask).map fun p => if p.2 then value else p.1

/-- `set_by_mask_mult_1d`, rust/src/generic.rs:861-867. -/
def setByMaskMult1 (a : List F) (mask : List Bool) (values : List F) : List F :=
  ((a.zip mask).zip values).map fun p => if p.1.2 then p.2 else p.1.1

/-- `fillna_1d`, rust/src/generic.rs:869-871. -/
def fillna1 (a : List F) (value : F) : List F := a.map fun v => if v.isnan then value else v

/-- `ArrayView2<bool>`. -/
structure Mask2 where
  get : Nat → Nat → Bool
  standard : Bool

/-- `as_slice()` of a mask of `ncols` columns in standard layout. -/
def Mask2.slice (m : Mask2) (ncols k : Nat) : Bool := m.get (k / ncols) (k % ncols)

/-- The elements of a view in standard layout. -/
def flat {β : Type} (s : Nat → β) (a : View2) : List β := (List.range (a.nrows * a.ncols)).map s

/-- `Array2::from_shape_vec((nrows, ncols), out)`; another number of elements panics. -/
def fromShape (nrows ncols : Nat) (out : List F) : Except Err (Nat → Nat → F) :=
  if out.length = nrows * ncols then .ok (cells ncols fun k => out.getD k nan)
  else .error (.valueError "flat output shape must match")

/-- The loops `for row in 0..nrows { for col in 0..ncols { out[[row, col]] = … } }`, e.g. rust/src/generic.rs:2134-2138. -/
def cellLoop (nrows ncols : Nat) (f : Nat → Nat → F) : Nat → Nat → F :=
  (List.range nrows).foldl (fun out row => (List.range ncols).foldl (fun out col => writeCell row col (f row col) out) out)
    fun _ _ => nan

/-- `set_by_mask_rs`, rust/src/generic.rs:2112-2141; the mask has the shape of the array. -/
def setByMask (a : View2) (mask : Mask2) (value : F) : Except Err (Nat → Nat → F) :=
  if a.standard && mask.standard then fromShape a.nrows a.ncols (setByMask1 (flat a.slice a) (flat (mask.slice a.ncols) a) value)
  else .ok (cellLoop a.nrows a.ncols fun row col => if mask.get row col then value else a.get row col)

/-- `set_by_mask_mult_rs`, rust/src/generic.rs:2162-2198; the mask and the values have the shape of the array. -/
def setByMaskMult (a : View2) (mask : Mask2) (values : View2) : Except Err (Nat → Nat → F) :=
  if a.standard && mask.standard && values.standard then
    fromShape a.nrows a.ncols (setByMaskMult1 (flat a.slice a) (flat (mask.slice a.ncols) a) (flat values.slice values))
  else .ok (cellLoop a.nrows a.ncols fun row col => if mask.get row col then values.get row col else a.get row col)

/-- `fillna_2d_c`, rust/src/generic.rs:397-406. -/
def fillnaC (a : View2) (value : F) : Nat → Nat → F :=
  cells a.ncols ((List.range (a.nrows * a.ncols)).foldl (fun dst k =>
    setAt dst k (if (a.slice k).isnan then value else a.slice k)) fun _ => zero)

/-- `fillna_1d_into`, rust/src/generic.rs:873-877. -/
def fillnaInto (a out : Nat → F) (value : F) (len : Nat) : Nat → F :=
  (List.range len).foldl (fun out i => setAt out i (if (a i).isnan then value else a i)) out

/-- `fillna_rs`, rust/src/generic.rs:2203-2219. -/
def fillna (a : View2) (value : F) : Nat → Nat → F :=
  if a.standard then fillnaC a value else byColInplace a fun col out len => fillnaInto col out value len

/-! ## Cumulative sums and products -/

/-- One row of `nancumsum_2d_c`, rust/src/generic.rs:545-549, and of `nancumsum_1d_into`, 996-1001. -/
def cumsumTurn (A : Arith) (a : Nat → F) (sum : F) (i : Nat) : F × Option F :=
  let sum := if !(a i).isnan then add A sum (a i) else sum
  (sum, some sum)

/-- One row of `nancumprod_2d_c`, rust/src/generic.rs:564-568, and of `nancumprod_1d_into`, 1006-1011. -/
def cumprodTurn (A : Arith) (a : Nat → F) (prod : F) (i : Nat) : F × Option F :=
  let prod := if !(a i).isnan then mul A prod (a i) else prod
  (prod, some prod)

/-- `nancumsum_rs`, rust/src/generic.rs:2332-2343, with `nancumsum_2d_c`, 536-553, and `nancumsum_1d_into`, 994-1002. -/
def nancumsum (A : Arith) (a : View2) : Nat → Nat → F :=
  if a.standard then
    cells a.ncols (fillCells (fun col => cumsumTurn A (a.sliceCol col)) (fun _ => zero) (fun _ => zero) a.ncols (List.range a.nrows)).2
  else byColInplace a fun col out len => (fillRows (cumsumTurn A col) zero out (List.range len)).2

/-- `nancumprod_rs`, rust/src/generic.rs:2345-2356, with `nancumprod_2d_c`, 555-572, and `nancumprod_1d_into`, 1004-1012. -/
def nancumprod (A : Arith) (a : View2) : Nat → Nat → F :=
  if a.standard then
    cells a.ncols (fillCells (fun col => cumprodTurn A (a.sliceCol col)) (fun _ => one) (fun _ => zero) a.ncols (List.range a.nrows)).2
  else byColInplace a fun col out len => (fillRows (cumprodTurn A col) one out (List.range len)).2

/-! ## Reductions of a column -/

/-- `nanprod_1d`, rust/src/generic.rs:1014-1022. -/
def nanprod1 (A : Arith) (a : List F) : F := a.foldl (fun out v => if !v.isnan then mul A out v else out) one

/-- `nansum_1d`, rust/src/generic.rs:1024-1026. -/
def nansum1 (A : Arith) (a : List F) : F := (a.filter fun v => !v.isnan).foldl (add A) zero

/-- `nancnt_1d`, rust/src/generic.rs:1028-1030. -/
def nancnt1 (a : List F) : Nat := (a.filter fun v => !v.isnan).length

/-- `nanmin_1d` (`better` is `<`), rust/src/generic.rs:1032-1047, and `nanmax_1d` (`better` is `>`), 1049-1064. -/
def best1 (better : F → F → Bool) : List F → F
  | [] => nan
  | v :: rest => if !v.isnan then rest.foldl (fun out v => if better v out then v else out) v else best1 better rest

/-- `nanmedian_1d`, rust/src/generic.rs:1082-1096; `arrange l k` is the slice after `select_nth_unstable_by(k, …)`. -/
def nanmedian1 (A : Arith) (arrange : List F → Nat → List F) (a : List F) : F :=
  let vals := a.filter fun v => !v.isnan
  if vals.isEmpty then nan
  else
    let n := vals.length
    let mid := n / 2
    let vals := arrange vals mid
    if n % 2 = 0 then
      let lowerMax := (vals.take mid).foldl (fun m v => if gt v m then v else m) ninf
      div A (add A lowerMax (vals.getD mid nan)) (fin 2)
    else vals.getD mid nan

/-- `nanstd_1d`, rust/src/generic.rs:1098-1117, with `nanmean_1d`, 1066-1080. -/
def nanstd1 (A : Arith) (sqrt : F → F) (ddof : Nat) (a : List F) : F := stdOfSome A sqrt id a ddof

/-! ## Reductions of all columns -/

/-- The kernels for standard layouts, which return early when there is no column, e.g. rust/src/generic.rs:574-578: one state
per column in the row-major loop, and `last` of the final states. -/
def reduceC {σ β : Type} (a : View2) (step : σ → F → σ) (s0 : σ) (last : σ → β) (empty : β) : Except Err (Nat → β) :=
  if a.ncols = 0 then .ok fun _ => empty
  else match chunkFold (fun col s row => step s (a.sliceCol col row)) (fun _ => s0) a.nrows a.ncols with
    | .error e => .error e
    | .ok s => .ok fun c => last (s c)

/-- `nansum_rs`, rust/src/generic.rs:2358-2369, with `nansum_2d_c`, 574-589. -/
def nansum (A : Arith) (a : View2) : Except Err (Nat → F) :=
  if a.standard then reduceC a (fun out v => if !v.isnan then add A out v else out) zero id nan
  else .ok (RsRet.reduceCols a (nansum1 A))

/-- `nanprod_rs`, rust/src/generic.rs:2319-2330, with `nanprod_2d_c`, 591-606. -/
def nanprod (A : Arith) (a : View2) : Except Err (Nat → F) :=
  if a.standard then reduceC a (fun out v => if !v.isnan then mul A out v else out) one id nan
  else .ok (RsRet.reduceCols a (nanprod1 A))

/-- `nancnt_rs`, rust/src/generic.rs:2371-2391, with `nancnt_2d_c`, 608-623. -/
def nancnt (a : View2) : Except Err (Nat → Nat) :=
  if a.standard then reduceC a (fun out v => if !v.isnan then out + 1 else out) 0 id 0
  else .ok ((List.range a.ncols).foldl (fun out col => setAt out col (nancnt1 (slice (a.column col) 0 a.nrows))) fun _ => 0)

/-- `nanmean_rs`, rust/src/generic.rs:2407-2418, with `nanmean_2d_c`, 625-645; the state is (`sums`, `counts`). -/
def nanmean (A : Arith) (a : View2) : Except Err (Nat → F) :=
  if a.standard then
    reduceC a (fun (s : F × Nat) v => if !v.isnan then (add A s.1 v, s.2 + 1) else s) (zero, 0)
      (fun s => if s.2 = 0 then nan else div A s.1 (fin s.2)) nan
  else .ok (RsRet.reduceCols a (meanOfSome A id))

/-- One cell of `nanstd_2d_c`, rust/src/generic.rs:656-664. -/
def stdTurn (A : Arith) (s : SumSq) (v : F) : SumSq :=
  if !v.isnan then ⟨add A s.sum v, add A s.sumSq (mul A v v), s.cnt + 1⟩ else s

/-- The end of a column of `nanstd_2d_c`, rust/src/generic.rs:666-673. -/
def stdLast (A : Arith) (sqrt : F → F) (ddof : Nat) (s : SumSq) : F :=
  if ddof < s.cnt then
    let mean := div A s.sum (fin s.cnt)
    let variance := div A (add A (sub A s.sumSq (mul A (mul A (fin 2) s.sum) mean)) (mul A (mul A (fin s.cnt) mean) mean))
      (fin (s.cnt - ddof : Nat))
    sqrt variance.abs
  else nan

/-- `nanstd_rs`, rust/src/generic.rs:2434-2449, with `nanstd_2d_c`, 647-675. -/
def nanstd (A : Arith) (sqrt : F → F) (a : View2) (ddof : Nat) : Except Err (Nat → F) :=
  if a.standard then reduceC a (stdTurn A) ⟨zero, zero, 0⟩ (stdLast A sqrt ddof) nan
  else .ok (RsRet.reduceCols a (nanstd1 A sqrt ddof))

/-- `nanmin_rs` and `nanmax_rs`, rust/src/generic.rs:2393-2405. -/
def nanbest (better : F → F → Bool) (a : View2) : Nat → F := RsRet.reduceCols a (best1 better)

/-- `nanmedian_rs`, rust/src/generic.rs:2420-2425. -/
def nanmedian (A : Arith) (arrange : List F → Nat → List F) (a : View2) : Nat → F := RsRet.reduceCols a (nanmedian1 A arrange)

/-! ## Elements and summaries -/

/-- `check_bounds`, rust/src/generic.rs:162-167. -/
def checkBounds (n : Int) (len : Nat) : Except Err Unit :=
  if (n < 0 ∧ n.natAbs > len) ∨ (n ≥ 0 ∧ n.toNat ≥ len) then .error (.valueError "index is out of bounds") else .ok ()

/-- `normalize_index`, rust/src/generic.rs:169-175. -/
def normalizeIndex (n : Int) (len : Nat) : Nat := if n ≥ 0 then n.toNat else len - n.natAbs

/-- `nth_reduce_rs`, rust/src/generic.rs:2766-2771. -/
def nthReduce (a : List F) (n : Int) : Except Err F :=
  match checkBounds n a.length with
  | .error e => .error e
  | .ok _ => match a[normalizeIndex n a.length]? with
    | some x => .ok x
    | none => .error panicked

/-- `nth_index_reduce_rs`, rust/src/generic.rs:2774-2779. -/
def nthIndexReduce (a : List F) (n : Int) : Except Err Int :=
  match checkBounds n a.length with
  | .error e => .error e
  | .ok _ => .ok (normalizeIndex n a.length)

/-- `any_squeeze_1d`, rust/src/generic.rs:1627-1629. -/
def anySqueeze (a : List F) : Bool := a.any fun v => !eqb v zero

/-- `percentile_sorted(vals, 100 * c)`, rust/src/generic.rs:1675-1690, of sorted values.  `as usize` turns negative numbers into
0; a rank beyond the last value panics. -/
def percentileSorted (A : Arith) (vals : List F) (c : ℚ) : Except Err F :=
  if vals.isEmpty then .ok nan
  else if vals.length = 1 then .ok (vals.getD 0 nan)
  else
    let rank : ℚ := c * ((vals.length - 1 : Nat) : ℚ)
    let lo := ⌊rank⌋.toNat
    let hi := ⌈rank⌉.toNat
    if vals.length ≤ hi then .error panicked
    else if lo = hi then .ok (vals.getD lo nan)
    else .ok (add A (mul A (vals.getD lo nan) (fin ((hi : ℚ) - rank))) (mul A (vals.getD hi nan) (fin (rank - (lo : ℚ)))))

/-- `describe_reduce_1d`, rust/src/generic.rs:1692-1708: the values are sorted before they are added up. -/
def describe (A : Arith) (sqrt : F → F) (a : List F) (perc : List ℚ) (ddof : Nat) : Except Err (List F) :=
  let vals := (a.filter fun x => !x.isnan).insertionSort fun x y => sortLe x y = true
  if vals.isEmpty then .ok (fin vals.length :: List.replicate (4 + perc.length) nan)
  else match mapE (percentileSorted A vals) perc with
    | .error e => .error e
    | .ok ps => .ok (fin vals.length :: div A (vals.foldl (add A) zero) (fin vals.length) :: nanstd1 A sqrt ddof vals ::
        vals.getD 0 nan :: (ps ++ [vals.getD (vals.length - 1) nan]))

/-! ## Groups of columns -/

/-- `validate_group_lens`, rust/src/generic.rs:177-187. -/
def validateLens (lens : List Int) : Except Err (List Nat) :=
  mapE (fun n : Int => if n < 0 then .error (.valueError "group_lens must be non-negative") else .ok n.toNat) lens

/-- `flatten_forder`, rust/src/generic.rs:1571-1587.  `iter()` and a slice list the cells row by row. -/
def flattenF (a : View2) : List F :=
  if a.nrows = 0 ∨ a.ncols = 0 then []
  else if a.ncols = 1 ∨ a.nrows = 1 then
    if a.standard then flat a.slice a
    else (List.range a.nrows).flatMap fun row => (List.range a.ncols).map fun col => a.get row col
  else (List.range a.ncols).foldl (fun out col => out ++ slice (a.column col) 0 a.nrows) []

/-- One group of `flatten_grouped`, rust/src/generic.rs:1594-1607; the state is (`from_col`, `out`). -/
def flattenGroup (a : View2) (maxLen : Nat) (inC : Bool) (s : Nat × (Nat → Nat → F)) (g : Nat × Nat) :
    Except Err (Nat × (Nat → Nat → F)) :=
  match loopE (fun out k =>
      if a.ncols ≤ s.1 + k then .error panicked
      else .ok ((List.range a.nrows).foldl (fun out row =>
        writeCell (if inC then k + row * maxLen else k * a.nrows + row) g.2 (a.get row (s.1 + k)) out) out)) s.2
      (List.range g.1) with
  | .error e => .error e
  | .ok out => .ok (s.1 + g.1, out)

/-- `flatten_grouped_rs`, rust/src/generic.rs:2738-2749, and `flatten_uniform_grouped_rs`, 2752-2763, with `flatten_grouped`,
1589-1609, and `flatten_uniform_grouped`, 1611-1613. -/
def flattenGrouped (a : View2) (lens : List Int) (inC : Bool) : Except Err (Nat → Nat → F) :=
  match validateLens lens with
  | .error e => .error e
  | .ok lens => match loopE (flattenGroup a (maxLen lens) inC) (0, fun _ _ => nan) lens.zipIdx with
    | .error e => .error e
    | .ok s => .ok s.2

/-- One column of `value_counts`, rust/src/generic.rs:1723-1732. -/
def countColumn (codes : Nat → Nat → Int) (nrows nUniques group : Nat) (out : Nat → Nat → Nat) (col : Nat) :
    Except Err (Nat → Nat → Nat) :=
  loopE (fun out row =>
    if codes row col < 0 ∨ nUniques ≤ (codes row col).toNat then .error (.valueError "codes must be in [0, n_uniques)")
    else .ok (writeCell (codes row col).toNat group (out (codes row col).toNat group + 1) out)) out (List.range nrows)

/-- One group of `value_counts`, rust/src/generic.rs:1718-1734; the state is (`from_col`, `out`). -/
def countGroup (codes : Nat → Nat → Int) (nrows ncols nUniques : Nat) (s : Nat × (Nat → Nat → Nat)) (g : Nat × Nat) :
    Except Err (Nat × (Nat → Nat → Nat)) :=
  if ncols < s.1 + g.1 then .error (.valueError "group_lens exceed number of columns")
  else match loopE (countColumn codes nrows nUniques g.2) s.2 (List.range' s.1 g.1) with
    | .error e => .error e
    | .ok out => .ok (s.1 + g.1, out)

/-- `value_counts_rs`, rust/src/generic.rs:2848-2860, with `value_counts`, 1710-1736. -/
def valueCounts (codes : Nat → Nat → Int) (nrows ncols nUniques : Nat) (lens : List Int) : Except Err (Nat → Nat → Nat) :=
  match validateLens lens with
  | .error e => .error e
  | .ok lens => match loopE (countGroup codes nrows ncols nUniques) (0, fun _ _ => 0) lens.zipIdx with
    | .error e => .error e
    | .ok s => .ok s.2

/-! ## Drawdown arrays -/

/-- The exception of `broadcast_len2` and `broadcast_len3`. -/
def noBroadcast : Err := .valueError "operands could not be broadcast together"

/-- `broadcast_len2`, rust/src/generic.rs:305-313. -/
def broadcastLen2 (len1 len2 : Nat) : Except Err Nat :=
  if len1 = len2 ∨ len2 = 1 then .ok len1 else if len1 = 1 then .ok len2 else .error noBroadcast

/-- `broadcast_len3`, rust/src/generic.rs:315-330. -/
def broadcastLen3 (len1 len2 len3 : Nat) : Except Err Nat :=
  if len1 = 0 ∨ len2 = 0 ∨ len3 = 0 then
    if (len1 = 0 ∨ len1 = 1) ∧ (len2 = 0 ∨ len2 = 1) ∧ (len3 = 0 ∨ len3 = 1) then .ok 0 else .error noBroadcast
  else
    let outLen := max (max len1 len2) len3
    if (len1 = outLen ∨ len1 = 1) ∧ (len2 = outLen ∨ len2 = 1) ∧ (len3 = outLen ∨ len3 = 1) then .ok outLen
    else .error noBroadcast

/-- `broadcast_get`, rust/src/generic.rs:332-338. -/
def broadcastGet {α : Type} (values : List α) (i : Nat) : Except Err α :=
  match values[if values.length = 1 then 0 else i]? with
  | some x => .ok x
  | none => .error panicked

/-- The functions of two arrays, e.g. rust/src/generic.rs:2991-3000. -/
def zip2 {α β γ : Type} (f : α → β → γ) (xs : List α) (ys : List β) : Except Err (List γ) :=
  match broadcastLen2 xs.length ys.length with
  | .error e => .error e
  | .ok n => mapE (fun i => match broadcastGet xs i with
    | .error e => .error e
    | .ok x => match broadcastGet ys i with
      | .error e => .error e
      | .ok y => .ok (f x y)) (List.range n)

/-- `dd_drawdown_rs`, rust/src/generic.rs:2981-3002. -/
def ddDrawdowns (A : Arith) (peak valley : List F) : Except Err (List F) :=
  zip2 (fun peak valley => div A (sub A valley peak) peak) peak valley

/-- `dd_decline_duration_rs`, rust/src/generic.rs:3004-3025. -/
def ddDeclines (start valley : List Int) : Except Err (List Int) := zip2 (fun start valley => valley - start + 1) start valley

/-- `dd_recovery_duration_rs`, rust/src/generic.rs:3027-3048. -/
def ddRecoveries (valley stop : List Int) : Except Err (List Int) := zip2 (fun valley stop => stop - valley) valley stop

/-- `dd_recovery_duration_ratio_rs`, rust/src/generic.rs:3050-3074. -/
def ddRecoveryRatios (A : Arith) (start valley stop : List Int) : Except Err (List F) :=
  match broadcastLen3 start.length valley.length stop.length with
  | .error e => .error e
  | .ok n => mapE (fun i => match broadcastGet start i with
    | .error e => .error e
    | .ok start => match broadcastGet valley i with
      | .error e => .error e
      | .ok valley => match broadcastGet stop i with
        | .error e => .error e
        | .ok stop => .ok (div A (fin ((stop - valley : Int) : ℚ)) (fin ((valley - start + 1 : Int) : ℚ)))) (List.range n)

/-- `dd_recovery_return_rs`, rust/src/generic.rs:3077-3098. -/
def ddRecoveryReturns (A : Arith) (valley stop : List F) : Except Err (List F) :=
  zip2 (fun valley stop => div A (sub A stop valley) valley) valley stop

end Vbt.RsRed
