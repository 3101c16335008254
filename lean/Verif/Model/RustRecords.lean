import Verif.Model.RustGeneric

/-!
# Ranges, drawdowns and positions of extremes in the Rust engine

`rust/src/generic.rs`.  An `i64` that holds a row is `Nat` in a stored record, as in `Model/Generic`; the vectors `start_idx`,
`end_idx` and `status` of the same records are one list of records.  A Rust index outside of its vector panics, which
pyo3 turns into a Python exception; here it is `panicked`.

Not modelled: the negative lengths that `range_coverage` and `ranges_to_mask` reject (lengths are `Nat` here).
-/

namespace Vbt.RsGen
open Vbt F

/-- The panic of an index outside of a vector. -/
def panicked : Err := .indexError "index out of bounds"

/-! ## Ranges -/

/-- The variables `ridx` and `out` of `find_ranges`, rust/src/generic.rs:1740-1741. -/
structure RangeOut where
  ridx : Nat
  out : List RangeRec

/-- `out.push(RangeRecord { id: ridx, … }); ridx += 1`, e.g. rust/src/generic.rs:1759-1766. -/
def RangeOut.push (o : RangeOut) (col : Nat) (start stop status : Int) : RangeOut :=
  ⟨o.ridx + 1, o.out ++ [⟨o.ridx, col, start.toNat, stop.toNat, status⟩]⟩

/-- The gap test for the standard layout, rust/src/generic.rs:1752-1756. -/
def isGapStd (gap x : F) : Bool := if gap.isnan then x.isnan else eqb x gap

/-- The variables of one column for the standard layout. -/
structure FindStd where
  started : Bool
  start : Int
  recs : RangeOut

/-- One row for the standard layout, rust/src/generic.rs:1750-1773. -/
def findStdStep (ts : Nat → F) (gap : F) (col : Nat) (s : FindStd) (i : Nat) : FindStd :=
  if isGapStd gap (ts i) then
    if s.started then { s with recs := s.recs.push col s.start i RangeStatus.Closed, started := false } else s
  else if !s.started then { s with start := i, started := true } else s

/-- One column for the standard layout, rust/src/generic.rs:1747-1784. -/
def findStdCol (n : Nat) (ts : Nat → F) (gap : F) (o : RangeOut) (col : Nat) : RangeOut :=
  let s := (List.range n).foldl (findStdStep ts gap col) ⟨false, -1, o⟩
  if s.started then s.recs.push col s.start ((n - 1 : Nat) : Int) RangeStatus.Open else s.recs

/-- The variables of one column for other layouts. -/
structure FindView where
  started : Bool
  start : Int
  stop : Int
  store : Bool
  status : Int
  recs : RangeOut

/-- One row for other layouts, rust/src/generic.rs:1795-1822. -/
def findViewStep (n : Nat) (ts : Nat → F) (gap : F) (col : Nat) (s : FindView) (i : Nat) : FindView :=
  let s1 : FindView :=
    if eqb (ts i) gap || ((ts i).isnan && gap.isnan) then
      if s.started then { s with stop := i, started := false, store := true, status := RangeStatus.Closed } else s
    else if !s.started then { s with start := i, started := true } else s
  let s2 : FindView :=
    if i = n - 1 ∧ s1.started = true then
      { s1 with stop := ((n - 1 : Nat) : Int), started := false, store := true, status := RangeStatus.Open }
    else s1
  if s2.store then { s2 with recs := s2.recs.push col s2.start s2.stop s2.status, store := false } else s2

/-- One column for other layouts, rust/src/generic.rs:1788-1823. -/
def findViewCol (n : Nat) (ts : Nat → F) (gap : F) (o : RangeOut) (col : Nat) : RangeOut :=
  ((List.range n).foldl (findViewStep n ts gap col) ⟨false, -1, -1, false, -1, o⟩).recs

/-- `find_ranges`, rust/src/generic.rs:1738-1825. -/
def findRanges (a : View2) (gap : F) : List RangeRec :=
  if a.standard then
    ((List.range a.ncols).foldl (fun o col => findStdCol a.nrows (a.sliceCol col) gap o col) ⟨0, []⟩).out
  else ((List.range a.ncols).foldl (fun o col => findViewCol a.nrows (a.column col) gap o col) ⟨0, []⟩).out

/-- `range_duration`, rust/src/generic.rs:1827-1837. -/
def rangeDurations (rs : List RangeRec) : List Int :=
  rs.map fun r => if r.status = RangeStatus.Open then (r.stop : Int) - r.start + 1 else (r.stop : Int) - r.start

/-- `end`, incremented for an open range, rust/src/generic.rs:1862-1865 and 1910-1913. -/
def rangeEnd (r : RangeRec) : Nat := if r.status = RangeStatus.Open then r.stop + 1 else r.stop

/-- `for k in start..end { temp[k] += 1 }`, rust/src/generic.rs:1866-1868; `temp` has `len` elements. -/
def countRange (len : Nat) (temp : Nat → Nat) (r : RangeRec) : Except Err (Nat → Nat) :=
  loopE (fun t k => if k < len then .ok (setAt t k (t k + 1)) else .error panicked) temp
    (List.range' r.start (rangeEnd r - r.start))

/-- The loop over the records of a column, `for j in col_start..col_start + col_len { let ridx = col_idxs[j]; … }`,
rust/src/generic.rs:1859-1860 and 1907-1908; `col_idxs` has `nIdxs` elements. -/
def overRecords {σ : Type} (records : List RangeRec) (idxs : Nat → Nat) (nIdxs : Nat) (f : σ → RangeRec → Except Err σ)
    (colStart colLen : Nat) (s : σ) : Except Err σ :=
  loopE (fun t j =>
    if j < nIdxs then
      match records[idxs j]? with
      | none => .error panicked
      | some r => f t r
    else .error panicked) s (List.range' colStart colLen)

/-- The coverage of a column from its counts, rust/src/generic.rs:1870-1886. -/
def coverageOf (A : Arith) (temp : Nat → Nat) (len : Nat) (overlapping normalize : Bool) : F :=
  let over : ℚ := ((List.range len).countP fun i => decide (1 < temp i) : Nat)
  let covered : ℚ := ((List.range len).countP fun i => decide (0 < temp i) : Nat)
  if overlapping then (if normalize then div A (fin over) (fin covered) else fin over)
  else (if normalize then div A (fin covered) (fin (len : ℚ)) else fin covered)

/-- One column of `range_coverage`, rust/src/generic.rs:1851-1888; the state is (`col_start`, `out`). -/
def coverageStep (A : Arith) (records : List RangeRec) (m : ColMap) (nIdxs : Nat) (indexLens : Nat → Nat)
    (overlapping normalize : Bool) (s : Nat × (Nat → F)) (col : Nat) : Except Err (Nat × (Nat → F)) :=
  if m.lens col = 0 then .ok s
  else
    match overRecords records m.idxs nIdxs (countRange (indexLens col)) s.1 (m.lens col) (fun _ => 0) with
    | .error e => .error e
    | .ok temp => .ok (s.1 + m.lens col, setAt s.2 col (coverageOf A temp (indexLens col) overlapping normalize))

/-- `range_coverage`, rust/src/generic.rs:1839-1891. -/
def rangeCoverage (A : Arith) (records : List RangeRec) (m : ColMap) (nIdxs nCols : Nat) (indexLens : Nat → Nat)
    (overlapping normalize : Bool) : Except Err (List F) :=
  match loopE (coverageStep A records m nIdxs indexLens overlapping normalize) (0, fun _ => nan) (List.range nCols) with
  | .error e => .error e
  | .ok s => .ok ((List.range nCols).map s.2)

/-- `for k in start..end { out[[k, col]] = true }`, rust/src/generic.rs:1914-1916; `out` has `len` rows. -/
def markRange (len col : Nat) (out : Nat → Nat → Bool) (r : RangeRec) : Except Err (Nat → Nat → Bool) :=
  loopE (fun (o : Nat → Nat → Bool) k =>
      if k < len then .ok (fun i c => if i = k ∧ c = col then true else o i c) else .error panicked) out
    (List.range' r.start (rangeEnd r - r.start))

/-- One column of `ranges_to_mask`, rust/src/generic.rs:1903-1919; the state is (`col_start`, `out`). -/
def maskStep (records : List RangeRec) (m : ColMap) (nIdxs len : Nat) (s : Nat × (Nat → Nat → Bool)) (col : Nat) :
    Except Err (Nat × (Nat → Nat → Bool)) :=
  match overRecords records m.idxs nIdxs (markRange len col) s.1 (m.lens col) s.2 with
  | .error e => .error e
  | .ok out => .ok (s.1 + m.lens col, out)

/-- `ranges_to_mask`, rust/src/generic.rs:1893-1922. -/
def rangesToMask (records : List RangeRec) (m : ColMap) (nIdxs nCols len : Nat) : Except Err (Nat → Nat → Bool) :=
  match loopE (maskStep records m nIdxs len) (0, fun _ _ => false) (List.range nCols) with
  | .error e => .error e
  | .ok s => .ok s.2

/-! ## Drawdowns -/

/-- The variables `ddidx` and `out` of `get_drawdowns`, rust/src/generic.rs:1926-1930. -/
structure DdOut where
  ddidx : Nat
  out : List DrawdownRec

/-- `out.push(DrawdownRecord { id: ddidx, …, start_idx: peak_idx + 1, … }); ddidx += 1`, e.g. rust/src/generic.rs:1948-1960. -/
def DdOut.push (o : DdOut) (col : Nat) (peakIdx valleyIdx : Int) (i : Nat) (peakVal valleyVal endVal : F) (status : Int) : DdOut :=
  ⟨o.ddidx + 1, o.out ++ [⟨o.ddidx, col, ⟨peakIdx, peakIdx + 1, valleyIdx, i, peakVal, valleyVal, endVal, status⟩⟩]⟩

/-- The variables of one column for the standard layout. -/
structure DdStd where
  started : Bool
  peakIdx : Int
  valleyIdx : Int
  peakVal : F
  valleyVal : F
  recs : DdOut

/-- One row for the standard layout, rust/src/generic.rs:1939-1992. -/
def ddStdStep (n : Nat) (ts : Nat → F) (col : Nat) (s : DdStd) (i : Nat) : DdStd :=
  let cur := ts i
  if cur.isnan then s
  else
    let s1 : DdStd :=
      if s.peakVal.isnan || ge cur s.peakVal then
        if !s.started then { s with peakVal := cur, peakIdx := i }
        else
          { started := false, peakIdx := i, valleyIdx := i, peakVal := cur, valleyVal := cur,
            recs := s.recs.push col s.peakIdx s.valleyIdx i s.peakVal s.valleyVal cur DrawdownStatus.Recovered }
      else if !s.started then { s with started := true, valleyVal := cur, valleyIdx := i }
      else if lt cur s.valleyVal then { s with valleyVal := cur, valleyIdx := i }
      else s
    if i = n - 1 ∧ s1.started = true then
      { s1 with
        recs := s1.recs.push col s1.peakIdx s1.valleyIdx i s1.peakVal s1.valleyVal cur DrawdownStatus.Active }
    else s1

/-- One column for the standard layout, rust/src/generic.rs:1933-1993. -/
def ddStdCol (n : Nat) (ts : Nat → F) (o : DdOut) (col : Nat) : DdOut :=
  ((List.range n).foldl (ddStdStep n ts col) ⟨false, -1, -1, ts 0, ts 0, o⟩).recs

/-- The variables of one column for other layouts. -/
structure DdView where
  started : Bool
  peakIdx : Int
  valleyIdx : Int
  peakVal : F
  valleyVal : F
  store : Bool
  status : Int
  recs : DdOut

/-- One row for other layouts, rust/src/generic.rs:2005-2050. -/
def ddViewStep (n : Nat) (ts : Nat → F) (col : Nat) (s : DdView) (i : Nat) : DdView :=
  let cur := ts i
  if cur.isnan then s
  else
    let s1 : DdView :=
      if s.peakVal.isnan || ge cur s.peakVal then
        if !s.started then { s with peakVal := cur, peakIdx := i }
        else if ge cur s.peakVal then { s with started := false, store := true, status := DrawdownStatus.Recovered }
        else s
      else if !s.started then { s with started := true, valleyVal := cur, valleyIdx := i }
      else if lt cur s.valleyVal then { s with valleyVal := cur, valleyIdx := i }
      else s
    let s2 : DdView :=
      if i = n - 1 ∧ s1.started = true then { s1 with started := false, store := true, status := DrawdownStatus.Active }
      else s1
    if s2.store then
      { s2 with
        recs := s2.recs.push col s2.peakIdx s2.valleyIdx i s2.peakVal s2.valleyVal cur s2.status
        peakIdx := i, valleyIdx := i, peakVal := cur, valleyVal := cur, store := false, status := -1 }
    else s2

/-- One column for other layouts, rust/src/generic.rs:1996-2051. -/
def ddViewCol (n : Nat) (ts : Nat → F) (o : DdOut) (col : Nat) : DdOut :=
  ((List.range n).foldl (ddViewStep n ts col) ⟨false, -1, -1, ts 0, ts 0, false, -1, o⟩).recs

/-- `get_drawdowns`, rust/src/generic.rs:1924-2053. -/
def getDrawdowns (a : View2) : List DrawdownRec :=
  if a.nrows = 0 then []
  else if a.standard then
    ((List.range a.ncols).foldl (fun o col => ddStdCol a.nrows (a.sliceCol col) o col) ⟨0, []⟩).out
  else ((List.range a.ncols).foldl (fun o col => ddViewCol a.nrows (a.column col) o col) ⟨0, []⟩).out

/-! ## Positions of extremes -/

/-- The exception of `argmin_reduce_1d` and `argmax_reduce_1d`, rust/src/generic.rs:1642 and 1664. -/
def allNan : Err := .valueError "All-NaN slice encountered"

/-- The loop after the first value that is not NaN, rust/src/generic.rs:1644-1649 and 1666-1671; `better` is `<` or `>`. -/
def argScan (better : F → F → Bool) : List F → Nat → Nat → F → Nat
  | [], _, best, _ => best
  | v :: l, i, best, bestVal => if better v bestVal then argScan better l (i + 1) i v else argScan better l (i + 1) best bestVal

/-- `argmin_reduce_1d` (`better` is `<`), rust/src/generic.rs:1631-1651, and `argmax_reduce_1d` (`better` is `>`), 1653-1673. -/
def argReduce (better : F → F → Bool) (a : List F) : Except Err Nat :=
  match a.findIdx? (fun v => !v.isnan) with
  | none => .error allNan
  | some k => .ok (argScan better (a.drop (k + 1)) (k + 1) k (a.getD k nan))

end Vbt.RsGen

namespace Vbt
open F

/-- `np.argmin` and `np.argmax` of an array without NaN: the first position of the best value. -/
def npArg (better : F → F → Bool) : List F → Nat
  | [] => 0
  | v :: l => RsGen.argScan better l 1 0 v

/-- `argmin_reduce_nb` (`better` is `<`, `fill` is infinity), generic/nb.py:1561-1568, and `argmax_reduce_nb` (`better` is `>`,
`fill` is minus infinity), 1572-1579. -/
def argReduceNb (better : F → F → Bool) (fill : F) (a : List F) : Except Err Nat :=
  if a.all F.isnan then .error (.valueError "All-NaN slice encountered")
  else .ok (npArg better (a.map fun v => if v.isnan then fill else v))

end Vbt
