import Verif.Lemmas.RustRecords
import Verif.Lemmas.Witness
import Verif.Spec.RustRecords
import Verif.Props.C41

/-!
# C89  Ranges, drawdowns and positions of extremes of the Rust engine
-/

namespace Vbt
open F

/-! ## Ranges -/

/-- **C89** (ranges).  In either memory layout the Rust engine stores the range records of the Numba engine, with the same ids, in
the same order. -/
theorem C89_ranges (a : RsGen.View2) (gap : F) : RsGen.findRanges a gap = findRanges a.nrows a.ncols a.get gap := by
  unfold RsGen.findRanges findRanges
  rw [← (RsGen.pushCols (fun c => findCol a.nrows (fun i => a.get i c) gap) a.ncols).2]
  split
  · congr 1
    refine RsGen.foldl_congr _ _ fun o c hc => ?_
    rw [RsGen.findStdCol_eq, RsGen.sliceCol_eq a (List.mem_range.mp hc)]
    rfl
  · congr 1
    refine RsGen.foldl_congr _ _ fun o c _ => ?_
    rw [RsGen.findViewCol_eq]
    rfl

/-- Two columns in the standard layout: a closed and an open range in the first one. -/
def wRanges (std : Bool) : RsGen.View2 :=
  ⟨4, 2, fun i c => ([[fin 1, nan], [nan, fin 2], [fin 3, nan], [fin 4, nan]].getD i []).getD c nan, std⟩

example (std : Bool) : (RsGen.findRanges (wRanges std) nan).map (fun r => (r.id, r.col, r.start, r.stop, r.status)) =
    [(0, 0, 0, 1, RangeStatus.Closed), (1, 0, 2, 3, RangeStatus.Open), (2, 1, 1, 2, RangeStatus.Closed)] := by
  cases std <;> decide +kernel

/-- **C89** (durations).  The durations of the ranges of a series are their numbers of rows. -/
theorem C89_durations (a : RsGen.View2) (gap : F) : RsGen.rangeDurations (RsGen.findRanges a gap) =
    (RsGen.findRanges a gap).map fun r => (((List.range a.nrows).countP fun i => decide (r.has i) : Nat) : Int) := by
  rw [C89_ranges]
  refine List.map_congr_left fun r hr => ?_
  rw [← C41_duration a.nrows a.ncols a.get gap hr]
  rfl

example (std : Bool) : RsGen.rangeDurations (RsGen.findRanges (wRanges std) nan) = [1, 2, 1] := by cases std <;> decide +kernel

theorem rowsIn_end {records : List RangeRec} {m : ColMap} {nIdxs nCols : Nat} {indexLens : Nat → Nat}
    (h : RowsInIndex records m nIdxs nCols indexLens) {c k : Nat} (hc : c < nCols) (hk : k < m.lens c) :
    colStarts m.lens c + k < nIdxs ∧ ∃ r, records[m.idxs (colStarts m.lens c + k)]? = some r ∧
      (RsGen.rangeEnd r ≤ r.start ∨ RsGen.rangeEnd r ≤ indexLens c) := by
  obtain ⟨h1, r, h2, h3⟩ := h c hc k hk
  rw [colStarts_eq]
  refine ⟨h1, r, h2, ?_⟩
  by_contra hn
  push Not at hn
  have := h3 (RsGen.rangeEnd r - 1) (by omega) (by
    have h4 := hn.1
    unfold RsGen.rangeEnd at h4 ⊢
    split
    · rename_i ho; rw [if_pos ho] at h4; omega
    · rename_i ho; rw [if_neg ho] at h4; omega)
  omega

/-- The value of a column. -/
def covCell (A : Arith) (records : List RangeRec) (m : ColMap) (indexLens : Nat → Nat) (ov norm : Bool) (c : Nat) : F :=
  if m.lens c = 0 then nan
  else RsGen.coverageOf A (coverageCounts (takeIdxs records (m.col c))) (indexLens c) ov norm

theorem rsCoverage_eq (A : Arith) {records : List RangeRec} {m : ColMap} {nIdxs nCols : Nat} {indexLens : Nat → Nat}
    (ov norm : Bool) (h : RowsInIndex records m nIdxs nCols indexLens) :
    RsGen.rangeCoverage A records m nIdxs nCols indexLens ov norm =
      .ok ((List.range nCols).map (covCell A records m indexLens ov norm)) := by
  unfold RsGen.rangeCoverage
  have key : ∀ n ≤ nCols, loopE (RsGen.coverageStep A records m nIdxs indexLens ov norm) (0, fun _ => nan) (List.range n) =
      .ok (colStarts m.lens n, fun c => if c < n then covCell A records m indexLens ov norm c else nan) := by
    intro n
    induction n with
    | zero =>
      intro _
      rw [List.range_zero, loopE_nil, colStarts_eq]
      rfl
    | succ n ih =>
      intro hn
      rw [List.range_succ, loopE_append, ih (by omega)]
      unfold loopE RsGen.coverageStep
      dsimp only
      have hst : colStarts m.lens (n + 1) = colStarts m.lens n + m.lens n := by
        rw [colStarts_eq, colStarts_eq, List.range_succ]; simp
      by_cases h0 : m.lens n = 0
      · rw [if_pos h0]
        simp only [loopE_nil]
        rw [hst, h0, Nat.add_zero]
        congr 2
        funext c
        by_cases hc : c = n
        · subst hc
          rw [if_neg (by omega), if_pos (by omega)]
          unfold covCell
          rw [if_pos h0]
        · by_cases hlt : c < n
          · rw [if_pos hlt, if_pos (by omega)]
          · rw [if_neg hlt, if_neg (by omega)]
      · rw [if_neg h0]
        have : RsGen.overRecords records m.idxs nIdxs (RsGen.countRange (indexLens n)) (colStarts m.lens n) (m.lens n)
            (fun _ => 0) = .ok (coverageCounts (takeIdxs records (m.col n))) := by
          unfold coverageCounts ColMap.col
          refine RsGen.recordLoop records m.idxs nIdxs _ _ _ _ _ fun k hk => ?_
          obtain ⟨h1, r, h2, h3⟩ := rowsIn_end h (by omega : n < nCols) hk
          exact ⟨h1, r, h2, fun s => RsGen.countRange_ok h3 s⟩
        simp only [this, loopE_nil]
        rw [hst]
        congr 2
        funext c
        unfold setAt
        by_cases hc : c = n
        · subst hc
          rw [if_pos rfl, if_pos (by omega)]
          unfold covCell
          rw [if_neg h0]
        · rw [if_neg hc]
          dsimp only
          by_cases hlt : c < n
          · rw [if_pos hlt, if_pos (by omega)]
          · rw [if_neg hlt, if_neg (by omega)]
  rw [key nCols (le_refl _)]
  dsimp only
  congr 1
  refine List.map_congr_left fun c hc => ?_
  rw [if_pos (List.mem_range.mp hc)]

/-- The number by which the coverage of a column is divided. -/
def covDivisor (records : List RangeRec) (m : ColMap) (indexLens : Nat → Nat) (ov : Bool) (c : Nat) : Nat :=
  if ov then (List.range (indexLens c)).countP fun i => decide (0 < coverageCounts (takeIdxs records (m.col c)) i)
  else indexLens c

theorem eqb_natCast (n : Nat) : eqb (fin (n : ℚ)) zero = decide (n = 0) := by
  change decide ((n : ℚ) = 0) = decide (n = 0)
  rw [decide_eq_decide]
  exact Nat.cast_eq_zero

theorem nbCoverage_eq (A : Arith) (records : List RangeRec) (m : ColMap) (nCols : Nat) (indexLens : Nat → Nat)
    (ov norm : Bool) :
    rangeCoverage A records m nCols indexLens ov norm =
      if ∃ c < nCols, m.lens c ≠ 0 ∧ norm = true ∧ covDivisor records m indexLens ov c = 0 then .error .zeroDivision
      else .ok ((List.range nCols).map (covCell A records m indexLens ov norm)) := by
  unfold rangeCoverage
  induction nCols with
  | zero => simp
  | succ n ih =>
    rw [List.range_succ, List.foldl_append, ih]
    simp only [List.foldl_cons, List.foldl_nil]
    by_cases he : ∃ c < n, m.lens c ≠ 0 ∧ norm = true ∧ covDivisor records m indexLens ov c = 0
    · have he' : ∃ c < n + 1, m.lens c ≠ 0 ∧ norm = true ∧ covDivisor records m indexLens ov c = 0 := by
        obtain ⟨c, h1, h2⟩ := he
        exact ⟨c, by omega, h2⟩
      rw [if_pos he, if_pos he']
    · rw [if_neg he]
      dsimp only
      by_cases h0 : m.lens n = 0
      · have hE : ¬ ∃ c < n + 1, m.lens c ≠ 0 ∧ norm = true ∧ covDivisor records m indexLens ov c = 0 := by
          rintro ⟨c, h1, h2, h3⟩
          by_cases hc : c = n
          · exact h2 (hc ▸ h0)
          · exact he ⟨c, by omega, h2, h3⟩
        rw [if_pos h0, if_neg hE, List.map_append]
        congr 2
        simp [covCell, h0]
      · rw [if_neg h0]
        have hiff : (∃ c < n + 1, m.lens c ≠ 0 ∧ norm = true ∧ covDivisor records m indexLens ov c = 0) ↔
            norm = true ∧ covDivisor records m indexLens ov n = 0 := by
          constructor
          · rintro ⟨c, h1, h2, h3⟩
            by_cases hc : c = n
            · exact hc ▸ h3
            · exact absurd ⟨c, by omega, h2, h3⟩ he
          · intro h3
            exact ⟨n, by omega, h0, h3⟩
        rw [List.map_append, List.map_cons, List.map_nil]
        unfold covCell
        rw [if_neg h0]
        unfold RsGen.coverageOf
        cases norm with
        | false =>
          have hE : ¬ ∃ c < n + 1, m.lens c ≠ 0 ∧ false = true ∧ covDivisor records m indexLens ov c = 0 := by
            rw [hiff]; rintro ⟨h, -⟩; cases h
          rw [if_neg hE]
          cases ov <;> rfl
        | true =>
          by_cases hd : covDivisor records m indexLens ov n = 0
          · rw [if_pos (hiff.mpr ⟨rfl, hd⟩)]
            cases ov <;> simp only [covDivisor, Bool.false_eq_true, if_false, if_true] at hd ⊢ <;>
              · unfold divE
                rw [eqb_natCast, hd]
                rfl
          · rw [if_neg (fun h => hd (hiff.mp h).2)]
            cases ov <;> simp only [covDivisor, Bool.false_eq_true, if_false, if_true] at hd ⊢ <;>
              · unfold divE
                rw [eqb_natCast, decide_eq_false hd]
                rfl

/-- **C89** (coverage).  For records whose rows lie in the index the Rust engine returns a list; the Numba engine returns the same
list, or it raises `ZeroDivisionError`, and this exactly if the coverage is normalised and a column with records has nothing to
divide by: no covered row (overlapping) or no row (not overlapping). -/
theorem C89_coverage (A : Arith) {records : List RangeRec} {m : ColMap} {nIdxs nCols : Nat} {indexLens : Nat → Nat}
    (ov norm : Bool) (h : RowsInIndex records m nIdxs nCols indexLens) :
    ∃ l, RsGen.rangeCoverage A records m nIdxs nCols indexLens ov norm = .ok l ∧ l.length = nCols ∧
      (rangeCoverage A records m nCols indexLens ov norm = .ok l ∨
        rangeCoverage A records m nCols indexLens ov norm = .error .zeroDivision) ∧
      (rangeCoverage A records m nCols indexLens ov norm = .error .zeroDivision ↔
        norm = true ∧ ∃ c < nCols, m.lens c ≠ 0 ∧
          if ov then ∀ i < indexLens c, ∀ r ∈ takeIdxs records (m.col c), ¬ r.has i else indexLens c = 0) := by
  refine ⟨_, rsCoverage_eq A ov norm h, by simp, ?_, ?_⟩
  · rw [nbCoverage_eq]
    split
    · exact Or.inr rfl
    · exact Or.inl rfl
  · rw [nbCoverage_eq]
    have hd : ∀ c, covDivisor records m indexLens ov c = 0 ↔
        if ov then ∀ i < indexLens c, ∀ r ∈ takeIdxs records (m.col c), ¬ r.has i else indexLens c = 0 := by
      intro c
      unfold covDivisor
      cases ov with
      | false => simp
      | true =>
        simp only [if_true]
        rw [List.countP_eq_zero]
        simp only [List.mem_range, decide_eq_true_eq, Nat.not_lt, Nat.le_zero, coverageCounts_eq]
        constructor
        · intro h1 i hi r hr hh
          have := List.countP_eq_zero.mp (h1 i hi) r hr
          simp [hh] at this
        · intro h1 i hi
          rw [List.countP_eq_zero]
          intro r hr
          simp [h1 i hi r hr]
    constructor
    · intro h1
      split at h1
      · rename_i h2
        obtain ⟨c, c1, c2, c3, c4⟩ := h2
        exact ⟨c3, c, c1, c2, (hd c).mp c4⟩
      · cases h1
    · rintro ⟨c3, c, c1, c2, c4⟩
      rw [if_pos ⟨c, c1, c2, c3, (hd c).mpr c4⟩]

/-- A closed range without rows. -/
def wEmptyRange : RangeRec := ⟨0, 0, 1, 1, RangeStatus.Closed⟩

theorem wEmptyRange_in : RowsInIndex [wEmptyRange] (colMap [0] fun _ => 0) 1 1 (fun _ => 3) := by
  intro c hc k hk
  have : c = 0 := by omega
  subst this
  have hk1 : k = 0 := by
    have : (colMap [0] fun _ => 0).lens 0 = 1 := by decide
    omega
  subst hk1
  refine ⟨by decide, wEmptyRange, by decide, fun i h1 h2 => ?_⟩
  change 1 ≤ i at h1
  change i < 1 at h2
  omega

/-- The Numba engine raises where the Rust engine returns NaN. -/
theorem C89_coverage_differs :
    RowsInIndex [wEmptyRange] (colMap [0] fun _ => 0) 1 1 (fun _ => 3) ∧
    RsGen.rangeCoverage Arith.std [wEmptyRange] (colMap [0] fun _ => 0) 1 1 (fun _ => 3) true true = .ok [nan] ∧
    rangeCoverage Arith.std [wEmptyRange] (colMap [0] fun _ => 0) 1 (fun _ => 3) true true = .error .zeroDivision :=
  ⟨wEmptyRange_in, by decide +kernel, by decide +kernel⟩

/-- The records of `findRanges` lie in their index. -/
theorem found_rows (n cols : Nat) (ts : Nat → Nat → F) (gap : F) (junk : Nat → Nat) :
    RowsInIndex (findRanges n cols ts gap) (colMap ((findRanges n cols ts gap).map RangeRec.col) junk)
      (findRanges n cols ts gap).length cols (fun _ => n) := by
  intro c hc k hk
  rw [← colStarts_eq]
  set records := findRanges n cols ts gap with hr
  set m := colMap (records.map RangeRec.col) junk with hm
  have hmem : m.idxs (colStarts m.lens c + k) ∈ m.col c := by
    unfold ColMap.col slice
    exact List.mem_map.mpr ⟨k, List.mem_range.mpr hk, rfl⟩
  rw [hm, (C45_map _ junk c).1, mem_positions, ← hm, List.getElem?_map, Option.map_eq_some_iff] at hmem
  obtain ⟨r, h1, h2⟩ := hmem
  refine ⟨?_, r, h1, fun i i1 i2 => ?_⟩
  · rw [colStarts_eq]
    have hsum : ∀ d, ((List.range d).map m.lens).sum = records.countP fun r => decide (r.col < d) := by
      intro d
      induction d with
      | zero => simp
      | succ d ih =>
        rw [List.range_succ, List.map_append, List.sum_append, ih, hm, List.map_cons, List.map_nil,
          (C45_map _ junk d).2]
        clear hk h1 hm
        clear_value records
        clear ih hr m
        induction records with
        | nil => rfl
        | cons x l ihl =>
          simp only [List.map_cons, List.countP_cons, List.count_cons, List.sum_cons, List.sum_nil, decide_eq_true_eq,
            beq_iff_eq] at ihl ⊢
          split <;> split <;> split <;> omega
    have h3 := hsum (c + 1)
    rw [List.range_succ, List.map_append, List.sum_append] at h3
    simp only [List.map_cons, List.map_nil, List.sum_cons, List.sum_nil] at h3
    have h4 := List.countP_le_length (p := fun r : RangeRec => decide (r.col < c + 1)) (l := records)
    omega
  · have hin : r ∈ findRanges n cols ts gap := List.mem_of_getElem? h1
    have := (mem_findRanges.mp ⟨r, hin, rfl, rfl⟩).2
    change i < n
    rcases ((C41_ranges n (fun i => ts i r.col) gap).1 _ _ _).mp this with ⟨t1, t2, t3, -⟩ | ⟨t1, t2, t3, -⟩
    · rw [t1, if_neg (by decide)] at i2; omega
    · rw [t1, if_pos rfl] at i2; omega

/-- **C89** (coverage of found ranges).  For the ranges of a series both engines return the same coverage and none raises. -/
theorem C89_coverage_found (A : Arith) (a : RsGen.View2) (gap : F) (junk : Nat → Nat) (ov norm : Bool) :
    RsGen.rangeCoverage A (RsGen.findRanges a gap) (colMap ((RsGen.findRanges a gap).map RangeRec.col) junk)
        (RsGen.findRanges a gap).length a.ncols (fun _ => a.nrows) ov norm =
      rangeCoverage A (findRanges a.nrows a.ncols a.get gap)
        (colMap ((findRanges a.nrows a.ncols a.get gap).map RangeRec.col) junk) a.ncols (fun _ => a.nrows) ov norm ∧
    ∃ l, rangeCoverage A (findRanges a.nrows a.ncols a.get gap)
        (colMap ((findRanges a.nrows a.ncols a.get gap).map RangeRec.col) junk) a.ncols (fun _ => a.nrows) ov norm = .ok l := by
  rw [C89_ranges]
  obtain ⟨l, h1, -, h2, h3⟩ := C89_coverage A ov norm (found_rows a.nrows a.ncols a.get gap junk)
  rcases h2 with h2 | h2
  · exact ⟨by rw [h1, h2], l, h2⟩
  · exfalso
    obtain ⟨-, c, c1, c2, c3⟩ := h3.mp h2
    rw [(C45_map _ junk c).2] at c2
    have : c ∈ (findRanges a.nrows a.ncols a.get gap).map RangeRec.col := by
      by_contra hn
      exact c2 (List.count_eq_zero.mpr hn)
    obtain ⟨r, r1, r2⟩ := List.mem_map.mp this
    have hm := (mem_findRanges.mp ⟨r, r1, rfl, rfl⟩).2
    have hh : r.has r.start ∧ r.start < a.nrows := by
      unfold RangeRec.has
      rcases ((C41_ranges a.nrows (fun i => a.get i r.col) gap).1 _ _ _).mp hm with ⟨t1, t2, t3, -⟩ | ⟨t1, t2, t3, -⟩
      · rw [t1, if_neg (by decide)]; omega
      · rw [t1, if_pos rfl]; omega
    cases ov with
    | false =>
      simp only [Bool.false_eq_true, if_false] at c3
      omega
    | true =>
      simp only [if_true] at c3
      refine c3 r.start hh.2 r ?_ hh.1
      rw [C45_records]
      exact List.mem_filter.mpr ⟨r1, by simp [r2]⟩

example (std : Bool) : RsGen.rangeCoverage Arith.std (RsGen.findRanges (wRanges std) nan)
    (colMap ((RsGen.findRanges (wRanges std) nan).map RangeRec.col) fun _ => 9) 3 2 (fun _ => 4) false true =
    .ok [fin (3 / 4), fin (1 / 4)] := by
  cases std <;> decide +kernel

/-- **C89** (mask).  For records whose rows lie in the index both engines mark the same cells. -/
theorem C89_mask {records : List RangeRec} {m : ColMap} {nIdxs nCols len : Nat}
    (h : RowsInIndex records m nIdxs nCols fun _ => len) :
    RsGen.rangesToMask records m nIdxs nCols len = .ok (rangesToMask records m nCols) := by
  unfold RsGen.rangesToMask rangesToMask
  have key : ∀ n ≤ nCols, loopE (RsGen.maskStep records m nIdxs len) (0, fun _ _ => false) (List.range n) =
      .ok (colStarts m.lens n, (List.range n).foldl (fun out col =>
        if m.lens col = 0 then out
        else (takeIdxs records (m.col col)).foldl (fun out r => fun i c =>
          if c = col ∧ r.start ≤ i ∧ i < rangeSliceEnd r then true else out i c) out) fun _ _ => false) := by
    intro n
    induction n with
    | zero =>
      intro _
      rw [List.range_zero, loopE_nil, colStarts_eq]
      rfl
    | succ n ih =>
      intro hn
      rw [List.range_succ, loopE_append, ih (by omega), List.foldl_append]
      unfold loopE RsGen.maskStep
      have hst : colStarts m.lens (n + 1) = colStarts m.lens n + m.lens n := by
        rw [colStarts_eq, colStarts_eq, List.range_succ]; simp
      dsimp only
      rw [RsGen.recordLoop records m.idxs nIdxs _ (fun out r => fun i c =>
        if c = n ∧ r.start ≤ i ∧ i < rangeSliceEnd r then true else out i c) _ _ _ (fun k hk => by
          obtain ⟨h1, r, h2, h3⟩ := rowsIn_end h (by omega : n < nCols) hk
          exact ⟨h1, r, h2, fun s => RsGen.markRange_ok h3 s⟩)]
      simp only [loopE_nil, List.foldl_cons, List.foldl_nil]
      rw [hst]
      congr 2
      by_cases h0 : m.lens n = 0
      · rw [if_pos h0, h0]
        rfl
      · rw [if_neg h0]
        rfl
  rw [key nCols (le_refl _)]

example : RowsInIndex (findRanges 4 2 (wRanges true).get nan) (colMap ((findRanges 4 2 (wRanges true).get nan).map RangeRec.col)
    fun _ => 9) 3 2 fun _ => 4 := by
  have := found_rows 4 2 (wRanges true).get nan fun _ => 9
  rwa [show (findRanges 4 2 (wRanges true).get nan).length = 3 by decide +kernel] at this

/-- **C89** (mask of found ranges).  The mask of the ranges of a series marks the cells that are not the gap value. -/
theorem C89_mask_found (a : RsGen.View2) (gap : F) (junk : Nat → Nat) :
    ∃ mask, RsGen.rangesToMask (RsGen.findRanges a gap) (colMap ((RsGen.findRanges a gap).map RangeRec.col) junk)
        (RsGen.findRanges a gap).length a.ncols a.nrows = .ok mask ∧
      ∀ i < a.nrows, ∀ c < a.ncols, (mask i c = true ↔ a.get i c ≠ gap) := by
  rw [C89_ranges]
  refine ⟨_, C89_mask (found_rows a.nrows a.ncols a.get gap junk), fun i hi c hc => ?_⟩
  exact C41_mask a.nrows a.ncols a.get gap junk hi hc

/-- Outside of the index the Rust engine panics, the Numba engine counts the rows there are. -/
theorem C89_outside :
    RsGen.rangeCoverage Arith.std [⟨0, 0, 1, 5, RangeStatus.Closed⟩] (colMap [0] fun _ => 0) 1 1 (fun _ => 3) false false =
      .error RsGen.panicked ∧
    rangeCoverage Arith.std [⟨0, 0, 1, 5, RangeStatus.Closed⟩] (colMap [0] fun _ => 0) 1 (fun _ => 3) false false =
      .ok [fin 2] :=
  ⟨by decide +kernel, by decide +kernel⟩

/-! ## Drawdowns -/

/-- **C89** (drawdowns).  In either memory layout the Rust engine stores the drawdown records of the Numba engine, with the same ids,
in the same order. -/
theorem C89_drawdowns (a : RsGen.View2) : RsGen.getDrawdowns a = getDrawdowns a.nrows a.ncols a.get := by
  unfold RsGen.getDrawdowns getDrawdowns
  rw [← (RsGen.ddPushCols (fun c => drawdownsCol a.nrows fun i => a.get i c) a.ncols).2]
  by_cases h0 : a.nrows = 0
  · rw [if_pos h0, h0, (RsGen.ddPushCols (fun c => drawdownsCol 0 fun i => a.get i c) a.ncols).2]
    induction a.ncols with
    | zero => rfl
    | succ n ih => rw [List.range_succ, List.foldl_append, ← ih]; rfl
  · rw [if_neg h0]
    split
    · congr 1
      refine RsGen.foldl_congr _ _ fun o c hc => ?_
      rw [RsGen.ddStdCol_eq, RsGen.sliceCol_eq a (List.mem_range.mp hc)]
      rfl
    · congr 1
      refine RsGen.foldl_congr _ _ fun o c _ => ?_
      rw [RsGen.ddViewCol_eq]
      rfl

example (std : Bool) : (RsGen.getDrawdowns ⟨4, 1, fun i _ => [fin 3, fin 1, fin 4, fin 2].getD i nan, std⟩).map
    (fun r => (r.id, r.dd.valleyIdx, r.dd.endVal, r.dd.status)) =
    [(0, 1, fin 4, DrawdownStatus.Recovered), (1, 3, fin 2, DrawdownStatus.Active)] := by
  cases std <;> decide +kernel

/-! ## Positions of extremes -/

/-- What is used of `<` and `>`. -/
structure StrictBetter (better : F → F → Bool) : Prop where
  nan_l : ∀ x y, better x y = true → x.isnan = false
  nan_r : ∀ x y, better x y = true → y.isnan = false
  irrefl : ∀ x, better x x = false
  trans : ∀ x y z, better x y = true → better y z = true → better x z = true
  negTrans : ∀ x y z, y.isnan = false → better x y = false → better y z = false → better x z = false

theorem lt_strictBetter : StrictBetter lt where
  nan_l x y h := by cases x <;> cases y <;> simp_all [F.lt, F.isnan]
  nan_r x y h := by cases x <;> cases y <;> simp_all [F.lt, F.isnan]
  irrefl x := by cases x <;> simp [F.lt]
  trans x y z h1 h2 := by
    cases x <;> cases y <;> cases z <;> simp_all [F.lt]
    exact lt_trans h1 h2
  negTrans x y z h h1 h2 := by
    cases x <;> cases y <;> cases z <;> simp_all [F.lt, F.isnan]
    exact le_trans h2 h1

theorem gt_strictBetter : StrictBetter gt where
  nan_l _ _ h := lt_strictBetter.nan_r _ _ h
  nan_r _ _ h := lt_strictBetter.nan_l _ _ h
  irrefl x := lt_strictBetter.irrefl x
  trans _ _ _ h1 h2 := lt_strictBetter.trans _ _ _ h2 h1
  negTrans _ _ _ h h1 h2 := lt_strictBetter.negTrans _ _ _ h h2 h1

theorem FirstExtreme.unique {better : F → F → Bool} {a : List F} {k k' : Nat} (h : FirstExtreme better a k)
    (h' : FirstExtreme better a k') : k = k' := by
  obtain ⟨x, x1, x2, x3, x4⟩ := h
  obtain ⟨y, y1, y2, y3, y4⟩ := h'
  rcases Nat.lt_trichotomy k k' with hl | he | hl
  · have := y4 k hl x x1 x2
    rw [x3 k' y y1 y2] at this
    cases this
  · exact he
  · have := x4 k' hl y y1 y2
    rw [y3 k x x1 x2] at this
    cases this

theorem argScan_spec {better : F → F → Bool} (hb : StrictBetter better) : ∀ (l pre : List F) (best : Nat) (x : F),
    pre[best]? = some x → FirstExtreme better pre best → FirstExtreme better (pre ++ l) (RsGen.argScan better l pre.length best x) := by
  intro l
  induction l with
  | nil => intro pre best x _ h; rw [List.append_nil]; exact h
  | cons v l ih =>
    intro pre best x hx h
    obtain ⟨x', x1, x2, x3, x4⟩ := h
    obtain rfl : x = x' := by rw [hx] at x1; exact Option.some.inj x1
    have hlt : best < pre.length := (List.getElem?_eq_some_iff.mp hx).1
    have e : pre ++ v :: l = (pre ++ [v]) ++ l := by simp
    have hlen : pre.length + 1 = (pre ++ [v]).length := by simp
    rw [e]
    unfold RsGen.argScan
    cases hv : better v x with
    | true =>
      rw [if_pos rfl, hlen]
      apply ih
      · rw [List.getElem?_append_right (le_refl _), Nat.sub_self]; rfl
      · refine ⟨v, by rw [List.getElem?_append_right (le_refl _), Nat.sub_self]; rfl, hb.nan_l _ _ hv, ?_, ?_⟩
        · intro j y hj hy
          rcases Nat.lt_or_ge j pre.length with h1 | h1
          · rw [List.getElem?_append_left h1] at hj
            cases hc : better y v with
            | false => rfl
            | true =>
              have := hb.trans _ _ _ hc hv
              rw [x3 j y hj hy] at this
              cases this
          · have : j = pre.length := by
              have := (List.getElem?_eq_some_iff.mp hj).1
              rw [← hlen] at this
              omega
            rw [this, List.getElem?_append_right (le_refl _), Nat.sub_self] at hj
            obtain rfl : v = y := Option.some.inj hj
            exact hb.irrefl _
        · intro j hj y hy1 hy2
          rw [List.getElem?_append_left hj] at hy1
          cases hc : better v y with
          | true => rfl
          | false =>
            have := hb.negTrans _ _ _ hy2 hc (x3 j y hy1 hy2)
            rw [hv] at this
            cases this
    | false =>
      rw [if_neg (by decide), hlen]
      apply ih
      · rw [List.getElem?_append_left hlt]; exact hx
      · refine ⟨x, by rw [List.getElem?_append_left hlt]; exact hx, x2, ?_, ?_⟩
        · intro j y hj hy
          rcases Nat.lt_or_ge j pre.length with h1 | h1
          · rw [List.getElem?_append_left h1] at hj
            exact x3 j y hj hy
          · have : j = pre.length := by
              have := (List.getElem?_eq_some_iff.mp hj).1
              rw [← hlen] at this
              omega
            rw [this, List.getElem?_append_right (le_refl _), Nat.sub_self] at hj
            obtain rfl : v = y := Option.some.inj hj
            exact hv
        · intro j hj y hy1 hy2
          rw [List.getElem?_append_left (by omega)] at hy1
          exact x4 j hj y hy1 hy2

theorem argReduce_spec {better : F → F → Bool} (hb : StrictBetter better) (a : List F) :
    (RsGen.argReduce better a = .error RsGen.allNan ∧ ∀ x ∈ a, x.isnan = true) ∨
    ∃ k, RsGen.argReduce better a = .ok k ∧ FirstExtreme better a k := by
  unfold RsGen.argReduce
  cases hf : a.findIdx? (fun v => !v.isnan) with
  | none =>
    left
    refine ⟨rfl, fun x hx => ?_⟩
    rw [List.findIdx?_eq_none_iff] at hf
    simpa using hf x hx
  | some k =>
    right
    refine ⟨_, rfl, ?_⟩
    rw [List.findIdx?_eq_some_iff_getElem] at hf
    obtain ⟨h1, h2, h3⟩ := hf
    have hx : (a.take (k + 1))[k]? = some a[k] := by
      rw [List.getElem?_take_of_lt (by omega), List.getElem?_eq_getElem h1]
    have hn : a[k].isnan = false := by simpa using h2
    have hnan : ∀ j < k, ∀ y : F, (a.take (k + 1))[j]? = some y → y.isnan = true := by
      intro j hj y hy
      rw [List.getElem?_take_of_lt (by omega), List.getElem?_eq_getElem (by omega)] at hy
      have := h3 j hj
      rw [Option.some.inj hy] at this
      simpa using this
    have hpre : FirstExtreme better (a.take (k + 1)) k := by
      refine ⟨a[k], hx, hn, ?_, ?_⟩
      · intro j y hj hy
        by_cases hjk : j = k
        · rw [hjk, hx] at hj
          rw [← Option.some.inj hj]
          exact hb.irrefl _
        · have : j < (a.take (k + 1)).length := (List.getElem?_eq_some_iff.mp hj).1
          rw [List.length_take] at this
          rw [hnan j (by omega) y hj] at hy
          cases hy
      · intro j hj y hy1 hy2
        rw [hnan j hj y hy1] at hy2
        cases hy2
    have := argScan_spec hb (a.drop (k + 1)) (a.take (k + 1)) k a[k] hx hpre
    rw [List.take_append_drop, List.length_take, Nat.min_eq_left (by omega)] at this
    rw [show a.getD k nan = a[k] by simp [List.getD, h1]]
    exact this

theorem argReduceNb_spec {better : F → F → Bool} (hb : StrictBetter better) (fill : F) (hfill : fill.isnan = false)
    (hworst : ∀ x, x.isnan = false → better fill x = false) (a : List F) :
    (argReduceNb better fill a = .error RsGen.allNan ∧ ∀ x ∈ a, x.isnan = true) ∨
    (∃ x ∈ a, x.isnan = false ∧ better x fill = true ∧ ∃ k, argReduceNb better fill a = .ok k ∧ FirstExtreme better a k) ∨
    ((∃ x ∈ a, x.isnan = false) ∧ (∀ x ∈ a, x.isnan = false → better x fill = false) ∧ argReduceNb better fill a = .ok 0) := by
  unfold argReduceNb
  cases hall : a.all F.isnan with
  | true =>
    left
    rw [if_pos rfl]
    exact ⟨rfl, fun x hx => List.all_eq_true.mp hall x hx⟩
  | false =>
    right
    rw [if_neg (by decide)]
    have hex : ∃ x ∈ a, x.isnan = false := by
      by_contra hn
      push Not at hn
      have : a.all F.isnan = true := List.all_eq_true.mpr fun x hx => by simpa using hn x hx
      rw [hall] at this
      cases this
    set b := a.map (fun v => if v.isnan then fill else v) with hbdef
    have hbnan : ∀ x ∈ b, x.isnan = false := by
      intro x hx
      obtain ⟨y, -, rfl⟩ := List.mem_map.mp hx
      split
      · exact hfill
      · rename_i h; simpa using h
    have hfirst : FirstExtreme better b (npArg better b) := by
      cases hbc : b with
      | nil =>
        exfalso
        obtain ⟨x, hx, -⟩ := hex
        have : (if x.isnan then fill else x) ∈ b := List.mem_map.mpr ⟨x, hx, rfl⟩
        rw [hbc] at this
        cases this
      | cons v l =>
        have hv : v.isnan = false := hbnan v (by rw [hbc]; exact List.mem_cons_self)
        have : FirstExtreme better [v] 0 := by
          refine ⟨v, rfl, hv, ?_, fun j hj => absurd hj (by omega)⟩
          intro j y hj _
          cases j with
          | zero => rw [← Option.some.inj hj]; exact hb.irrefl _
          | succ j => cases hj
        exact argScan_spec hb l [v] 0 v rfl this
    have hget : ∀ {j : Nat} {y : F}, a[j]? = some y → y.isnan = false → b[j]? = some y := by
      intro j y hj hy
      rw [hbdef, List.getElem?_map, hj]
      simp [hy]
    obtain ⟨x, x1, x2, x3, x4⟩ := hfirst
    by_cases hbt : ∃ x ∈ a, x.isnan = false ∧ better x fill = true
    · left
      obtain ⟨y, y1, y2, y3⟩ := hbt
      refine ⟨y, y1, y2, y3, _, rfl, x, ?_, x2, fun j z hj hz => x3 j z (hget hj hz) hz,
        fun j hj z hz1 hz2 => x4 j hj z (hget hz1 hz2) hz2⟩
      have hxf : better x fill = true := by
        cases hc : better x fill with
        | true => rfl
        | false =>
          obtain ⟨j, hj⟩ := List.mem_iff_getElem?.mp y1
          have := hb.negTrans _ _ _ x2 (x3 j y (hget hj y2) y2) hc
          rw [y3] at this
          cases this
      rw [hbdef, List.getElem?_map, Option.map_eq_some_iff] at x1
      obtain ⟨z, z1, z2⟩ := x1
      split at z2
      · rw [← z2, hb.irrefl] at hxf; cases hxf
      · rw [z1, z2]
    · right
      push Not at hbt
      have hbt' : ∀ x ∈ a, x.isnan = false → better x fill = false := fun x h1 h2 => by simpa using hbt x h1 h2
      refine ⟨hex, hbt', ?_⟩
      congr 1
      by_contra hne
      have h0 : 0 < b.length := by
        have := (List.getElem?_eq_some_iff.mp x1).1
        omega
      have hb0 : b[0]? = some b[0] := List.getElem?_eq_getElem h0
      have h1 := x4 0 (by omega) b[0] hb0 (hbnan _ (List.getElem_mem h0))
      have hle : ∀ z ∈ b, better z fill = false := by
        intro z hz
        obtain ⟨w, w1, rfl⟩ := List.mem_map.mp hz
        split
        · exact hb.irrefl _
        · rename_i h; exact hbt' w w1 (by simpa using h)
      have h2 := hb.negTrans x fill b[0] hfill (hle x (List.mem_of_getElem? x1)) (hworst _ (hbnan _ (List.getElem_mem h0)))
      rw [h1] at h2
      cases h2

theorem arg_same {better : F → F → Bool} (hb : StrictBetter better) (fill : F) (hfill : fill.isnan = false)
    (hworst : ∀ x, x.isnan = false → better fill x = false) (a : List F) :
    (RsGen.argReduce better a = .error RsGen.allNan ↔ ∀ x ∈ a, x.isnan = true) ∧
    (∀ k, RsGen.argReduce better a = .ok k ↔ FirstExtreme better a k) ∧
    ((∀ x ∈ a, x.isnan = true) ∨ (∃ x ∈ a, better x fill = true) → argReduceNb better fill a = RsGen.argReduce better a) ∧
    ((∃ x ∈ a, x.isnan = false) → (∀ x ∈ a, better x fill = false) → argReduceNb better fill a = .ok 0) := by
  have hno : ∀ {k}, FirstExtreme better a k → ¬ ∀ x ∈ a, x.isnan = true := by
    rintro k ⟨x, x1, x2, -⟩ h
    rw [h x (List.mem_of_getElem? x1)] at x2
    cases x2
  have hrs := argReduce_spec hb a
  have hnb := argReduceNb_spec hb fill hfill hworst a
  refine ⟨?_, ?_, ?_, ?_⟩
  · rcases hrs with ⟨h1, h2⟩ | ⟨k, h1, h2⟩
    · exact ⟨fun _ => h2, fun _ => h1⟩
    · rw [h1]
      exact ⟨fun h => (by cases h), fun h => absurd h (hno h2)⟩
  · intro k'
    rcases hrs with ⟨h1, h2⟩ | ⟨k, h1, h2⟩
    · rw [h1]
      exact ⟨fun h => (by cases h), fun h => absurd h2 (hno h)⟩
    · rw [h1]
      constructor
      · intro h; cases h; exact h2
      · intro h; rw [h2.unique h]
  · intro hc
    rcases hrs with ⟨h1, h2⟩ | ⟨k, h1, h2⟩
    · rcases hnb with ⟨n1, -⟩ | ⟨x, x1, x2, -⟩ | ⟨⟨x, x1, x2⟩, -⟩
      · rw [h1, n1]
      · rw [h2 x x1] at x2; cases x2
      · rw [h2 x x1] at x2; cases x2
    · rcases hnb with ⟨-, n1⟩ | ⟨-, -, -, -, k', n1, n2⟩ | ⟨-, n1, -⟩
      · exact absurd n1 (hno h2)
      · rw [h1, n1, h2.unique n2]
      · exfalso
        rcases hc with hc | ⟨x, x1, x2⟩
        · exact hno h2 hc
        · rw [n1 x x1 (hb.nan_l _ _ x2)] at x2; cases x2
  · rintro ⟨x, x1, x2⟩ hall
    rcases hnb with ⟨-, n1⟩ | ⟨y, y1, -, y3, -⟩ | ⟨-, -, n1⟩
    · rw [n1 x x1] at x2; cases x2
    · rw [hall y y1] at y3; cases y3
    · exact n1

/-- **C89** (position of the minimum).  The Rust engine raises exactly if there are only NaN, and otherwise returns the first position
of the smallest value.  The Numba engine does the same if there is a value below infinity; if there is none but a value, it returns
0. -/
theorem C89_argmin (a : List F) :
    (RsGen.argReduce lt a = .error RsGen.allNan ↔ ∀ x ∈ a, x.isnan = true) ∧
    (∀ k, RsGen.argReduce lt a = .ok k ↔ FirstExtreme lt a k) ∧
    ((∀ x ∈ a, x.isnan = true) ∨ (∃ x ∈ a, lt x pinf = true) → argReduceNb lt pinf a = RsGen.argReduce lt a) ∧
    ((∃ x ∈ a, x.isnan = false) → (∀ x ∈ a, lt x pinf = false) → argReduceNb lt pinf a = .ok 0) :=
  arg_same lt_strictBetter pinf rfl (fun x _ => by cases x <;> rfl) a

/-- **C89** (position of the maximum). -/
theorem C89_argmax (a : List F) :
    (RsGen.argReduce gt a = .error RsGen.allNan ↔ ∀ x ∈ a, x.isnan = true) ∧
    (∀ k, RsGen.argReduce gt a = .ok k ↔ FirstExtreme gt a k) ∧
    ((∀ x ∈ a, x.isnan = true) ∨ (∃ x ∈ a, gt x ninf = true) → argReduceNb gt ninf a = RsGen.argReduce gt a) ∧
    ((∃ x ∈ a, x.isnan = false) → (∀ x ∈ a, gt x ninf = false) → argReduceNb gt ninf a = .ok 0) :=
  arg_same gt_strictBetter ninf rfl (fun x _ => by cases x <;> rfl) a

example : (∃ x ∈ [nan, fin 2, fin 1, fin 1], lt x pinf = true) ∧ RsGen.argReduce lt [nan, fin 2, fin 1, fin 1] = .ok 2 ∧
    argReduceNb lt pinf [nan, fin 2, fin 1, fin 1] = .ok 2 := by decide +kernel

example : RsGen.argReduce gt [nan, fin 2, fin 1, fin 2] = .ok 1 ∧ argReduceNb gt ninf [nan, fin 2, fin 1, fin 2] = .ok 1 := by
  decide +kernel

/-- The Numba engine returns the position of a NaN for NaN followed by infinity. -/
theorem C89_argmin_differs : RsGen.argReduce lt [nan, pinf] = .ok 1 ∧ argReduceNb lt pinf [nan, pinf] = .ok 0 := by
  decide +kernel

end Vbt
