import Verif.Lemmas.RustColMask
import Verif.Lemmas.Witness
import Verif.Props.C47
import Verif.Props.C67

/-!
# C95  Records and their columns: the Rust engine selects, sorts, expands and masks like the Numba engine
-/

namespace Vbt
open F RsCol

/-! ## The column map -/

theorem idxArr_colMap {cols : List Nat} {nCols : Nat} (h : ∀ c ∈ cols, c < nCols) (junk : Nat → Nat) :
    idxArr (colMap cols junk) cols.length = ints (columnIdxs cols nCols) := by
  have hl : ((List.range nCols).map (colMap cols junk).lens).sum = cols.length := by
    rw [← sum_counts cols h]
    congr 1
    apply List.map_congr_left
    intro c _
    exact (C45_map cols junk c).2
  unfold idxArr columnIdxs
  have := map_concat (colMap cols junk) nCols
  rw [hl] at this
  rw [this]
  congr 2
  funext c
  exact (C45_map cols junk c).1

theorem lenArr_colMap (cols : List Nat) (nCols : Nat) (junk : Nat → Nat) : lenArr (colMap cols junk) nCols = ints (columnLens cols nCols) := by
  unfold lenArr columnLens slice
  congr 1
  apply List.map_congr_left
  intro c _
  rw [Nat.zero_add]
  exact (C45_map cols junk c).2

theorem sum_lens_colMap {cols : List Nat} {nCols : Nat} (h : ∀ c ∈ cols, c < nCols) (junk : Nat → Nat) :
    ((List.range nCols).map (colMap cols junk).lens).sum = cols.length := by
  rw [← sum_counts cols h]
  congr 1
  apply List.map_congr_left
  intro c _
  exact (C45_map cols junk c).2

theorem mem_col_lt {cols : List Nat} {junk : Nat → Nat} {c i : Nat} (h : i ∈ (colMap cols junk).col c) : i < cols.length := by
  rw [(C45_map cols junk c).1] at h
  exact (List.getElem?_eq_some_iff.mp (mem_positions.mp h)).1

/-- **C95** (column map).  The two arrays are the positions of the records column by column, and their numbers. -/
theorem C95_map {cols : List Nat} {nCols : Nat} (h : ∀ c ∈ cols, c < nCols) :
    RsCol.colMap (ints cols) nCols = .ok (ints (columnIdxs cols nCols), ints (columnLens cols nCols)) := by
  rw [RsCol.colMap_eq h (fun _ => 0), ← idxArr_colMap h (fun _ => 0), ← lenArr_colMap cols nCols (fun _ => 0)]
  rfl

example : ∃ r, RsCol.colMap [2, 0, 2, 1] 3 = .ok r ∧ r.1 = [1, 3, 0, 2] ∧ r.2 = [1, 1, 2] :=
  (okAnd_iff (f := fun r => decide (r.1 = [1, 3, 0, 2] ∧ r.2 = [1, 1, 2])) (by decide +kernel)).elim
    fun r hr => ⟨r, hr.1, of_decide_eq_true hr.2⟩

/-- **C95** (column map, selection).  Selecting columns through the map gives the positions of their records, whether or not the
columns are sorted. -/
theorem C95_map_select {cols newCols : List Nat} {nCols : Nat} (h : ∀ c ∈ cols, c < nCols) (hn : ∀ c ∈ newCols, c < nCols) :
    RsCol.colMapSelect (ints (columnIdxs cols nCols)) (ints (columnLens cols nCols)) (ints newCols) =
      .ok (ints ((selection cols newCols).map Prod.fst), ints ((selection cols newCols).map Prod.snd)) := by
  rw [← idxArr_colMap h (fun _ => 0), ← lenArr_colMap cols nCols (fun _ => 0),
    RsCol.colMapSelect_eq _ (sum_lens_colMap h _) hn, C45_map_select]

/-! ## The column range -/

theorem range_error {cols : List Nat} {e : Err} (h : colRange cols = .error e) :
    e = .valueError "col_arr must be in ascending order" := by
  unfold colRange at h
  have key : ∀ (l : List (Nat × Nat)) (s : RangeState) (n : Nat), loopE (colRangeStep n) s l = .error e →
      e = .valueError "col_arr must be in ascending order" := by
    intro l
    induction l with
    | nil => intro s n h; cases h
    | cons x xs ih =>
      intro s n h
      unfold loopE at h
      unfold colRangeStep at h
      by_cases hx : (x.1 : Int) < s.last
      · rw [if_pos hx] at h
        cases h
        rfl
      · rw [if_neg hx] at h
        exact ih _ n h
  exact key _ _ _ h

/-- **C95** (column range).  For sorted columns the range of a column starts after the records of lower columns and has the
length of the column; (-1, -1) for a column without records.  Other columns raise. -/
theorem C95_range {cols : List Nat} {nCols : Nat} (h : ∀ c ∈ cols, c < nCols) :
    (cols.Pairwise (· ≤ ·) → ∃ rg, RsCol.colRange (ints cols) nCols = .ok rg ∧ ∀ c,
      (cols.count c = 0 → rg (c * 2) = -1 ∧ rg (c * 2 + 1) = -1) ∧
      (cols.count c ≠ 0 → rg (c * 2) = ((cols.filter fun d => d < c).length : Int) ∧
        rg (c * 2 + 1) = ((cols.filter fun d => d < c).length : Int) + (cols.count c : Int))) ∧
    (¬ cols.Pairwise (· ≤ ·) →
      RsCol.colRange (ints cols) nCols = .error (.valueError "col_arr must be in ascending order")) := by
  have hsame := RsCol.colRange_same h
  constructor
  · intro hs
    obtain ⟨s, h1, h2⟩ := C45_range hs
    rw [h1] at hsame
    generalize RsCol.colRange (ints cols) nCols = r at hsame
    cases hsame with
    | returns hrel =>
      refine ⟨_, rfl, fun c => ?_⟩
      rw [← (hrel c).1, ← (hrel c).2]
      have := h2 c
      unfold below at this
      rwa [List.countP_eq_length_filter] at this
  · intro hs
    obtain ⟨e, he⟩ := C45_range_error hs
    rw [he] at hsame
    generalize RsCol.colRange (ints cols) nCols = r at hsame
    cases hsame
    rw [range_error he]

example : ∃ rg, RsCol.colRange [0, 0, 2] 3 = .ok rg ∧ [rg 0, rg 1, rg 2, rg 3, rg 4, rg 5] = [0, 2, -1, -1, 2, 3] :=
  (okAnd_iff (f := fun rg => decide ([rg 0, rg 1, rg 2, rg 3, rg 4, rg 5] = [0, 2, -1, -1, 2, 3])) (by decide +kernel)).elim
    fun r hr => ⟨r, hr.1, of_decide_eq_true hr.2⟩

theorem below_count (c : Nat) (cols : List Nat) : below c cols + cols.count c ≤ cols.length := by
  unfold below
  induction cols with
  | nil => simp
  | cons x xs ih =>
    rw [List.countP_cons, List.count_cons, List.length_cons]
    by_cases h : x < c
    · have : ¬ x = c := by omega
      simp [h, this]; omega
    · by_cases h' : x = c <;> simp [h, h'] <;> omega

theorem range_pairs {cols : List Nat} {nCols : Nat} (h : ∀ c ∈ cols, c < nCols) (hs : cols.Pairwise (· ≤ ·)) :
    ∃ rg s, RsCol.colRange (ints cols) nCols = .ok rg ∧ colRange cols = .ok s ∧
      (∀ c, s.from_ c = rg (c * 2) ∧ s.to_ c = rg (c * 2 + 1)) ∧ (∀ c, RangePair (rg (c * 2)) (rg (c * 2 + 1))) ∧
      ∀ c, rg (c * 2 + 1) ≤ (cols.length : Int) := by
  have hsame := RsCol.colRange_same h
  obtain ⟨s, h1, h2⟩ := C45_range hs
  rw [h1] at hsame
  generalize hr : RsCol.colRange (ints cols) nCols = r at hsame
  cases hsame with
  | returns hrel =>
    refine ⟨_, s, rfl, h1, hrel, fun c => ?_, fun c => ?_⟩
    · rw [← (hrel c).1, ← (hrel c).2]
      by_cases h0 : cols.count c = 0
      · exact Or.inl ((h2 c).1 h0)
      · obtain ⟨g1, g2⟩ := (h2 c).2 h0
        right
        rw [g1, g2]
        omega
    · rw [← (hrel c).2]
      by_cases h0 : cols.count c = 0
      · rw [((h2 c).1 h0).2]; omega
      · rw [((h2 c).2 h0).2]
        have : below c cols + cols.count c ≤ cols.length := below_count c cols
        omega

/-- **C95** (selection).  `ColumnMapper` with every call on the Rust engine selects the positions of the records of the chosen
columns, in the order of the choice, with their new column numbers; so it is what the Numba engine selects (C45). -/
theorem C95_select {cols newCols : List Nat} {nCols : Nat} (h : ∀ c ∈ cols, c < nCols) (hn : ∀ c ∈ newCols, c < nCols) :
    RsCol.colIdxsMeta (ints cols) nCols (ints newCols) =
      .ok (ints ((selection cols newCols).map Prod.fst), ints ((selection cols newCols).map Prod.snd)) := by
  unfold RsCol.colIdxsMeta
  rw [RsCol.isColSorted_eq]
  by_cases hs : isColSorted cols = true
  · obtain ⟨rg, s, h1, h2, h3, h4, _⟩ := range_pairs h ((C45_is_sorted cols).mp hs)
    rw [if_pos hs, h1]
    simp only
    rw [RsCol.colRangeSelect_eq (fun c hc => by have := hn c hc; omega) (fun c _ => h4 c)]
    obtain ⟨s', g1, g2⟩ := C45_range_select ((C45_is_sorted cols).mp hs) newCols
    rw [h2] at g1
    cases g1
    rw [RsCol.numba_range_select] at g2
    obtain ⟨e1, e2⟩ := Prod.mk.inj g2
    rw [← e1, ← e2]
    simp only [(h3 _).1, (h3 _).2]
  · rw [if_neg hs, C95_map h]
    exact C95_map_select h hn

example : ∃ r, RsCol.colIdxsMeta [2, 0, 2] 3 [2, 1, 2] = .ok r ∧ r.1 = [0, 2, 0, 2] ∧ r.2 = [0, 0, 2, 2] :=
  (okAnd_iff (f := fun r => decide (r.1 = [0, 2, 0, 2] ∧ r.2 = [0, 0, 2, 2])) (by decide +kernel)).elim
    fun r hr => ⟨r, hr.1, of_decide_eq_true hr.2⟩

/-! ## Records -/

/-- **C95** (records through the map).  The records of the chosen columns, with their new column.  Missing from the full claim:
records that are not contiguous, for which it is false (`C95_strided_false`). -/
theorem C95_records_map_partial {α : Type} (setCol : α → Nat → α) (col : α → Nat) (r : RecArr α) (hs : r.stride = 1) {nCols : Nat}
    (h : ∀ a ∈ r.toList, col a < nCols) {newCols : List Nat} (hn : ∀ c ∈ newCols, c < nCols) (junk : Nat → α) :
    RsCol.recordColMapSelect setCol r (ints (columnIdxs (r.toList.map col) nCols)) (ints (columnLens (r.toList.map col) nCols))
      (ints newCols) junk = .ok (pickRecords setCol col r.toList newCols) := by
  have h' : ∀ c ∈ r.toList.map col, c < nCols := by
    intro c hc
    obtain ⟨a, ha, rfl⟩ := List.mem_map.mp hc
    exact h a ha
  have hlen : (r.toList.map col).length = r.len := by simp [RecArr.toList]
  rw [← idxArr_colMap h' (fun _ => 0), ← lenArr_colMap _ nCols (fun _ => 0),
    RsCol.recordColMapSelect_eq setCol r hs _ (sum_lens_colMap h' _) (fun c _ i hi => hlen ▸ mem_col_lt hi) hn, C45_record_map_select]
  rfl

/-- **C95** (records through the range).  The same for records sorted by column, again only for contiguous records. -/
theorem C95_records_range_partial {α : Type} (setCol : α → Nat → α) (col : α → Nat) (r : RecArr α) (hs : r.stride = 1) {nCols : Nat}
    (h : ∀ a ∈ r.toList, col a < nCols) (hsort : (r.toList.map col).Pairwise (· ≤ ·)) {newCols : List Nat}
    (hn : ∀ c ∈ newCols, c < nCols) (junk : Nat → α) :
    ∃ rg, RsCol.colRange (ints (r.toList.map col)) nCols = .ok rg ∧
      RsCol.recordColRangeSelect setCol r (nCols * 2) rg (ints newCols) junk = .ok (pickRecords setCol col r.toList newCols) := by
  have h' : ∀ c ∈ r.toList.map col, c < nCols := by
    intro c hc
    obtain ⟨a, ha, rfl⟩ := List.mem_map.mp hc
    exact h a ha
  obtain ⟨rg, s, h1, h2, h3, h4, h5⟩ := range_pairs h' hsort
  have hlen : (r.toList.map col).length = r.len := by simp [RecArr.toList]
  refine ⟨rg, h1, ?_⟩
  rw [RsCol.recordColRangeSelect_eq setCol r hs hn (fun c _ => h4 c) (fun c _ => hlen ▸ h5 c) h3]
  obtain ⟨s', g1, g2⟩ := C45_record_range_select setCol r.toList col hsort newCols
  rw [h2] at g1
  cases g1
  rw [g2]
  rfl

/-- Six records (id, column) in memory. -/
def stridedMem : Int → Nat × Nat := fun i => ([(0, 0), (1, 1), (2, 0), (3, 1), (4, 1), (5, 0)] : List (Nat × Nat)).getD i.toNat (9, 9)

example : ∃ l, RsCol.recordColMapSelect (fun a c => (a.1, c)) ⟨stridedMem, 1, 6⟩ [0, 2, 5, 1, 3, 4] [3, 3] [1] (fun _ => (7, 7)) = .ok l ∧
    l = [(1, 0), (3, 0), (4, 0)] :=
  (okAnd_iff (f := fun l => decide (l = [(1, 0), (3, 0), (4, 0)])) (by decide +kernel)).elim
    fun r hr => ⟨r, hr.1, of_decide_eq_true hr.2⟩

/-- **C95** (strided records).  The full claim is false for views of record arrays: the Rust engine accepts them (the check of a
record array looks at its fields only) but copies from memory as if the records lay one after another.  Every second of six
records, all the records of the second column: Rust returns a record of the first column. -/
theorem C95_strided_false :
    ¬ ∀ (r : RecArr (Nat × Nat)) (junk : Nat → Nat × Nat), (∀ a ∈ r.toList, a.2 < 2) →
      RsCol.recordColMapSelect (fun a c => (a.1, c)) r (ints (columnIdxs (r.toList.map Prod.snd) 2))
        (ints (columnLens (r.toList.map Prod.snd) 2)) [1] junk =
          .ok (pickRecords (fun a c => (a.1, c)) Prod.snd r.toList [1]) := by
  intro h
  have := h ⟨stridedMem, 2, 3⟩ (fun _ => (7, 7)) (by decide +kernel)
  have h2 : okAnd (RsCol.recordColMapSelect (fun a c => (a.1, c)) ⟨stridedMem, 2, 3⟩
      (ints (columnIdxs ((⟨stridedMem, 2, 3⟩ : RecArr (Nat × Nat)).toList.map Prod.snd) 2))
      (ints (columnLens ((⟨stridedMem, 2, 3⟩ : RecArr (Nat × Nat)).toList.map Prod.snd) 2)) [1] (fun _ => (7, 7)))
      (fun l => decide (l = [(2, 0)] ∧ l ≠ pickRecords (fun a c => (a.1, c)) Prod.snd
        (⟨stridedMem, 2, 3⟩ : RecArr (Nat × Nat)).toList [1])) = true := by decide +kernel
  obtain ⟨l, h3, h4⟩ := okAnd_iff h2
  rw [this] at h3
  cases h3
  exact (of_decide_eq_true h4).2 rfl

/-- What is checked of a record array before it is given to Rust: its fields "id" and "col", both `int64`; nothing about
strides. -/
theorem C95_compatible (t : RecType) : (recordCompatible t).supported = true ↔
    t.isArray = true ∧ ∃ fs, t.fields = some fs ∧ fs.lookup "id" = some true ∧ fs.lookup "col" = some true := by
  unfold recordCompatible
  by_cases ha : t.isArray = true
  · rw [if_neg (by simp [ha])]
    cases hf : t.fields with
    | none => simp
    | some fs =>
      simp only [ha, Option.some.injEq, exists_eq_left', true_and]
      cases h1 : fs.lookup "id" with
      | none => simp
      | some a =>
        cases h2 : fs.lookup "col" with
        | none => simp
        | some b => cases a <;> cases b <;> simp
  · rw [if_pos (by simpa using ha)]
    simp [ha]

example : (recordCompatible ⟨true, some [("id", true), ("col", true), ("price", false)]⟩).supported = true ∧
    (recordCompatible ⟨true, some [("id", true), ("col", false)]⟩).supported = false := by decide +kernel

/-! ## Sorting -/

/-- **C95** (sorted).  The checks are true exactly for columns in ascending order, and for (column, id) pairs in ascending
order. -/
theorem C95_sorted (cols : List Nat) (pairs : List (Nat × Nat)) :
    (RsCol.isColSorted (ints cols) = true ↔ cols.Pairwise (· ≤ ·)) ∧
    (RsCol.isColIdxSorted (intPairs pairs) = true ↔ pairs.Pairwise fun a b => a.1 < b.1 ∨ (a.1 = b.1 ∧ a.2 ≤ b.2)) := by
  rw [RsCol.isColSorted_eq, RsCol.isColIdxSorted_eq]
  refine ⟨C45_is_sorted cols, ?_⟩
  induction pairs with
  | nil => simp [isColIdxSorted]
  | cons a l ih =>
    cases l with
    | nil => simp [isColIdxSorted]
    | cons b l =>
      rw [isColIdxSorted, List.pairwise_cons]
      by_cases h1 : b.1 < a.1
      · rw [if_pos h1]
        constructor
        · intro h; cases h
        · intro h
          have := h.1 b (by simp)
          omega
      · rw [if_neg h1]
        by_cases h2 : b.1 = a.1 ∧ b.2 < a.2
        · rw [if_pos h2]
          constructor
          · intro h; cases h
          · intro h
            have := h.1 b (by simp)
            omega
        · rw [if_neg h2, ih]
          constructor
          · intro h
            refine ⟨fun x hx => ?_, h⟩
            rcases List.mem_cons.mp hx with rfl | hx
            · omega
            · have := (List.pairwise_cons.mp h).1 x hx
              omega
          · exact fun h => h.2

example : RsCol.isColIdxSorted [(0, 1), (0, 3), (2, 0)] = true ∧ RsCol.isColIdxSorted [(0, 3), (0, 1)] = false := by decide +kernel

/-! ## Expansion -/

/-- **C95** (expandable).  The check is true exactly if no two records share a row and a column. -/
theorem C95_expandable {idxs cols : List Nat} {nrows ncols : Nat} (hlen : idxs.length = cols.length)
    (hr : ∀ i ∈ idxs, i < nrows) (hc : ∀ c ∈ cols, c < ncols) :
    ∃ b, RsCol.isMappedExpandable (ints cols) (ints idxs) nrows ncols = .ok b ∧ (b = true ↔
      ∀ i j : Nat, ∀ x, (idxs.zip cols)[i]? = some x → (idxs.zip cols)[j]? = some x → i = j) :=
  ⟨_, RsCol.isMappedExpandable_eq hlen hr hc, C47_expandable _⟩

example : ∃ b, RsCol.isMappedExpandable [0, 1, 1] [0, 0, 2] 3 2 = .ok b ∧ b = true :=
  (okAnd_iff (f := fun b => b) (by decide +kernel)).elim fun r hr => ⟨r, hr.1, hr.2⟩

/-- **C95** (expansion).  Expandable values stand in the row and column of their record, fill values elsewhere. -/
theorem C95_expand {mapped : List F} {idxs cols : List Nat} {nrows ncols : Nat} (fill : F) (hlen : idxs.length = cols.length)
    (hm : mapped.length = cols.length) (hr : ∀ i ∈ idxs, i < nrows) (hc : ∀ c ∈ cols, c < ncols)
    (hx : ∀ i j : Nat, ∀ x, (idxs.zip cols)[i]? = some x → (idxs.zip cols)[j]? = some x → i = j) :
    ∃ out, RsCol.expandMapped mapped (ints cols) (ints idxs) nrows ncols fill = .ok out ∧
      (∀ (r : Nat) row col v, idxs[r]? = some row → cols[r]? = some col → mapped[r]? = some v → out row col = v) ∧
      ∀ row, ∀ col < ncols, (row, col) ∉ idxs.zip cols → out row col = fill := by
  obtain ⟨out, h1, h2⟩ := RsCol.expandMapped_eq (mapped := mapped) fill hlen hm hr hc
  obtain ⟨g1, g2⟩ := C47_expand (mapped := mapped) (by simp [hlen, hm]) ((C47_expandable _).mpr hx) fill
  refine ⟨out, h1, fun r row col v e1 e2 e3 => ?_, fun row col hcol hmem => ?_⟩
  · rw [h2 row col (hc col (List.mem_of_getElem? e2))]
    exact g1 r (row, col) v (by rw [List.getElem?_zip_eq_some]; exact ⟨e1, e2⟩) e3
  · rw [h2 row col hcol]
    exact g2 _ hmem

/-- Two records in one cell: the last one stays, as on the Numba engine. -/
theorem C95_expand_same {mapped : List F} {idxs cols : List Nat} {nrows ncols : Nat} (fill : F) (hlen : idxs.length = cols.length)
    (hm : mapped.length = cols.length) (hr : ∀ i ∈ idxs, i < nrows) (hc : ∀ c ∈ cols, c < ncols) :
    ∃ out, RsCol.expandMapped mapped (ints cols) (ints idxs) nrows ncols fill = .ok out ∧
      ∀ row, ∀ col < ncols, out row col = expandMapped (idxs.zip cols) mapped fill (row, col) :=
  RsCol.expandMapped_eq fill hlen hm hr hc

example : ∃ out, RsCol.expandMapped [fin 5, fin 6] [0, 1] [1, 0] 2 2 nan = .ok out ∧
    [out 0 0, out 0 1, out 1 0, out 1 1] = [nan, fin 6, fin 5, nan] :=
  (okAnd_iff (f := fun out => decide ([out 0 0, out 0 1, out 1 0, out 1 1] = [nan, fin 6, fin 5, nan])) (by decide +kernel)).elim
    fun r hr => ⟨r, hr.1, of_decide_eq_true hr.2⟩

/-- **C95** (stacking).  The `k`-th value of a column stands in row `k`, fill values below; as many rows as the longest column
has records. -/
theorem C95_stack {mapped : List F} {cols : List Nat} {nCols : Nat} (hlen : cols.length = mapped.length)
    (h : ∀ c ∈ cols, c < nCols) (fill : F) :
    ∃ rows out, RsCol.stackExpandMapped mapped (ints (columnIdxs cols nCols)) (ints (columnLens cols nCols)) fill =
        .ok (rows, out) ∧ (∀ c < nCols, cols.count c ≤ rows) ∧ (0 < nCols → ∃ c < nCols, rows = cols.count c) ∧
      ∀ k, ∀ c < nCols, out k c = ((positions c cols).map fun r => mapped.getD r nan).getD k fill := by
  obtain ⟨out, h1, h2⟩ := RsCol.stackExpandMapped_eq (mapped := mapped) (colMap cols fun _ => 0) (sum_lens_colMap h _)
    (fun c _ i hi => hlen ▸ mem_col_lt hi) fill
  rw [idxArr_colMap h] at h1
  have hl := lenArr_colMap cols nCols (fun _ => 0)
  refine ⟨_, out, by rw [← hl]; exact h1, fun c hc => ?_, fun h0 => ?_, fun k c hc => ?_⟩
  · have := RsCol.maxLen_ge _ _ (List.mem_of_getElem? (lenArr_get (colMap cols fun _ => 0) hc))
    rwa [RsCol.asUsize_nat, (C45_map cols _ c).2] at this
  · obtain ⟨l, hl1, hl2⟩ := RsCol.maxLen_mem (lenArr (colMap cols fun _ => 0) nCols) (by
      intro e
      have := RsCol.lenArr_length (colMap cols fun _ => 0) nCols
      rw [e] at this
      simp at this
      omega)
    rw [hl] at hl1
    unfold ints columnLens at hl1
    simp only [List.map_map, List.mem_map, List.mem_range, Function.comp] at hl1
    obtain ⟨c, hc, rfl⟩ := hl1
    exact ⟨c, hc, by rw [hl2, RsCol.asUsize_nat]⟩
  · rw [h2 k c hc]
    exact C47_stack hlen _ fill c k

example : ∃ r, RsCol.stackExpandMapped [fin 5, fin 6, fin 7] [1, 0, 2] [1, 2] nan = .ok r ∧
    r.1 = 2 ∧ [r.2 0 0, r.2 0 1, r.2 1 0, r.2 1 1] = [fin 6, fin 5, nan, fin 7] :=
  (okAnd_iff (f := fun r => decide (r.1 = 2 ∧ [r.2 0 0, r.2 0 1, r.2 1 0, r.2 1 1] = [fin 6, fin 5, nan, fin 7]))
    (by decide +kernel)).elim fun r hr => ⟨r, hr.1, of_decide_eq_true hr.2⟩

/-- Without columns the Rust engine returns an empty array; the Numba engine takes the maximum of no lengths, which raises. -/
theorem C95_stack_empty (mapped : List F) (fill : F) : ∃ out, RsCol.stackExpandMapped mapped [] [] fill = .ok (0, out) := ⟨_, rfl⟩

/-- **C95** (value counts).  Cell (code, column) counts the records of the column that have the code. -/
theorem C95_counts {codes cols : List Nat} {u nCols : Nat} (hlen : cols.length = codes.length) (hu : ∀ v ∈ codes, v < u)
    (h : ∀ c ∈ cols, c < nCols) :
    ∃ out, RsCol.mappedValueCounts (ints codes) u (ints (columnIdxs cols nCols)) (ints (columnLens cols nCols)) = .ok out ∧
      ∀ code, ∀ c < nCols, out code c = ((cols.zip codes).count (c, code) : Int) := by
  obtain ⟨out, h1, h2⟩ := RsCol.mappedValueCounts_eq hu (colMap cols fun _ => 0) (sum_lens_colMap h _)
    (fun c _ i hi => hlen ▸ mem_col_lt hi)
  rw [idxArr_colMap h, lenArr_colMap] at h1
  refine ⟨out, h1, fun code c hc => ?_⟩
  rw [h2 code c hc, C67_counts hlen _ hc]

example : ∃ out, RsCol.mappedValueCounts [0, 1, 0] 2 [1, 0, 2] [1, 2] = .ok out ∧
    [out 0 0, out 0 1, out 1 0, out 1 1] = [0, 2, 1, 0] :=
  (okAnd_iff (f := fun out => decide ([out 0 0, out 0 1, out 1 0, out 1 1] = [0, 2, 1, 0])) (by decide +kernel)).elim
    fun r hr => ⟨r, hr.1, of_decide_eq_true hr.2⟩

/-! ## Masks -/

/-- **C95** (masks).  For every selection of the n-th element that does what `select_nth_unstable_by` promises, the masks of the
`n` largest and the `n` smallest values of each column are those of the Numba engine, ties and NaNs included. -/
theorem C95_masks {pick : List F → Nat → F} (hpick : Selects pick) {mapped : List F} {cols : List Nat} {nCols : Nat}
    (hlen : cols.length = mapped.length) (h : ∀ c ∈ cols, c < nCols) (n : Nat) (junk : Nat → Nat) :
    mappedMaskPy (topCol pick) n mapped (ints (columnIdxs cols nCols)) (ints (columnLens cols nCols)) =
      .ok (mappedToMask (topN n) mapped (colMap cols junk) nCols) ∧
    mappedMaskPy (bottomCol pick) n mapped (ints (columnIdxs cols nCols)) (ints (columnLens cols nCols)) =
      .ok (mappedToMask (bottomN n) mapped (colMap cols junk) nCols) := by
  have hs := sum_lens_colMap h junk
  have hin : ∀ c < nCols, ∀ i ∈ (colMap cols junk).col c, i < mapped.length := fun c _ i hi => hlen ▸ mem_col_lt hi
  unfold mappedMaskPy
  rw [if_neg (by omega), if_neg (by omega), Int.toNat_natCast, ← idxArr_colMap h junk, ← lenArr_colMap cols nCols junk,
    RsCol.mappedMask_eq _ hs hin (fun ids vals out hl => RsCol.topCol_eq hpick n hl out)
      (fun h0 ids vals out => by subst h0; rfl),
    RsCol.mappedMask_eq _ hs hin (fun ids vals out hl => RsCol.bottomCol_eq hpick n hl out)
      (fun h0 ids vals out => by subst h0; rfl)]
  exact ⟨rfl, rfl⟩

/-- **C95** (largest values).  Of each column `min n (its records)` are marked, and no value left out is greater than a marked
one. -/
theorem C95_top {pick : List F → Nat → F} (hpick : Selects pick) {mapped : List F} {cols : List Nat} {nCols : Nat}
    (hlen : cols.length = mapped.length) (h : ∀ c ∈ cols, c < nCols) (n : Nat) :
    ∃ mask, mappedMaskPy (topCol pick) n mapped (ints (columnIdxs cols nCols)) (ints (columnLens cols nCols)) = .ok mask ∧
      ∀ c < nCols, ((positions c cols).filter mask).length = min n (positions c cols).length ∧
        ∀ r ∈ positions c cols, ∀ r' ∈ positions c cols, mask r = true → mask r' = false →
          (mapped.getD r' nan).isnan = true ∨ ge (mapped.getD r nan) (mapped.getD r' nan) = true :=
  ⟨_, (C95_masks hpick hlen h n fun _ => 0).1, fun _ hc => C46_top hlen n _ hc⟩

/-- **C95** (smallest values).  Likewise with `≤`. -/
theorem C95_bottom {pick : List F → Nat → F} (hpick : Selects pick) {mapped : List F} {cols : List Nat} {nCols : Nat}
    (hlen : cols.length = mapped.length) (h : ∀ c ∈ cols, c < nCols) (n : Nat) :
    ∃ mask, mappedMaskPy (bottomCol pick) n mapped (ints (columnIdxs cols nCols)) (ints (columnLens cols nCols)) = .ok mask ∧
      ∀ c < nCols, ((positions c cols).filter mask).length = min n (positions c cols).length ∧
        ∀ r ∈ positions c cols, ∀ r' ∈ positions c cols, mask r = true → mask r' = false →
          (mapped.getD r' nan).isnan = true ∨ le (mapped.getD r nan) (mapped.getD r' nan) = true :=
  ⟨_, (C95_masks hpick hlen h n fun _ => 0).2, fun _ hc => C46_bottom hlen n _ hc⟩

/-- The sorted list has at each position what `select_nth_unstable_by` promises. -/
theorem C95_selects : Selects partitionAt := by
  intro l hn k hk
  obtain ⟨lo, hi, g1, g2, g3, g4⟩ := partitionAt_spec hk hn
  exact ⟨lo, hi, g1.symm, g2, g3, g4⟩

example : ∃ mask, RsCol.mappedMask (topCol partitionAt 1) 1 [fin 5, nan, fin 7, fin 7] [0, 1, 2, 3] [4] = .ok mask ∧
    [mask 0, mask 1, mask 2, mask 3] = [false, false, false, true] :=
  (okAnd_iff (f := fun mask => decide ([mask 0, mask 1, mask 2, mask 3] = [false, false, false, true])) (by decide +kernel)).elim
    fun r hr => ⟨r, hr.1, of_decide_eq_true hr.2⟩

/-- A negative `n` is an OverflowError on the Rust engine, while the Numba engine marks nothing (`C46_negative`). -/
theorem C95_negative {n : Int} (hn : n < 0) (pick : List F → Nat → F) (mapped : List F) (cols : List Nat) (nCols r : Nat)
    (junk : Nat → Nat) :
    mappedMaskPy (topCol pick) n mapped (ints (columnIdxs cols nCols)) (ints (columnLens cols nCols)) = .error .overflowError ∧
    mappedToMask (topN n) mapped (colMap cols junk) nCols r = false := by
  refine ⟨?_, (C46_negative (by omega) _ _ _ _).1⟩
  unfold mappedMaskPy
  rw [if_pos hn]

/-! ## Columns out of range -/

/-- A column that is not there panics, unless there is exactly one column. -/
theorem C95_map_panics {cols : List Int} {nCols : Nat} (h1 : nCols ≠ 1) (hn : nCols ≤ 9223372036854775808)
    (h : ∃ c ∈ cols, -9223372036854775808 ≤ c ∧ (c < 0 ∨ (nCols : Int) ≤ c)) : RsCol.colMap cols nCols = .error RsGen.panicked := by
  unfold RsCol.colMap
  have key : ∀ (l : List Int) (lens : Nat → Int), (∃ c ∈ l, -9223372036854775808 ≤ c ∧ (c < 0 ∨ (nCols : Int) ≤ c)) →
      loopE (lensStep nCols) lens l = .error RsGen.panicked := by
    intro l
    induction l with
    | nil => rintro _ ⟨c, hc, _⟩; cases hc
    | cons x xs ih =>
      rintro lens ⟨c, hc, hb⟩
      unfold loopE
      by_cases hx : normalizeCol x nCols < nCols
      · have e : lensStep nCols lens x = .ok (setAt lens (normalizeCol x nCols) (lens (normalizeCol x nCols) + 1)) := by
          unfold lensStep
          rw [RsCol.look_lt hx]
          simp only
          rw [RsCol.put_lt hx]
        rw [e]
        refine ih _ ⟨c, ?_, hb⟩
        rcases List.mem_cons.mp hc with rfl | hc
        · exfalso
          unfold normalizeCol at hx
          simp only at hx
          have : ¬ asUsize c < nCols := by
            unfold asUsize
            rcases hb with ⟨hb0, hb | hb⟩
            · rw [if_neg (by omega)]; omega
            · rw [if_pos (by omega)]; omega
          rw [if_neg this, if_neg h1] at hx
          exact this hx
        · exact hc
      · have e : lensStep nCols lens x = .error RsGen.panicked := by
          unfold lensStep look
          rw [if_neg hx]
        rw [e]
  rw [key cols _ h]

example : RsCol.colMap [0, 2] 2 = .error RsGen.panicked :=
  C95_map_panics (by omega) (by omega) ⟨2, by simp, by omega, Or.inr (by simp)⟩

/-- With one column, every column number means this column in the map, but the range loses records. -/
theorem C95_one_column : (∃ m, RsCol.colMap [0, 5, 7] 1 = .ok m ∧ m.1 = [0, 1, 2] ∧ m.2 = [3]) ∧
    ∃ rg, RsCol.colRange [0, 5, 7] 1 = .ok rg ∧ [rg 0, rg 1] = [2, 3] :=
  ⟨(okAnd_iff (f := fun m => decide (m.1 = [0, 1, 2] ∧ m.2 = [3])) (by decide +kernel)).elim
    fun r hr => ⟨r, hr.1, of_decide_eq_true hr.2⟩,
   (okAnd_iff (f := fun rg => decide ([rg 0, rg 1] = [2, 3])) (by decide +kernel)).elim
    fun r hr => ⟨r, hr.1, of_decide_eq_true hr.2⟩⟩

end Vbt
