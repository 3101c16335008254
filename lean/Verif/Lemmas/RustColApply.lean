import Verif.Lemmas.RustColMap
import Mathlib.Data.List.Induction

/-!
# Functions of the columns of records on the Rust engine
-/

namespace Vbt.RsCol
open F

/-! ## Reading a column map -/

/-- A column map as the two arrays of `i64` given to Rust; `total` is the length of the first. -/
def idxArr (m : Vbt.ColMap) (total : Nat) : List Int := ints (slice m.idxs 0 total)

/-- The second array. -/
def lenArr (m : Vbt.ColMap) (nCols : Nat) : List Int := ints (slice m.lens 0 nCols)

theorem lenArr_length (m : Vbt.ColMap) (nCols : Nat) : (lenArr m nCols).length = nCols := by
  simp [lenArr, ints, slice]

theorem lenArr_get (m : Vbt.ColMap) {nCols c : Nat} (h : c < nCols) : (lenArr m nCols)[c]? = some (m.lens c : Int) := by
  simp [lenArr, ints, slice, h]

theorem lensFn_lenArr (m : Vbt.ColMap) {nCols c : Nat} (h : c < nCols) : lensFn (lenArr m nCols) c = (m.lens c : Int) := by
  unfold lensFn
  rw [List.getD_eq_getElem?_getD, lenArr_get m h]
  rfl

theorem drop_take_slice {α : Type} (a : Nat → α) {start len total : Nat} (h : start + len ≤ total) :
    ((slice a 0 total).drop start).take len = slice a start len := by
  unfold slice
  apply List.ext_getElem
  · simp; omega
  · intro i h1 h2
    simp

theorem segment_eq (m : Vbt.ColMap) {nCols total c : Nat} (hsum : ((List.range nCols).map m.lens).sum = total) (h : c < nCols) :
    segment (idxArr m total) (lenArr m nCols) c (m.lens c) = .ok (ints (m.col c)) := by
  unfold segment
  rw [lenArr_length, starts_eq (nat := m.lens) (fun d hd => lensFn_lenArr m hd) h, asUsize_nat]
  have := colStarts_mono m.lens h
  have hlen : (idxArr m total).length = total := by simp [idxArr, ints, slice]
  simp only
  rw [if_pos (by rw [hlen]; omega)]
  unfold idxArr ints
  rw [← List.map_drop, ← List.map_take, drop_take_slice _ (by omega)]
  rfl

theorem at_lenArr (m : Vbt.ColMap) {nCols c : Nat} (h : c < nCols) : at_ (lenArr m nCols) c = .ok (m.lens c : Int) := by
  unfold at_
  rw [lenArr_get m h]

theorem col_length (m : Vbt.ColMap) (c : Nat) : (m.col c).length = m.lens c := by
  simp [Vbt.ColMap.col, slice]

theorem lenStep_loop (m : Vbt.ColMap) {nCols : Nat} {newCols : List Nat} (h : ∀ c ∈ newCols, c < nCols) :
    loopE (lenStep (lenArr m nCols)) 0 (ints newCols) = .ok (newCols.map m.lens).sum := by
  have := count_loop (step := lenStep (lenArr m nCols)) (fun c => m.lens (asUsize c)) (ints newCols)
    (by
      intro c hc n
      unfold ints at hc
      obtain ⟨d, hd, rfl⟩ := List.mem_map.mp hc
      unfold lenStep
      rw [asUsize_nat, at_lenArr m (h d hd)]
      simp only [asUsize_nat]) 0
  rw [this, Nat.zero_add]
  congr 2
  unfold ints
  rw [List.map_map]
  apply List.map_congr_left
  intro c _
  simp only [Function.comp, asUsize_nat]

theorem mem_zipIdx_fst {l : List Nat} {k : Nat} {y : Nat × Nat} (h : y ∈ l.zipIdx k) : y.1 ∈ l := by
  have := List.mem_zipIdx h
  rw [this.2.2]
  exact List.getElem_mem _

theorem numba_map_select (m : Vbt.ColMap) (newCols : List Nat) :
    Vbt.colMapSelect m newCols = (newCols.zipIdx.flatMap fun x => m.col x.1,
      newCols.zipIdx.flatMap fun x => (m.col x.1).map fun _ => x.2) := by
  unfold Vbt.colMapSelect
  have := foldl_two (fun x : Nat × Nat => m.col x.1) (fun x => (m.col x.1).map fun _ => x.2) newCols.zipIdx [] []
  simp only [List.nil_append] at this
  rw [← this]
  congr 1
  funext out x
  by_cases h : m.lens x.1 = 0
  · have : m.col x.1 = [] := List.eq_nil_of_length_eq_zero (by rw [col_length, h])
    rw [if_pos h, this]; simp
  · rw [if_neg h, List.map_const', col_length]

theorem sum_lens_zipIdx (m : Vbt.ColMap) (newCols : List Nat) (k : Nat) :
    ((newCols.zipIdx k).flatMap fun x => m.col x.1).length = (newCols.map m.lens).sum := by
  induction newCols generalizing k with
  | nil => rfl
  | cons x xs ih => rw [List.zipIdx_cons, List.flatMap_cons, List.length_append, ih, List.map_cons, List.sum_cons, col_length]

theorem colMapSelect_eq (m : Vbt.ColMap) {nCols total : Nat} (hsum : ((List.range nCols).map m.lens).sum = total)
    {newCols : List Nat} (h : ∀ c ∈ newCols, c < nCols) :
    colMapSelect (idxArr m total) (lenArr m nCols) (ints newCols) =
      .ok (ints (Vbt.colMapSelect m newCols).1, ints (Vbt.colMapSelect m newCols).2) := by
  unfold colMapSelect
  rw [lenStep_loop m h, numba_map_select]
  simp only
  obtain ⟨s', h1, h2, h3, h4⟩ := sel_loop (n := (newCols.map m.lens).sum)
    (step := mapSelStep (idxArr m total) (lenArr m nCols) (newCols.map m.lens).sum)
    (fun x => ints (m.col (asUsize x.1))) (fun x => (m.col (asUsize x.1)).map fun _ => (x.2 : Int))
    (fun x => by simp [ints]) (ints newCols).zipIdx
    (by
      intro x hx s hs
      rw [ints_zipIdx] at hx
      obtain ⟨y, hy, rfl⟩ := List.mem_map.mp hx
      have hy' := h _ (mem_zipIdx_fst hy)
      simp only [asUsize_nat] at hs ⊢
      unfold mapSelStep
      simp only [asUsize_nat]
      rw [at_lenArr m hy']
      simp only [asUsize_nat]
      by_cases h0 : m.lens y.1 = 0
      · have : m.col y.1 = [] := List.eq_nil_of_length_eq_zero (by rw [col_length, h0])
        rw [if_pos h0, this]
        simp [ints, over_nil]
      · rw [if_neg h0, segment_eq m hsum hy']
        simp only
        rw [blit_ok hs]
        simp only
        have e2 : List.replicate (m.lens y.1) (y.2 : Int) = (m.col y.1).map fun _ => (y.2 : Int) := by
          rw [List.map_const', col_length]
        rw [e2, blit_ok (by simpa [ints] using hs)]
        simp only [ints, List.length_map, col_length])
    ⟨0, fun _ => 0, fun _ => 0⟩ (by
      rw [ints_zipIdx, List.flatMap_map]
      simp only [asUsize_nat, Nat.zero_add]
      unfold ints
      rw [← List.map_flatMap, List.length_map, sum_lens_zipIdx])
  rw [h1]
  have hn : s'.j = (newCols.map m.lens).sum := by
    rw [h2, ints_zipIdx, List.flatMap_map]
    simp only [asUsize_nat, Nat.zero_add]
    unfold ints
    rw [← List.map_flatMap, List.length_map, sum_lens_zipIdx]
  rw [hn] at h3 h4
  simp only
  rw [h3, h4, ints_zipIdx, List.flatMap_map, List.flatMap_map]
  simp only [asUsize_nat]
  unfold ints slice
  simp only [List.range_zero, List.map_nil, List.nil_append]
  rw [List.map_flatMap, List.map_flatMap]
  simp only [List.map_map]
  rfl

/-! ## Records -/

theorem contiguousFrom_eq : ∀ (l : List Nat) (e : Nat), contiguousFrom (e : Int) (ints l) = true →
    l = (List.range l.length).map fun k => e + k := by
  intro l
  induction l with
  | nil => intro e _; rfl
  | cons x xs ih =>
    intro e h
    unfold ints at h
    rw [List.map_cons] at h
    unfold contiguousFrom at h
    by_cases hx : x = e
    · subst hx
      rw [if_neg (by simp)] at h
      have := ih (x + 1) (by push_cast; exact h)
      rw [List.length_cons, List.range_succ_eq_map, List.map_cons, List.map_map, Nat.add_zero]
      congr 1
      rw [this]
      simp only [List.length_map, List.length_range]
      apply List.map_congr_left
      intro k _
      simp only [Function.comp]
      omega
    · rw [if_pos (by simpa using hx)] at h
      cases h

theorem copied_eq {α : Type} (r : RecArr α) (l : List Nat) : copied r (ints l) = l.map r.raw := by
  unfold copied
  by_cases h : isContiguous (ints l) = true
  · rw [if_pos h]
    cases l with
    | nil => rfl
    | cons x xs =>
      unfold isContiguous ints at h
      rw [List.map_cons] at h
      simp only at h
      have e := contiguousFrom_eq (x :: xs) x (by unfold ints; rw [List.map_cons]; exact h)
      have hl : (ints (x :: xs)).length = (x :: xs).length := by simp [ints]
      have hh : (ints (x :: xs)).headD 0 = (x : Int) := by simp [ints]
      rw [hl, hh, asUsize_nat]
      conv_rhs => rw [e]
      rw [List.map_map]
      rfl
  · rw [if_neg h]
    unfold ints
    rw [List.map_map]
    apply List.map_congr_left
    intro k _
    simp only [Function.comp, asUsize_nat]

theorem take_raw {α : Type} (r : RecArr α) (hs : r.stride = 1) {l : List Nat} (h : ∀ i ∈ l, i < r.len) :
    takeIdxs r.toList l = l.map r.raw := by
  unfold takeIdxs
  induction l with
  | nil => rfl
  | cons x xs ih =>
    have hx : r.toList[x]? = some (r.raw x) := by
      unfold RecArr.toList RecArr.raw
      rw [List.getElem?_map, List.getElem?_range (h x (by simp)), hs]
      simp
    rw [List.filterMap_cons, hx]
    simp only
    rw [ih (fun i hi => h i (by simp [hi])), List.map_cons]

theorem numba_record_map_select {α : Type} (setCol : α → Nat → α) (records : List α) (m : Vbt.ColMap) (newCols : List Nat) :
    Vbt.recordColMapSelect setCol records m newCols =
      newCols.zipIdx.flatMap fun x => (takeIdxs records (m.col x.1)).map fun a => setCol a x.2 := by
  unfold Vbt.recordColMapSelect
  have := foldl_append_flatMap (fun x : Nat × Nat => (takeIdxs records (m.col x.1)).map fun a => setCol a x.2) newCols.zipIdx []
  rw [List.nil_append] at this
  rw [← this]
  congr 1
  funext out x
  by_cases h : m.lens x.1 = 0
  · have : m.col x.1 = [] := List.eq_nil_of_length_eq_zero (by rw [col_length, h])
    rw [if_pos h, this]; simp [takeIdxs]
  · rw [if_neg h]

theorem recordColMapSelect_eq {α : Type} (setCol : α → Nat → α) (r : RecArr α) (hs : r.stride = 1) (m : Vbt.ColMap)
    {nCols total : Nat} (hsum : ((List.range nCols).map m.lens).sum = total) (hin : ∀ c < nCols, ∀ i ∈ m.col c, i < r.len)
    {newCols : List Nat} (h : ∀ c ∈ newCols, c < nCols) (junk : Nat → α) :
    recordColMapSelect setCol r (idxArr m total) (lenArr m nCols) (ints newCols) junk =
      .ok (Vbt.recordColMapSelect setCol r.toList m newCols) := by
  unfold recordColMapSelect
  rw [lenStep_loop m h, numba_record_map_select]
  simp only
  obtain ⟨s', h1, h2, h3⟩ := rec_loop (step := recMapStep setCol r (idxArr m total) (lenArr m nCols))
    (fun x => ((m.col (asUsize x.1)).map r.raw).map fun a => setCol a x.2) (ints newCols).zipIdx
    (by
      intro x hx s
      rw [ints_zipIdx] at hx
      obtain ⟨y, hy, rfl⟩ := List.mem_map.mp hx
      have hy' := h _ (mem_zipIdx_fst hy)
      simp only [asUsize_nat]
      unfold recMapStep
      simp only [asUsize_nat]
      rw [at_lenArr m hy']
      simp only [asUsize_nat]
      by_cases h0 : m.lens y.1 = 0
      · have : m.col y.1 = [] := List.eq_nil_of_length_eq_zero (by rw [col_length, h0])
        rw [if_pos h0, this]
        simp [over_nil]
      · rw [if_neg h0, segment_eq m hsum hy']
        simp only
        rw [copied_eq]
        simp only [List.length_map, col_length]) (0, junk)
  rw [h1]
  have hlen : ((ints newCols).zipIdx.flatMap fun x => ((m.col (asUsize x.1)).map r.raw).map fun a => setCol a x.2).length =
      (newCols.map m.lens).sum := by
    rw [ints_zipIdx, List.flatMap_map, ← sum_lens_zipIdx m newCols 0]
    simp only [asUsize_nat, List.length_flatMap, List.length_map]
  rw [h2, hlen, Nat.zero_add] at h3
  simp only
  rw [h3, ints_zipIdx, List.flatMap_map]
  simp only [asUsize_nat]
  unfold slice
  simp only [List.range_zero, List.map_nil, List.nil_append]
  congr 1
  apply List.flatMap_congr
  intro x hx
  rw [take_raw r hs (hin _ (h _ (mem_zipIdx_fst hx)))]

theorem numba_record_range_select {α : Type} (setCol : α → Nat → α) (records : List α) (rg : RangeState) (newCols : List Nat) :
    Vbt.recordColRangeSelect setCol records rg newCols =
      newCols.zipIdx.flatMap fun x => (takeIdxs records (rowsOf (rg.from_ x.1) (rg.to_ x.1))).map fun a => setCol a x.2 := by
  unfold Vbt.recordColRangeSelect
  have := foldl_append_flatMap (fun x : Nat × Nat => (takeIdxs records (rowsOf (rg.from_ x.1) (rg.to_ x.1))).map fun a => setCol a x.2)
    newCols.zipIdx []
  rw [List.nil_append] at this
  rw [← this]
  congr 1
  funext out x
  unfold rowsOf
  by_cases h : rg.from_ x.1 = -1 ∨ rg.to_ x.1 = -1
  · rw [if_pos h, if_pos h]; simp [takeIdxs]
  · rw [if_neg h, if_neg h, takeIdxs_range]

theorem recordColRangeSelect_eq {α : Type} (setCol : α → Nat → α) (r : RecArr α) (hs : r.stride = 1) {n : Nat} {rg : Nat → Int}
    {newCols : List Nat} (h : ∀ c ∈ newCols, c < n) (hp : ∀ c < n, RangePair (rg (c * 2)) (rg (c * 2 + 1)))
    (hin : ∀ c < n, rg (c * 2 + 1) ≤ r.len) {s : RangeState} (hsr : ∀ c, s.from_ c = rg (c * 2) ∧ s.to_ c = rg (c * 2 + 1))
    (junk : Nat → α) :
    recordColRangeSelect setCol r (n * 2) rg (ints newCols) junk = .ok (Vbt.recordColRangeSelect setCol r.toList s newCols) := by
  unfold recordColRangeSelect
  rw [countStep_loop (fun c hc => by have := h c hc; omega) (fun c hc => hp c (h c hc)), numba_record_range_select]
  simp only
  obtain ⟨s', h1, h2, h3⟩ := rec_loop (step := recRangeStep setCol r (n * 2) rg)
    (fun x => ((rowsOf (rg (asUsize x.1 * 2)) (rg (asUsize x.1 * 2 + 1))).map r.raw).map fun a => setCol a x.2) (ints newCols).zipIdx
    (by
      intro x hx st
      rw [ints_zipIdx] at hx
      obtain ⟨y, hy, rfl⟩ := List.mem_map.mp hx
      have hy' := h _ (mem_zipIdx_fst hy)
      simp only [asUsize_nat]
      unfold recRangeStep
      rw [rangeOf_lt (by omega)]
      simp only
      have hl := rowsOf_length (hp _ hy')
      by_cases hf : rg (y.1 * 2) = -1 ∨ rg (y.1 * 2 + 1) = -1
      · have : rowsOf (rg (y.1 * 2)) (rg (y.1 * 2 + 1)) = [] := by unfold rowsOf; rw [if_pos hf]
        rw [if_pos hf, this]
        simp [over_nil]
      · rw [if_neg hf]
        rw [if_pos (by push Not at hf; exact hf)] at hl
        rw [List.length_map, List.length_map, hl]
        congr 3
        have hpair := hp _ hy'
        unfold rowsOf
        rw [if_neg hf, List.map_map, List.map_map]
        rcases hpair with ⟨q1, q2⟩ | ⟨q1, q2⟩
        · exact absurd (Or.inl q1) hf
        · unfold asUsize
          rw [if_pos q1, if_pos (by omega)]
          rfl) (0, junk)
  rw [h1]
  have hlen : ((ints newCols).zipIdx.flatMap fun x =>
      ((rowsOf (rg (asUsize x.1 * 2)) (rg (asUsize x.1 * 2 + 1))).map r.raw).map fun a => setCol a x.2).length =
      (newCols.zipIdx.flatMap fun x => rowsOf (rg (x.1 * 2)) (rg (x.1 * 2 + 1))).length := by
    rw [ints_zipIdx, List.flatMap_map]
    simp only [asUsize_nat, List.length_flatMap, List.length_map]
  rw [h2, hlen, Nat.zero_add] at h3
  simp only
  rw [h3, ints_zipIdx, List.flatMap_map]
  simp only [asUsize_nat]
  unfold slice
  simp only [List.range_zero, List.map_nil, List.nil_append]
  congr 1
  apply List.flatMap_congr
  intro x hx
  have hx' := h _ (mem_zipIdx_fst hx)
  rw [(hsr x.1).1, (hsr x.1).2, take_raw r hs]
  intro i hi
  unfold rowsOf at hi
  split at hi
  · cases hi
  · rename_i hf
    obtain ⟨k, hk, rfl⟩ := List.mem_map.mp hi
    have := List.mem_range.mp hk
    have := hin _ hx'
    rcases hp _ hx' with ⟨q1, q2⟩ | ⟨q1, q2⟩
    · exact absurd (Or.inl q1) hf
    · omega

/-! ## Sorting -/

theorem sortedFrom_eq : ∀ (l : List Nat) (p : Nat), sortedFrom (p : Int) (ints l) = Vbt.isColSorted (p :: l) := by
  intro l
  induction l with
  | nil => intro p; rfl
  | cons x xs ih =>
    intro p
    unfold ints
    rw [List.map_cons]
    unfold sortedFrom Vbt.isColSorted
    by_cases h : x < p
    · rw [if_pos (by simpa using h), if_pos h]
    · rw [if_neg (by simpa using h), if_neg h]
      exact ih x

theorem isColSorted_eq (l : List Nat) : isColSorted (ints l) = Vbt.isColSorted l := by
  unfold isColSorted
  cases l with
  | nil => rfl
  | cons x xs =>
    cases xs with
    | nil => rfl
    | cons y ys =>
      rw [if_neg (by simp [ints])]
      exact sortedFrom_eq (y :: ys) x

/-- Pairs of natural numbers as pairs of `i64`. -/
def intPairs (l : List (Nat × Nat)) : List (Int × Int) := l.map fun x => ((x.1 : Int), (x.2 : Int))

theorem idxSortedFrom_eq : ∀ (l : List (Nat × Nat)) (p : Nat × Nat),
    idxSortedFrom ((p.1 : Int), (p.2 : Int)) (intPairs l) = Vbt.isColIdxSorted (p :: l) := by
  intro l
  induction l with
  | nil => intro p; rfl
  | cons x xs ih =>
    intro p
    unfold intPairs
    rw [List.map_cons]
    unfold idxSortedFrom Vbt.isColIdxSorted
    simp only
    by_cases h : x.1 < p.1
    · rw [if_pos (by simpa using h), if_pos h]
    · rw [if_neg (by simpa using h), if_neg h]
      by_cases h2 : x.1 = p.1 ∧ x.2 < p.2
      · rw [if_pos (by omega), if_pos h2]
      · rw [if_neg (by omega), if_neg h2]
        exact ih x

theorem isColIdxSorted_eq (l : List (Nat × Nat)) : isColIdxSorted (intPairs l) = Vbt.isColIdxSorted l := by
  unfold isColIdxSorted
  cases l with
  | nil => rfl
  | cons x xs =>
    cases xs with
    | nil => rfl
    | cons y ys =>
      rw [if_neg (by simp [intPairs])]
      exact idxSortedFrom_eq (y :: ys) x

end Vbt.RsCol
