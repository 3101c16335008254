import Verif.Props.C34
import Verif.Props.C45
import Verif.Lemmas.Scan

/-!
# C41  Range records are the maximal runs
-/

namespace Vbt
open F

/-- A value is a gap exactly if it is the gap value, where NaN matches NaN. -/
theorem isGap_iff (gap x : F) : isGap gap x = true ↔ x = gap := by
  unfold isGap
  cases gap <;> cases x <;> simp [eqb, isnan]

/-- The two loops carry the same information. -/
structure SameRun (n i : Nat) (s : FindState) (p : PartState) : Prop where
  out : s.out = p.out
  store : s.store = false
  started : i < n → s.started = p.isPartition
  start : s.started = true → s.start = p.fromI

theorem find_same (n : Nat) (ts : Nat → F) (gap : F) (i : Nat) (hi : i ≤ n) :
    SameRun n i ((List.range i).foldl (findStep n ts gap) ⟨false, -1, -1, false, -1, []⟩)
      ((List.range i).foldl (partStep n fun k => !isGap gap (ts k)) ⟨false, -1, []⟩) := by
  induction i with
  | zero => exact ⟨rfl, rfl, fun _ => rfl, fun h => by cases h⟩
  | succ i ih =>
    rw [List.range_succ, List.foldl_append, List.foldl_append]
    obtain ⟨h1, h2, h3, h4⟩ := ih (by omega)
    generalize (List.range i).foldl (findStep n ts gap) ⟨false, -1, -1, false, -1, []⟩ = s at h1 h2 h3 h4
    generalize (List.range i).foldl (partStep n fun k => !isGap gap (ts k)) ⟨false, -1, []⟩ = p at h1 h2 h3 h4
    simp only [List.foldl_cons, List.foldl_nil]
    have h3' := h3 (by omega)
    obtain ⟨st, b, e, sto, stat, out⟩ := s
    obtain ⟨ip, fi, out'⟩ := p
    simp only at h1 h2 h3' h4
    subst h1 h2 h3'
    have hn1 : ((n : Int) - 1).toNat = n - 1 := by omega
    unfold findStep partStep
    dsimp only
    rcases Bool.eq_false_or_eq_true (isGap gap (ts i)) with hg | hg <;>
    rcases Bool.eq_false_or_eq_true st with hst | hst
    · have := h4 hst
      subst this
      subst hst
      simp only [hg, Bool.false_eq_true, if_false, Bool.not_true, if_true, and_false]
      exact ⟨by simp, rfl, fun h => rfl, fun h => by cases h⟩
    · subst hst
      simp only [hg, Bool.false_eq_true, if_false, Bool.not_true, if_true, and_false]
      exact ⟨rfl, rfl, fun h => rfl, fun h => by cases h⟩
    · have := h4 hst
      subst this
      subst hst
      by_cases hl : i = n - 1
      · rw [hl] at hg
        simp only [hl, hg, Bool.false_eq_true, if_false, Bool.not_false, Bool.not_true, if_true, true_and]
        exact ⟨by simp [hn1], rfl, fun h => by omega, fun h => by cases h⟩
      · simp only [hg, Bool.false_eq_true, if_false, Bool.not_false, Bool.not_true, if_true, hl, false_and]
        exact ⟨rfl, rfl, fun h => rfl, fun _ => rfl⟩
    · subst hst
      by_cases hl : i = n - 1
      · rw [hl] at hg
        simp only [hl, hg, Bool.false_eq_true, if_false, Bool.not_false, if_true, true_and]
        exact ⟨by simp [hn1], rfl, fun h => by omega, fun h => by cases h⟩
      · simp only [hg, Bool.false_eq_true, if_false, Bool.not_false, if_true, hl, false_and]
        exact ⟨rfl, rfl, fun h => rfl, fun _ => rfl⟩

theorem findCol_eq (n : Nat) (ts : Nat → F) (gap : F) : findCol n ts gap = partitionCol n fun k => !isGap gap (ts k) :=
  (find_same n ts gap n (le_refl _)).out

/-- Row `s` starts a run of values other than the gap value. -/
def StartsRun (ts : Nat → F) (gap : F) (s : Nat) : Prop := ts s ≠ gap ∧ (s = 0 ∨ ts (s - 1) = gap)

/-- **C41** (records).  The ranges of a column are exactly the maximal runs of values other than the gap value, in order: with
the row after the run as end if there is one (closed), and otherwise with the last row as end (open). -/
theorem C41_ranges (n : Nat) (ts : Nat → F) (gap : F) :
    (∀ s e t, (s, e, t) ∈ findCol n ts gap ↔
      (t = RangeStatus.Closed ∧ s < e ∧ e < n ∧ StartsRun ts gap s ∧ (∀ k, s ≤ k → k < e → ts k ≠ gap) ∧ ts e = gap) ∨
      (t = RangeStatus.Open ∧ e = n - 1 ∧ s < n ∧ StartsRun ts gap s ∧ ∀ k, s ≤ k → k < n → ts k ≠ gap)) ∧
    (findCol n ts gap).Pairwise fun p q => p.1 < q.1 := by
  rw [findCol_eq]
  obtain ⟨h1, h2⟩ := C34_partitions n fun k => !isGap gap (ts k)
  refine ⟨fun s e t => ?_, h2⟩
  rw [h1 s e t]
  have e1 : ∀ k, (!isGap gap (ts k)) = true ↔ ts k ≠ gap := fun k => by rw [Ne, ← isGap_iff]; simp
  have e2 : ∀ k, (!isGap gap (ts k)) = false ↔ ts k = gap := fun k => by rw [← isGap_iff]; simp
  have e3 : RunStart (fun k => !isGap gap (ts k)) s ↔ StartsRun ts gap s := by
    unfold RunStart StartsRun
    simp only [e1, e2]
  simp only [e1, e2, e3]

/-- The records of all columns: those of the columns in order, numbered from 0. -/
theorem C41_records (n cols : Nat) (ts : Nat → Nat → F) (gap : F) :
    (∀ k, (h : k < (findRanges n cols ts gap).length) → ((findRanges n cols ts gap)[k]).id = k) ∧
    (findRanges n cols ts gap).map (fun r => (r.col, r.start, r.stop, r.status)) =
      (List.range cols).flatMap fun c => (findCol n (fun i => ts i c) gap).map fun r => (c, r) :=
  C34_records cols _

theorem mem_findRanges {n cols : Nat} {ts : Nat → Nat → F} {gap : F} {c : Nat} {x : Nat × Nat × Int} :
    (∃ r ∈ findRanges n cols ts gap, r.col = c ∧ (r.start, r.stop, r.status) = x) ↔
      c < cols ∧ x ∈ findCol n (fun i => ts i c) gap := by
  have h := (C41_records n cols ts gap).2
  have hm : (c, x) ∈ (findRanges n cols ts gap).map (fun r => (r.col, r.start, r.stop, r.status)) ↔
      ∃ r ∈ findRanges n cols ts gap, r.col = c ∧ (r.start, r.stop, r.status) = x := by
    rw [List.mem_map]
    constructor
    · rintro ⟨r, r1, r2⟩
      simp only [Prod.mk.injEq] at r2
      exact ⟨r, r1, r2.1, r2.2⟩
    · rintro ⟨r, r1, rfl, rfl⟩
      exact ⟨r, r1, rfl⟩
  rw [← hm, h, List.mem_flatMap]
  constructor
  · rintro ⟨d, d1, d2⟩
    rw [List.mem_map] at d2
    obtain ⟨y, y1, y2⟩ := d2
    simp only [Prod.mk.injEq] at y2
    obtain ⟨rfl, rfl⟩ := y2
    exact ⟨List.mem_range.mp d1, y1⟩
  · rintro ⟨h1, h2⟩
    exact ⟨c, List.mem_range.mpr h1, List.mem_map.mpr ⟨x, h2, rfl⟩⟩

/-- The rows of a record. -/
def RangeRec.has (r : RangeRec) (i : Nat) : Prop :=
  r.start ≤ i ∧ if r.status = RangeStatus.Open then i ≤ r.stop else i < r.stop

instance (r : RangeRec) (i : Nat) : Decidable (r.has i) := by unfold RangeRec.has; infer_instance

theorem has_iff (r : RangeRec) (i : Nat) : r.has i ↔ r.start ≤ i ∧ i < rangeSliceEnd r := by
  unfold RangeRec.has rangeSliceEnd
  split
  · omega
  · rfl

theorem mask_col (col : Nat) (rs : List RangeRec) (out : Nat → Nat → Bool) (i c : Nat) :
    rs.foldl (fun out r => fun i c => if c = col ∧ r.start ≤ i ∧ i < rangeSliceEnd r then true else out i c) out i c = true ↔
      out i c = true ∨ c = col ∧ ∃ r ∈ rs, r.has i := by
  induction rs generalizing out with
  | nil => simp
  | cons r rs ih =>
    rw [List.foldl_cons, ih]
    simp only [List.mem_cons, exists_eq_or_imp, has_iff]
    by_cases h : c = col ∧ r.start ≤ i ∧ i < rangeSliceEnd r
    · rw [if_pos h]
      simp [h]
    · rw [if_neg h]
      constructor
      · rintro (h1 | ⟨h1, h2⟩)
        · exact Or.inl h1
        · exact Or.inr ⟨h1, Or.inr h2⟩
      · rintro (h1 | ⟨h1, h2 | h2⟩)
        · exact Or.inl h1
        · exact absurd ⟨h1, h2⟩ h
        · exact Or.inr ⟨h1, h2⟩

/-- **C41** (mask of any records).  A cell of the mask is true exactly if a record of the column contains the row. -/
theorem C41_mask_any (records : List RangeRec) (junk : Nat → Nat) (nCols i c : Nat) :
    rangesToMask records (colMap (records.map RangeRec.col) junk) nCols i c = true ↔
      c < nCols ∧ ∃ r ∈ records, r.col = c ∧ r.has i := by
  unfold rangesToMask
  induction nCols with
  | zero => simp
  | succ m ih =>
    rw [List.range_succ, List.foldl_append, List.foldl_cons, List.foldl_nil]
    have hrec := C45_records records RangeRec.col junk m
    have key : ∀ out : Nat → Nat → Bool, (if (colMap (records.map RangeRec.col) junk).lens m = 0 then out
        else (takeIdxs records ((colMap (records.map RangeRec.col) junk).col m)).foldl (fun out r => fun i c =>
          if c = m ∧ r.start ≤ i ∧ i < rangeSliceEnd r then true else out i c) out) i c = true ↔
        out i c = true ∨ c = m ∧ ∃ r ∈ records, r.col = m ∧ r.has i := by
      intro out
      by_cases h0 : (colMap (records.map RangeRec.col) junk).lens m = 0
      · rw [if_pos h0]
        rw [(C45_map _ junk m).2, List.count_eq_zero] at h0
        constructor
        · exact Or.inl
        · rintro (h | ⟨-, r, r1, r2, -⟩)
          · exact h
          · exact absurd (List.mem_map.mpr ⟨r, r1, r2⟩) h0
      · rw [if_neg h0, mask_col, hrec]
        simp only [List.mem_filter, decide_eq_true_eq, and_assoc]
    rw [key, ih]
    constructor
    · rintro (⟨h1, h2⟩ | ⟨rfl, h2⟩)
      · exact ⟨by omega, h2⟩
      · exact ⟨by omega, h2⟩
    · rintro ⟨h1, h2⟩
      by_cases hc : c = m
      · subst hc; exact Or.inr ⟨rfl, h2⟩
      · exact Or.inl ⟨by omega, h2⟩

/-- A row lies in a range of its column exactly if its value is not the gap value. -/
theorem covered_iff (n cols : Nat) (ts : Nat → Nat → F) (gap : F) {i c : Nat} (hi : i < n) (hc : c < cols) :
    (∃ r ∈ findRanges n cols ts gap, r.col = c ∧ r.has i) ↔ ts i c ≠ gap := by
  have hspec := (C41_ranges n (fun i => ts i c) gap).1
  constructor
  · rintro ⟨r, r1, r2, r3, r4⟩
    have := (mem_findRanges.mp ⟨r, r1, r2, rfl⟩).2
    rcases (hspec _ _ _).mp this with ⟨t1, t2, t3, t4, t5, t6⟩ | ⟨t1, t2, t3, t4, t5⟩
    · rw [t1, if_neg (by decide)] at r4
      exact t5 i r3 r4
    · exact t5 i r3 hi
  · intro h
    have hcov := C34_partitions_cover n (fun k => !isGap gap (ts k c)) hi (by
      have : ¬ isGap gap (ts i c) = true := fun hc => h ((isGap_iff _ _).mp hc)
      simpa using this)
    rw [← findCol_eq] at hcov
    obtain ⟨s, e, t, h1, h2, h3⟩ := hcov
    obtain ⟨r, r1, r2, r3⟩ := mem_findRanges.mpr ⟨hc, h1⟩
    simp only [Prod.mk.injEq] at r3
    obtain ⟨rfl, rfl, rfl⟩ := r3
    refine ⟨r, r1, r2, h2, ?_⟩
    rcases (hspec _ _ _).mp h1 with ⟨t1, t2, t3, t4, t5, t6⟩ | ⟨t1, t2, t3, t4, t5⟩
    · rw [t1, if_neg (by decide)]
      rcases Nat.lt_or_ge i r.stop with hlt | hge
      · exact hlt
      · exact absurd (show i = r.stop by omega ▸ t6) (fun hh => by rw [← show i = r.stop by omega] at t6; exact h t6)
    · rw [t1, if_pos rfl]; omega

/-- **C41** (mask).  Converting the found ranges to a mask gives precisely the rows that are not gaps. -/
theorem C41_mask (n cols : Nat) (ts : Nat → Nat → F) (gap : F) (junk : Nat → Nat) {i c : Nat} (hi : i < n) (hc : c < cols) :
    rangesToMask (findRanges n cols ts gap) (colMap ((findRanges n cols ts gap).map RangeRec.col) junk) cols i c = true ↔
      ts i c ≠ gap := by
  rw [C41_mask_any, covered_iff n cols ts gap hi hc]
  exact ⟨fun h => h.2, fun h => ⟨hc, h⟩⟩

/-- **C41** (duration).  The duration of a found range is the number of its rows. -/
theorem C41_duration (n cols : Nat) (ts : Nat → Nat → F) (gap : F) {r : RangeRec} (hr : r ∈ findRanges n cols ts gap) :
    rangeDuration r = ((List.range n).countP fun i => decide (r.has i) : Nat) := by
  have hspec := (C41_ranges n (fun i => ts i r.col) gap).1
  have := (mem_findRanges.mp ⟨r, hr, rfl, rfl⟩).2
  have hcount : ∀ m, rangeSliceEnd r ≤ m → r.start ≤ rangeSliceEnd r →
      (List.range m).countP (fun i => decide (r.has i)) = rangeSliceEnd r - r.start := by
    intro m
    have aux : ∀ m, (List.range m).countP (fun i => decide (r.has i)) = min m (rangeSliceEnd r) - r.start := by
      intro m
      induction m with
      | zero => simp
      | succ m ih =>
        rw [List.range_succ, List.countP_append, ih]
        simp only [List.countP_cons, List.countP_nil, Nat.zero_add, decide_eq_true_eq, has_iff]
        by_cases h : r.start ≤ m ∧ m < rangeSliceEnd r
        · rw [if_pos h]; omega
        · rw [if_neg h]; omega
    intro h1 h2
    rw [aux m]; omega
  rcases (hspec _ _ _).mp this with ⟨t1, t2, t3, -⟩ | ⟨t1, t2, t3, -⟩
  · have hne : ¬ r.status = RangeStatus.Open := by rw [t1]; decide
    have he : rangeSliceEnd r = r.stop := by unfold rangeSliceEnd; rw [if_neg hne]
    rw [hcount n (by omega) (by omega), he]
    unfold rangeDuration
    rw [if_neg hne]; omega
  · have he : rangeSliceEnd r = r.stop + 1 := by unfold rangeSliceEnd; rw [if_pos t1]
    rw [hcount n (by omega) (by omega), he]
    unfold rangeDuration
    rw [if_pos t1]; omega

theorem coverageCounts_eq (rs : List RangeRec) (i : Nat) :
    coverageCounts rs i = rs.countP fun r => decide (r.has i) := by
  unfold coverageCounts
  have : ∀ (t : Nat → Nat), rs.foldl (fun t r => fun i => if r.start ≤ i ∧ i < rangeSliceEnd r then t i + 1 else t i) t i =
      t i + rs.countP fun r => decide (r.has i) := by
    induction rs with
    | nil => intro t; simp
    | cons r rs ih =>
      intro t
      rw [List.foldl_cons, ih, List.countP_cons]
      simp only [decide_eq_true_eq, has_iff]
      by_cases h : r.start ≤ i ∧ i < rangeSliceEnd r
      · rw [if_pos h, if_pos h]; omega
      · rw [if_neg h, if_neg h]; omega
  rw [this]; simp

/-- The coverage of one column: the number of rows in at least one (two) of its records. -/
def coveredRows (records : List RangeRec) (c len k : Nat) : Nat :=
  (List.range len).countP fun i => decide (k ≤ (records.filter fun r => r.col = c).countP fun r => decide (r.has i))

/-- **C41** (coverage of any records, not normalised).  For every column with a record the number of rows that lie in at least
one record, or with `overlapping` in at least two; NaN for a column without records. -/
theorem C41_coverage_any (A : Arith) (records : List RangeRec) (junk : Nat → Nat) (nCols : Nat) (lens : Nat → Nat)
    (overlapping : Bool) :
    rangeCoverage A records (colMap (records.map RangeRec.col) junk) nCols lens overlapping false =
      .ok ((List.range nCols).map fun c =>
        if (records.map RangeRec.col).count c = 0 then nan
        else fin (coveredRows records c (lens c) (if overlapping then 2 else 1) : Nat)) := by
  unfold rangeCoverage
  induction nCols with
  | zero => rfl
  | succ m ih =>
    rw [List.range_succ, List.foldl_append, ih, List.foldl_cons, List.foldl_nil, List.map_append]
    dsimp only
    rw [(C45_map _ junk m).2, C45_records]
    by_cases h0 : (records.map RangeRec.col).count m = 0
    · rw [if_pos h0]
      simp only [List.map_cons, List.map_nil, if_pos h0]
    · rw [if_neg h0]
      simp only [List.map_cons, List.map_nil, if_neg h0, Bool.false_eq_true, if_false, coverageCounts_eq]
      unfold coveredRows
      cases overlapping
      · simp only [Bool.false_eq_true, if_false]
        simp only [Nat.lt_iff_add_one_le, Nat.zero_add]
      · simp only [if_true]
        simp only [Nat.lt_iff_add_one_le]

/-- **C41** (coverage).  The coverage of the found ranges counts the rows that are not gaps; for a column without any it is
NaN. -/
theorem C41_coverage (A : Arith) (n cols : Nat) (ts : Nat → Nat → F) (gap : F) (junk : Nat → Nat) :
    rangeCoverage A (findRanges n cols ts gap) (colMap ((findRanges n cols ts gap).map RangeRec.col) junk) cols (fun _ => n)
        false false =
      .ok ((List.range cols).map fun c =>
        if (List.range n).countP (fun i => decide (ts i c ≠ gap)) = 0 then nan
        else fin ((List.range n).countP fun i => decide (ts i c ≠ gap) : Nat)) := by
  rw [C41_coverage_any]
  congr 1
  refine List.map_congr_left fun c hc => ?_
  rw [List.mem_range] at hc
  have h1 : coveredRows (findRanges n cols ts gap) c n 1 = (List.range n).countP fun i => decide (ts i c ≠ gap) := by
    unfold coveredRows
    refine List.countP_congr fun i hi => ?_
    rw [List.mem_range] at hi
    rw [decide_eq_true_eq, decide_eq_true_eq, ← covered_iff n cols ts gap hi hc, Nat.one_le_iff_ne_zero, Ne,
      List.countP_eq_zero]
    push Not
    constructor
    · rintro ⟨r, r1, r2⟩
      rw [List.mem_filter] at r1
      exact ⟨r, r1.1, by simpa using r1.2, by simpa using r2⟩
    · rintro ⟨r, r1, r2, r3⟩
      exact ⟨r, List.mem_filter.mpr ⟨r1, by simpa using r2⟩, by simpa using r3⟩
  have h2 : ((findRanges n cols ts gap).map RangeRec.col).count c = 0 ↔
      (List.range n).countP (fun i => decide (ts i c ≠ gap)) = 0 := by
    rw [List.count_eq_zero, List.countP_eq_zero]
    constructor
    · intro h i hi hd
      rw [List.mem_range] at hi
      obtain ⟨r, r1, r2, -⟩ := (covered_iff n cols ts gap hi hc).mpr (of_decide_eq_true hd)
      exact h (List.mem_map.mpr ⟨r, r1, r2⟩)
    · intro h hm
      obtain ⟨r, r1, r2⟩ := List.mem_map.mp hm
      have hr := (mem_findRanges.mp ⟨r, r1, r2, rfl⟩).2
      have hs : r.start < n ∧ ts r.start c ≠ gap := by
        rcases ((C41_ranges n (fun i => ts i c) gap).1 _ _ _).mp hr with ⟨t1, t2, t3, t4, -⟩ | ⟨t1, t2, t3, t4, -⟩
        · exact ⟨by omega, t4.1⟩
        · exact ⟨t3, t4.1⟩
      exact h r.start (List.mem_range.mpr hs.1) (by simpa using hs.2)
  simp only [Bool.false_eq_true, if_false, h1]
  by_cases h0 : (List.range n).countP (fun i => decide (ts i c ≠ gap)) = 0
  · rw [if_pos h0, if_pos (h2.mpr h0)]
  · rw [if_neg h0, if_neg (fun h => h0 (h2.mp h))]

/-- Non-vacuity: NaN, 2, 3, NaN, 5. -/
example : findCol 5 (fun i => [nan, fin 2, fin 3, nan, fin 5].getD i nan) nan =
    [(1, 3, RangeStatus.Closed), (4, 4, RangeStatus.Open)] := by decide +kernel

end Vbt
