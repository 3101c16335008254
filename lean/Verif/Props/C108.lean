import Verif.Lemmas.SignalStats
import Verif.Props.C92

/-!
# C108  Statistics of signals say what their names say
-/

namespace Vbt
open F

variable {r t : ℚ}

/-! ## Counting -/

/-- **C108** (total).  The number of cells of the group with a signal. -/
theorem C108_total (n cols : Nat) (a : Nat → Nat → Bool) (g : Nat → Nat) (k : Nat) :
    sigTotal n cols a g k = ∑ c ∈ groupCols g cols k, (sigRows n fun i => a i c).card ∧
    ∀ c < cols, sigTotal n cols a id c = (sigRows n fun i => a i c).card :=
  ⟨sigTotal_eq n cols a g k, fun _ hc => sigTotal_col a hc⟩

theorem sigRows_le (n : Nat) (a : Nat → Bool) : (sigRows n a).card ≤ n := by
  have := Finset.card_filter_le (Finset.range n) (fun i => a i = true)
  rwa [Finset.card_range] at this

theorem sigRows_all {n : Nat} {a : Nat → Bool} : (sigRows n a).card = n ↔ ∀ i < n, a i = true := by
  constructor
  · intro h i hi
    have e : sigRows n a = Finset.range n :=
      Finset.eq_of_subset_of_card_le (Finset.filter_subset _ _) (by rw [Finset.card_range, h])
    have := Finset.mem_range.2 hi
    rw [← e] at this
    exact (Finset.mem_filter.1 this).2
  · intro h
    have e : sigRows n a = Finset.range n := by
      apply Finset.filter_true_of_mem
      intro i hi
      exact h i (Finset.mem_range.1 hi)
    rw [e, Finset.card_range]

theorem sigRows_none {n : Nat} {a : Nat → Bool} : (sigRows n a).card = 0 ↔ ∀ i < n, a i = false := by
  rw [Finset.card_eq_zero]
  constructor
  · intro h i hi
    by_contra hc
    have : i ∈ sigRows n a := Finset.mem_filter.2 ⟨Finset.mem_range.2 hi, by simpa using hc⟩
    rw [h] at this
    simp at this
  · intro h
    apply Finset.filter_false_of_mem
    intro i hi
    rw [h i (Finset.mem_range.1 hi)]
    decide

theorem total_le (n cols : Nat) (a : Nat → Nat → Bool) (g : Nat → Nat) (k : Nat) :
    sigTotal n cols a g k ≤ groupLen g cols k * n := by
  rw [sigTotal_eq, groupLen_card]
  calc ∑ c ∈ groupCols g cols k, (sigRows n fun i => a i c).card ≤ ∑ _c ∈ groupCols g cols k, n :=
        Finset.sum_le_sum fun c _ => sigRows_le n _
    _ = (groupCols g cols k).card * n := by rw [Finset.sum_const, nsmul_eq_mul, Nat.cast_id]

theorem total_all {n cols : Nat} {a : Nat → Nat → Bool} {g : Nat → Nat} {k : Nat} :
    sigTotal n cols a g k = groupLen g cols k * n ↔ ∀ c < cols, g c = k → ∀ i < n, a i c = true := by
  rw [sigTotal_eq, groupLen_card, show (groupCols g cols k).card * n = ∑ _c ∈ groupCols g cols k, n by
    rw [Finset.sum_const, nsmul_eq_mul, Nat.cast_id], Finset.sum_eq_sum_iff_of_le fun c _ => sigRows_le n _]
  constructor
  · intro h c hc hg
    exact sigRows_all.1 (h c (Finset.mem_filter.2 ⟨Finset.mem_range.2 hc, hg⟩))
  · intro h c hc
    obtain ⟨h1, h2⟩ := Finset.mem_filter.1 hc
    exact sigRows_all.2 (h c (Finset.mem_range.1 h1) h2)

theorem total_none {n cols : Nat} {a : Nat → Nat → Bool} {g : Nat → Nat} {k : Nat} :
    sigTotal n cols a g k = 0 ↔ ∀ c < cols, g c = k → ∀ i < n, a i c = false := by
  rw [sigTotal_eq, Finset.sum_eq_zero_iff]
  constructor
  · intro h c hc hg
    exact sigRows_none.1 (h c (Finset.mem_filter.2 ⟨Finset.mem_range.2 hc, hg⟩))
  · intro h c hc
    obtain ⟨h1, h2⟩ := Finset.mem_filter.1 hc
    exact sigRows_none.2 (h c (Finset.mem_range.1 h1) h2)

/-- **C108** (rate).  The share of cells with a signal: from 0, no signals, to 1, nothing but signals. -/
theorem C108_rate {n cols : Nat} (a : Nat → Nat → Bool) {g : Nat → Nat} {k : Nat} (hn : 0 < n) (hk : ∃ c < cols, g c = k) :
    ∃ q : ℚ, sigRate (Arith.exact r t) n cols a g k = fin q ∧
      q = (∑ c ∈ groupCols g cols k, ((sigRows n fun i => a i c).card : ℚ)) / ((groupCols g cols k).card * n) ∧ 0 ≤ q ∧ q ≤ 1 ∧
      (q = 0 ↔ ∀ c < cols, g c = k → ∀ i < n, a i c = false) ∧ (q = 1 ↔ ∀ c < cols, g c = k → ∀ i < n, a i c = true) := by
  have hpos : 0 < groupLen g cols k * n := by
    rw [groupLen_card]
    obtain ⟨c, hc, hg⟩ := hk
    exact Nat.mul_pos (Finset.card_pos.2 ⟨c, Finset.mem_filter.2 ⟨Finset.mem_range.2 hc, hg⟩⟩) hn
  have hq : (0 : ℚ) < ((groupLen g cols k * n : Nat) : ℚ) := by exact_mod_cast hpos
  have hle : ((sigTotal n cols a g k : Nat) : ℚ) ≤ ((groupLen g cols k * n : Nat) : ℚ) := by exact_mod_cast total_le n cols a g k
  refine ⟨(sigTotal n cols a g k : Nat) / (groupLen g cols k * n : Nat), ?_, ?_, ?_, ?_, ?_, ?_⟩
  · unfold sigRate
    rw [div_exact _ _ _ _ hq.ne']
  · rw [sigTotal_eq, groupLen_card]
    push_cast
    rfl
  · exact div_nonneg (by exact_mod_cast Nat.zero_le _) hq.le
  · rw [div_le_one hq]; exact hle
  · rw [div_eq_zero_iff, or_iff_left hq.ne', Nat.cast_eq_zero, total_none]
  · rw [div_eq_one_iff_eq hq.ne', Nat.cast_inj, total_all]

/-- **C108** (overlap).  Signals of both masks and signals of either add up to the signals of the two; the overlapping rate is
from 0 to 1, 1 only for masks that agree, and NaN exactly if there is no signal. -/
theorem C108_overlap (n cols : Nat) (a b : Nat → Nat → Bool) (g : Nat → Nat) (k : Nat) :
    overlapTotal n cols a b g k + sigTotal n cols (fun i c => a i c || b i c) g k =
      sigTotal n cols a g k + sigTotal n cols b g k ∧
    (overlapRate (Arith.exact r t) n cols a b g k = nan ↔ ∀ c < cols, g c = k → ∀ i < n, a i c = false ∧ b i c = false) ∧
    ∀ q, overlapRate (Arith.exact r t) n cols a b g k = q → q = nan ∨ ∃ x : ℚ, q = fin x ∧ 0 ≤ x ∧ x ≤ 1 ∧
      (x = 1 ↔ ∀ c < cols, g c = k → ∀ i < n, a i c = b i c) := by
  have hsets : ∀ c, (sigRows n fun i => a i c && b i c) = sigRows n (fun i => a i c) ∩ sigRows n (fun i => b i c) ∧
      (sigRows n fun i => a i c || b i c) = sigRows n (fun i => a i c) ∪ sigRows n (fun i => b i c) := by
    intro c
    constructor <;> ext i <;> simp only [sigRows, Finset.mem_filter, Finset.mem_inter, Finset.mem_union, Bool.and_eq_true,
      Bool.or_eq_true] <;> tauto
  have hcol : ∀ c, (sigRows n fun i => a i c && b i c).card ≤ (sigRows n fun i => a i c || b i c).card := by
    intro c
    rw [(hsets c).1, (hsets c).2]
    exact Finset.card_le_card fun i hi => Finset.mem_union_left _ (Finset.mem_inter.1 hi).1
  have hle : overlapTotal n cols a b g k ≤ sigTotal n cols (fun i c => a i c || b i c) g k := by
    unfold overlapTotal
    rw [sigTotal_eq, sigTotal_eq]
    exact Finset.sum_le_sum fun c _ => hcol c
  have heq : overlapTotal n cols a b g k = sigTotal n cols (fun i c => a i c || b i c) g k ↔
      ∀ c < cols, g c = k → ∀ i < n, a i c = b i c := by
    unfold overlapTotal
    rw [sigTotal_eq, sigTotal_eq, Finset.sum_eq_sum_iff_of_le fun c _ => hcol c]
    constructor
    · intro h c hc hg i hi
      have h := h c (Finset.mem_filter.2 ⟨Finset.mem_range.2 hc, hg⟩)
      have hsub : (sigRows n fun i => a i c && b i c) ⊆ sigRows n fun i => a i c || b i c := by
        rw [(hsets c).1, (hsets c).2]
        exact fun i hi => Finset.mem_union_left _ (Finset.mem_inter.1 hi).1
      have e := Finset.eq_of_subset_of_card_le hsub h.ge
      have := Finset.ext_iff.1 e i
      simp only [sigRows, Finset.mem_filter, Finset.mem_range, hi, true_and] at this
      revert this
      cases a i c <;> cases b i c <;> decide
    · intro h c hc
      obtain ⟨h1, h2⟩ := Finset.mem_filter.1 hc
      congr 1
      ext i
      simp only [sigRows, Finset.mem_filter, Finset.mem_range]
      refine and_congr_right fun hi => ?_
      rw [h c (Finset.mem_range.1 h1) h2 i hi]
      cases b i c <;> decide
  have hnone : sigTotal n cols (fun i c => a i c || b i c) g k = 0 ↔ ∀ c < cols, g c = k → ∀ i < n, a i c = false ∧ b i c = false := by
    rw [total_none]
    simp only [Bool.or_eq_false_iff]
  have hval : overlapRate (Arith.exact r t) n cols a b g k =
      if sigTotal n cols (fun i c => a i c || b i c) g k = 0 then nan
      else fin (overlapTotal n cols a b g k / sigTotal n cols (fun i c => a i c || b i c) g k) := by
    unfold overlapRate
    by_cases h : sigTotal n cols (fun i c => a i c || b i c) g k = 0
    · rw [if_pos h]
      have h' : overlapTotal n cols a b g k = 0 := by omega
      rw [h, h']
      simp [div]
    · rw [if_neg h, div_exact _ _ _ _ (by exact_mod_cast h)]
  refine ⟨?_, ?_, ?_⟩
  · unfold overlapTotal
    rw [sigTotal_eq, sigTotal_eq, sigTotal_eq, sigTotal_eq, ← Finset.sum_add_distrib, ← Finset.sum_add_distrib]
    refine Finset.sum_congr rfl fun c _ => ?_
    rw [(hsets c).1, (hsets c).2, Finset.card_inter_add_card_union]
  · rw [hval, ← hnone]
    by_cases h : sigTotal n cols (fun i c => a i c || b i c) g k = 0
    · rw [if_pos h]; simp [h]
    · rw [if_neg h]; simp [h]
  · rintro q rfl
    rw [hval]
    by_cases h : sigTotal n cols (fun i c => a i c || b i c) g k = 0
    · rw [if_pos h]; exact .inl rfl
    · rw [if_neg h]
      have hpos : (0 : ℚ) < (sigTotal n cols (fun i c => a i c || b i c) g k : Nat) := by exact_mod_cast Nat.pos_of_ne_zero h
      refine .inr ⟨_, rfl, div_nonneg (by exact_mod_cast Nat.zero_le _) hpos.le, ?_, ?_⟩
      · rw [div_le_one hpos]; exact_mod_cast hle
      · rw [div_eq_one_iff_eq hpos.ne', Nat.cast_inj, heq]

/-! ## Selecting by position -/

/-- **C108** (first, nth, from_nth).  Within runs of signals: `first` keeps the first signal of each run, `nth(k)` those with
exactly `k` signals in front of them in their run, `from_nth(k)` those with at least `k`; `nth(0)` is `first` and
`from_nth(0)` keeps all. -/
theorem C108_nth {n : Nat} (a : Nat → Bool) {i : Nat} (hi : i < n) :
    (firstSignals n a false none false i = true ↔ a i = true ∧ (i = 0 ∨ a (i - 1) = false)) ∧
    (∀ k : Nat, nthSignals n a k false none false i = true ↔
      k ≤ i ∧ (∀ j, i - k ≤ j → j ≤ i → a j = true) ∧ (i - k = 0 ∨ a (i - k - 1) = false)) ∧
    (∀ k : Nat, fromNthSignals n a k false none false i = true ↔ k ≤ i ∧ ∀ j, i - k ≤ j → j ≤ i → a j = true) ∧
    firstSignals n a false none false i = nthSignals n a 0 false none false i ∧
    fromNthSignals n a 0 false none false i = a i := by
  have key : ∀ k : Nat, (nthSignals n a k false none false i = true ↔
      k ≤ i ∧ (∀ j, i - k ≤ j → j ≤ i → a j = true) ∧ (i - k = 0 ∨ a (i - k - 1) = false)) ∧
      (fromNthSignals n a k false none false i = true ↔ k ≤ i ∧ ∀ j, i - k ≤ j → j ≤ i → a j = true) := by
    intro k
    unfold nthSignals fromNthSignals
    simp only [decide_eq_true_eq]
    cases ha : a i
    · rw [rank_none _ ha]
      constructor
      · constructor
        · intro h; omega
        · rintro ⟨-, h, -⟩
          rw [h i (by omega) (le_refl _)] at ha; cases ha
      · constructor
        · intro h; omega
        · rintro ⟨-, h⟩
          rw [h i (by omega) (le_refl _)] at ha; cases ha
    · obtain ⟨s, s1, s2, s3⟩ := runStart_exists ha
      rw [rank_in_run hi s1 s2 s3]
      constructor
      · constructor
        · intro h
          have hk : i - s = k := by exact_mod_cast h
          have hs : i - k = s := by omega
          refine ⟨by omega, fun j j1 j2 => s3 j (by omega) j2, ?_⟩
          rw [hs]
          exact s2.2
        · rintro ⟨h1, h2, h3⟩
          have hs : i - k = s := by
            rcases Nat.lt_trichotomy (i - k) s with h | h | h
            · exfalso
              rcases s2.2 with h0 | h0
              · omega
              · rw [h2 (s - 1) (by omega) (by omega)] at h0; cases h0
            · exact h
            · exfalso
              rcases h3 with h0 | h0
              · omega
              · rw [s3 (i - k - 1) (by omega) (by omega)] at h0; cases h0
          have : i - s = k := by omega
          exact_mod_cast this
      · constructor
        · intro h
          have hk : k ≤ i - s := by exact_mod_cast h
          exact ⟨by omega, fun j j1 j2 => s3 j (by omega) j2⟩
        · rintro ⟨h1, h2⟩
          have : s ≤ i - k := by
            by_contra hc
            rcases s2.2 with h0 | h0
            · omega
            · rw [h2 (s - 1) (by omega) (by omega)] at h0; cases h0
          have : k ≤ i - s := by omega
          exact_mod_cast this
  have h0 := (key 0).1
  have e0 : firstSignals n a false none false i = nthSignals n a 0 false none false i := rfl
  refine ⟨?_, fun k => (key k).1, fun k => (key k).2, e0, ?_⟩
  · rw [e0]
    refine Iff.trans h0 ?_
    constructor
    · rintro ⟨-, h1, h2⟩; exact ⟨h1 i (by omega) (le_refl _), by simpa using h2⟩
    · rintro ⟨h1, h2⟩
      exact ⟨Nat.zero_le _, fun j j1 j2 => by rw [show j = i by omega]; exact h1, by simpa using h2⟩
  · have h1 := (key 0).2
    have : fromNthSignals n a 0 false none false i = true ↔ a i = true := by
      refine Iff.trans h1 ⟨fun h => h.2 i (by omega) (le_refl _), fun h => ⟨Nat.zero_le _, fun j j1 j2 => ?_⟩⟩
      rw [show j = i by omega]; exact h
    cases h2 : fromNthSignals n a 0 false none false i <;> cases h3 : a i <;> simp_all

/-- **C108** (nth, with gaps).  Across the column, `nth(k)` keeps only the signal with exactly `k` signals in front of it. -/
theorem C108_nth_gaps {n : Nat} (a : Nat → Bool) {i : Nat} (hi : i < n) (k : Nat) :
    (nthSignals n a k true none false i = true ↔ a i = true ∧ (sigRows i a).card = k) ∧
    (fromNthSignals n a k true none false i = true ↔ a i = true ∧ k ≤ (sigRows i a).card) := by
  unfold nthSignals fromNthSignals
  simp only [decide_eq_true_eq]
  cases ha : a i
  · rw [rank_none _ ha]
    constructor
    · constructor
      · intro h; omega
      · rintro ⟨h, -⟩; cases h
    · constructor
      · intro h; omega
      · rintro ⟨h, -⟩; cases h
  · rw [rank_gaps hi ha]
    constructor
    · simp
    · simp

/-- **C108** (finding).  Negative positions do not count from the end as they do for `nth_index`: `nth(-1)` keeps exactly the
rows without a signal, `nth` of anything below nothing, `from_nth` of anything below zero all rows. -/
theorem C108_nth_negative_counterexample {n : Nat} (a : Nat → Bool) {i : Nat} (hi : i < n) (allowGaps : Bool) {k : Int} (hk : k < 0) :
    nthSignals n a (-1) allowGaps none false i = !a i ∧ (k ≠ -1 → nthSignals n a k allowGaps none false i = false) ∧
    fromNthSignals n a k allowGaps none false i = true := by
  have hr : (a i = false → rank n a none false (sigPosRank allowGaps) i = -1) ∧
      (a i = true → 0 ≤ rank n a none false (sigPosRank allowGaps) i) := by
    refine ⟨rank_none _, fun h => ?_⟩
    cases allowGaps
    · obtain ⟨s, s1, s2, s3⟩ := runStart_exists h
      rw [rank_in_run hi s1 s2 s3]; omega
    · rw [rank_gaps hi h]; omega
  unfold nthSignals fromNthSignals
  cases ha : a i
  · rw [hr.1 ha]
    exact ⟨by simp, fun h => by simpa using fun e => h e.symm, by simp; omega⟩
  · have := hr.2 ha
    refine ⟨by simp; omega, fun _ => by simp; omega, by simp; omega⟩

/-! ## Runs -/

/-- **C108** (partitions).  As many as there are runs of signals, which is also the number of signals that `first` keeps; the
lengths of the partitions add up to the number of signals. -/
theorem C108_partitions (n cols : Nat) (a : Nat → Nat → Bool) (g : Nat → Nat) (k : Nat) :
    totalPartitions n cols a g k = ∑ c ∈ groupCols g cols k, (runStarts n fun i => a i c).card ∧
    totalPartitions n cols a g k = sigTotal n cols (fun i c => firstSignals n (fun i => a i c) false none false i) g k ∧
    (partitionLens n cols a g k).sum = sigTotal n cols a g k := by
  have h1 : totalPartitions n cols a g k = ∑ c ∈ groupCols g cols k, (runStarts n fun i => a i c).card := by
    unfold totalPartitions partitionRanges
    rw [List.countP_eq_length_filter]
    have h := group_records (β := Nat) cols (fun c => partitionCol n fun i => a i c) g k (fun _ => 1)
    rw [List.map_const', List.sum_replicate, nsmul_eq_mul, mul_one, Nat.cast_id] at h
    rw [h]
    refine Finset.sum_congr rfl fun c _ => ?_
    rw [List.map_const', List.sum_replicate, nsmul_eq_mul, mul_one, Nat.cast_id, partitionCol_length]
  refine ⟨h1, ?_, ?_⟩
  · rw [h1, sigTotal_eq]
    refine Finset.sum_congr rfl fun c _ => ?_
    congr 1
    ext i
    simp only [runStarts, sigRows, Finset.mem_filter, Finset.mem_range]
    exact and_congr_right fun hi => (C108_nth (fun i => a i c) hi).1.symm
  · unfold partitionLens partitionRanges
    have e : (rangeDuration : RangeRec → Int) = fun r => partLen (r.start, r.stop, r.status) := rfl
    rw [e, group_records, sigTotal_eq]
    push_cast
    exact Finset.sum_congr rfl fun c _ => partLens_col n _

theorem runStarts_le (n : Nat) (a : Nat → Bool) : runStarts n a ⊆ sigRows n a := by
  intro i hi
  simp only [runStarts, sigRows, Finset.mem_filter] at hi ⊢
  exact ⟨hi.1, hi.2.1⟩

/-- **C108** (partition rate).  NaN exactly without signals, else above 0 and at most 1; 1 exactly if no signal follows upon
another. -/
theorem C108_partition_rate (n cols : Nat) (a : Nat → Nat → Bool) (g : Nat → Nat) (k : Nat) :
    (partitionRate (Arith.exact r t) n cols a g k = nan ↔ ∀ c < cols, g c = k → ∀ i < n, a i c = false) ∧
    ∀ q, partitionRate (Arith.exact r t) n cols a g k = q → q = nan ∨ ∃ x : ℚ, q = fin x ∧ 0 < x ∧ x ≤ 1 ∧
      (x = 1 ↔ ∀ c < cols, g c = k → ∀ i, i + 1 < n → ¬ (a i c = true ∧ a (i + 1) c = true)) := by
  obtain ⟨h1, -, -⟩ := C108_partitions n cols a g k
  have hle : totalPartitions n cols a g k ≤ sigTotal n cols a g k := by
    rw [h1, sigTotal_eq]
    exact Finset.sum_le_sum fun c _ => Finset.card_le_card (runStarts_le n _)
  have hpos : sigTotal n cols a g k ≠ 0 → 0 < totalPartitions n cols a g k := by
    intro h
    rw [sigTotal_eq] at h
    rw [h1]
    obtain ⟨c, hc, hne⟩ := Finset.exists_ne_zero_of_sum_ne_zero h
    refine Nat.lt_of_lt_of_le ?_ (Finset.single_le_sum (f := fun c => (runStarts n fun i => a i c).card) (fun _ _ => Nat.zero_le _) hc)
    obtain ⟨i, hi⟩ := Finset.card_pos.1 (Nat.pos_of_ne_zero hne)
    obtain ⟨hi1, hi2⟩ := Finset.mem_filter.1 hi
    obtain ⟨s, s1, s2, -⟩ := runStart_exists (a := fun i => a i c) hi2
    have := Finset.mem_range.1 hi1
    exact Finset.card_pos.2 ⟨s, Finset.mem_filter.2 ⟨Finset.mem_range.2 (by omega), s2⟩⟩
  have heq : totalPartitions n cols a g k = sigTotal n cols a g k ↔
      ∀ c < cols, g c = k → ∀ i, i + 1 < n → ¬ (a i c = true ∧ a (i + 1) c = true) := by
    rw [h1, sigTotal_eq, Finset.sum_eq_sum_iff_of_le fun c _ => Finset.card_le_card (runStarts_le n _)]
    constructor
    · rintro h c hc hg i hi ⟨ha, hb⟩
      have e := Finset.eq_of_subset_of_card_le (runStarts_le n fun i => a i c)
        (h c (Finset.mem_filter.2 ⟨Finset.mem_range.2 hc, hg⟩)).ge
      have hm : i + 1 ∈ sigRows n fun i => a i c := Finset.mem_filter.2 ⟨Finset.mem_range.2 hi, hb⟩
      rw [← e] at hm
      rcases (Finset.mem_filter.1 hm).2.2 with h0 | h0
      · omega
      · beta_reduce at h0
        rw [Nat.add_sub_cancel, ha] at h0; cases h0
    · intro h c hc
      obtain ⟨h2, h3⟩ := Finset.mem_filter.1 hc
      congr 1
      apply Finset.Subset.antisymm (runStarts_le n _)
      intro i hi
      obtain ⟨hi1, hi2⟩ := Finset.mem_filter.1 hi
      refine Finset.mem_filter.2 ⟨hi1, hi2, ?_⟩
      rcases Nat.eq_zero_or_pos i with h0 | h0
      · exact .inl h0
      · right
        by_contra hc'
        have := Finset.mem_range.1 hi1
        exact h c (Finset.mem_range.1 h2) h3 (i - 1) (by omega) ⟨by simpa using hc', by rw [Nat.sub_add_cancel h0]; exact hi2⟩
  have hval : partitionRate (Arith.exact r t) n cols a g k =
      if sigTotal n cols a g k = 0 then nan else fin (totalPartitions n cols a g k / sigTotal n cols a g k) := by
    unfold partitionRate
    by_cases h : sigTotal n cols a g k = 0
    · rw [if_pos h, h, show totalPartitions n cols a g k = 0 by omega]
      simp [div]
    · rw [if_neg h, div_exact _ _ _ _ (by exact_mod_cast h)]
  constructor
  · rw [hval, ← total_none]
    by_cases h : sigTotal n cols a g k = 0
    · rw [if_pos h]; simp [h]
    · rw [if_neg h]; simp [h]
  · rintro q rfl
    rw [hval]
    by_cases h : sigTotal n cols a g k = 0
    · rw [if_pos h]; exact .inl rfl
    · rw [if_neg h]
      have hp : (0 : ℚ) < (sigTotal n cols a g k : Nat) := by exact_mod_cast Nat.pos_of_ne_zero h
      refine .inr ⟨_, rfl, div_pos (by exact_mod_cast hpos h) hp, ?_, ?_⟩
      · rw [div_le_one hp]; exact_mod_cast hle
      · rw [div_eq_one_iff_eq hp.ne', Nat.cast_inj, heq]

/-! ## Where signals are -/

/-- **C108** (normalised average index).  The mean place of the signals, if the first row has place -1 and the last 1: from -1,
only the first row, to 1, only the last; NaN exactly without signals or with a single row. -/
theorem C108_norm_avg (n : Nat) (a : Nat → Bool) :
    (normAvgIndex1d (Arith.exact r t) n a = nan ↔ n ≤ 1 ∨ ∀ i < n, a i = false) ∧
    (2 ≤ n → (∃ i < n, a i = true) → ∃ q : ℚ, normAvgIndex1d (Arith.exact r t) n a = fin q ∧
      q = (∑ i ∈ sigRows n a, place n i) / (sigRows n a).card ∧ -1 ≤ q ∧ q ≤ 1 ∧
      (q = -1 ↔ ∀ i < n, (a i = true ↔ i = 0)) ∧ (q = 1 ↔ ∀ i < n, (a i = true ↔ i = n - 1))) := by
  constructor
  · rw [normAvg_exact, ← sigRows_none]
    split
    · rename_i h; exact ⟨fun _ => h, fun _ => rfl⟩
    · rename_i h; exact ⟨fun e => (by cases e), fun e => absurd e h⟩
  · rintro hn ⟨j, hj, ha⟩
    have hne : (sigRows n a).Nonempty := ⟨j, Finset.mem_filter.2 ⟨Finset.mem_range.2 hj, ha⟩⟩
    have hb := meanPlace_bounds hn hne fun i hi => Finset.mem_range.1 (Finset.mem_filter.1 hi).1
    have hset : ∀ m < n, (sigRows n a = {m} ↔ ∀ i < n, (a i = true ↔ i = m)) := by
      intro m hm
      rw [Finset.ext_iff]
      simp only [sigRows, Finset.mem_filter, Finset.mem_range, Finset.mem_singleton]
      constructor
      · intro h i hi
        have := h i
        tauto
      · intro h i
        constructor
        · rintro ⟨h1, h2⟩; exact (h i h1).1 h2
        · rintro rfl; exact ⟨hm, (h i hm).2 rfl⟩
    refine ⟨meanPlace n (sigRows n a), ?_, rfl, hb.1, hb.2.1, hb.2.2.1.trans (hset 0 (by omega)), hb.2.2.2.trans (hset (n - 1) (by omega))⟩
    rw [normAvg_exact, if_neg]
    push Not
    exact ⟨by omega, (Finset.card_pos.2 hne).ne'⟩

/-- **C108** (symmetry).  Turned upside down, the signals have the negative index; so it is 0 for signals symmetric around the
middle. -/
theorem C108_norm_avg_mirror {n : Nat} {a : Nat → Bool} {q : ℚ} (h : normAvgIndex1d (Arith.exact r t) n a = fin q) :
    normAvgIndex1d (Arith.exact r t) n (fun i => a (n - 1 - i)) = fin (-q) ∧
    ((∀ i < n, a (n - 1 - i) = a i) → q = 0) := by
  rw [normAvg_exact] at h
  by_cases hc : n ≤ 1 ∨ (sigRows n a).card = 0
  · rw [if_pos hc] at h; cases h
  rw [if_neg hc] at h
  injection h with h
  push Not at hc
  obtain ⟨hn, hne⟩ := hc
  have hn' : ((n : ℚ) - 1) ≠ 0 := by
    have : (2 : ℚ) ≤ n := by exact_mod_cast hn
    linarith
  have hmem : ∀ {b : Nat → Bool} {i : Nat}, i ∈ sigRows n b ↔ i < n ∧ b i = true := by
    intro b i
    simp only [sigRows, Finset.mem_filter, Finset.mem_range]
  have hcard : (sigRows n fun i => a (n - 1 - i)).card = (sigRows n a).card := by
    refine Finset.card_nbij' (fun i => n - 1 - i) (fun i => n - 1 - i) ?_ ?_ ?_ ?_
    · intro i hi
      have := hmem.1 hi
      exact hmem.2 ⟨by show n - 1 - i < n; omega, this.2⟩
    · intro i hi
      have := hmem.1 hi
      refine hmem.2 ⟨by show n - 1 - i < n; omega, ?_⟩
      rw [show n - 1 - (n - 1 - i) = i by omega]
      exact this.2
    · intro i hi
      have := (hmem.1 hi).1
      show n - 1 - (n - 1 - i) = i
      omega
    · intro i hi
      have := (hmem.1 hi).1
      show n - 1 - (n - 1 - i) = i
      omega
  have hsum : ∑ i ∈ sigRows n (fun i => a (n - 1 - i)), place n i = ∑ i ∈ sigRows n a, -place n i := by
    refine Finset.sum_nbij' (fun i => n - 1 - i) (fun i => n - 1 - i) ?_ ?_ ?_ ?_ ?_
    · intro i hi
      have := hmem.1 hi
      exact hmem.2 ⟨by show n - 1 - i < n; omega, this.2⟩
    · intro i hi
      have := hmem.1 hi
      refine hmem.2 ⟨by show n - 1 - i < n; omega, ?_⟩
      rw [show n - 1 - (n - 1 - i) = i by omega]
      exact this.2
    · intro i hi
      have := (hmem.1 hi).1
      show n - 1 - (n - 1 - i) = i
      omega
    · intro i hi
      have := (hmem.1 hi).1
      show n - 1 - (n - 1 - i) = i
      omega
    · intro i hi
      have := (hmem.1 hi).1
      show place n i = -place n (n - 1 - i)
      unfold place
      rw [Nat.cast_sub (show i ≤ n - 1 by omega), Nat.cast_sub (show 1 ≤ n by omega)]
      push_cast
      field_simp
      ring
  have hflip : meanPlace n (sigRows n fun i => a (n - 1 - i)) = -q := by
    unfold meanPlace at h ⊢
    rw [hsum, hcard, Finset.sum_neg_distrib, neg_div, h]
  constructor
  · rw [normAvg_exact, if_neg (by push Not; exact ⟨hn, by rw [hcard]; exact hne⟩), hflip]
  · intro hs
    have : (sigRows n fun i => a (n - 1 - i)) = sigRows n a := by
      ext i
      rw [hmem, hmem]
      exact and_congr_right fun hi => by rw [hs i hi]
    rw [this, h] at hflip
    linarith

theorem groupNormAvg_exact {n cols : Nat} (a : Nat → Nat → Bool) (g : Nat → Nat) (k : Nat) (hn : 2 ≤ n) :
    groupNormAvgIndex (Arith.exact r t) n cols a g k =
      div (Arith.exact r t) (fin (∑ c ∈ groupCols g cols k, ∑ i ∈ sigRows n (fun i => a i c), place n i))
        (fin (∑ c ∈ groupCols g cols k, ((sigRows n fun i => a i c).card : ℚ))) := by
  have hlt : ∀ c ∈ sigColsOf g cols k, c < cols := fun c hc => List.mem_range.1 (List.mem_filter.1 hc).1
  unfold groupNormAvgIndex nansum
  have e1 := nansum_or (r := r) (t := t) (fun c => mul (Arith.exact r t) (normAvgIndex1d (Arith.exact r t) n (getCol a c))
      (fin (sigTotal n cols a id c : Nat))) (fun c => ∑ i ∈ sigRows n (fun i => a i c), place n i) (sigColsOf g cols k) 0 (by
    intro c hc
    rw [sigTotal_col a (hlt c hc), normAvg_exact]
    by_cases h : (sigRows n fun i => a i c).card = 0
    · right
      refine ⟨?_, ?_⟩
      · rw [if_pos (.inr h)]
        rfl
      · rw [Finset.card_eq_zero.1 h, Finset.sum_empty]
    · left
      rw [if_neg (by push Not; exact ⟨by omega, h⟩), mul_exact]
      congr 1
      unfold meanPlace getCol
      have : ((sigRows n fun i => a i c).card : ℚ) ≠ 0 := by exact_mod_cast h
      field_simp)
  have e2 := nansum_or (r := r) (t := t) (fun c => fin (sigTotal n cols a id c : Nat))
    (fun c => ((sigRows n fun i => a i c).card : ℚ)) (sigColsOf g cols k) 0 (by
      intro c hc
      left
      rw [sigTotal_col a (hlt c hc)])
  rw [show (zero : F) = fin 0 from rfl, e1, e2, zero_add, zero_add, sigColsOf_sum, sigColsOf_sum]

/-- **C108** (normalised average index of groups).  The mean place of all signals of the group, from -1 to 1; columns without
signals do not count, and the index is NaN exactly if none has a signal. -/
theorem C108_norm_avg_group {n cols : Nat} (a : Nat → Nat → Bool) (g : Nat → Nat) (k : Nat) (hn : 2 ≤ n) :
    (groupNormAvgIndex (Arith.exact r t) n cols a g k = nan ↔ ∀ c < cols, g c = k → ∀ i < n, a i c = false) ∧
    ((∃ c < cols, g c = k ∧ ∃ i < n, a i c = true) → ∃ q : ℚ, groupNormAvgIndex (Arith.exact r t) n cols a g k = fin q ∧
      q = (∑ c ∈ groupCols g cols k, ∑ i ∈ sigRows n (fun i => a i c), place n i) /
        (∑ c ∈ groupCols g cols k, ((sigRows n fun i => a i c).card : ℚ)) ∧ -1 ≤ q ∧ q ≤ 1) := by
  have hcast : (∑ c ∈ groupCols g cols k, ((sigRows n fun i => a i c).card : ℚ)) = (sigTotal n cols a g k : Nat) := by
    rw [sigTotal_eq]; push_cast; rfl
  have hlo : -((sigTotal n cols a g k : Nat) : ℚ) ≤ ∑ c ∈ groupCols g cols k, ∑ i ∈ sigRows n (fun i => a i c), place n i := by
    rw [← hcast, ← Finset.sum_neg_distrib]
    refine Finset.sum_le_sum fun c _ => ?_
    have : ∑ _i ∈ sigRows n (fun i => a i c), (-1 : ℚ) ≤ ∑ i ∈ sigRows n (fun i => a i c), place n i :=
      Finset.sum_le_sum fun i hi => (place_bounds (Finset.mem_range.1 (Finset.mem_filter.1 hi).1) hn).1
    rwa [Finset.sum_const, nsmul_eq_mul, mul_neg, mul_one] at this
  have hhi : ∑ c ∈ groupCols g cols k, ∑ i ∈ sigRows n (fun i => a i c), place n i ≤ ((sigTotal n cols a g k : Nat) : ℚ) := by
    rw [← hcast]
    refine Finset.sum_le_sum fun c _ => ?_
    have : ∑ i ∈ sigRows n (fun i => a i c), place n i ≤ ∑ _i ∈ sigRows n (fun i => a i c), (1 : ℚ) :=
      Finset.sum_le_sum fun i hi => (place_bounds (Finset.mem_range.1 (Finset.mem_filter.1 hi).1) hn).2.1
    rwa [Finset.sum_const, nsmul_eq_mul, mul_one] at this
  rw [groupNormAvg_exact a g k hn, hcast, ← total_none]
  constructor
  · by_cases h : sigTotal n cols a g k = 0
    · have hz : ∑ c ∈ groupCols g cols k, ∑ i ∈ sigRows n (fun i => a i c), place n i = 0 := by
        rw [h] at hlo hhi
        simp only [Nat.cast_zero, neg_zero] at hlo hhi
        linarith
      rw [h, hz]
      simp [div]
    · rw [div_exact _ _ _ _ (by exact_mod_cast h)]
      simpa using h
  · rintro ⟨c, hc, hg, i, hi, ha⟩
    have h : sigTotal n cols a g k ≠ 0 := by
      intro h
      rw [total_none.1 h c hc hg i hi] at ha
      cases ha
    have hp : (0 : ℚ) < (sigTotal n cols a g k : Nat) := by exact_mod_cast Nat.pos_of_ne_zero h
    refine ⟨_, div_exact _ _ _ _ hp.ne', rfl, ?_, ?_⟩
    · rw [le_div_iff₀ hp]; linarith
    · rw [div_le_iff₀ hp]; linarith

/-- **C108** (finding).  Signals in a single row: NaN for each column, but 0 for the group. -/
theorem C108_single_row_counterexample :
    normAvgIndex1d Arith.std 1 (fun _ => true) = nan ∧ groupNormAvgIndex Arith.std 1 2 (fun _ _ => true) (fun _ => 0) 0 = fin 0 := by
  decide +kernel

/-- **C108** (index in a group).  The rows counted are those with a signal in any column of the group. -/
theorem C108_group_index (n cols : Nat) (a : Nat → Nat → Bool) (g : Nat → Nat) (k : Nat) (m : Int) :
    let idxs := (List.range n).filter fun i => decide (∃ c ∈ Finset.range cols, g c = k ∧ a i c = true)
    groupNthIndex n cols a g k m =
      match (if 0 ≤ m then idxs[m.toNat]? else idxs.reverse[(-m - 1).toNat]?) with | some i => (i : Int) | none => -1 := by
  have h := (C92_nth_index n 1 (fun i _ => (sigColsOf g cols k).any fun c => a i c) m (fun _ => 0) (c := 0) (by decide)).2.2.2
  have e : (getCol (fun i _ => (sigColsOf g cols k).any fun c => a i c) 0 : Nat → Bool) =
      fun i => decide (∃ c ∈ Finset.range cols, g c = k ∧ a i c = true) := by
    funext i
    unfold getCol
    rw [Bool.eq_iff_iff, List.any_eq_true, decide_eq_true_eq]
    unfold sigColsOf
    simp only [List.mem_filter, List.mem_range, decide_eq_true_eq, Finset.mem_range, and_assoc]
  rw [e] at h
  unfold groupNthIndex
  rw [show (fun i => (sigColsOf g cols k).any fun c => a i c) = fun i => decide (∃ c ∈ Finset.range cols, g c = k ∧ a i c = true) from e]
  exact h

/-- **C108** (finding).  In a group with two signals the second one cannot be found if both are in the same row, although `total`
counts two. -/
theorem C108_group_index_counterexample :
    sigTotal 3 2 (fun i _ => decide (i = 1)) (fun _ => 0) 0 = 2 ∧ groupNthIndex 3 2 (fun i _ => decide (i = 1)) (fun _ => 0) 0 0 = 1 ∧
    groupNthIndex 3 2 (fun i _ => decide (i = 1)) (fun _ => 0) 0 1 = -1 := by decide +kernel

/-! ## Examples -/

/-- Six rows, three columns in groups 0, 0, 1; the last column has no signals. -/
def wMask : Nat → Nat → Bool := fun i c =>
  match c with
  | 0 => [true, true, false, true, true, true].getD i false
  | 1 => [false, true, true, false, false, true].getD i false
  | _ => false

/-- Its groups. -/
def wMaskGroups : Nat → Nat := fun c => c / 2

example : sigTotal 6 3 wMask wMaskGroups 0 = 8 ∧ sigTotal 6 3 wMask id 1 = 3 ∧ totalPartitions 6 3 wMask wMaskGroups 0 = 4 ∧
    partitionLens 6 3 wMask wMaskGroups 0 = [2, 3, 2, 1] ∧ totalPartitions 6 3 wMask id 2 = 0 := by decide +kernel

example : ∃ q : ℚ, sigRate (Arith.exact 0 0) 6 3 wMask wMaskGroups 0 = fin q ∧ 0 ≤ q ∧ q ≤ 1 := by
  obtain ⟨q, h, -, h0, h1, -⟩ := C108_rate (r := 0) (t := 0) (n := 6) (cols := 3) wMask (g := wMaskGroups) (k := 0) (by decide) ⟨0, by decide, rfl⟩
  exact ⟨q, h, h0, h1⟩

example : sigRate Arith.std 6 3 wMask wMaskGroups 0 = fin (2 / 3) ∧ partitionRate Arith.std 6 3 wMask wMaskGroups 0 = fin (1 / 2) ∧
    partitionRate Arith.std 6 3 wMask id 2 = nan ∧
    overlapRate Arith.std 6 3 wMask (fun i c => wMask i (c + 1)) id 0 = fin (1 / 3) := by decide +kernel

example : (List.range 6).map (firstSignals 6 (getCol wMask 0) false none false) = [true, false, false, true, false, false] ∧
    (List.range 6).map (nthSignals 6 (getCol wMask 0) 1 false none false) = [false, true, false, false, true, false] ∧
    (List.range 6).map (nthSignals 6 (getCol wMask 0) 2 true none false) = [false, false, false, true, false, false] ∧
    (List.range 6).map (nthSignals 6 (getCol wMask 0) (-1) false none false) = [false, false, true, false, false, false] ∧
    (List.range 6).map (fromNthSignals 6 (getCol wMask 0) 1 false none false) = [false, true, false, false, true, true] := by
  decide +kernel

example : normAvgIndex1d Arith.std 6 (getCol wMask 0) = fin (1 / 25) ∧ groupNormAvgIndex Arith.std 6 3 wMask wMaskGroups 0 = fin (1 / 20) ∧
    groupNormAvgIndex Arith.std 6 3 wMask wMaskGroups 1 = nan ∧ normAvgIndex1d Arith.std 6 (fun i => decide (i = 0)) = fin (-1) ∧
    normAvgIndex1d Arith.std 6 (fun i => decide (i = 2) || decide (i = 3)) = fin 0 := by decide +kernel

example : groupNthIndex 6 3 wMask wMaskGroups 0 2 = 2 ∧ groupNthIndex 6 3 wMask wMaskGroups 0 (-1) = 5 := by decide +kernel

end Vbt
