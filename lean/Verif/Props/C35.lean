import Verif.Lemmas.Signals

/-!
# C35  Signal ranks count positions
-/

namespace Vbt

section
variable {a : Nat → Bool} {resetBy : Option (Nat → Bool)} {afterFalse : Bool}

/-- The last reset in front of row `i`. -/
def resetAt (resetBy : Option (Nat → Bool)) : Nat → Nat
  | 0 => 0
  | i + 1 => if (resetBy.getD fun _ => false) i then i else resetAt resetBy i

theorem rankReset_eq (i : Nat) : rankReset resetBy i (resetAt resetBy i) = resetAt resetBy (i + 1) := by
  unfold rankReset
  rw [resetAt]
  cases resetBy with
  | none => rfl
  | some r =>
    simp only [Option.getD_some]
    split <;> rfl

theorem resetAt_le (i : Nat) : resetAt resetBy (i + 1) ≤ i := by
  induction i with
  | zero => rw [resetAt]; simp [resetAt]
  | succ i ih =>
    rw [resetAt]
    split
    · exact le_refl _
    · omega

theorem resetAt_spec (i : Nat) : LastReset resetBy i (resetAt resetBy (i + 1)) := by
  unfold LastReset
  cases resetBy with
  | none =>
    simp only
    induction i with
    | zero => rfl
    | succ i ih => rw [resetAt]; exact ih
  | some r =>
    simp only
    induction i with
    | zero =>
      rw [resetAt]
      simp only [Option.getD_some, resetAt, ite_self]
      by_cases h : r 0 = true
      · exact Or.inl ⟨le_refl _, h, fun k _ _ => by omega⟩
      · refine Or.inr ⟨by simp, fun k hk => ?_⟩
        rw [Nat.le_zero.mp hk]; simpa using h
    | succ i ih =>
      rw [resetAt]
      simp only [Option.getD_some]
      by_cases h : r (i + 1) = true
      · rw [if_pos h]
        exact Or.inl ⟨le_refl _, h, fun k _ _ => by omega⟩
      · rw [if_neg h]
        rcases ih with ⟨i1, i2, i3⟩ | ⟨i1, i2⟩
        · refine Or.inl ⟨by omega, i2, fun k k1 k2 => ?_⟩
          rcases Nat.le_succ_iff.mp k2 with hk | rfl
          · exact i3 k k1 hk
          · simpa using h
        · refine Or.inr ⟨i1, fun k k2 => ?_⟩
          rcases Nat.le_succ_iff.mp k2 with hk | rfl
          · exact i2 k hk
          · simpa using h

theorem LastReset.unique {i q q' : Nat} (h : LastReset resetBy i q) (h' : LastReset resetBy i q') : q = q' := by
  unfold LastReset at h h'
  cases resetBy with
  | none => simp only at h h'; omega
  | some r =>
    simp only at h h'
    rcases h with ⟨h1, h2, h3⟩ | ⟨h1, h2⟩ <;> rcases h' with ⟨g1, g2, g3⟩ | ⟨g1, g2⟩
    · by_contra hne
      rcases Nat.lt_or_gt_of_ne hne with hlt | hlt
      · rw [h3 q' hlt g1] at g2; cases g2
      · rw [g3 q hlt h1] at h2; cases h2
    · rw [g2 q h1] at h2; cases h2
    · rw [h2 q' g1] at g2; cases g2
    · omega

/-- If there is no reset after row `p`, the last reset is the same. -/
theorem resetAt_back {p i : Nat} (hpi : p ≤ i) (h : resetAt resetBy (i + 1) ≤ p) :
    resetAt resetBy (p + 1) = resetAt resetBy (i + 1) := by
  refine LastReset.unique (resetAt_spec p) ?_
  have hs := resetAt_spec (resetBy := resetBy) i
  unfold LastReset at hs ⊢
  cases resetBy with
  | none => exact hs
  | some r =>
    simp only at hs ⊢
    rcases hs with ⟨h1, h2, h3⟩ | ⟨h1, h2⟩
    · exact Or.inl ⟨h, h2, fun k k1 k2 => h3 k k1 (by omega)⟩
    · exact Or.inr ⟨h1, fun k k1 => h2 k (by omega)⟩

/-- Between ranked signals without ranked signals in between there is a false value. -/
theorem not_ranked_prev {i : Nat} (hi : 0 < i) (h : Ranked a afterFalse i) (hn : ¬ Ranked a afterFalse (i - 1)) :
    a (i - 1) = false := by
  by_contra hc
  apply hn
  refine ⟨by simpa using hc, fun hf => ?_⟩
  obtain ⟨k, k1, k2⟩ := h.2 hf
  refine ⟨k, ?_, k2⟩
  by_contra hk
  have : k = i - 1 := by omega
  rw [this] at k2
  exact hc k2

/-- Signals after a ranked signal are ranked. -/
theorem ranked_later {p k : Nat} (h : Ranked a afterFalse p) (hpk : p ≤ k) (hk : a k = true) : Ranked a afterFalse k := by
  refine ⟨hk, fun hf => ?_⟩
  obtain ⟨m, m1, m2⟩ := h.2 hf
  exact ⟨m, by omega, m2⟩

/-- A rank function computes the ranks `R` from the rank of the last ranked signal. -/
structure Computes (a : Nat → Bool) (resetBy : Option (Nat → Bool)) (afterFalse : Bool) (f : RankFunc) (R : Nat → Int) :
    Prop where
  first : ∀ i, Ranked a afterFalse i → (∀ k < i, ¬ Ranked a afterFalse k) →
    f i (resetAt resetBy (i + 1)) (-1) i (-1) = (R i, R i)
  same : ∀ i, Ranked a afterFalse i → 0 < i → Ranked a afterFalse (i - 1) → ∀ (prevEnd start : Int), prevEnd < start →
    start < i → f i (resetAt resetBy (i + 1)) prevEnd start (R (i - 1)) = (R i, R i)
  next : ∀ i p, Ranked a afterFalse i → Ranked a afterFalse p → p + 1 < i → (∀ k, p < k → k < i → a k = false) →
    f i (resetAt resetBy (i + 1)) p i (R p) = (R i, R i)

/-- The state after `i` rows. -/
structure RankInv (a : Nat → Bool) (resetBy : Option (Nat → Bool)) (afterFalse : Bool) (R : Nat → Int) (i : Nat)
    (s : RankState) : Prop where
  reset : s.resetI = resetAt resetBy i
  seen : s.falseSeen = true ↔ afterFalse = false ∨ ∃ k, k < i ∧ a k = false
  inside : s.inPartition = true ↔ 0 < i ∧ Ranked a afterFalse (i - 1)
  last : ((∀ k < i, ¬ Ranked a afterFalse k) ∧ s.temp = -1 ∧ s.prevPartEnd = -1) ∨
    ∃ p, p < i ∧ Ranked a afterFalse p ∧ (∀ k, p < k → k < i → ¬ Ranked a afterFalse k) ∧ s.temp = R p ∧
      (s.inPartition = true → s.prevPartEnd < s.partStart ∧ s.partStart < i) ∧
      (s.inPartition = false → s.prevPartEnd = p)
  out : ∀ j, (j < i ∧ Ranked a afterFalse j → s.out j = R j) ∧ (¬ (j < i ∧ Ranked a afterFalse j) → s.out j = -1)

theorem rankInv {f : RankFunc} {R : Nat → Int} (hf : Computes a resetBy afterFalse f R) (i : Nat) :
    RankInv a resetBy afterFalse R i ((List.range i).foldl (rankStep a resetBy afterFalse f)
      ⟨0, -1, -1, false, !afterFalse, -1, fun _ => -1⟩) := by
  induction i with
  | zero =>
    refine ⟨rfl, by simp, by simp, Or.inl ⟨fun k hk => by omega, rfl, rfl⟩, fun j => ⟨fun h => by omega, fun _ => rfl⟩⟩
  | succ i ih =>
    rw [List.range_succ, List.foldl_append, List.foldl_cons, List.foldl_nil]
    generalize (List.range i).foldl (rankStep a resetBy afterFalse f)
      ⟨0, -1, -1, false, !afterFalse, -1, fun _ => -1⟩ = s at ih
    obtain ⟨h1, h2, h3, h4, h5⟩ := ih
    have e2 : { s with resetI := rankReset resetBy i s.resetI } =
        { s with resetI := (resetAt resetBy (i + 1) : Int) } := by
      rw [h1, rankReset_eq]
    unfold rankStep
    rw [e2]
    -- the ranked case
    have hcond : (a i && !(afterFalse && !s.falseSeen)) = true ↔ Ranked a afterFalse i := by
      unfold Ranked
      simp only [Bool.and_eq_true, Bool.not_eq_true', Bool.and_eq_false_iff, Bool.not_eq_false']
      rw [h2]
      cases afterFalse <;> simp
    dsimp only
    by_cases hr : Ranked a afterFalse i
    · rw [if_pos (hcond.mpr hr)]
      have hf' : f i (resetAt resetBy (i + 1)) s.prevPartEnd (if (!s.inPartition) = true then (i : Int) else s.partStart) s.temp =
          (R i, R i) ∧ s.prevPartEnd < (if (!s.inPartition) = true then (i : Int) else s.partStart) ∧
          (if (!s.inPartition) = true then (i : Int) else s.partStart) < i + 1 := by
        rcases h4 with ⟨l1, l2, l3⟩ | ⟨p, l1, l2, l3, l4, l5, l6⟩
        · have hin : s.inPartition = false := by
            by_contra hc
            have := h3.mp (by simpa using hc)
            exact l1 (i - 1) (by omega) this.2
          rw [hin, l2, l3]
          simp only [Bool.not_false, if_true]
          exact ⟨hf.first i hr l1, by omega, by omega⟩
        · cases hin : s.inPartition
          · simp only [Bool.not_false, if_true]
            have hnp : ¬ (0 < i ∧ Ranked a afterFalse (i - 1)) := fun h => by
              rw [h3.mpr h] at hin; cases hin
            have hpi : p + 1 < i := by
              by_contra hc
              have : p = i - 1 := by omega
              exact hnp ⟨by omega, this ▸ l2⟩
            rw [l6 hin, l4]
            refine ⟨hf.next i p hr l2 hpi fun k k1 k2 => ?_, by omega, by omega⟩
            by_contra hc
            exact l3 k k1 k2 (ranked_later l2 (le_of_lt k1) (by simpa using hc))
          · have hin' := h3.mp hin
            have hp : p = i - 1 := by
              by_contra hc
              exact l3 (i - 1) (by omega) (by omega) hin'.2
            obtain ⟨l7, l8⟩ := l5 hin
            rw [l4, hp]
            simp only [Bool.not_true, Bool.false_eq_true, if_false]
            exact ⟨hf.same i hr hin'.1 hin'.2 _ _ l7 l8, l7, by omega⟩
      obtain ⟨g1, g2, g3⟩ := hf'
      rw [g1]
      refine ⟨rfl, ?_, ?_, Or.inr ⟨i, by omega, hr, fun k k1 k2 => by omega, rfl, fun _ => ⟨g2, by push_cast; exact g3⟩, (fun h => by cases h)⟩,
        fun j => ?_⟩
      · simp only
        rw [h2]
        constructor
        · rintro (h | ⟨k, k1, k2⟩)
          · exact Or.inl h
          · exact Or.inr ⟨k, by omega, k2⟩
        · rintro (h | ⟨k, k1, k2⟩)
          · exact Or.inl h
          · rcases Nat.lt_succ_iff_lt_or_eq.mp k1 with hk | rfl
            · exact Or.inr ⟨k, hk, k2⟩
            · rw [hr.1] at k2; cases k2
      · simp only [true_iff]
        exact ⟨by omega, by simpa using hr⟩
      · simp only [setAt]
        constructor
        · rintro ⟨j1, j2⟩
          split
          · rename_i h; rw [h]
          · exact (h5 j).1 ⟨by omega, j2⟩
        · intro hj
          split
          · rename_i h; subst h; exact absurd ⟨by omega, hr⟩ hj
          · exact (h5 j).2 (fun h => hj ⟨by omega, h.2⟩)
    · rw [if_neg (fun h => hr (hcond.mp h))]
      have hout : ∀ j, (j < i + 1 ∧ Ranked a afterFalse j → s.out j = R j) ∧
          (¬ (j < i + 1 ∧ Ranked a afterFalse j) → s.out j = -1) := by
        intro j
        constructor
        · rintro ⟨j1, j2⟩
          rcases Nat.lt_succ_iff_lt_or_eq.mp j1 with hj | rfl
          · exact (h5 j).1 ⟨hj, j2⟩
          · exact absurd j2 hr
        · exact fun hj => (h5 j).2 (fun h => hj ⟨by omega, h.2⟩)
      have hnone : (∀ k < i, ¬ Ranked a afterFalse k) → ∀ k < i + 1, ¬ Ranked a afterFalse k := by
        intro h k hk
        rcases Nat.lt_succ_iff_lt_or_eq.mp hk with hk | rfl
        · exact h k hk
        · exact hr
      by_cases ha : a i = true
      · -- a signal in front of the first false value
        rw [if_neg (by simp [ha])]
        have hno : ∀ k < i, ¬ Ranked a afterFalse k := fun k hk h => hr (ranked_later h (le_of_lt hk) ha)
        have hin : s.inPartition = false := by
          by_contra hc
          have := h3.mp (by simpa using hc)
          exact hno (i - 1) (by omega) this.2
        refine ⟨rfl, ?_, ?_, ?_, hout⟩
        · simp only
          rw [h2]
          constructor
          · rintro (h | ⟨k, k1, k2⟩)
            · exact Or.inl h
            · exact Or.inr ⟨k, by omega, k2⟩
          · rintro (h | ⟨k, k1, k2⟩)
            · exact Or.inl h
            · rcases Nat.lt_succ_iff_lt_or_eq.mp k1 with hk | rfl
              · exact Or.inr ⟨k, hk, k2⟩
              · rw [ha] at k2; cases k2
        · simp only [hin, Bool.false_eq_true, false_iff]
          rintro ⟨-, h⟩
          exact hr (by simpa using h)
        · rcases h4 with ⟨l1, l2, l3⟩ | ⟨p, l1, l2, l3⟩
          · exact Or.inl ⟨hnone l1, l2, l3⟩
          · exact absurd l2 (hno p l1)
      · rw [if_pos (by simpa using ha)]
        have ha' : a i = false := by simpa using ha
        refine ⟨rfl, ?_, ?_, ?_, hout⟩
        · simp only [true_iff]
          exact Or.inr ⟨i, by omega, ha'⟩
        · simp only [Bool.false_eq_true, false_iff]
          rintro ⟨-, h⟩
          exact hr (by simpa using h)
        · rcases h4 with ⟨l1, l2, l3⟩ | ⟨p, l1, l2, l3, l4, l5, l6⟩
          · have hin : s.inPartition = false := by
              by_contra hc
              have := h3.mp (by simpa using hc)
              exact l1 (i - 1) (by omega) this.2
            refine Or.inl ⟨hnone l1, l2, ?_⟩
            simp only [hin, Bool.false_eq_true, if_false]
            exact l3
          · refine Or.inr ⟨p, by omega, l2, fun k k1 k2 => ?_, l4, (fun h => by cases h), fun _ => ?_⟩
            · rcases Nat.lt_succ_iff_lt_or_eq.mp k2 with hk | rfl
              · exact l3 k k1 hk
              · exact hr
            · simp only
              cases hin : s.inPartition
              · simp only [Bool.false_eq_true, if_false]
                exact l6 hin
              · simp only [if_true]
                have hin' := h3.mp hin
                by_contra hc
                exact l3 (i - 1) (by omega) (by omega) hin'.2

theorem rank_of {f : RankFunc} {R : Nat → Int} (hf : Computes a resetBy afterFalse f R) (n i : Nat) :
    (i < n ∧ Ranked a afterFalse i → rank n a resetBy afterFalse f i = R i) ∧
    (¬ (i < n ∧ Ranked a afterFalse i) → rank n a resetBy afterFalse f i = -1) :=
  (rankInv hf n).out i

end

/-! ## The two rank functions -/

section
variable (a : Nat → Bool) (resetBy : Option (Nat → Bool)) (afterFalse allowGaps : Bool)

theorem earlierSignals_empty {q i : Nat} (h : ∀ k < i, q ≤ k → ¬ Ranked a afterFalse k) :
    earlierSignals a afterFalse allowGaps q i = ∅ := by
  unfold earlierSignals
  classical
  rw [Finset.filter_eq_empty_iff]
  intro k hk hc
  exact h k (Finset.mem_range.mp hk) hc.1 hc.2.1

theorem earlierRuns_empty {q i : Nat} (h : ∀ k < i, q ≤ k → ¬ Ranked a afterFalse k) :
    earlierRuns a afterFalse q i = ∅ := by
  unfold earlierRuns
  classical
  rw [Finset.filter_eq_empty_iff]
  intro k hk hc
  exact h k (Finset.mem_range.mp hk) hc.1 hc.2.1

theorem sigPos_computes : Computes a resetBy afterFalse (sigPosRank allowGaps)
    (fun i => ((earlierSignals a afterFalse allowGaps (resetAt resetBy (i + 1)) i).card : Int)) where
  first := fun i hi hno => by
    have hle := resetAt_le (resetBy := resetBy) i
    rw [earlierSignals_empty a afterFalse allowGaps (fun k hk _ => hno k hk)]
    unfold sigPosRank
    rw [if_pos ⟨by omega, by omega⟩]
    rfl
  same := fun i hi h0 hp prevEnd start h1 h2 => by
    have hle := resetAt_le (resetBy := resetBy) i
    unfold sigPosRank
    by_cases hq : resetAt resetBy (i + 1) = i
    · rw [if_pos ⟨by omega, by omega⟩, earlierSignals_empty a afterFalse allowGaps (fun k hk hk' => by omega)]
      rfl
    · rw [if_neg (by omega), if_neg (by omega)]
      have hb : resetAt resetBy (i - 1 + 1) = resetAt resetBy (i + 1) := resetAt_back (by omega) (by omega)
      dsimp only
      rw [hb]
      have : earlierSignals a afterFalse allowGaps (resetAt resetBy (i + 1)) i =
          insert (i - 1) (earlierSignals a afterFalse allowGaps (resetAt resetBy (i + 1)) (i - 1)) := by
        ext j
        unfold earlierSignals
        simp only [Finset.mem_insert, Finset.mem_filter, Finset.mem_range]
        constructor
        · rintro ⟨j1, j2, j3, j4⟩
          by_cases hj : j = i - 1
          · exact Or.inl hj
          · exact Or.inr ⟨by omega, j2, j3, j4.imp (fun h => h) (fun h k k1 k2 => h k k1 (by omega))⟩
        · rintro (rfl | ⟨j1, j2, j3, j4⟩)
          · refine ⟨by omega, by omega, hp, Or.inr fun k k1 k2 => ?_⟩
            by_cases hk : k = i
            · rw [hk]; exact hi.1
            · rw [show k = i - 1 by omega]; exact hp.1
          · refine ⟨by omega, j2, j3, j4.imp (fun h => h) (fun h k k1 k2 => ?_)⟩
            by_cases hk : k = i
            · rw [hk]; exact hi.1
            · exact h k k1 (by omega)
      rw [this, Finset.card_insert_of_notMem (by unfold earlierSignals; simp)]
      push_cast
      rfl
  next := fun i p hi hp hpi hno => by
    have hle := resetAt_le (resetBy := resetBy) i
    have hrank : ∀ k, p < k → k < i → ¬ Ranked a afterFalse k := fun k k1 k2 h => by
      have := h.1
      rw [hno k k1 k2] at this; cases this
    unfold sigPosRank
    by_cases hq : p < resetAt resetBy (i + 1)
    · rw [if_pos ⟨by omega, by omega⟩,
        earlierSignals_empty a afterFalse allowGaps (fun k hk hk' => hrank k (by omega) hk)]
      rfl
    · rw [if_neg (by omega)]
      have hb : resetAt resetBy (p + 1) = resetAt resetBy (i + 1) := resetAt_back (by omega) (by omega)
      dsimp only
      rw [hb]
      cases allowGaps
      · rw [if_pos ⟨by simp, rfl⟩]
        have : earlierSignals a afterFalse false (resetAt resetBy (i + 1)) i = ∅ := by
          unfold earlierSignals
          classical
          rw [Finset.filter_eq_empty_iff]
          rintro j hj ⟨-, -, h | h⟩
          · cases h
          · have := h (i - 1) (by have := Finset.mem_range.mp hj; omega) (by omega)
            rw [hno (i - 1) (by omega) (by omega)] at this
            cases this
        rw [this]
        rfl
      · rw [if_neg (by simp)]
        have : earlierSignals a afterFalse true (resetAt resetBy (i + 1)) i =
            insert p (earlierSignals a afterFalse true (resetAt resetBy (i + 1)) p) := by
          ext j
          unfold earlierSignals
          simp only [Finset.mem_insert, Finset.mem_filter, Finset.mem_range, true_or, and_true]
          constructor
          · rintro ⟨j1, j2, j3⟩
            rcases Nat.lt_trichotomy j p with h | h | h
            · exact Or.inr ⟨h, j2, j3⟩
            · exact Or.inl h
            · exact absurd j3 (hrank j h j1)
          · rintro (rfl | ⟨j1, j2, j3⟩)
            · exact ⟨by omega, by omega, hp⟩
            · exact ⟨by omega, j2, j3⟩
        rw [this, Finset.card_insert_of_notMem (by unfold earlierSignals; simp)]
        push_cast
        rfl

theorem partPos_computes : Computes a resetBy afterFalse partPosRank
    (fun i => ((earlierRuns a afterFalse (resetAt resetBy (i + 1)) i).card : Int)) where
  first := fun i hi hno => by
    have hle := resetAt_le (resetBy := resetBy) i
    rw [earlierRuns_empty a afterFalse (fun k hk _ => hno k hk)]
    unfold partPosRank
    rw [if_pos ⟨by omega, by omega⟩]
    rfl
  same := fun i hi h0 hp prevEnd start h1 h2 => by
    have hle := resetAt_le (resetBy := resetBy) i
    unfold partPosRank
    by_cases hq : resetAt resetBy (i + 1) = i
    · rw [if_pos ⟨by omega, by omega⟩, earlierRuns_empty a afterFalse (fun k hk hk' => by omega)]
      rfl
    · rw [if_neg (by omega), if_neg (by omega)]
      have hb : resetAt resetBy (i - 1 + 1) = resetAt resetBy (i + 1) := resetAt_back (by omega) (by omega)
      dsimp only
      rw [hb]
      have : earlierRuns a afterFalse (resetAt resetBy (i + 1)) i =
          earlierRuns a afterFalse (resetAt resetBy (i + 1)) (i - 1) := by
        ext j
        unfold earlierRuns
        simp only [Finset.mem_filter, Finset.mem_range]
        constructor
        · rintro ⟨j1, j2, j3, j4⟩
          refine ⟨?_, j2, j3, j4⟩
          by_contra hj
          rw [show j + 1 = i by omega, hi.1] at j4
          cases j4
        · rintro ⟨j1, j2⟩
          exact ⟨by omega, j2⟩
      rw [this]
  next := fun i p hi hp hpi hno => by
    have hle := resetAt_le (resetBy := resetBy) i
    have hrank : ∀ k, p < k → k < i → ¬ Ranked a afterFalse k := fun k k1 k2 h => by
      have := h.1
      rw [hno k k1 k2] at this; cases this
    unfold partPosRank
    by_cases hq : p < resetAt resetBy (i + 1)
    · rw [if_pos ⟨by omega, by omega⟩, earlierRuns_empty a afterFalse (fun k hk hk' => hrank k (by omega) hk)]
      rfl
    · rw [if_neg (by omega), if_pos rfl]
      have hb : resetAt resetBy (p + 1) = resetAt resetBy (i + 1) := resetAt_back (by omega) (by omega)
      dsimp only
      rw [hb]
      have : earlierRuns a afterFalse (resetAt resetBy (i + 1)) i =
          insert p (earlierRuns a afterFalse (resetAt resetBy (i + 1)) p) := by
        ext j
        unfold earlierRuns
        simp only [Finset.mem_insert, Finset.mem_filter, Finset.mem_range]
        constructor
        · rintro ⟨j1, j2, j3⟩
          rcases Nat.lt_trichotomy j p with h | h | h
          · exact Or.inr ⟨h, j2, j3⟩
          · exact Or.inl h
          · exact absurd j3.1 (hrank j h j1)
        · rintro (rfl | ⟨j1, j2, j3⟩)
          · exact ⟨by omega, by omega, hp, hno _ (by omega) (by omega)⟩
          · exact ⟨by omega, j2, j3⟩
      rw [this, Finset.card_insert_of_notMem (by unfold earlierRuns; simp)]
      push_cast
      rfl

/-- **C35** (rank by position).  The rank of a signal is the number of ranked signals since the last reset and, without gaps,
in the same run. -/
theorem C35_position {n i q : Nat} (hi : i < n) (hr : Ranked a afterFalse i) (hq : LastReset resetBy i q) :
    rank n a resetBy afterFalse (sigPosRank allowGaps) i = (earlierSignals a afterFalse allowGaps q i).card := by
  rw [(rank_of (sigPos_computes a resetBy afterFalse allowGaps) n i).1 ⟨hi, hr⟩, (resetAt_spec i).unique hq]

/-- **C35** (rank by partition).  The rank of a signal is the number of runs that ended since the last reset. -/
theorem C35_partition {n i q : Nat} (hi : i < n) (hr : Ranked a afterFalse i) (hq : LastReset resetBy i q) :
    rank n a resetBy afterFalse partPosRank i = (earlierRuns a afterFalse q i).card := by
  rw [(rank_of (partPos_computes a resetBy afterFalse) n i).1 ⟨hi, hr⟩, (resetAt_spec i).unique hq]

/-- **C35** (rows that are not ranked) have rank -1 with every rank function. -/
theorem C35_not_ranked (f : RankFunc) {n i : Nat} (hr : ¬ Ranked a afterFalse i) :
    rank n a resetBy afterFalse f i = -1 := by
  unfold rank
  have key : ∀ m, ((List.range m).foldl (rankStep a resetBy afterFalse f)
      ⟨0, -1, -1, false, !afterFalse, -1, fun _ => -1⟩).out i = -1 ∧
      (((List.range m).foldl (rankStep a resetBy afterFalse f)
      ⟨0, -1, -1, false, !afterFalse, -1, fun _ => -1⟩).falseSeen = true → afterFalse = true → ∃ k, k < m ∧ a k = false) := by
    intro m
    induction m with
    | zero => refine ⟨rfl, fun h h' => ?_⟩; simp only [List.range_zero, List.foldl_nil, h'] at h; cases h
    | succ m ih =>
      rw [List.range_succ, List.foldl_append, List.foldl_cons, List.foldl_nil]
      generalize (List.range m).foldl (rankStep a resetBy afterFalse f)
        ⟨0, -1, -1, false, !afterFalse, -1, fun _ => -1⟩ = s at ih
      obtain ⟨h1, h2⟩ := ih
      unfold rankStep
      dsimp only
      split
      · rename_i hc
        refine ⟨?_, fun h h' => ?_⟩
        · unfold setAt
          dsimp only
          by_cases him : i = m
          · exfalso
            apply hr
            subst him
            rw [Bool.and_eq_true] at hc
            refine ⟨hc.1, fun hf => ?_⟩
            refine h2 ?_ hf
            simpa [hf] using hc.2
          · rw [if_neg him]; exact h1
        · obtain ⟨k, k1, k2⟩ := h2 h h'
          exact ⟨k, by omega, k2⟩
      · split
        · rename_i ha
          exact ⟨h1, fun _ _ => ⟨m, by omega, by simpa using ha⟩⟩
        · refine ⟨h1, fun h h' => ?_⟩
          obtain ⟨k, k1, k2⟩ := h2 h h'
          exact ⟨k, by omega, k2⟩
  exact (key n).1

end

/-- Non-vacuity: two runs before, within and after a reset at row 6. -/
example :
    let a := fun i => [true, true, false, true, true, false, true, true, false, true].getD i false
    let r := fun i => i == 7
    (List.range 10).map (rank 10 a none false (sigPosRank false)) = [0, 1, -1, 0, 1, -1, 0, 1, -1, 0] ∧
    (List.range 10).map (rank 10 a (some r) false (sigPosRank true)) = [0, 1, -1, 2, 3, -1, 4, 0, -1, 1] ∧
    (List.range 10).map (rank 10 a (some r) true partPosRank) = [-1, -1, -1, 0, 0, -1, 1, 0, -1, 1] := by decide +kernel

end Vbt
