import Verif.Lemmas.Signals

/-!
# C34  Ranges between signals are complete
-/

namespace Vbt

/-! ## Records -/

theorem rangesOf_inner (c : Nat) : ∀ (l : List (Nat × Nat × Int)) (out : List RangeRec),
    (∀ k, (h : k < out.length) → (out[k]).id = k) →
    let out' := l.foldl (fun out r => out ++ [(⟨out.length, c, r.1, r.2.1, r.2.2⟩ : RangeRec)]) out
    (∀ k, (h : k < out'.length) → (out'[k]).id = k) ∧
    out'.map (fun r => (r.col, r.start, r.stop, r.status)) =
      out.map (fun r => (r.col, r.start, r.stop, r.status)) ++ l.map (fun r => (c, r)) := by
  intro l
  induction l with
  | nil => intro out h; exact ⟨h, by simp⟩
  | cons r l ih =>
    intro out h
    have := ih (out ++ [⟨out.length, c, r.1, r.2.1, r.2.2⟩]) (fun k hk => by
      rw [List.getElem_append]
      split
      · exact h k _
      · rename_i hk'
        simp only [List.length_append, List.length_singleton] at hk
        simp only [List.getElem_singleton]
        omega)
    refine ⟨this.1, ?_⟩
    simp only [List.foldl_cons]
    rw [this.2]
    simp

/-- **C34** (records).  The records are those of the columns in order, numbered from 0. -/
theorem C34_records (cols : Nat) (f : Nat → List (Nat × Nat × Int)) :
    (∀ k, (h : k < (rangesOf cols f).length) → ((rangesOf cols f)[k]).id = k) ∧
    (rangesOf cols f).map (fun r => (r.col, r.start, r.stop, r.status)) =
      (List.range cols).flatMap fun c => (f c).map fun r => (c, r) := by
  unfold rangesOf
  induction cols with
  | zero => exact ⟨(fun k h => by cases h), rfl⟩
  | succ m ih =>
    rw [List.range_succ, List.foldl_append, List.foldl_cons, List.foldl_nil, List.flatMap_append]
    have := rangesOf_inner m (f m) _ ih.1
    refine ⟨this.1, ?_⟩
    rw [this.2, ih.2]
    simp

/-! ## Consecutive signals -/

theorem mem_zip_tail : ∀ (l : List Nat), l.Pairwise (· < ·) → ∀ i j,
    (i, j) ∈ l.zip l.tail ↔ i ∈ l ∧ j ∈ l ∧ i < j ∧ ∀ k ∈ l, ¬ (i < k ∧ k < j) := by
  intro l
  induction l with
  | nil => intro _ i j; simp
  | cons a l ih =>
    intro hs i j
    rw [List.pairwise_cons] at hs
    cases l with
    | nil =>
      simp only [List.tail_cons, List.zip_nil_right, List.not_mem_nil, false_iff]
      rintro ⟨h1, h2, h3, -⟩
      simp only [List.mem_singleton] at h1 h2
      omega
    | cons b l =>
      have ih' := ih hs.2 i j
      simp only [List.tail_cons] at ih' ⊢
      rw [List.zip_cons_cons, List.mem_cons, ih']
      have hb : ∀ c ∈ b :: l, b ≤ c := fun c hc => by
        rcases List.mem_cons.mp hc with rfl | hc
        · exact le_refl _
        · exact le_of_lt (List.rel_of_pairwise_cons hs.2 hc)
      constructor
      · rintro (h | ⟨h1, h2, h3, h4⟩)
        · cases h
          refine ⟨by simp, by simp, hs.1 j (by simp), fun k hk => ?_⟩
          rcases List.mem_cons.mp hk with rfl | hk
          · omega
          · have := hb k hk; omega
        · refine ⟨List.mem_cons_of_mem _ h1, List.mem_cons_of_mem _ h2, h3, fun k hk => ?_⟩
          rcases List.mem_cons.mp hk with rfl | hk
          · have := hs.1 i h1; omega
          · exact h4 k hk
      · rintro ⟨h1, h2, h3, h4⟩
        rcases List.mem_cons.mp h1 with rfl | h1'
        · left
          rcases List.mem_cons.mp h2 with rfl | h2
          · omega
          · have e1 := hb j h2
            have e2 := h4 b (by simp)
            have e3 := hs.1 b (by simp)
            have : j = b := by omega
            rw [this]
        · right
          have hai := hs.1 i h1'
          rcases List.mem_cons.mp h2 with rfl | h2
          · omega
          · exact ⟨h1', h2, h3, fun k hk => h4 k (List.mem_cons_of_mem _ hk)⟩

theorem zip_tail_sorted : ∀ (l : List Nat), l.Pairwise (· < ·) →
    (l.zip l.tail).Pairwise fun p q => p.1 < q.1 := by
  intro l hl
  induction l with
  | nil => exact List.Pairwise.nil
  | cons a l ih =>
    cases l with
    | nil => exact List.Pairwise.nil
    | cons b l =>
      have h' := List.pairwise_cons.mp hl
      rw [List.tail_cons, List.zip_cons_cons, List.pairwise_cons]
      exact ⟨fun q hq => h'.1 _ (List.of_mem_zip (a := q.1) (b := q.2) hq).1, ih h'.2⟩

/-- **C34** (consecutive signals).  The ranges of a column are exactly the pairs of consecutive signals, in order. -/
theorem C34_between (n : Nat) (a : Nat → Bool) :
    (∀ i j st, (i, j, st) ∈ betweenCol n a ↔
      st = RangeStatus.Closed ∧ i < j ∧ j < n ∧ a i = true ∧ a j = true ∧ ∀ k, i < k → k < j → a k = false) ∧
    (betweenCol n a).Pairwise fun p q => p.1 < q.1 := by
  have hs := flatnonzero_sorted n a
  unfold betweenCol
  constructor
  · intro i j st
    dsimp only
    rw [List.mem_map]
    constructor
    · rintro ⟨p, h1, h2⟩
      simp only [Prod.mk.injEq] at h2
      obtain ⟨rfl, rfl, rfl⟩ := h2
      obtain ⟨m1, m2, m3, m4⟩ := (mem_zip_tail _ hs p.1 p.2).mp h1
      rw [mem_flatnonzero] at m1 m2
      refine ⟨rfl, m3, m2.1, m1.2, m2.2, fun k k1 k2 => ?_⟩
      by_contra hk
      exact m4 k (mem_flatnonzero.mpr ⟨k2.trans m2.1, by simpa using hk⟩) ⟨k1, k2⟩
    · rintro ⟨rfl, h1, h2, h3, h4, h5⟩
      refine ⟨(i, j), (mem_zip_tail _ hs i j).mpr ⟨mem_flatnonzero.mpr ⟨by omega, h3⟩, mem_flatnonzero.mpr ⟨h2, h4⟩, h1,
        fun k hk hij => ?_⟩, rfl⟩
      rw [mem_flatnonzero, h5 k hij.1 hij.2] at hk
      cases hk.2
  · dsimp only
    rw [List.pairwise_map]
    exact zip_tail_sorted _ hs

/-! ## Signals of two arrays -/

theorem mem_skipBelow (f : Nat) : ∀ (l : List Nat), l.Pairwise (· < ·) → ∀ k, k ∈ skipBelow f l ↔ k ∈ l ∧ f ≤ k := by
  intro l
  induction l with
  | nil => intro _ k; simp [skipBelow]
  | cons b l ih =>
    intro hs k
    unfold skipBelow
    split
    · rw [ih (List.pairwise_cons.mp hs).2 k, List.mem_cons]
      constructor
      · rintro ⟨h1, h2⟩; exact ⟨Or.inr h1, h2⟩
      · rintro ⟨h1 | h1, h2⟩
        · omega
        · exact ⟨h1, h2⟩
    · constructor
      · intro h
        refine ⟨h, ?_⟩
        rcases List.mem_cons.mp h with rfl | h
        · omega
        · have := (List.pairwise_cons.mp hs).1 k h; omega
      · exact fun h => h.1

theorem skipBelow_sorted (f : Nat) : ∀ (l : List Nat), l.Pairwise (· < ·) → (skipBelow f l).Pairwise (· < ·) := by
  intro l
  induction l with
  | nil => intro h; exact h
  | cons b l ih =>
    intro hs
    unfold skipBelow
    split
    · exact ih (List.pairwise_cons.mp hs).2
    · exact hs

theorem mem_toNext : ∀ (as bs : List Nat), as.Pairwise (· < ·) → bs.Pairwise (· < ·) → ∀ i j st,
    (i, j, st) ∈ toNext as bs ↔ st = RangeStatus.Closed ∧ i ∈ as ∧ j ∈ bs ∧ i ≤ j ∧ ∀ k ∈ bs, i ≤ k → j ≤ k := by
  intro as
  induction as with
  | nil => intro bs _ _ i j st; simp [toNext]
  | cons f as ih =>
    intro bs ha hb i j st
    rw [List.pairwise_cons] at ha
    have hsk := mem_skipBelow f bs hb
    have hss := skipBelow_sorted f bs hb
    have hrest : ∀ i ∈ as, ∀ l, skipBelow f bs = l → ((i, j, st) ∈ toNext as l ↔
        st = RangeStatus.Closed ∧ i ∈ as ∧ j ∈ bs ∧ i ≤ j ∧ ∀ k ∈ bs, i ≤ k → j ≤ k) := by
      intro i hi l hl
      subst hl
      have hfi := ha.1 i hi
      rw [ih _ ha.2 hss]
      constructor
      · rintro ⟨h1, h2, h3, h4, h5⟩
        exact ⟨h1, h2, ((hsk j).mp h3).1, h4, fun k hk hik => h5 k ((hsk k).mpr ⟨hk, by omega⟩) hik⟩
      · rintro ⟨h1, h2, h3, h4, h5⟩
        exact ⟨h1, h2, (hsk j).mpr ⟨h3, by omega⟩, h4, fun k hk hik => h5 k ((hsk k).mp hk).1 hik⟩
    have hmem : ∀ l, (i, j, st) ∈ toNext as l → i ∈ as := by
      intro l h
      clear * - h
      induction as generalizing l with
      | nil => simp [toNext] at h
      | cons a as ih =>
        unfold toNext at h
        split at h
        · exact List.mem_cons_of_mem _ (ih _ h)
        · rcases List.mem_cons.mp h with h | h
          · cases h; simp
          · exact List.mem_cons_of_mem _ (ih _ h)
    unfold toNext
    split
    · rename_i hnil
      constructor
      · intro h
        have hi := hmem _ h
        obtain ⟨h1, h2, h3⟩ := (hrest i hi _ hnil).mp h
        exact ⟨h1, List.mem_cons_of_mem _ h2, h3⟩
      · rintro ⟨h1, h2, h3, h4, h5⟩
        rcases List.mem_cons.mp h2 with rfl | hi
        · have := (hsk j).mpr ⟨h3, h4⟩
          rw [hnil] at this
          cases this
        · exact (hrest i hi _ hnil).mpr ⟨h1, hi, h3, h4, h5⟩
    · rename_i b bs' hcons
      have hbm := (hsk b).mp (by rw [hcons]; simp)
      have hbmin : ∀ k ∈ bs, f ≤ k → b ≤ k := by
        intro k hk hfk
        have := (hsk k).mpr ⟨hk, hfk⟩
        rw [hcons] at this hss
        rcases List.mem_cons.mp this with rfl | h
        · exact le_refl _
        · exact le_of_lt (List.rel_of_pairwise_cons hss h)
      rw [List.mem_cons]
      constructor
      · rintro (h | h)
        · cases h
          exact ⟨rfl, by simp, hbm.1, hbm.2, hbmin⟩
        · have hi := hmem _ h
          obtain ⟨h1, h2, h3⟩ := (hrest i hi _ hcons).mp h
          exact ⟨h1, List.mem_cons_of_mem _ h2, h3⟩
      · rintro ⟨h1, h2, h3, h4, h5⟩
        rcases List.mem_cons.mp h2 with rfl | hi
        · left
          have e1 := hbmin j h3 h4
          have e2 := h5 b hbm.1 hbm.2
          have : j = b := by omega
          rw [h1, this]
        · exact Or.inr ((hrest i hi _ hcons).mpr ⟨h1, hi, h3, h4, h5⟩)

theorem toNext_sorted : ∀ (as bs : List Nat), as.Pairwise (· < ·) →
    (toNext as bs).Pairwise (fun p q => p.1 < q.1) ∧ ∀ p ∈ toNext as bs, p.1 ∈ as := by
  intro as
  induction as with
  | nil => intro bs _; simp [toNext]
  | cons f as ih =>
    intro bs ha
    rw [List.pairwise_cons] at ha
    unfold toNext
    split
    · obtain ⟨h1, h2⟩ := ih [] ha.2
      exact ⟨h1, fun p hp => List.mem_cons_of_mem _ (h2 p hp)⟩
    · rename_i b bs' _
      obtain ⟨h1, h2⟩ := ih (b :: bs') ha.2
      refine ⟨List.pairwise_cons.mpr ⟨fun q hq => ha.1 _ (h2 q hq), h1⟩, fun p hp => ?_⟩
      rcases List.mem_cons.mp hp with rfl | hp
      · simp
      · exact List.mem_cons_of_mem _ (h2 p hp)

/-- What `advance` finds: the last element up to `t`, unless there is none. -/
theorem advance_spec (t : Nat) : ∀ (as : List Nat) (a : Nat), (a :: as).Pairwise (· < ·) →
    (advance t a as).1 ∈ a :: as ∧ (∀ k ∈ a :: as, k ≤ t → k ≤ (advance t a as).1) ∧
    ((advance t a as).1 = a ∨ (advance t a as).1 ≤ t) ∧
    ((advance t a as).1 :: (advance t a as).2).Pairwise (· < ·) ∧
    (∀ k, k ∈ (advance t a as).1 :: (advance t a as).2 ↔ k ∈ a :: as ∧ (advance t a as).1 ≤ k) := by
  intro as
  induction as with
  | nil =>
    intro a h
    unfold advance
    refine ⟨by simp, fun k hk _ => ?_, Or.inl rfl, h, fun k => ⟨fun hk => ⟨hk, ?_⟩, fun h => h.1⟩⟩
    · simp only [List.mem_singleton] at hk; simp only; omega
    · simp only [List.mem_singleton] at hk; simp only; omega
  | cons b as ih =>
    intro a h
    have h' := List.pairwise_cons.mp h
    unfold advance
    split
    · rename_i hbt
      obtain ⟨i1, i2, i3, i4, i5⟩ := ih b h'.2
      have hba : b ≤ (advance t b as).1 := by
        rcases List.mem_cons.mp i1 with h | h
        · omega
        · exact le_of_lt (List.rel_of_pairwise_cons h'.2 h)
      refine ⟨List.mem_cons_of_mem _ i1, fun k hk hkt => ?_, Or.inr ?_, i4, fun k => ?_⟩
      · rcases List.mem_cons.mp hk with rfl | hk
        · have := h'.1 b (by simp); omega
        · exact i2 k hk hkt
      · rcases i3 with h | h <;> omega
      · rw [i5 k]
        constructor
        · rintro ⟨h1, h2⟩; exact ⟨List.mem_cons_of_mem _ h1, h2⟩
        · rintro ⟨h1, h2⟩
          rcases List.mem_cons.mp h1 with rfl | h1
          · have := h'.1 b (by simp); omega
          · exact ⟨h1, h2⟩
    · rename_i hbt
      refine ⟨by simp, fun k hk hkt => ?_, Or.inl rfl, h, fun k => ⟨fun hk => ⟨hk, ?_⟩, fun hk => hk.1⟩⟩
      · rcases List.mem_cons.mp hk with rfl | hk
        · exact le_refl _
        · exfalso
          rcases List.mem_cons.mp hk with rfl | hk
          · exact hbt hkt
          · have := List.rel_of_pairwise_cons h'.2 hk; omega
      · rcases List.mem_cons.mp hk with rfl | hk
        · exact le_refl _
        · exact le_of_lt (h'.1 k hk)

theorem mem_fromPrev : ∀ (bs : List Nat) (a : Nat) (as : List Nat), (a :: as).Pairwise (· < ·) → bs.Pairwise (· < ·) →
    ∀ i j st, (i, j, st) ∈ fromPrev a as bs ↔
      st = RangeStatus.Closed ∧ i ∈ a :: as ∧ j ∈ bs ∧ i ≤ j ∧ ∀ k ∈ a :: as, k ≤ j → k ≤ i := by
  intro bs
  induction bs with
  | nil => intro a as _ _ i j st; simp [fromPrev]
  | cons t bs ih =>
    intro a as ha hb i j st
    rw [List.pairwise_cons] at hb
    obtain ⟨s1, s2, s3, s4, s5⟩ := advance_spec t as a ha
    have hamin : ∀ k ∈ a :: as, a ≤ k := fun k hk => by
      rcases List.mem_cons.mp hk with rfl | hk
      · exact le_refl _
      · exact le_of_lt (List.rel_of_pairwise_cons ha hk)
    have hrest : (i, j, st) ∈ fromPrev (advance t a as).1 (advance t a as).2 bs ↔
        st = RangeStatus.Closed ∧ i ∈ a :: as ∧ j ∈ bs ∧ i ≤ j ∧ ∀ k ∈ a :: as, k ≤ j → k ≤ i := by
      rw [ih _ _ s4 hb.2]
      constructor
      · rintro ⟨h1, h2, h3, h4, h5⟩
        have hi := (s5 i).mp h2
        refine ⟨h1, hi.1, h3, h4, fun k hk hkj => ?_⟩
        by_cases hkp : (advance t a as).1 ≤ k
        · exact h5 k ((s5 k).mpr ⟨hk, hkp⟩) hkj
        · omega
      · rintro ⟨h1, h2, h3, h4, h5⟩
        have htj := hb.1 j h3
        have hi : (advance t a as).1 ≤ i := by
          rcases s3 with h | h
          · rw [h]; exact hamin i h2
          · exact h5 _ s1 (by omega)
        exact ⟨h1, (s5 i).mpr ⟨h2, hi⟩, h3, h4, fun k hk hkj => h5 k ((s5 k).mp hk).1 hkj⟩
    unfold fromPrev
    dsimp only
    split
    · rename_i hpt
      rw [List.mem_cons, hrest]
      constructor
      · rintro (h | ⟨h1, h2, h3, h4⟩)
        · cases h
          exact ⟨rfl, s1, by simp, hpt, s2⟩
        · exact ⟨h1, h2, List.mem_cons_of_mem _ h3, h4⟩
      · rintro ⟨h1, h2, h3, h4, h5⟩
        rcases List.mem_cons.mp h3 with rfl | h3
        · left
          have e1 := s2 i h2 h4
          have e2 := h5 _ s1 hpt
          have : i = (advance j a as).1 := by omega
          rw [h1, ← this]
        · exact Or.inr ⟨h1, h2, h3, h4, h5⟩
    · rename_i hpt
      rw [hrest]
      constructor
      · rintro ⟨h1, h2, h3, h4⟩
        exact ⟨h1, h2, List.mem_cons_of_mem _ h3, h4⟩
      · rintro ⟨h1, h2, h3, h4, h5⟩
        rcases List.mem_cons.mp h3 with rfl | h3
        · have := s2 i h2 h4
          rcases s3 with h | h
          · have := hamin i h2; omega
          · omega
        · exact ⟨h1, h2, h3, h4, h5⟩

theorem fromPrev_sorted : ∀ (bs : List Nat) (a : Nat) (as : List Nat), bs.Pairwise (· < ·) →
    (fromPrev a as bs).Pairwise (fun p q => p.2.1 < q.2.1) ∧ ∀ p ∈ fromPrev a as bs, p.2.1 ∈ bs := by
  intro bs
  induction bs with
  | nil => intro a as _; simp [fromPrev]
  | cons t bs ih =>
    intro a as hb
    rw [List.pairwise_cons] at hb
    obtain ⟨h1, h2⟩ := ih (advance t a as).1 (advance t a as).2 hb.2
    unfold fromPrev
    dsimp only
    split
    · refine ⟨List.pairwise_cons.mpr ⟨fun q hq => hb.1 _ (h2 q hq), h1⟩, fun p hp => ?_⟩
      rcases List.mem_cons.mp hp with rfl | hp
      · simp
      · exact List.mem_cons_of_mem _ (h2 p hp)
    · exact ⟨h1, fun p hp => List.mem_cons_of_mem _ (h2 p hp)⟩

/-- **C34** (signals of two arrays, from the first).  The ranges of a column are exactly the pairs of a signal of the first
array and the nearest signal of the second array at or after it, in order of the first array. -/
theorem C34_between_two (n : Nat) (a b : Nat → Bool) :
    (∀ i j st, (i, j, st) ∈ betweenTwoCol n a b false ↔
      st = RangeStatus.Closed ∧ i ≤ j ∧ j < n ∧ a i = true ∧ b j = true ∧ ∀ k, i ≤ k → k < j → b k = false) ∧
    (betweenTwoCol n a b false).Pairwise fun p q => p.1 < q.1 := by
  have key : betweenTwoCol n a b false = toNext (flatnonzero n a) (flatnonzero n b) := by
    unfold betweenTwoCol
    cases flatnonzero n a with
    | nil => rfl
    | cons a0 as =>
      cases flatnonzero n b with
      | nil =>
        have : ∀ l, toNext l [] = [] := by
          intro l
          induction l with
          | nil => rfl
          | cons c l ih => unfold toNext; simp only [skipBelow]; exact ih
        rw [this]
      | cons b0 bs => rfl
  have ha := flatnonzero_sorted n a
  have hb := flatnonzero_sorted n b
  rw [key]
  refine ⟨fun i j st => ?_, (toNext_sorted _ _ ha).1⟩
  rw [mem_toNext _ _ ha hb]
  constructor
  · rintro ⟨h1, h2, h3, h4, h5⟩
    rw [mem_flatnonzero] at h2 h3
    refine ⟨h1, h4, h3.1, h2.2, h3.2, fun k k1 k2 => ?_⟩
    by_contra hk
    have := h5 k (mem_flatnonzero.mpr ⟨by omega, by simpa using hk⟩) k1
    omega
  · rintro ⟨h1, h2, h3, h4, h5, h6⟩
    refine ⟨h1, mem_flatnonzero.mpr ⟨by omega, h4⟩, mem_flatnonzero.mpr ⟨h3, h5⟩, h2, fun k hk hik => ?_⟩
    by_contra hc
    have := h6 k hik (by omega)
    rw [(mem_flatnonzero.mp hk).2] at this
    cases this

/-- **C34** (signals of two arrays, from the second).  With `from_other` the ranges of a column are exactly the pairs of a
signal of the second array and the nearest signal of the first array at or before it, in order of the second array. -/
theorem C34_between_two_other (n : Nat) (a b : Nat → Bool) :
    (∀ i j st, (i, j, st) ∈ betweenTwoCol n a b true ↔
      st = RangeStatus.Closed ∧ i ≤ j ∧ j < n ∧ a i = true ∧ b j = true ∧ ∀ k, i < k → k ≤ j → a k = false) ∧
    (betweenTwoCol n a b true).Pairwise fun p q => p.2.1 < q.2.1 := by
  have ha := flatnonzero_sorted n a
  have hb := flatnonzero_sorted n b
  have hma : ∀ k, k ∈ flatnonzero n a ↔ k < n ∧ a k = true := fun k => mem_flatnonzero
  have hmb : ∀ k, k ∈ flatnonzero n b ↔ k < n ∧ b k = true := fun k => mem_flatnonzero
  unfold betweenTwoCol
  cases hfa : flatnonzero n a with
  | nil =>
    refine ⟨fun i j st => ⟨(fun h => by cases h), ?_⟩, List.Pairwise.nil⟩
    rintro ⟨h1, h2, h3, h4, -⟩
    have := (hma i).mpr ⟨by omega, h4⟩
    rw [hfa] at this; cases this
  | cons a0 as =>
    cases hfb : flatnonzero n b with
    | nil =>
      refine ⟨fun i j st => ⟨(fun h => by cases h), ?_⟩, List.Pairwise.nil⟩
      rintro ⟨h1, h2, h3, h4, h5, -⟩
      have := (hmb j).mpr ⟨by omega, h5⟩
      rw [hfb] at this; cases this
    | cons b0 bs =>
      rw [hfa] at ha hma
      rw [hfb] at hb hmb
      simp only [if_true]
      refine ⟨fun i j st => ?_, (fromPrev_sorted _ _ _ hb).1⟩
      rw [mem_fromPrev _ _ _ ha hb]
      constructor
      · rintro ⟨h1, h2, h3, h4, h5⟩
        rw [hma] at h2
        rw [hmb] at h3
        refine ⟨h1, h4, h3.1, h2.2, h3.2, fun k k1 k2 => ?_⟩
        by_contra hk
        have := h5 k ((hma k).mpr ⟨by omega, by simpa using hk⟩) k2
        omega
      · rintro ⟨h1, h2, h3, h4, h5, h6⟩
        refine ⟨h1, (hma i).mpr ⟨by omega, h4⟩, (hmb j).mpr ⟨h3, h5⟩, h2, fun k hk hkj => ?_⟩
        by_contra hc
        have := h6 k (by omega) hkj
        rw [((hma k).mp hk).2] at this
        cases this

/-! ## Partitions -/

/-- The step without the last row. -/
def partStep0 (a : Nat → Bool) (s : PartState) (i : Nat) : PartState :=
  if a i then { s with fromI := if !s.isPartition then i else s.fromI, isPartition := true }
  else if s.isPartition then
    { s with out := s.out ++ [(s.fromI.toNat, i, RangeStatus.Closed)], isPartition := false }
  else s

/-- A run of true values starts at `s`. -/
def RunStart (a : Nat → Bool) (s : Nat) : Prop := a s = true ∧ (s = 0 ∨ a (s - 1) = false)

/-- The state after `i` rows. -/
structure PartInv (a : Nat → Bool) (i : Nat) (st : PartState) : Prop where
  inside : st.isPartition = true ↔ 0 < i ∧ a (i - 1) = true
  start : st.isPartition = true → ∃ s : Nat, st.fromI = (s : Int) ∧ s < i ∧ RunStart a s ∧ ∀ k, s ≤ k → k < i → a k = true
  mem : ∀ s e t, (s, e, t) ∈ st.out ↔ t = RangeStatus.Closed ∧ s < e ∧ e < i ∧ RunStart a s ∧
    (∀ k, s ≤ k → k < e → a k = true) ∧ a e = false
  sorted : st.out.Pairwise fun p q => p.2.1 ≤ q.1

theorem partInv (a : Nat → Bool) (i : Nat) : PartInv a i ((List.range i).foldl (partStep0 a) ⟨false, -1, []⟩) := by
  induction i with
  | zero =>
    refine ⟨by simp, (fun h => by cases h), fun s e t => ⟨(fun h => by cases h), ?_⟩, List.Pairwise.nil⟩
    rintro ⟨-, -, h, -⟩; omega
  | succ i ih =>
    rw [List.range_succ, List.foldl_append, List.foldl_cons, List.foldl_nil]
    generalize (List.range i).foldl (partStep0 a) ⟨false, -1, []⟩ = st at ih
    obtain ⟨h1, h2, h3, h4⟩ := ih
    have hmem : ∀ s e t, a i = true ∨ st.isPartition = false → ((t = RangeStatus.Closed ∧ s < e ∧ e < i + 1 ∧ RunStart a s ∧
        (∀ k, s ≤ k → k < e → a k = true) ∧ a e = false) ↔ (t = RangeStatus.Closed ∧ s < e ∧ e < i ∧ RunStart a s ∧
        (∀ k, s ≤ k → k < e → a k = true) ∧ a e = false)) := by
      intro s e t hi
      constructor
      · rintro ⟨m1, m2, m3, m4, m5, m6⟩
        refine ⟨m1, m2, ?_, m4, m5, m6⟩
        rcases Nat.lt_succ_iff_lt_or_eq.mp m3 with h | rfl
        · exact h
        · exfalso
          rcases hi with hi | hi
          · rw [m6] at hi; cases hi
          · rw [h1.mpr ⟨by omega, m5 (e - 1) (by omega) (by omega)⟩] at hi
            cases hi
      · rintro ⟨m1, m2, m3, m4⟩; exact ⟨m1, m2, by omega, m4⟩
    unfold partStep0
    by_cases ha : a i = true
    · rw [if_pos ha]
      refine ⟨by simp [ha], fun _ => ?_, fun s e t => ?_, h4⟩
      · cases hp : st.isPartition
        · refine ⟨i, by simp, by omega, ⟨ha, ?_⟩, fun k k1 k2 => ?_⟩
          · by_cases hi : i = 0
            · exact Or.inl hi
            · right
              by_contra hc
              rw [h1.mpr ⟨by omega, by simpa using hc⟩] at hp
              cases hp
          · have : k = i := by omega
            rw [this]; exact ha
        · obtain ⟨s, s1, s2, s3, s4⟩ := h2 hp
          refine ⟨s, by simpa using s1, by omega, s3, fun k k1 k2 => ?_⟩
          rcases Nat.lt_succ_iff_lt_or_eq.mp k2 with h | rfl
          · exact s4 k k1 h
          · exact ha
      · rw [hmem s e t (Or.inl ha)]; exact h3 s e t
    · rw [if_neg ha]
      have ha' : a i = false := by simpa using ha
      cases hp : st.isPartition
      · rw [if_neg (by simp)]
        refine ⟨by simp [hp, ha'], (fun h => by rw [hp] at h; cases h), fun s e t => ?_, h4⟩
        rw [hmem s e t (Or.inr hp)]; exact h3 s e t
      · rw [if_pos rfl]
        obtain ⟨s0, s1, s2, s3, s4⟩ := h2 hp
        refine ⟨by simp [ha'], (fun h => by cases h), fun s e t => ?_, ?_⟩
        · simp only [List.mem_append, List.mem_singleton, s1, Int.toNat_natCast]
          constructor
          · rintro (h | h)
            · obtain ⟨m1, m2, m3, m4⟩ := (h3 s e t).mp h
              exact ⟨m1, m2, by omega, m4⟩
            · cases h
              exact ⟨rfl, s2, by omega, s3, s4, ha'⟩
          · rintro ⟨m1, m2, m3, m4, m5, m6⟩
            rcases Nat.lt_succ_iff_lt_or_eq.mp m3 with h | rfl
            · exact Or.inl ((h3 s e t).mpr ⟨m1, m2, h, m4, m5, m6⟩)
            · right
              have : s = s0 := by
                rcases Nat.lt_trichotomy s s0 with h | h | h
                · exfalso
                  rcases s3.2 with h0 | h0
                  · omega
                  · rw [m5 (s0 - 1) (by omega) (by omega)] at h0; cases h0
                · exact h
                · exfalso
                  rcases m4.2 with h0 | h0
                  · omega
                  · rw [s4 (s - 1) (by omega) (by omega)] at h0; cases h0
              rw [m1, this]
        · simp only [s1, Int.toNat_natCast]
          rw [List.pairwise_append]
          refine ⟨h4, by simp, fun p hp' q hq => ?_⟩
          simp only [List.mem_singleton] at hq
          subst hq
          obtain ⟨m1, m2, m3, m4, m5, m6⟩ := (h3 p.1 p.2.1 p.2.2).mp hp'
          by_contra hc
          rw [s4 p.2.1 (by simp only at hc; omega) m3] at m6
          cases m6

/-- The last row apart. -/
theorem partitionCol_eq (n : Nat) (a : Nat → Bool) :
    partitionCol n a =
      let st := (List.range n).foldl (partStep0 a) ⟨false, -1, []⟩
      st.out ++ if st.isPartition then [(st.fromI.toNat, n - 1, RangeStatus.Open)] else [] := by
  unfold partitionCol
  have hstep : ∀ s i, partStep n a s i =
      (let s1 := partStep0 a s i
      if i = n - 1 ∧ s1.isPartition then { s1 with out := s1.out ++ [(s1.fromI.toNat, n - 1, RangeStatus.Open)] }
      else s1) := fun s i => rfl
  cases n with
  | zero => simp
  | succ m =>
    have hpre : ∀ k, k ≤ m → (List.range k).foldl (partStep (m + 1) a) ⟨false, -1, []⟩ =
        (List.range k).foldl (partStep0 a) ⟨false, -1, []⟩ := by
      intro k
      induction k with
      | zero => intro _; rfl
      | succ k ih =>
        intro hk
        rw [List.range_succ, List.foldl_append, List.foldl_append, ih (by omega)]
        simp only [List.foldl_cons, List.foldl_nil]
        rw [hstep]
        dsimp only
        rw [if_neg (by omega)]
    have hlast : (List.range (m + 1)).foldl (partStep (m + 1) a) ⟨false, -1, []⟩ =
        (let s1 := (List.range (m + 1)).foldl (partStep0 a) ⟨false, -1, []⟩
        if m = m + 1 - 1 ∧ s1.isPartition then
          { s1 with out := s1.out ++ [(s1.fromI.toNat, m + 1 - 1, RangeStatus.Open)] }
        else s1) := by
      rw [List.range_succ, List.foldl_append, hpre m (le_refl m), List.foldl_append]
      exact hstep _ _
    rw [hlast]
    generalize (List.range (m + 1)).foldl (partStep0 a) ⟨false, -1, []⟩ = st
    dsimp only
    by_cases hp : st.isPartition = true
    · rw [if_pos ⟨by omega, hp⟩, if_pos hp]
    · rw [if_neg (fun h => hp h.2), if_neg hp, List.append_nil]

/-- **C34** (partitions).  The partitions of a column are exactly the maximal runs of true values, in order: closed runs with
the row after the run as their end, and the run up to the last row, which is open and ends at the last row. -/
theorem C34_partitions (n : Nat) (a : Nat → Bool) :
    (∀ s e t, (s, e, t) ∈ partitionCol n a ↔
      (t = RangeStatus.Closed ∧ s < e ∧ e < n ∧ RunStart a s ∧ (∀ k, s ≤ k → k < e → a k = true) ∧ a e = false) ∨
      (t = RangeStatus.Open ∧ e = n - 1 ∧ s < n ∧ RunStart a s ∧ ∀ k, s ≤ k → k < n → a k = true)) ∧
    (partitionCol n a).Pairwise fun p q => p.1 < q.1 := by
  obtain ⟨h1, h2, h3, h4⟩ := partInv a n
  rw [partitionCol_eq]
  dsimp only
  generalize (List.range n).foldl (partStep0 a) ⟨false, -1, []⟩ = st at h1 h2 h3 h4
  have hsorted : st.out.Pairwise fun p q => p.1 < q.1 := by
    refine h4.imp_of_mem fun {p q} hp _ hpq => ?_
    have := ((h3 p.1 p.2.1 p.2.2).mp hp).2.1
    omega
  cases hp : st.isPartition
  · rw [if_neg (by simp), List.append_nil]
    refine ⟨fun s e t => ?_, hsorted⟩
    rw [h3 s e t]
    constructor
    · exact Or.inl
    · rintro (h | ⟨m1, m2, m3, m4, m5⟩)
      · exact h
      · rw [h1.mpr ⟨by omega, m5 (n - 1) (by omega) (by omega)⟩] at hp; cases hp
  · rw [if_pos rfl]
    obtain ⟨s0, s1, s2, s3, s4⟩ := h2 hp
    refine ⟨fun s e t => ?_, ?_⟩
    · simp only [List.mem_append, List.mem_singleton, s1, Int.toNat_natCast]
      rw [h3 s e t]
      refine or_congr Iff.rfl ⟨fun h => ?_, fun ⟨m1, m2, m3, m4, m5⟩ => ?_⟩
      · cases h
        exact ⟨rfl, rfl, s2, s3, s4⟩
      · have : s = s0 := by
          rcases Nat.lt_trichotomy s s0 with h | h | h
          · exfalso
            rcases s3.2 with h0 | h0
            · omega
            · rw [m5 (s0 - 1) (by omega) (by omega)] at h0; cases h0
          · exact h
          · exfalso
            rcases m4.2 with h0 | h0
            · omega
            · rw [s4 (s - 1) (by omega) (by omega)] at h0; cases h0
        rw [m1, m2, this]
    · simp only [s1, Int.toNat_natCast]
      rw [List.pairwise_append]
      refine ⟨hsorted, by simp, fun p hp' q hq => ?_⟩
      simp only [List.mem_singleton] at hq
      subst hq
      obtain ⟨m1, m2, m3, m4, m5, m6⟩ := (h3 p.1 p.2.1 p.2.2).mp hp'
      by_contra hc
      rw [s4 p.2.1 (by simp only at hc; omega) m3] at m6
      cases m6

/-- Every true row lies in a partition. -/
theorem C34_partitions_cover (n : Nat) (a : Nat → Bool) {i : Nat} (hi : i < n) (ha : a i = true) :
    ∃ s e t, (s, e, t) ∈ partitionCol n a ∧ s ≤ i ∧ i ≤ e := by
  have hstart : ∃ s, s ≤ i ∧ RunStart a s ∧ ∀ k, s ≤ k → k ≤ i → a k = true := by
    clear hi
    induction i with
    | zero => exact ⟨0, le_refl _, ⟨ha, Or.inl rfl⟩, fun k _ h => by rw [Nat.le_zero.mp h]; exact ha⟩
    | succ i ih =>
      cases hp : a i
      · refine ⟨i + 1, le_refl _, ⟨ha, Or.inr (by simpa using hp)⟩, fun k h1 h2 => ?_⟩
        rw [show k = i + 1 by omega]; exact ha
      · obtain ⟨s, s1, s2, s3⟩ := ih hp
        refine ⟨s, by omega, s2, fun k h1 h2 => ?_⟩
        rcases Nat.le_succ_iff.mp h2 with h | rfl
        · exact s3 k h1 h
        · exact ha
  obtain ⟨s, s1, s2, s3⟩ := hstart
  by_cases hall : ∀ k, i ≤ k → k < n → a k = true
  · refine ⟨s, n - 1, RangeStatus.Open, ((C34_partitions n a).1 _ _ _).mpr (Or.inr ⟨rfl, rfl, by omega, s2, fun k k1 k2 => ?_⟩),
      s1, by omega⟩
    by_cases hk : k ≤ i
    · exact s3 k k1 hk
    · exact hall k (by omega) k2
  · push Not at hall
    have hex : ∃ k, i ≤ k ∧ k < n ∧ a k ≠ true := hall
    obtain ⟨h1, h2, h3⟩ := Nat.find_spec hex
    have hmin := fun m (h : m < Nat.find hex) => Nat.find_min hex h
    have hne : i ≠ Nat.find hex := fun h => h3 (h ▸ ha)
    refine ⟨s, Nat.find hex, RangeStatus.Closed, ((C34_partitions n a).1 _ _ _).mpr
      (Or.inl ⟨rfl, by omega, h2, s2, fun k k1 k2 => ?_, by simpa using h3⟩), s1, h1⟩
    by_cases hk : k ≤ i
    · exact s3 k k1 hk
    · by_contra hc
      exact hmin k k2 ⟨by omega, by omega, hc⟩

/-- The state after `i` rows of `between_partition_ranges_nb`. -/
structure BetweenInv (a : Nat → Bool) (i : Nat) (st : PartState) : Prop where
  inside : st.isPartition = true ↔ 0 < i ∧ a (i - 1) = true
  last : (st.fromI = -1 ∧ ∀ k < i, a k = false) ∨
    ∃ s : Nat, st.fromI = (s : Int) ∧ s < i ∧ a s = true ∧ ∀ k, s < k → k < i → a k = false
  mem : ∀ s e t, (s, e, t) ∈ st.out ↔ t = RangeStatus.Closed ∧ s + 1 < e ∧ e < i ∧ a s = true ∧ a e = true ∧
    ∀ k, s < k → k < e → a k = false
  sorted : st.out.Pairwise fun p q => p.2.1 ≤ q.1

theorem betweenInv (a : Nat → Bool) (i : Nat) :
    BetweenInv a i ((List.range i).foldl (betweenPartStep a) ⟨false, -1, []⟩) := by
  induction i with
  | zero =>
    refine ⟨by simp, Or.inl ⟨rfl, fun k hk => by omega⟩, fun s e t => ⟨(fun h => by cases h), ?_⟩, List.Pairwise.nil⟩
    rintro ⟨-, -, h, -⟩; omega
  | succ i ih =>
    rw [List.range_succ, List.foldl_append, List.foldl_cons, List.foldl_nil]
    generalize (List.range i).foldl (betweenPartStep a) ⟨false, -1, []⟩ = st at ih
    obtain ⟨h1, h2, h3, h4⟩ := ih
    unfold betweenPartStep
    by_cases ha : a i = true
    · rw [if_pos ha]
      have hlast : ∀ k, i < k → k < i + 1 → a k = false := fun k k1 k2 => by omega
      by_cases hc : !st.isPartition ∧ st.fromI ≠ -1
      · rw [if_pos hc]
        obtain ⟨hp, hf⟩ := hc
        obtain ⟨s0, s1, s2, s3, s4⟩ : ∃ s : Nat, st.fromI = (s : Int) ∧ s < i ∧ a s = true ∧ ∀ k, s < k → k < i → a k = false := by
          rcases h2 with ⟨h, -⟩ | h
          · exact absurd h hf
          · exact h
        refine ⟨by simp [ha], Or.inr ⟨i, rfl, by omega, ha, hlast⟩, fun s e t => ?_, ?_⟩
        · simp only [List.mem_append, List.mem_singleton, s1, Int.toNat_natCast]
          constructor
          · rintro (h | h)
            · obtain ⟨m1, m2, m3, m4⟩ := (h3 s e t).mp h
              exact ⟨m1, m2, by omega, m4⟩
            · simp only [Prod.mk.injEq] at h
              obtain ⟨rfl, rfl, rfl⟩ := h
              refine ⟨rfl, ?_, by omega, s3, ha, s4⟩
              by_contra hcon
              have : s = e - 1 := by omega
              rw [h1.mpr ⟨by omega, this ▸ s3⟩] at hp
              cases hp
          · rintro ⟨m1, m2, m3, m4, m5, m6⟩
            rcases Nat.lt_succ_iff_lt_or_eq.mp m3 with h | rfl
            · exact Or.inl ((h3 s e t).mpr ⟨m1, m2, h, m4, m5, m6⟩)
            · right
              have : s = s0 := by
                rcases Nat.lt_trichotomy s s0 with h | h | h
                · rw [m6 s0 h s2] at s3; cases s3
                · exact h
                · rw [s4 s h (by omega)] at m4; cases m4
              rw [m1, this]
        · simp only [s1, Int.toNat_natCast]
          rw [List.pairwise_append]
          refine ⟨h4, by simp, fun p hp' q hq => ?_⟩
          simp only [List.mem_singleton] at hq
          subst hq
          obtain ⟨m1, m2, m3, m4, m5, m6⟩ := (h3 p.1 p.2.1 p.2.2).mp hp'
          by_contra hcon
          rw [s4 p.2.1 (by simp only at hcon; omega) m3] at m5
          cases m5
      · rw [if_neg hc]
        refine ⟨by simp [ha], Or.inr ⟨i, rfl, by omega, ha, hlast⟩, fun s e t => ?_, h4⟩
        simp only
        rw [h3 s e t]
        constructor
        · rintro ⟨m1, m2, m3, m4⟩; exact ⟨m1, m2, by omega, m4⟩
        · rintro ⟨m1, m2, m3, m4, m5, m6⟩
          refine ⟨m1, m2, ?_, m4, m5, m6⟩
          rcases Nat.lt_succ_iff_lt_or_eq.mp m3 with h | rfl
          · exact h
          · exfalso
            apply hc
            constructor
            · cases hp : st.isPartition
              · rfl
              · have := (h1.mp hp).2
                rw [m6 (e - 1) (by omega) (by omega)] at this; cases this
            · rcases h2 with ⟨h, h'⟩ | ⟨s0, h, -⟩
              · rw [h' s (by omega)] at m4; cases m4
              · rw [h]; omega
    · rw [if_neg ha]
      have ha' : a i = false := by simpa using ha
      refine ⟨by simp [ha'], ?_, fun s e t => ?_, h4⟩
      · rcases h2 with ⟨h, h'⟩ | ⟨s, s1, s2, s3, s4⟩
        · refine Or.inl ⟨h, fun k hk => ?_⟩
          rcases Nat.lt_succ_iff_lt_or_eq.mp hk with hk | rfl
          · exact h' k hk
          · exact ha'
        · refine Or.inr ⟨s, s1, by omega, s3, fun k k1 k2 => ?_⟩
          rcases Nat.lt_succ_iff_lt_or_eq.mp k2 with hk | rfl
          · exact s4 k k1 hk
          · exact ha'
      · simp only
        rw [h3 s e t]
        constructor
        · rintro ⟨m1, m2, m3, m4⟩; exact ⟨m1, m2, by omega, m4⟩
        · rintro ⟨m1, m2, m3, m4, m5, m6⟩
          refine ⟨m1, m2, ?_, m4, m5, m6⟩
          rcases Nat.lt_succ_iff_lt_or_eq.mp m3 with h | rfl
          · exact h
          · rw [m5] at ha'; cases ha'

/-- **C34** (between partitions).  The ranges between partitions of a column are exactly the gaps between runs of true values:
from the last row of a run to the first row of the next run, in order. -/
theorem C34_between_partitions (n : Nat) (a : Nat → Bool) :
    (∀ s e t, (s, e, t) ∈ betweenPartitionCol n a ↔ t = RangeStatus.Closed ∧ s + 1 < e ∧ e < n ∧ a s = true ∧
      a e = true ∧ ∀ k, s < k → k < e → a k = false) ∧
    (betweenPartitionCol n a).Pairwise fun p q => p.1 < q.1 := by
  obtain ⟨h1, h2, h3, h4⟩ := betweenInv a n
  refine ⟨h3, h4.imp_of_mem fun {p q} hp _ hpq => ?_⟩
  have := ((h3 p.1 p.2.1 p.2.2).mp hp).2.1
  omega

/-- Non-vacuity. -/
example :
    let a := fun i => [true, true, false, true, false, false, true, true].getD i false
    let b := fun i => [false, true, false, false, true, false, false, false].getD i false
    betweenCol 8 a = [(0, 1, 1), (1, 3, 1), (3, 6, 1), (6, 7, 1)] ∧
    betweenTwoCol 8 a b false = [(0, 1, 1), (1, 1, 1), (3, 4, 1)] ∧
    betweenTwoCol 8 a b true = [(1, 1, 1), (3, 4, 1)] ∧
    partitionCol 8 a = [(0, 2, 1), (3, 4, 1), (6, 7, 0)] ∧
    betweenPartitionCol 8 a = [(1, 3, 1), (3, 6, 1)] ∧
    (partitionRanges 8 2 (fun i c => if c = 0 then a i else b i)).map (fun r => (r.id, r.col, r.start)) =
      [(0, 0, 0), (1, 0, 3), (2, 0, 6), (3, 1, 1), (4, 1, 4)] := by decide +kernel

end Vbt
