import Verif.Model.Records
import Verif.Spec.Columns
import Verif.Lemmas.Sim

/-!
# C45  Column map lists each column's records in order
-/

namespace Vbt
open F

theorem positions_nil (c : Nat) : positions c [] = [] := rfl

theorem positions_concat (c x : Nat) (cols : List Nat) :
    positions c (cols ++ [x]) = positions c cols ++ (if x = c then [cols.length] else []) := by
  unfold positions
  rw [List.length_append, List.length_singleton, List.range_succ, List.filter_append]
  congr 1
  · apply List.filter_congr
    intro r hr
    rw [List.mem_range] at hr
    rw [List.getElem?_append_left hr]
  · by_cases h : x = c <;> simp [h]

theorem positions_length (c : Nat) (cols : List Nat) : (positions c cols).length = cols.count c := by
  induction cols using List.reverseRecOn with
  | nil => rfl
  | append_singleton l x ih =>
    rw [positions_concat, List.length_append, ih, List.count_append]
    by_cases h : x = c <;> simp [h, List.count_singleton]

theorem mem_positions {c r : Nat} {cols : List Nat} : r ∈ positions c cols ↔ cols[r]? = some c := by
  unfold positions
  simp only [List.mem_filter, List.mem_range, beq_iff_eq]
  refine ⟨fun h => h.2, fun h => ⟨?_, h⟩⟩
  exact (List.getElem?_eq_some_iff.mp h).1

theorem colLens_eq (cols : List Nat) (c : Nat) : colLens cols c = cols.count c := by
  induction cols using List.reverseRecOn with
  | nil => rfl
  | append_singleton l x ih =>
    have : colLens (l ++ [x]) = setAt (colLens l) x (colLens l x + 1) := by unfold colLens; simp
    rw [this, List.count_append]
    unfold setAt
    by_cases h : c = x
    · subst h; simp [ih]
    · rw [if_neg h, ih, List.count_singleton]
      simp [Ne.symm h]

theorem colStarts_eq (lens : Nat → Nat) (c : Nat) : colStarts lens c = ((List.range c).map lens).sum := by
  unfold colStarts
  rw [List.range_succ]
  simp

theorem colStarts_disjoint (lens : Nat → Nat) {c d k j : Nat} (hk : k < lens c) (hj : j < lens d)
    (h : colStarts lens c + k = colStarts lens d + j) : c = d ∧ k = j := by
  rw [colStarts_eq, colStarts_eq] at h
  have mono : ∀ {a b : Nat}, a < b → ((List.range a).map lens).sum + lens a ≤ ((List.range b).map lens).sum := by
    intro a b hab
    induction b with
    | zero => omega
    | succ b ih =>
      rw [List.range_succ]
      simp only [List.map_append, List.sum_append, List.map_cons, List.map_nil, List.sum_cons, List.sum_nil]
      rcases Nat.lt_succ_iff_lt_or_eq.mp hab with h | h
      · have := ih h; omega
      · subst h; omega
  rcases Nat.lt_trichotomy c d with hcd | hcd | hcd
  · have := mono hcd; omega
  · subst hcd; omega
  · have := mono hcd; omega

theorem zipIdx_concat {α : Type} (l : List α) (x : α) : (l ++ [x]).zipIdx = l.zipIdx ++ [(x, l.length)] := by
  simp [List.zipIdx_append]

/-- Invariant of the second loop of `col_map_nb`. -/
theorem colMap_fill {lens : Nat → Nat} {cols : List Nat} (junk : Nat → Nat) (h : ∀ c, cols.count c ≤ lens c) :
    let s := cols.zipIdx.foldl (colMapStep (colStarts lens)) (junk, fun _ => 0)
    (∀ c, s.2 c = cols.count c) ∧
    (∀ c k, k < cols.count c → (positions c cols)[k]? = some (s.1 (colStarts lens c + k))) := by
  induction cols using List.reverseRecOn with
  | nil => simp
  | append_singleton l x ih =>
    have hl : ∀ c, l.count c ≤ lens c := fun c => le_trans (by rw [List.count_append]; omega) (h c)
    obtain ⟨h1, h2⟩ := ih hl
    rw [zipIdx_concat, List.foldl_append]
    set s := l.zipIdx.foldl (colMapStep (colStarts lens)) (junk, fun _ => 0) with hs
    have hx : l.count x < lens x := by
      have := h x
      rw [List.count_append, List.count_singleton_self] at this; omega
    simp only [List.foldl_cons, List.foldl_nil, colMapStep]
    refine ⟨fun c => ?_, fun c k hk => ?_⟩
    · unfold setAt
      rw [List.count_append, List.count_singleton]
      by_cases hc : c = x
      · subst hc; simp [h1]
      · rw [if_neg hc, h1]; simp [Ne.symm hc]
    · rw [positions_concat]
      rw [List.count_append, List.count_singleton] at hk
      unfold setAt
      by_cases hc : x = c
      · subst hc
        rw [if_pos rfl, h1]
        rcases Nat.lt_trichotomy k (l.count x) with hlt | heq | hgt
        · rw [if_neg (by omega), List.getElem?_append_left (by rw [positions_length]; exact hlt)]
          exact h2 x k hlt
        · subst heq
          rw [if_pos rfl, List.getElem?_append_right (by rw [positions_length]), positions_length]
          simp
        · simp at hk; omega
      · rw [if_neg hc, List.append_nil]
        have hk' : k < l.count c := by simpa [hc] using hk
        rw [if_neg]
        · exact h2 c k hk'
        · intro he
          rw [h1] at he
          have := colStarts_disjoint lens (lt_of_lt_of_le hk' (hl c)) hx he
          exact hc this.1.symm

/-- The map lists, for every column, exactly the indices of its records in ascending order, whatever was in the
uninitialised output array. -/
theorem C45_map (cols : List Nat) (junk : Nat → Nat) (c : Nat) :
    (colMap cols junk).col c = positions c cols ∧ (colMap cols junk).lens c = cols.count c := by
  have hlen : (colMap cols junk).lens = colLens cols := rfl
  refine ⟨?_, by rw [hlen, colLens_eq]⟩
  obtain ⟨-, h2⟩ := colMap_fill (lens := colLens cols) (cols := cols) junk (fun c => (colLens_eq cols c).ge)
  apply List.ext_getElem?
  intro k
  unfold ColMap.col slice
  rw [hlen, colLens_eq]
  by_cases hk : k < cols.count c
  · rw [h2 c k hk, List.getElem?_map, List.getElem?_range hk]
    rfl
  · rw [List.getElem?_eq_none (by simp; omega), List.getElem?_eq_none (by rw [positions_length]; omega)]

/-- Ascending, each exactly once. -/
theorem C45_ascending (c : Nat) (cols : List Nat) : (positions c cols).Pairwise (· < ·) :=
  List.pairwise_lt_range.filter _

theorem foldl_select {β : Type} (len : Nat → Nat) (seg : Nat → List β) (hz : ∀ c, len c = 0 → seg c = [])
    (hl : ∀ c, (seg c).length = len c) (l : List (Nat × Nat)) (a : List β) (b : List Nat) :
    l.foldl (fun out x => if len x.1 = 0 then out else (out.1 ++ seg x.1, out.2 ++ List.replicate (len x.1) x.2)) (a, b) =
      (a ++ (l.flatMap fun x => (seg x.1).map fun r => (r, x.2)).map Prod.fst,
       b ++ (l.flatMap fun x => (seg x.1).map fun r => (r, x.2)).map Prod.snd) := by
  induction l generalizing a b with
  | nil => simp
  | cons x xs ih =>
    rw [List.foldl_cons]
    by_cases h : len x.1 = 0
    · rw [if_pos h, ih, List.flatMap_cons, hz _ h]; simp
    · rw [if_neg h, ih, List.flatMap_cons]
      simp only [List.map_append, List.append_assoc, List.map_map, Prod.mk.injEq]
      constructor
      · congr 1
        have : (Prod.fst ∘ fun r : β => (r, x.2)) = id := rfl
        rw [this, List.map_id]
      · congr 2
        have : (Prod.snd ∘ fun r : β => (r, x.2)) = fun _ => x.2 := rfl
        rw [this, List.map_const', hl]

/-- Selecting columns through the map. -/
theorem C45_map_select (cols : List Nat) (junk : Nat → Nat) (newCols : List Nat) :
    colMapSelect (colMap cols junk) newCols =
      ((selection cols newCols).map Prod.fst, (selection cols newCols).map Prod.snd) := by
  unfold colMapSelect selection
  have e : ∀ c, (colMap cols junk).col c = positions c cols := fun c => (C45_map cols junk c).1
  have hl : ∀ c, (colMap cols junk).lens c = cols.count c := fun c => (C45_map cols junk c).2
  have := foldl_select (fun c => cols.count c) (fun c => positions c cols)
    (fun c h => List.eq_nil_of_length_eq_zero (by rw [positions_length]; exact h))
    (fun c => positions_length c cols) newCols.zipIdx [] []
  simp only [List.nil_append] at this
  rw [← this]
  simp only [e, hl]

theorem filter_eq_takeIdxs {α : Type} (records : List α) (col : α → Nat) (c : Nat) :
    takeIdxs records (positions c (records.map col)) = records.filter fun r => col r = c := by
  induction records using List.reverseRecOn with
  | nil => rfl
  | append_singleton l x ih =>
    rw [List.map_append, List.map_cons, List.map_nil, positions_concat, List.filter_append, List.length_map]
    unfold takeIdxs at ih ⊢
    rw [List.filterMap_append]
    congr 1
    · rw [← ih]
      apply List.filterMap_congr
      intro r hr
      have := List.getElem?_eq_some_iff.mp (mem_positions.mp hr)
      have hlt : r < l.length := by simpa using this.1
      rw [List.getElem?_append_left hlt]
    · by_cases h : col x = c <;> simp [h]

/-- The records of a column, reached through the map, are those with that column, in the order of the records. -/
theorem C45_records {α : Type} (records : List α) (col : α → Nat) (junk : Nat → Nat) (c : Nat) :
    takeIdxs records ((colMap (records.map col) junk).col c) = records.filter fun r => col r = c := by
  rw [(C45_map _ junk c).1, filter_eq_takeIdxs]

theorem foldl_append_flatMap {α β : Type} (f : α → List β) (l : List α) (a : List β) :
    l.foldl (fun out x => out ++ f x) a = a ++ l.flatMap f := by
  induction l generalizing a with
  | nil => simp
  | cons x xs ih => rw [List.foldl_cons, ih, List.flatMap_cons, List.append_assoc]

/-- Selecting records through the map: for each selected column its records, renumbered. -/
theorem C45_record_map_select {α : Type} (setCol : α → Nat → α) (records : List α) (col : α → Nat) (junk : Nat → Nat)
    (newCols : List Nat) :
    recordColMapSelect setCol records (colMap (records.map col) junk) newCols =
      newCols.zipIdx.flatMap fun x => (records.filter fun r => col r = x.1).map fun r => setCol r x.2 := by
  unfold recordColMapSelect
  have : ∀ x : Nat × Nat, ∀ out : List α, (if (colMap (records.map col) junk).lens x.1 = 0 then out
      else out ++ (takeIdxs records ((colMap (records.map col) junk).col x.1)).map fun r => setCol r x.2) =
      out ++ (records.filter fun r => col r = x.1).map fun r => setCol r x.2 := by
    intro x out
    rw [C45_records]
    split
    · rename_i h
      rw [(C45_map _ junk x.1).2, List.count_eq_zero] at h
      have : (records.filter fun r => col r = x.1) = [] := by
        rw [List.filter_eq_nil_iff]
        intro r hr
        simp only [decide_eq_true_eq]
        intro he
        exact h (he ▸ List.mem_map_of_mem hr)
      rw [this]; simp
    · rfl
  simp only [this]
  rw [foldl_append_flatMap]
  simp

/-! ## Sorted columns -/

/-- `is_col_sorted_nb` is ascending order. -/
theorem C45_is_sorted (cols : List Nat) : isColSorted cols = true ↔ cols.Pairwise (· ≤ ·) := by
  induction cols with
  | nil => simp [isColSorted]
  | cons a l ih =>
    cases l with
    | nil => simp [isColSorted]
    | cons b l =>
      rw [isColSorted, List.pairwise_cons]
      split
      · rename_i h
        simp only [Bool.false_eq_true, false_iff]
        intro hh
        have := hh.1 b List.mem_cons_self
        omega
      · rename_i h
        rw [ih]
        refine ⟨fun hh => ⟨fun x hx => ?_, hh⟩, fun hh => hh.2⟩
        rcases List.mem_cons.mp hx with rfl | hx
        · omega
        · have := (List.pairwise_cons.mp hh).1 x hx; omega

/-- The number of records in columns before `c`. -/
def below (c : Nat) (cols : List Nat) : Nat := cols.countP (· < c)

theorem positions_sorted {cols : List Nat} (h : cols.Pairwise (· ≤ ·)) (c : Nat) :
    positions c cols = (List.range (cols.count c)).map fun k => below c cols + k := by
  induction cols using List.reverseRecOn with
  | nil => rfl
  | append_singleton l x ih =>
    rw [List.pairwise_append] at h
    obtain ⟨h1, -, h3⟩ := h
    have hle : ∀ y ∈ l, y ≤ x := fun y hy => h3 y hy x (by simp)
    rw [positions_concat, ih h1, List.count_append]
    unfold below
    rw [List.countP_append]
    rcases Nat.lt_trichotomy x c with hx | hx | hx
    · have hz : l.count c = 0 := by
        rw [List.count_eq_zero]; intro hc; have := hle c hc; omega
      simp [hz, hx.ne]
    · subst hx
      simp only [if_true, List.count_singleton_self, List.countP_singleton, lt_irrefl, decide_false]
      rw [List.range_succ, List.map_append]
      simp only [List.map_cons, List.map_nil, Bool.false_eq_true, if_false, Nat.add_zero]
      congr 2
      have : l.length = l.countP (· < x) + l.count x := by
        have := List.length_eq_countP_add_countP (l := l) (fun y => decide (y < x))
        rw [this]
        congr 1
        unfold List.count
        apply List.countP_congr
        intro y hy
        have := hle y hy
        simp; omega
      exact this
    · simp [List.count_singleton, hx.ne', show ¬ x < c by omega]

theorem sum_range_zero (f : Nat → Nat) (n : Nat) (h : ∀ k < n, f k = 0) : ((List.range n).map f).sum = 0 := by
  induction n with
  | zero => rfl
  | succ n ih => rw [List.range_succ]; simp [ih (fun k hk => h k (by omega)), h n (by omega)]

/-- Invariant of the loop of `col_range_nb`, for a prefix of the columns. -/
structure RangeInv (l : List Nat) (n : Nat) (s : RangeState) : Prop where
  last : s.last = match l.getLast? with | none => -1 | some c => (c : Int)
  from_ : ∀ c, s.from_ c = if l.count c = 0 then -1 else (below c l : Int)
  to_ : ∀ c, s.to_ c = if l.count c = 0 then -1
    else if l.getLast? = some c ∧ l.length < n then -1 else (below c l + l.count c : Int)

theorem below_count_last {l : List Nat} {c : Nat} (h : l.Pairwise (· ≤ ·)) (hc : l.getLast? = some c) :
    below c l + l.count c = l.length := by
  rw [List.getLast?_eq_some_iff] at hc
  obtain ⟨ys, rfl⟩ := hc
  rw [List.pairwise_append] at h
  have hle : ∀ y ∈ ys ++ [c], y ≤ c := by
    intro y hy
    rcases List.mem_append.mp hy with hy | hy
    · exact h.2.2 y hy c (by simp)
    · simp at hy; omega
  rw [List.length_eq_countP_add_countP (l := ys ++ [c]) (fun y => decide (y < c))]
  unfold below List.count
  congr 1
  apply List.countP_congr
  intro y hy
  have := hle y hy
  simp; omega

theorem RangeInv.step {l : List Nat} {n x : Nat} {s : RangeState} (h : RangeInv l n s)
    (hs : (l ++ [x]).Pairwise (· ≤ ·)) (hn : l.length + 1 ≤ n) :
    ∃ s', colRangeStep n s (x, l.length) = .ok s' ∧ RangeInv (l ++ [x]) n s' := by
  rw [List.pairwise_append] at hs
  obtain ⟨hs1, -, hs3⟩ := hs
  have hle : ∀ y ∈ l, y ≤ x := fun y hy => hs3 y hy x (by simp)
  have hnlt : ¬ (x : Int) < s.last := by
    rw [h.last]
    cases hl : l.getLast? with
    | none => simp
    | some c => have := hle c (List.mem_of_getLast? hl); simp; omega
  have hbelow : ∀ c, below c (l ++ [x]) = below c l + if x < c then 1 else 0 := by
    intro c; unfold below; rw [List.countP_append]; by_cases hx : x < c <;> simp [hx]
  have hcount : ∀ c, (l ++ [x]).count c = l.count c + if x = c then 1 else 0 := by
    intro c; rw [List.count_append, List.count_singleton]; by_cases hx : x = c <;> simp [hx]
  have hin : ∀ c, l.count c ≠ 0 → c ≤ x := fun c hc =>
    hle c (List.count_pos_iff.mp (Nat.pos_of_ne_zero hc))
  unfold colRangeStep
  rw [if_neg hnlt]
  refine ⟨_, rfl, ?_⟩
  by_cases hx : (x : Int) ≠ s.last
  · simp only [if_pos hx]
    -- a new column
    have hx0 : l.count x = 0 := by
      rw [List.count_eq_zero]
      intro hmem
      cases hl : l.getLast? with
      | none => rw [List.getLast?_eq_none_iff] at hl; rw [hl] at hmem; cases hmem
      | some c =>
        have h1 := hle c (List.mem_of_getLast? hl)
        rw [h.last, hl] at hx
        have hxc : x ≤ c := by
          rw [List.getLast?_eq_some_iff] at hl
          obtain ⟨ys, rfl⟩ := hl
          rw [List.pairwise_append] at hs1
          rcases List.mem_append.mp hmem with hm | hm
          · exact hs1.2.2 x hm c (by simp)
          · simp at hm; omega
        simp only at hx; omega
    have hbx : below x l = l.length := by
      unfold below
      rw [List.countP_eq_length]
      intro y hy
      have := hle y hy
      rcases Nat.lt_or_eq_of_le this with h | h
      · simpa using h
      · subst h; exact absurd (List.count_pos_iff.mpr hy) (by omega)
    have hlast : ∀ c, l.getLast? = some c → s.last = c ∧ c ≠ x ∧ l.count c ≠ 0 ∧
        below c l + l.count c = l.length := by
      intro c hl
      have e : s.last = c := by rw [h.last, hl]
      refine ⟨e, fun hc => hx (by rw [e, hc]), ?_, below_count_last hs1 hl⟩
      have := List.count_pos_iff.mpr (List.mem_of_getLast? hl)
      omega
    have hto : ∀ c, (if s.last ≠ -1 then setAt s.to_ s.last.toNat (l.length : Int) else s.to_) c =
        if l.count c = 0 then -1 else (below c l + l.count c : Int) := by
      intro c
      cases hl : l.getLast? with
      | none =>
        have e : s.last = -1 := by rw [h.last, hl]
        have hc := h.to_ c
        rw [List.getLast?_eq_none_iff] at hl
        subst hl
        simp [e] at hc ⊢; exact hc
      | some d =>
        obtain ⟨e1, e2, e3, e4⟩ := hlast d hl
        rw [if_pos (by omega), e1]
        unfold setAt
        simp only [Int.toNat_natCast]
        by_cases hc : c = d
        · subst hc; rw [if_pos rfl, if_neg e3, ← e4]; push_cast; rfl
        · rw [if_neg hc, h.to_ c, hl]
          simp [Ne.symm hc]
    have hfrom : ∀ c, setAt s.from_ x (l.length : Int) c =
        if (l ++ [x]).count c = 0 then -1 else (below c (l ++ [x]) : Int) := by
      intro c
      unfold setAt
      rw [hcount, hbelow]
      by_cases hc : c = x
      · subst hc; simp [hbx]
      · rw [if_neg hc, h.from_ c]
        simp only [if_neg (Ne.symm hc), Nat.add_zero]
        split
        · rfl
        · rename_i h0
          have := hin c h0
          rw [if_neg (by omega)]; simp
    by_cases hend : l.length + 1 = n
    · rw [if_pos hend]
      refine ⟨by simp, hfrom, fun c => ?_⟩
      show setAt _ x _ c = _
      unfold setAt
      rw [hcount, hbelow]
      by_cases hc : c = x
      · subst hc
        simp [hbx, hend, hx0]
      · rw [if_neg hc]
        have := hto c
        unfold setAt at this
        rw [this]
        simp only [if_neg (Ne.symm hc), Nat.add_zero]
        split
        · rfl
        · rename_i h0
          have := hin c h0
          simp [show ¬ x < c by omega, Ne.symm hc]
    · rw [if_neg hend]
      refine ⟨by simp, hfrom, fun c => ?_⟩
      show (if s.last ≠ -1 then setAt s.to_ s.last.toNat (l.length : Int) else s.to_) c = _
      rw [hto c, hcount, hbelow]
      by_cases hc : c = x
      · subst hc
        have : l.length + 1 < n := by omega
        simp [hx0, this]
      · simp only [if_neg (Ne.symm hc), Nat.add_zero]
        split
        · rfl
        · rename_i h0
          have := hin c h0
          simp [show ¬ x < c by omega, Ne.symm hc]
  · -- the same column again
    simp only [if_neg hx]
    push Not at hx
    have hl : l.getLast? = some x := by
      cases hl : l.getLast? with
      | none => rw [h.last, hl] at hx; simp only at hx; omega
      | some c => rw [h.last, hl] at hx; simp only [Nat.cast_inj] at hx; rw [hx]
    have hx0 : l.count x ≠ 0 := by
      have := List.count_pos_iff.mpr (List.mem_of_getLast? hl); omega
    have hfrom : ∀ c, s.from_ c = if (l ++ [x]).count c = 0 then -1 else (below c (l ++ [x]) : Int) := by
      intro c
      rw [hcount, hbelow, h.from_ c]
      by_cases hc : x = c
      · subst hc; simp [hx0]
      · simp only [if_neg hc, Nat.add_zero]
        split
        · rfl
        · rename_i h0
          have := hin c h0
          rw [if_neg (by omega)]; simp
    have hlen : below x l + l.count x = l.length := below_count_last hs1 hl
    have hlt : l.length < n := by omega
    by_cases hend : l.length + 1 = n
    · rw [if_pos hend]
      refine ⟨by rw [← hx]; simp, hfrom, fun c => ?_⟩
      show setAt _ x _ c = _
      unfold setAt
      rw [hcount, hbelow]
      by_cases hc : c = x
      · subst hc
        simp [hend]
        rw [← hlen]; push_cast; ring
      · rw [if_neg hc, h.to_ c, hl]
        simp only [if_neg (Ne.symm hc), Nat.add_zero]
        split
        · rfl
        · rename_i h0
          have := hin c h0
          simp [show ¬ x < c by omega, Ne.symm hc]
    · rw [if_neg hend]
      refine ⟨by rw [← hx]; simp, hfrom, fun c => ?_⟩
      rw [hcount, hbelow, h.to_ c, hl]
      by_cases hc : c = x
      · subst hc
        have : l.length + 1 < n := by omega
        simp [hx0, this, hlt]
      · simp only [if_neg (Ne.symm hc), Nat.add_zero]
        split
        · rfl
        · rename_i h0
          have := hin c h0
          simp [show ¬ x < c by omega, Ne.symm hc]

theorem loopE_concat {σ α : Type} (f : σ → α → Except Err σ) (s : σ) (l : List α) (x : α) :
    loopE f s (l ++ [x]) = match loopE f s l with | .error e => .error e | .ok s1 => f s1 x := by
  induction l generalizing s with
  | nil =>
    simp only [List.nil_append, loopE]
    cases f s x <;> rfl
  | cons y ys ih =>
    simp only [List.cons_append, loopE]
    cases f s y with
    | error e => rfl
    | ok s1 => exact ih s1

theorem colRange_prefix (n : Nat) (l : List Nat) (h : l.Pairwise (· ≤ ·)) (hn : l.length ≤ n) :
    ∃ s, loopE (colRangeStep n) { from_ := fun _ => -1, to_ := fun _ => -1, last := -1 } l.zipIdx = .ok s ∧
      RangeInv l n s := by
  induction l using List.reverseRecOn with
  | nil => exact ⟨_, rfl, ⟨rfl, fun c => rfl, fun c => rfl⟩⟩
  | append_singleton l x ih =>
    have hn' : l.length + 1 ≤ n := by simpa using hn
    obtain ⟨s, h1, h2⟩ := ih (List.pairwise_append.mp h).1 (by omega)
    obtain ⟨s', h3, h4⟩ := h2.step h hn'
    refine ⟨s', ?_, h4⟩
    rw [zipIdx_concat, loopE_concat, h1]
    exact h3

/-- For ascending columns, the range of a column with records is where they are; a column without records has
(-1, -1). -/
theorem C45_range {cols : List Nat} (h : cols.Pairwise (· ≤ ·)) :
    ∃ s, colRange cols = .ok s ∧ ∀ c, (cols.count c = 0 → s.from_ c = -1 ∧ s.to_ c = -1) ∧
      (cols.count c ≠ 0 → s.from_ c = below c cols ∧ s.to_ c = below c cols + cols.count c) := by
  obtain ⟨s, h1, h2⟩ := colRange_prefix cols.length cols h le_rfl
  refine ⟨s, h1, fun c => ⟨fun h0 => ?_, fun h0 => ?_⟩⟩
  · rw [h2.from_, h2.to_, if_pos h0, if_pos h0]; exact ⟨rfl, rfl⟩
  · rw [h2.from_, h2.to_, if_neg h0, if_neg h0]; simp

/-- Columns that are not ascending raise. -/
theorem C45_range_error {cols : List Nat} (h : ¬ cols.Pairwise (· ≤ ·)) : ∃ e, colRange cols = .error e := by
  unfold colRange
  suffices H : ∀ (n : Nat) (l : List Nat), (¬ l.Pairwise (· ≤ ·)) → l.length ≤ n →
      ∃ e, loopE (colRangeStep n) { from_ := fun _ => -1, to_ := fun _ => -1, last := -1 } l.zipIdx = .error e from
    H _ _ h le_rfl
  intro n l
  induction l using List.reverseRecOn with
  | nil => intro h; exact absurd List.Pairwise.nil h
  | append_singleton l x ih =>
    intro hn hlen
    have hlen' : l.length + 1 ≤ n := by simpa using hlen
    rw [zipIdx_concat, loopE_concat]
    by_cases hp : l.Pairwise (· ≤ ·)
    · obtain ⟨s, h1, h2⟩ := colRange_prefix n l hp (by omega)
      rw [h1]
      have : ∃ y ∈ l, x < y := by
        by_contra hc
        push Not at hc
        apply hn
        rw [List.pairwise_append]
        refine ⟨hp, List.pairwise_singleton _ _, fun a ha b hb => ?_⟩
        simp at hb; subst hb
        exact hc a ha
      obtain ⟨y, hy, hxy⟩ := this
      have : (x : Int) < s.last := by
        rw [h2.last]
        cases hl : l.getLast? with
        | none => rw [List.getLast?_eq_none_iff] at hl; rw [hl] at hy; cases hy
        | some c =>
          have : y ≤ c := by
            rw [List.getLast?_eq_some_iff] at hl
            obtain ⟨ys, rfl⟩ := hl
            rw [List.pairwise_append] at hp
            rcases List.mem_append.mp hy with hm | hm
            · exact hp.2.2 y hm c (by simp)
            · simp at hm; omega
          simp only; omega
      exact ⟨_, by simp only [colRangeStep]; rw [if_pos this]⟩
    · obtain ⟨e, he⟩ := ih hp (by omega)
      exact ⟨e, by rw [he]⟩

/-- For ascending columns, selecting through the ranges gives the same as through the map. -/
theorem C45_range_select {cols : List Nat} (h : cols.Pairwise (· ≤ ·)) (newCols : List Nat) :
    ∃ s, colRange cols = .ok s ∧
      colRangeSelect s newCols = ((selection cols newCols).map Prod.fst, (selection cols newCols).map Prod.snd) := by
  obtain ⟨s, h1, h2⟩ := C45_range h
  refine ⟨s, h1, ?_⟩
  unfold colRangeSelect selection
  have := foldl_select (fun c => cols.count c) (fun c => positions c cols)
    (fun c h => List.eq_nil_of_length_eq_zero (by rw [positions_length]; exact h))
    (fun c => positions_length c cols) newCols.zipIdx [] []
  simp only [List.nil_append] at this
  rw [← this]
  congr 1
  funext out x
  by_cases h0 : cols.count x.1 = 0
  · rw [if_pos h0, if_pos (Or.inl ((h2 x.1).1 h0).1)]
  · obtain ⟨e1, e2⟩ := (h2 x.1).2 h0
    rw [if_neg h0, if_neg (by rw [e1, e2]; omega), e1, e2, positions_sorted h]
    simp

/-- `ColumnMapper` picks ranges or the map; the selection is the same either way. -/
theorem C45_meta (cols : List Nat) (junk : Nat → Nat) (newCols : List Nat) :
    colIdxsMeta cols junk newCols =
      .ok ((selection cols newCols).map Prod.fst, (selection cols newCols).map Prod.snd) := by
  unfold colIdxsMeta
  split
  · rename_i h
    obtain ⟨s, h1, h2⟩ := C45_range_select ((C45_is_sorted cols).mp h) newCols
    rw [h1]
    simp only [h2]
  · rw [C45_map_select]

theorem takeIdxs_range {α : Type} (records : List α) (b n : Nat) :
    takeIdxs records ((List.range n).map fun k => b + k) = (records.drop b).take n := by
  unfold takeIdxs
  induction n with
  | zero => simp
  | succ n ih =>
    rw [List.range_succ, List.map_append, List.filterMap_append, ih, List.take_add_one, List.getElem?_drop]
    rfl

theorem filter_sorted {α : Type} {records : List α} {col : α → Nat} (h : (records.map col).Pairwise (· ≤ ·)) (c : Nat) :
    records.filter (fun r => col r = c) =
      (records.drop (below c (records.map col))).take ((records.map col).count c) := by
  rw [← filter_eq_takeIdxs, positions_sorted h]
  exact takeIdxs_range records _ _

/-- For ascending columns, selecting records through the ranges gives the same as through the map. -/
theorem C45_record_range_select {α : Type} (setCol : α → Nat → α) (records : List α) (col : α → Nat)
    (h : (records.map col).Pairwise (· ≤ ·)) (newCols : List Nat) :
    ∃ s, colRange (records.map col) = .ok s ∧ recordColRangeSelect setCol records s newCols =
      newCols.zipIdx.flatMap fun x => (records.filter fun r => col r = x.1).map fun r => setCol r x.2 := by
  obtain ⟨s, h1, h2⟩ := C45_range h
  refine ⟨s, h1, ?_⟩
  unfold recordColRangeSelect
  have : ∀ x : Nat × Nat, ∀ out : List α, (if s.from_ x.1 = -1 ∨ s.to_ x.1 = -1 then out
      else out ++ ((records.drop (s.from_ x.1).toNat).take (s.to_ x.1 - s.from_ x.1).toNat).map
        fun r => setCol r x.2) = out ++ (records.filter fun r => col r = x.1).map fun r => setCol r x.2 := by
    intro x out
    rw [filter_sorted h]
    by_cases h0 : (records.map col).count x.1 = 0
    · rw [if_pos (Or.inl ((h2 x.1).1 h0).1), h0]; simp
    · obtain ⟨e1, e2⟩ := (h2 x.1).2 h0
      rw [if_neg (by rw [e1, e2]; omega), e1, e2]
      simp
  simp only [this]
  rw [foldl_append_flatMap]
  simp

/-- Non-vacuity: unsorted columns, a repeated and an empty column selected. -/
example : colMapSelect (colMap [1, 0, 1, 3] (fun _ => 77)) [1, 2, 0, 1] = ([0, 2, 1, 0, 2], [0, 0, 2, 3, 3]) ∧
    selection [1, 0, 1, 3] [1, 2, 0, 1] = [(0, 0), (2, 0), (1, 2), (0, 3), (2, 3)] ∧
    ([0, 1, 1, 3] : List Nat).Pairwise (· ≤ ·) ∧ ¬ ([1, 0] : List Nat).Pairwise (· ≤ ·) := by decide

end Vbt
