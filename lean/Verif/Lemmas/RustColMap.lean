import Verif.Lemmas.RustColumns

/-!
# Selecting columns and the column map on the Rust engine
-/

namespace Vbt.RsCol
open F

/-! ## Selecting through ranges -/

theorem rangeOf_lt {m : Nat} {rg : Nat → Int} {c : Nat} (h : c * 2 + 1 < m) :
    rangeOf m rg (c : Int) = .ok (rg (c * 2), rg (c * 2 + 1)) := by
  unfold rangeOf
  rw [asUsize_nat, look_lt (by omega)]
  simp only
  rw [look_lt h]

/-- The rows of a range. -/
def rowsOf (f t : Int) : List Nat := if f = -1 ∨ t = -1 then [] else (List.range (t - f).toNat).map fun k => f.toNat + k

theorem rowsOf_length {f t : Int} (h : RangePair f t) :
    (rowsOf f t).length = if f ≠ -1 ∧ t ≠ -1 then asUsize (t - f) else 0 := by
  unfold rowsOf
  rcases h with ⟨h1, h2⟩ | ⟨h1, h2⟩
  · rw [if_pos (Or.inl h1), if_neg (by omega)]; rfl
  · rw [if_neg (by omega), if_pos (by omega)]
    unfold asUsize
    rw [if_pos (by omega)]
    simp

theorem numba_range_select (rg : RangeState) (newCols : List Nat) :
    Vbt.colRangeSelect rg newCols =
      (newCols.zipIdx.flatMap fun x => rowsOf (rg.from_ x.1) (rg.to_ x.1),
       newCols.zipIdx.flatMap fun x => (rowsOf (rg.from_ x.1) (rg.to_ x.1)).map fun _ => x.2) := by
  unfold Vbt.colRangeSelect
  have := foldl_two (fun x : Nat × Nat => rowsOf (rg.from_ x.1) (rg.to_ x.1))
    (fun x => (rowsOf (rg.from_ x.1) (rg.to_ x.1)).map fun _ => x.2) newCols.zipIdx [] []
  simp only [List.nil_append] at this
  rw [← this]
  congr 1
  funext out x
  unfold rowsOf
  by_cases h : rg.from_ x.1 = -1 ∨ rg.to_ x.1 = -1
  · rw [if_pos h, if_pos h]; simp
  · rw [if_neg h, if_neg h, List.map_const', List.length_map, List.length_range]

theorem countStep_loop {m : Nat} {rg : Nat → Int} {newCols : List Nat} (h : ∀ c ∈ newCols, c * 2 + 1 < m)
    (hp : ∀ c ∈ newCols, RangePair (rg (c * 2)) (rg (c * 2 + 1))) :
    loopE (countStep m rg) 0 (ints newCols) = .ok ((newCols.zipIdx.flatMap fun x => rowsOf (rg (x.1 * 2)) (rg (x.1 * 2 + 1))).length) := by
  have := count_loop (step := countStep m rg) (fun c => (rowsOf (rg (asUsize c * 2)) (rg (asUsize c * 2 + 1))).length) (ints newCols)
    (by
      intro c hc n
      unfold ints at hc
      obtain ⟨d, hd, rfl⟩ := List.mem_map.mp hc
      unfold countStep
      rw [rangeOf_lt (h d hd), asUsize_nat, rowsOf_length (hp d hd)]
      simp only
      split <;> simp) 0
  rw [this, Nat.zero_add]
  congr 1
  have e := flatMap_length_zipIdx (fun c => (rowsOf (rg (asUsize c * 2)) (rg (asUsize c * 2 + 1))).length)
    (fun x => rowsOf (rg (asUsize x.1 * 2)) (rg (asUsize x.1 * 2 + 1))) (fun x => rfl) (ints newCols) 0
  rw [← e, ints_zipIdx, List.flatMap_map]
  simp only [asUsize_nat]

theorem colRangeSelect_eq {m : Nat} {rg : Nat → Int} {newCols : List Nat} (h : ∀ c ∈ newCols, c * 2 + 1 < m)
    (hp : ∀ c ∈ newCols, RangePair (rg (c * 2)) (rg (c * 2 + 1))) :
    colRangeSelect m rg (ints newCols) =
      .ok (ints (newCols.zipIdx.flatMap fun x => rowsOf (rg (x.1 * 2)) (rg (x.1 * 2 + 1))),
        ints (newCols.zipIdx.flatMap fun x => (rowsOf (rg (x.1 * 2)) (rg (x.1 * 2 + 1))).map fun _ => x.2)) := by
  unfold colRangeSelect
  rw [countStep_loop h hp]
  simp only
  obtain ⟨s', h1, h2, h3, h4⟩ := sel_loop
    (n := (newCols.zipIdx.flatMap fun x => rowsOf (rg (x.1 * 2)) (rg (x.1 * 2 + 1))).length)
    (step := rangeSelStep m rg ((newCols.zipIdx.flatMap fun x => rowsOf (rg (x.1 * 2)) (rg (x.1 * 2 + 1))).length))
    (fun x => ints (rowsOf (rg (asUsize x.1 * 2)) (rg (asUsize x.1 * 2 + 1))))
    (fun x => (rowsOf (rg (asUsize x.1 * 2)) (rg (asUsize x.1 * 2 + 1))).map fun _ => (x.2 : Int))
    (fun x => by simp [ints]) (ints newCols).zipIdx
    (by
      intro x hx s hs
      rw [ints_zipIdx] at hx
      obtain ⟨y, hy, rfl⟩ := List.mem_map.mp hx
      have hy' : y.1 ∈ newCols := by
        have := List.mem_zipIdx hy
        rw [this.2.2]
        exact List.getElem_mem _
      simp only [asUsize_nat] at hs ⊢
      unfold rangeSelStep
      rw [rangeOf_lt (h _ hy')]
      simp only
      have hl := rowsOf_length (hp _ hy')
      by_cases hf : rg (y.1 * 2) = -1 ∨ rg (y.1 * 2 + 1) = -1
      · rw [if_pos hf]
        have : rowsOf (rg (y.1 * 2)) (rg (y.1 * 2 + 1)) = [] := by unfold rowsOf; rw [if_pos hf]
        rw [this]
        simp [ints, over_nil]
      · rw [if_neg hf]
        rw [if_pos (by push Not at hf; exact hf)] at hl
        have hpair := hp _ hy'
        have e1 : ((List.range (asUsize (rg (y.1 * 2 + 1) - rg (y.1 * 2)))).map fun k : Nat => rg (y.1 * 2) + (k : Int)) =
            ints (rowsOf (rg (y.1 * 2)) (rg (y.1 * 2 + 1))) := by
          unfold rowsOf ints
          rw [if_neg hf, List.map_map]
          rcases hpair with ⟨q1, q2⟩ | ⟨q1, q2⟩
          · exact absurd (Or.inl q1) hf
          · unfold asUsize
            rw [if_pos (by omega)]
            apply List.map_congr_left
            intro k _
            simp only [Function.comp]
            push_cast
            rw [Int.toNat_of_nonneg q1]
        have e2 : List.replicate (asUsize (rg (y.1 * 2 + 1) - rg (y.1 * 2))) (y.2 : Int) =
            (rowsOf (rg (y.1 * 2)) (rg (y.1 * 2 + 1))).map fun _ => (y.2 : Int) := by
          rw [List.map_const', hl]
        rw [e1, e2, blit_ok hs]
        simp only
        rw [blit_ok (by simpa [ints] using hs)]
        simp only [ints, List.length_map, hl])
    ⟨0, fun _ => 0, fun _ => 0⟩ (by
      rw [ints_zipIdx, List.flatMap_map]
      simp only [asUsize_nat, Nat.zero_add]
      unfold ints
      rw [← List.map_flatMap, List.length_map])
  rw [h1]
  have hn : s'.j = (newCols.zipIdx.flatMap fun x => rowsOf (rg (x.1 * 2)) (rg (x.1 * 2 + 1))).length := by
    rw [h2, ints_zipIdx, List.flatMap_map]
    simp only [asUsize_nat, Nat.zero_add]
    unfold ints
    rw [← List.map_flatMap, List.length_map]
  rw [hn] at h3 h4
  simp only
  rw [h3, h4, ints_zipIdx, List.flatMap_map, List.flatMap_map]
  simp only [asUsize_nat]
  unfold ints slice
  simp only [List.range_zero, List.map_nil, List.nil_append]
  rw [List.map_flatMap, List.map_flatMap]
  simp only [List.map_map]
  rfl

/-! ## The column map -/

theorem lensStep_loop {nCols : Nat} : ∀ (cols : List Nat) (lens : Nat → Int), (∀ c ∈ cols, c < nCols) →
    loopE (lensStep nCols) lens (ints cols) = .ok fun c => lens c + (cols.count c : Int) := by
  intro cols
  induction cols with
  | nil => intro lens _; simp [ints]
  | cons x xs ih =>
    intro lens h
    have hx := h x (by simp)
    unfold ints
    rw [List.map_cons]
    unfold loopE
    have e : lensStep nCols lens (x : Int) = .ok (setAt lens x (lens x + 1)) := by
      unfold lensStep
      rw [normalizeCol_lt hx, look_lt hx]
      exact put_lt hx _ _
    rw [e]
    simp only
    have := ih (setAt lens x (lens x + 1)) (fun c hc => h c (by simp [hc]))
    unfold ints at this
    rw [this]
    congr 1
    funext c
    unfold setAt
    rw [List.count_cons]
    by_cases hc : c = x
    · subst hc; simp; omega
    · have : ¬ (x == c) = true := by simpa using fun h => hc h.symm
      rw [if_neg hc, if_neg this]
      simp

theorem starts_eq {nCols : Nat} {lens : Nat → Int} {nat : Nat → Nat} (h : ∀ c < nCols, lens c = (nat c : Int)) {c : Nat}
    (hc : c < nCols) : starts nCols lens c = (colStarts nat c : Int) := by
  have key : ∀ k, k + 1 ≤ nCols → ∀ d, d < nCols → ((List.range' 1 k).foldl (fun st i => setAt st i (st (i - 1) + lens (i - 1)))
      (fun _ => (0 : Int))) d = if d ≤ k then (colStarts nat d : Int) else 0 := by
    intro k
    induction k with
    | zero =>
      intro _ d _
      simp only [List.range'_zero, List.foldl_nil]
      split
      · rename_i hd
        have : d = 0 := by omega
        subst this
        rw [colStarts_eq]; rfl
      · rfl
    | succ k ih =>
      intro hk d hd
      rw [List.range'_concat, List.foldl_append, List.foldl_cons, List.foldl_nil]
      simp only [Nat.one_mul]
      unfold setAt
      by_cases hd' : d = 1 + k
      · subst hd'
        rw [if_pos rfl, if_pos (by omega)]
        have e := ih (by omega) k (by omega)
        unfold setAt at e
        rw [show 1 + k - 1 = k by omega, e, if_pos le_rfl, h k (by omega), colStarts_eq, colStarts_eq,
          show 1 + k = k + 1 by omega, List.range_succ]
        simp
      · rw [if_neg hd']
        have e := ih (by omega) d hd
        unfold setAt at e
        rw [e]
        by_cases hle : d ≤ k
        · rw [if_pos hle, if_pos (by omega)]
        · rw [if_neg hle, if_neg (by omega)]
  unfold starts
  rw [key (nCols - 1) (by omega) c hc, if_pos (by omega)]

theorem sum_counts {nCols : Nat} : ∀ (cols : List Nat), (∀ c ∈ cols, c < nCols) →
    ((List.range nCols).map fun c => cols.count c).sum = cols.length := by
  intro cols
  induction cols with
  | nil => intro _; simp
  | cons x xs ih =>
    intro h
    have hx := h x (by simp)
    have e := ih (fun c hc => h c (by simp [hc]))
    have : ∀ n, ((List.range n).map fun c => (x :: xs).count c).sum =
        ((List.range n).map fun c => xs.count c).sum + if x < n then 1 else 0 := by
      intro n
      induction n with
      | zero => simp
      | succ n ihn =>
        rw [List.range_succ, List.map_append, List.map_append, List.sum_append, List.sum_append, ihn]
        simp only [List.map_cons, List.map_nil, List.sum_cons, List.sum_nil, Nat.add_zero, List.count_cons]
        by_cases h1 : x = n
        · subst h1; simp; omega
        · have : ¬ (x == n) = true := by simpa using h1
          rw [if_neg this]
          by_cases h2 : x < n
          · rw [if_pos h2, if_pos (by omega)]; omega
          · rw [if_neg h2, if_neg (by omega)]; omega
    rw [this, e, if_pos hx, List.length_cons]

theorem colStarts_mono (lens : Nat → Nat) {c n : Nat} (h : c < n) : colStarts lens c + lens c ≤ ((List.range n).map lens).sum := by
  rw [colStarts_eq]
  induction n with
  | zero => omega
  | succ n ih =>
    rw [List.range_succ, List.map_append, List.sum_append]
    rcases Nat.lt_or_ge c n with h1 | h1
    · have := ih h1; omega
    · have : c = n := by omega
      subst this; simp

/-- The loops of both engines side by side. -/
theorem mapStep_loop {nCols n : Nat} {st : Nat → Int} {lens : Nat → Nat} (hst : ∀ c < nCols, st c = (colStarts lens c : Int)) :
    ∀ (l : List Nat) (k : Nat) (s : (Nat → Nat) × (Nat → Nat)) (r : (Nat → Int) × (Nat → Int)), (∀ c ∈ l, c < nCols) →
      (∀ c < nCols, s.2 c + l.count c ≤ lens c) → (∀ c < nCols, colStarts lens c + lens c ≤ n) →
      (∀ i, r.1 i = (s.1 i : Int)) → (∀ i, r.2 i = (s.2 i : Int)) →
      ∃ r', loopE (mapStep nCols n st) r ((ints l).zipIdx k) = .ok r' ∧
        ∀ i, r'.1 i = (((l.zipIdx k).foldl (colMapStep (colStarts lens)) s).1 i : Int) := by
  intro l
  induction l with
  | nil => intro k s r _ _ _ h1 _; exact ⟨r, rfl, h1⟩
  | cons x xs ih =>
    intro k s r hl hcount hn h1 h2
    have hx := hl x (by simp)
    unfold ints
    rw [List.map_cons, List.zipIdx_cons, List.zipIdx_cons, List.foldl_cons]
    unfold loopE
    have hb := hcount x hx
    rw [List.count_cons_self] at hb
    have hbn := hn x hx
    have e : mapStep nCols n st r ((x : Int), k) =
        .ok (setAt r.1 (colStarts lens x + s.2 x) (k : Int), setAt r.2 x (r.2 x + 1)) := by
      unfold mapStep
      simp only [normalizeCol_lt hx]
      rw [look_lt hx]
      simp only
      rw [hst x hx, h2, show ((colStarts lens x : Int) + (s.2 x : Int)) = ((colStarts lens x + s.2 x : Nat) : Int) by push_cast; rfl,
        asUsize_nat, put_lt (by omega)]
      simp only
      rw [put_lt hx]
    rw [e]
    simp only
    refine ih (k + 1) _ _ (fun c hc => hl c (by simp [hc])) ?_ hn ?_ ?_
    · intro c hc
      have := hcount c hc
      rw [List.count_cons] at this
      simp only [colMapStep, setAt]
      by_cases hcx : c = x
      · subst hcx
        rw [if_pos rfl]
        simp at this; omega
      · rw [if_neg hcx]; omega
    · intro i
      simp only [colMapStep, setAt]
      by_cases hi : i = colStarts lens x + s.2 x
      · rw [if_pos hi, if_pos hi]
      · rw [if_neg hi, if_neg hi]; exact h1 i
    · intro i
      simp only [colMapStep, setAt]
      by_cases hi : i = x
      · rw [if_pos hi, if_pos hi, h2]; push_cast; rfl
      · rw [if_neg hi, if_neg hi]; exact h2 i

theorem slice_append {α : Type} (a : Nat → α) (j k : Nat) : slice a 0 (j + k) = slice a 0 j ++ slice a j k := by
  unfold slice
  rw [List.range_add, List.map_append, List.map_map]
  congr 1
  apply List.map_congr_left
  intro i _
  simp

/-- The indices of all columns one after another. -/
theorem map_concat (m : Vbt.ColMap) (n : Nat) : slice m.idxs 0 ((List.range n).map m.lens).sum = (List.range n).flatMap m.col := by
  induction n with
  | zero => rfl
  | succ n ih =>
    rw [List.range_succ, List.map_append, List.sum_append, slice_append, ih, List.flatMap_append]
    congr 1
    simp only [List.map_cons, List.map_nil, List.sum_cons, List.sum_nil, Nat.add_zero, List.flatMap_cons, List.flatMap_nil,
      List.append_nil]
    unfold Vbt.ColMap.col
    rw [colStarts_eq]

theorem ints_slice (a : Nat → Nat) (b : Nat → Int) (n : Nat) (h : ∀ i < n, b i = (a i : Int)) : slice b 0 n = ints (slice a 0 n) := by
  unfold slice ints
  rw [List.map_map]
  apply List.map_congr_left
  intro i hi
  simp only [Function.comp, Nat.zero_add]
  exact h i (List.mem_range.mp hi)

/-- The map of the Rust engine: all columns one after another, and their lengths. -/
theorem colMap_eq {cols : List Nat} {nCols : Nat} (h : ∀ c ∈ cols, c < nCols) (junk : Nat → Nat) :
    colMap (ints cols) nCols =
      .ok (ints (slice (Vbt.colMap cols junk).idxs 0 cols.length), ints (slice (Vbt.colMap cols junk).lens 0 nCols)) := by
  have hlens : ∀ c, (Vbt.colMap cols junk).lens c = cols.count c := fun c => (C45_map cols junk c).2
  have hsum : ((List.range nCols).map fun c => cols.count c).sum = cols.length := sum_counts cols h
  have hj : slice (Vbt.colMap cols junk).idxs 0 cols.length = slice (Vbt.colMap cols fun _ => 0).idxs 0 cols.length := by
    have e : ∀ junk, slice (Vbt.colMap cols junk).idxs 0 cols.length = (List.range nCols).flatMap fun c => positions c cols := by
      intro junk
      have := map_concat (Vbt.colMap cols junk) nCols
      have hl : ((List.range nCols).map (Vbt.colMap cols junk).lens).sum = cols.length := by
        rw [← hsum]
        congr 1
        apply List.map_congr_left
        intro c _
        exact (C45_map cols junk c).2
      rw [hl] at this
      rw [this]
      congr 1
      funext c
      exact (C45_map cols junk c).1
    rw [e, e]
  rw [hj]
  unfold colMap
  rw [lensStep_loop cols _ h]
  simp only
  have hst : ∀ c < nCols, starts nCols (fun c => (0 : Int) + (cols.count c : Int)) c = (colStarts (colLens cols) c : Int) := by
    intro c hc
    exact starts_eq (fun d _ => by rw [colLens_eq]; simp) hc
  obtain ⟨r', h1, h2⟩ := mapStep_loop (n := cols.length) hst cols 0 (fun _ => 0, fun _ => 0) (fun _ => 0, fun _ => 0) h
    (fun c _ => by rw [colLens_eq]; simp)
    (fun c hc => by
      have := colStarts_mono (colLens cols) hc
      have e : ((List.range nCols).map (colLens cols)).sum = cols.length := by
        rw [← hsum]
        congr 1
        apply List.map_congr_left
        intro c _
        exact colLens_eq cols c
      omega) (fun _ => rfl) (fun _ => rfl)
  have hil : (ints cols).length = cols.length := by simp [ints]
  rw [hil, h1]
  simp only
  congr 2
  · exact ints_slice _ _ _ fun i _ => h2 i
  · exact ints_slice _ _ _ fun i _ => by rw [hlens]; simp

end Vbt.RsCol
