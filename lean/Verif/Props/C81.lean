import Verif.Lemmas.Apply
import Verif.Lemmas.Witness

/-!
# C81  User functions are given exactly their column, row, window or group
-/

namespace Vbt
open F

variable {α β : Type}

/-! ## Columns and rows -/

/-- **C81** (columns).  The function is called with every column and fills it. -/
theorem C81_columns (a : Nat → Nat → α) (f : Nat → List α → Nat → β) (junk : Nat → Nat → β) {rows cols i c : Nat}
    (hi : i < rows) (hc : c < cols) :
    applyCols a f junk rows cols i c = f c ((List.range rows).map fun j => a j c) i := by
  unfold applyCols
  rw [foldl_writeColumn (fun col => f col (column a rows col)), if_pos ⟨hc, hi⟩]
  rfl

/-- **C81** (rows).  The function is called with every row and fills it. -/
theorem C81_rows (a : Nat → Nat → α) (f : Nat → List α → Nat → β) (junk : Nat → Nat → β) {rows cols i c : Nat}
    (hi : i < rows) (hc : c < cols) :
    applyRows a f junk rows cols i c = f i ((List.range cols).map (a i)) c := by
  unfold applyRows
  rw [foldl_writeRow (fun row => f row (rowSlice a row 0 cols)), if_pos ⟨hi, hc⟩]
  unfold rowSlice
  rw [slice_eq, Nat.sub_zero, ← List.range_eq_range']

/-! ## Windows -/

/-- **C81** (rolling).  At every cell the function is given the last `window` values of that column up to that row, missing ones
included; cells with fewer than `minp` present values in the window are NaN.  This holds for every column although the counter
of missing values is shared and never cleared. -/
theorem C81_rolling (a : Nat → Nat → F) (window : Nat) (minp : Option Nat) (f : Nat → Nat → List F → F) (junkCnt : Nat → Nat)
    (junk : Nat → Nat → F) {rows cols i c : Nat} (hi : i < rows) (hc : c < cols) :
    rollingApply2 a window minp f junkCnt junk rows cols i c =
      if (winObs (fun j => a j c) window i).length < minp.getD window then nan
      else f i c (winVals (fun j => a j c) window i) := by
  unfold rollingApply2
  have key : ∀ n, ∃ arr, (List.range n).foldl (fun (s : (Nat → Nat) × (Nat → Nat → F)) col =>
      let r := scanRows (applyStep (fun i => a i col) window (minp.getD window) (fun i => f i col)) (0, s.1)
        (fun i => s.2 i col) rows
      (r.1.2, writeColumn rows col r.2 s.2)) (junkCnt, junk) =
      (arr, (List.range n).foldl (fun out col => writeColumn rows col (fun i =>
        if (winObs (fun j => a j col) window i).length < minp.getD window then nan
        else f i col (winVals (fun j => a j col) window i)) out) junk) := by
    intro n
    induction n with
    | zero => exact ⟨junkCnt, rfl⟩
    | succ n ih =>
      obtain ⟨arr, h⟩ := ih
      rw [List.range_succ, List.foldl_append, List.foldl_append, h]
      refine ⟨_, Prod.ext rfl ?_⟩
      simp only [List.foldl_cons, List.foldl_nil]
      funext i c
      unfold writeColumn
      by_cases h : c = n ∧ i < rows
      · rw [if_pos h, if_pos h, scanRows_out _ _ _ h.2]
        exact (apply_row (apply_state _ _ _ _ _ _)).1
      · rw [if_neg h, if_neg h]
  obtain ⟨arr, h⟩ := key cols
  rw [h]
  exact (foldl_writeColumn (fun col i => if (winObs (fun j => a j col) window i).length < minp.getD window then nan
    else f i col (winVals (fun j => a j col) window i)) rows cols junk i c).trans (if_pos ⟨hc, hi⟩)

/-- **C81** (expanding).  The expanding version gives all values up to the row. -/
theorem C81_expanding (a : Nat → Nat → F) (minp : Option Nat) (f : Nat → Nat → List F → F) (junkCnt : Nat → Nat)
    (junk : Nat → Nat → F) {rows cols i c : Nat} (hi : i < rows) (hc : c < cols) :
    expandingApply2 a minp f junkCnt junk rows cols i c =
      if (((List.range (i + 1)).map fun j => a j c).filter fun x => !x.isnan).length < minp.getD rows then nan
      else f i c ((List.range (i + 1)).map fun j => a j c) := by
  unfold expandingApply2
  rw [C81_rolling a rows minp f junkCnt junk hi hc, winObs_all _ hi]
  have : winVals (fun j => a j c) rows i = (List.range (i + 1)).map fun j => a j c := by
    unfold winVals
    rw [List.filter_eq_self.mpr fun j _ => by simp; omega]
  rw [this]

/-- What the matrix version should do at a row: the function is given the last `window` rows, and the row is NaN if some column
has fewer than `minp` present values in the window. -/
def MatrixRow (a : Nat → Nat → F) (window minp : Nat) (f : Nat → List (List F) → Nat → F) (cols i : Nat)
    (out : Nat → Nat → F) : Prop :=
  ∀ c < cols, out i c =
    if ∃ k < cols, (winObs (fun j => a j k) window i).length < minp then nan
    else f i (winVals (fun j => (List.range cols).map (a j)) window i) c

theorem nan_fold_zero {a : Nat → Nat → F} {i : Nat} (cols : Nat) (h : ∀ c < cols, (a i c).isnan = false) :
    (List.range cols).foldl (fun n col => if (a i col).isnan then n + 1 else n) 0 = 0 := by
  induction cols with
  | zero => rfl
  | succ n ih =>
    rw [List.range_succ, List.foldl_append, ih fun c hc => h c (by omega)]
    simp [h n (by omega)]

theorem winObs_full {a : Nat → F} {window i : Nat} (h : ∀ j ≤ i, (a j).isnan = false) :
    (winObs a window i).length = min (i + 1) window := by
  have hz : ∀ n ≤ i + 1, nanCount a n = 0 := by
    intro n
    induction n with
    | zero => intro _; rfl
    | succ n ih =>
      intro hn
      rw [nanCount_succ, if_neg (by simp [h n (by omega)]), ih (by omega)]
  have := (winObs_sums a window i).2
  rw [hz _ (le_refl _), hz _ (by omega)] at this
  omega

/-- **C81** (rolling over matrices, partial).  If no value is missing, the matrix version gives the function the last `window`
rows, and rows with fewer than `minp` rows before them are NaN.  With missing values the count is wrong
(`C81_counterexample_matrix`). -/
theorem C81_matrix_partial (a : Nat → Nat → F) (window : Nat) (minp : Option Nat) (f : Nat → List (List F) → Nat → F)
    (junkCnt : Nat → Nat) (junk : Nat → Nat → F) {rows cols i : Nat} (hi : i < rows)
    (hn : ∀ j < rows, ∀ c < cols, (a j c).isnan = false) :
    MatrixRow a window (minp.getD window) f cols i (rollingMatrixApply a window minp f junkCnt junk rows cols) := by
  intro c hc
  have key : ∀ n, n ≤ rows → ((List.range n).foldl (matrixStep a window (minp.getD window) f cols) (junkCnt, junk)).2 =
      (List.range n).foldl (fun out row => writeRow cols row (fun c =>
        if min (row + 1) window < minp.getD window then nan
        else f row (winVals (fun j => (List.range cols).map (a j)) window row) c) out) junk ∧
      ∀ k < n, ((List.range n).foldl (matrixStep a window (minp.getD window) f cols) (junkCnt, junk)).1 k = 0 := by
    intro n
    induction n with
    | zero => intro _; exact ⟨rfl, fun k hk => absurd hk (Nat.not_lt_zero k)⟩
    | succ n ih =>
      intro hle
      obtain ⟨h1, h2⟩ := ih (by omega)
      rw [List.range_succ, List.foldl_append, List.foldl_append]
      simp only [List.foldl_cons, List.foldl_nil]
      have harr : ∀ k < n + 1, setAt ((List.range n).foldl (matrixStep a window (minp.getD window) f cols) (junkCnt, junk)).1 n 0 k = 0 := by
        intro k hk
        unfold setAt
        by_cases hkn : k = n
        · rw [if_pos hkn]
        · rw [if_neg hkn, h2 k (by omega)]
      have hv : (if n < window then (n : Int) + 1 - (0 : Nat) else (window : Int) - (((0 : Nat) : Int) -
          (setAt ((List.range n).foldl (matrixStep a window (minp.getD window) f cols) (junkCnt, junk)).1 n 0 (n - window) : Nat))) =
          (min (n + 1) window : Nat) := by
        by_cases hw : n < window
        · rw [if_pos hw]; omega
        · rw [if_neg hw, harr _ (by omega)]; omega
      have hwin : (slice (fun k => k) (n + 1 - window) (n + 1 - (n + 1 - window))).map (fun k => rowSlice a k 0 cols) =
          winVals (fun j => (List.range cols).map (a j)) window n := by
        rw [winVals_eq]
        unfold winVals
        rw [List.map_map]
        refine List.map_congr_left fun j _ => ?_
        show rowSlice a j 0 cols = _
        unfold rowSlice
        rw [slice_eq, Nat.sub_zero, ← List.range_eq_range']
      generalize (List.range n).foldl (matrixStep a window (minp.getD window) f cols) (junkCnt, junk) = st at h1 harr hv ⊢
      unfold matrixStep
      dsimp only
      rw [nan_fold_zero cols (hn n (by omega)), hv, hwin]
      refine ⟨?_, harr⟩
      rw [← h1]
      by_cases hlt : min (n + 1) window < minp.getD window
      · rw [if_pos (by exact_mod_cast hlt)]
        simp only [if_pos hlt]
      · rw [if_neg (by exact_mod_cast hlt)]
        simp only [if_neg hlt]
  unfold rollingMatrixApply
  rw [(key rows (le_refl _)).1, foldl_writeRow (fun row c =>
        if min (row + 1) window < minp.getD window then nan
        else f row (winVals (fun j => (List.range cols).map (a j)) window row) c), if_pos ⟨hi, hc⟩]
  have hw : ∀ k < cols, (winObs (fun j => a j k) window i).length = min (i + 1) window := fun k hk =>
    winObs_full fun j hj => hn j (by omega) k hk
  by_cases h : min (i + 1) window < minp.getD window
  · rw [if_pos h, if_pos ⟨c, hc, by rw [hw c hc]; exact h⟩]
  · rw [if_neg h, if_neg]
    rintro ⟨k, hk, hlt⟩
    rw [hw k hk] at hlt
    exact h hlt

/-! ## Groups of rows -/

theorem foldl_writeCell_miss (col : Nat) (groups : List (Nat × List Nat)) (v : Nat × List Nat → β) (out : Nat → Nat → β) {i c : Nat}
    (h : c = col → i ∉ groups.map Prod.fst) :
    groups.foldl (fun out g => writeCell g.1 col (v g) out) out i c = out i c := by
  induction groups generalizing out with
  | nil => rfl
  | cons g gs ih =>
    rw [List.foldl_cons, ih _ fun hc => fun hm => h hc (List.mem_cons_of_mem _ hm)]
    unfold writeCell
    rw [if_neg]
    rintro ⟨h1, h2⟩
    exact h h2 (by simp [h1])

theorem foldl_writeCell_hit (col : Nat) {groups : List (Nat × List Nat)} (v : Nat × List Nat → β) (out : Nat → Nat → β)
    (hnd : (groups.map Prod.fst).Nodup) {g : Nat × List Nat} (hg : g ∈ groups) :
    groups.foldl (fun out g => writeCell g.1 col (v g) out) out g.1 col = v g := by
  induction groups generalizing out with
  | nil => cases hg
  | cons x gs ih =>
    rw [List.map_cons, List.nodup_cons] at hnd
    rw [List.foldl_cons]
    rcases List.mem_cons.mp hg with h | h
    · subst h
      rw [foldl_writeCell_miss col gs v _ fun _ => hnd.1]
      unfold writeCell
      rw [if_pos ⟨rfl, rfl⟩]
    · exact ih _ hnd.2 h

/-- **C81** (groups of rows).  With distinct keys the row of a group holds, in every column, the function of exactly the rows of
that group. -/
theorem C81_groupby (a : Nat → Nat → α) (groups : List (Nat × List Nat)) (f : List Nat → Nat → List α → β)
    (junk : Nat → Nat → β) {cols c : Nat} (hc : c < cols) (hnd : (groups.map Prod.fst).Nodup) {k : Nat} {idxs : List Nat}
    (hg : (k, idxs) ∈ groups) :
    groupbyApply a groups f junk cols k c = f idxs c (idxs.map fun i => a i c) := by
  unfold groupbyApply
  have key : ∀ n, c < n → (List.range n).foldl (fun out col =>
      groups.foldl (fun out g => writeCell g.1 col (f g.2 col (g.2.map fun i => a i col)) out) out) junk k c =
      f idxs c (idxs.map fun i => a i c) := by
    intro n
    induction n with
    | zero => intro h; exact absurd h (Nat.not_lt_zero c)
    | succ n ih =>
      intro h
      rw [List.range_succ, List.foldl_append]
      simp only [List.foldl_cons, List.foldl_nil]
      by_cases hcn : c = n
      · subst hcn
        exact foldl_writeCell_hit c (fun g => f g.2 c (g.2.map fun i => a i c)) _ hnd hg
      · rw [foldl_writeCell_miss n groups _ _ fun h' => absurd h' hcn]
        exact ih (by omega)
  exact key cols hc

/-- **C81** (groups of rows, all columns at once). -/
theorem C81_groupby_matrix (a : Nat → Nat → α) (groups : List (Nat × List Nat)) (f : List Nat → List (List α) → Nat → β)
    (junk : Nat → Nat → β) {cols c : Nat} (hc : c < cols) (hnd : (groups.map Prod.fst).Nodup) {k : Nat} {idxs : List Nat}
    (hg : (k, idxs) ∈ groups) :
    groupbyMatrixApply a groups f junk cols k c = f idxs (idxs.map fun i => (List.range cols).map (a i)) c := by
  unfold groupbyMatrixApply
  have hrow : ∀ i, rowSlice a i 0 cols = (List.range cols).map (a i) := fun i => by
    unfold rowSlice; rw [slice_eq, Nat.sub_zero, ← List.range_eq_range']
  have miss : ∀ (gs : List (Nat × List Nat)) (out : Nat → Nat → β), k ∉ gs.map Prod.fst →
      gs.foldl (fun out g => writeRow cols g.1 (f g.2 (g.2.map fun i => rowSlice a i 0 cols)) out) out k c = out k c := by
    intro gs
    induction gs with
    | nil => intro _ _; rfl
    | cons g gs ih =>
      intro out h
      rw [List.foldl_cons, ih _ fun hm => h (List.mem_cons_of_mem _ hm)]
      unfold writeRow
      rw [if_neg]
      rintro ⟨h1, -⟩
      exact h (by simp [h1])
  have key : ∀ (gs : List (Nat × List Nat)) (out : Nat → Nat → β), (gs.map Prod.fst).Nodup → (k, idxs) ∈ gs →
      gs.foldl (fun out g => writeRow cols g.1 (f g.2 (g.2.map fun i => rowSlice a i 0 cols)) out) out k c =
        f idxs (idxs.map fun i => (List.range cols).map (a i)) c := by
    intro gs
    induction gs with
    | nil => intro _ _ h; cases h
    | cons g gs ih =>
      intro out hnd hg
      rw [List.map_cons, List.nodup_cons] at hnd
      rw [List.foldl_cons]
      rcases List.mem_cons.mp hg with h | h
      · subst h
        rw [miss gs _ hnd.1]
        unfold writeRow
        rw [if_pos ⟨rfl, hc⟩]
        simp only [hrow]
      · exact ih _ hnd.2 h
  exact key groups junk hnd hg

/-- **C81** (`groupby_apply` and `resample_apply`).  Row `g` of the result belongs to the `g`-th label of the pandas grouping
and holds the function of the rows with that label. -/
theorem C81_labels {L : Type} (a : Nat → Nat → α) (indices : List (L × List Nat)) (f : List Nat → Nat → List α → β)
    (junk : Nat → Nat → β) {cols c g : Nat} (hc : c < cols) {x : L × List Nat} (hg : indices[g]? = some x) :
    groupbyApply a (enumGroups indices) f junk cols g c = f x.2 c (x.2.map fun i => a i c) := by
  refine C81_groupby a _ f junk hc ?_ ?_
  · unfold enumGroups
    rw [List.map_fst_zip (by simp)]
    exact List.nodup_range
  · unfold enumGroups
    have hlt : g < indices.length := by
      rw [List.getElem?_eq_some_iff] at hg; exact hg.1
    refine List.mem_of_getElem? (i := g) ?_
    rw [List.getElem?_zip_eq_some]
    exact ⟨List.getElem?_range hlt, by rw [List.getElem?_map, hg]; rfl⟩

/-! ## Map and filter -/

theorem foldl_writeCell_rows (col : Nat) (v : Nat → β) (p : Nat → Bool) (rows : Nat) (out : Nat → Nat → β) (i c : Nat) :
    ((List.range rows).filter p).foldl (fun out i => writeCell i col (v i) out) out i c =
      if c = col ∧ i < rows ∧ p i = true then v i else out i c := by
  induction rows with
  | zero => simp
  | succ n ih =>
    rw [List.range_succ, List.filter_append, List.foldl_append]
    by_cases hp : p n = true
    · simp only [List.filter_cons, List.filter_nil, hp, if_true, List.foldl_cons, List.foldl_nil]
      unfold writeCell at ih ⊢
      rw [ih]
      by_cases h : i = n ∧ c = col
      · rw [if_pos h, if_pos ⟨h.2, by omega, by rw [h.1]; exact hp⟩, h.1]
      · rw [if_neg h]
        by_cases h' : c = col ∧ i < n ∧ p i = true
        · rw [if_pos h', if_pos ⟨h'.1, by omega, h'.2.2⟩]
        · rw [if_neg h', if_neg]
          rintro ⟨h1, h2, h3⟩
          exact h' ⟨h1, by have : i ≠ n := fun e => h ⟨e, h1⟩
                           omega, h3⟩
    · simp only [List.filter_cons, List.filter_nil, hp, Bool.false_eq_true, if_false, List.foldl_nil]
      rw [ih]
      by_cases h' : c = col ∧ i < n ∧ p i = true
      · rw [if_pos h', if_pos ⟨h'.1, by omega, h'.2.2⟩]
      · rw [if_neg h', if_neg]
        rintro ⟨h1, h2, h3⟩
        exact h' ⟨h1, by have : i ≠ n := fun e => hp (by rw [← e]; exact h3)
                         omega, h3⟩

/-- **C81** (map).  Present values are mapped, missing ones stay missing. -/
theorem C81_map (a : Nat → Nat → F) (f : Nat → Nat → F → F) {rows cols i c : Nat} (hi : i < rows) (hc : c < cols) :
    applymap a f rows cols i c = if (a i c).isnan then nan else f i c (a i c) := by
  unfold applymap presentRows
  have key : ∀ n, (List.range n).foldl (fun out col =>
      ((List.range rows).filter fun i => !(a i col).isnan).foldl (fun out i => writeCell i col (f i col (a i col)) out) out)
      (fun _ _ => nan) i c = if c < n ∧ (a i c).isnan = false then f i c (a i c) else nan := by
    intro n
    induction n with
    | zero => simp
    | succ n ih =>
      rw [List.range_succ, List.foldl_append]
      simp only [List.foldl_cons, List.foldl_nil]
      rw [foldl_writeCell_rows n (fun i => f i n (a i n)), ih]
      by_cases hcn : c = n
      · subst hcn
        by_cases hn : (a i c).isnan = true
        · simp [hn]
        · simp [hn, hi]
      · by_cases hlt : c < n
        · simp [hcn, hlt, Nat.lt_succ_of_lt hlt]
        · have : ¬ c < n + 1 := by omega
          simp [hcn, hlt, this]
  rw [key cols]
  by_cases hn : (a i c).isnan = true
  · simp [hn]
  · simp [hn, hc]

/-- **C81** (filter).  Present values that the function rejects become missing, everything else is kept. -/
theorem C81_filter (a : Nat → Nat → F) (f : Nat → Nat → F → Bool) {rows cols i c : Nat} (hi : i < rows) (hc : c < cols) :
    filterNb a f rows cols i c = if (a i c).isnan = false ∧ f i c (a i c) = false then nan else a i c := by
  unfold filterNb presentRows
  have inner : ∀ (n : Nat) (l : List Nat) (out : Nat → Nat → F), l.foldl (fun out i =>
      if !f i n (a i n) then writeCell i n nan out else out) out =
      (l.filter fun i => !f i n (a i n)).foldl (fun out i => writeCell i n ((fun _ => nan) i) out) out := by
    intro n l
    induction l with
    | nil => intro _; rfl
    | cons x l ih =>
      intro out
      rw [List.foldl_cons, ih, List.filter_cons]
      by_cases h : (!f x n (a x n)) = true
      · rw [if_pos h, if_pos h, List.foldl_cons]
      · rw [if_neg h, if_neg h]
  have key : ∀ n, (List.range n).foldl (fun out col =>
      ((List.range rows).filter fun i => !(a i col).isnan).foldl (fun out i =>
        if !f i col (a i col) then writeCell i col nan out else out) out) a i c =
      if c < n ∧ (a i c).isnan = false ∧ f i c (a i c) = false then nan else a i c := by
    intro n
    induction n with
    | zero => simp
    | succ n ih =>
      rw [List.range_succ, List.foldl_append]
      simp only [List.foldl_cons, List.foldl_nil]
      rw [inner, List.filter_filter, foldl_writeCell_rows n (fun _ => nan), ih]
      by_cases hcn : c = n
      · subst hcn
        by_cases hn : (a i c).isnan = true
        · simp [hn]
        · by_cases hf : f i c (a i c) = true
          · simp [hn, hf]
          · simp [hn, hi, hf]
      · by_cases hlt : c < n
        · simp [hcn, hlt, Nat.lt_succ_of_lt hlt]
        · have : ¬ c < n + 1 := by omega
          simp [hcn, hlt, this]
  rw [key cols]
  simp [hc]

/-! ## Reductions -/

/-- **C81** (reduce).  Every column is reduced on its own. -/
theorem C81_reduce (a : Nat → Nat → α) (f : Nat → List α → β) (junk : Nat → β) {rows cols c : Nat} (hc : c < cols) :
    reduceCols a f junk rows cols c = f c ((List.range rows).map fun i => a i c) := by
  unfold reduceCols
  rw [foldl_setAt (fun col => f col (column a rows col)), if_pos hc]
  rfl

/-- **C81** (apply and reduce). -/
theorem C81_apply_reduce {γ : Type} (a : Nat → Nat → α) (f : Nat → List α → List γ) (g : Nat → List γ → β) (junk : Nat → β)
    {rows cols c : Nat} (hc : c < cols) :
    applyAndReduce a f g junk rows cols c = g c (f c ((List.range rows).map fun i => a i c)) := by
  unfold applyAndReduce
  rw [foldl_setAt (fun col => g col (f col (column a rows col))), if_pos hc]
  rfl

/-- **C81** (reduce to arrays).  If all results have the same length, the column of the result is the function of the column;
otherwise the call raises. -/
theorem C81_reduce_array (a : Nat → Nat → α) (f : Nat → List α → List β) (junk : Nat → Nat → β) (rows cols : Nat) :
    ((∀ c < cols, (f c ((List.range rows).map fun i => a i c)).length = (f 0 ((List.range rows).map fun i => a i 0)).length) →
      ∃ out, reduceToArray a f junk rows cols = .ok out ∧
        ∀ c < cols, ∀ k x, (f c ((List.range rows).map fun i => a i c))[k]? = some x → out k c = x) ∧
    ((∃ c < cols, (f c ((List.range rows).map fun i => a i c)).length ≠ (f 0 ((List.range rows).map fun i => a i 0)).length) →
      reduceToArray a f junk rows cols = .error (.valueError "cannot assign slice from input of different size")) := by
  have step : ∀ n, ((∀ c < n, (f c (column a rows c)).length = (f 0 (column a rows 0)).length) →
      ∃ out, reduceToArray a f junk rows n = .ok out ∧
        ∀ c < n, ∀ k x, (f c (column a rows c))[k]? = some x → out k c = x) ∧
      ((∃ c < n, (f c (column a rows c)).length ≠ (f 0 (column a rows 0)).length) →
        reduceToArray a f junk rows n = .error (.valueError "cannot assign slice from input of different size")) := by
    intro n
    induction n with
    | zero => exact ⟨fun _ => ⟨junk, rfl, fun c hc => absurd hc (Nat.not_lt_zero c)⟩, fun ⟨c, hc, _⟩ => absurd hc (Nat.not_lt_zero c)⟩
    | succ n ih =>
      have hs : reduceToArray a f junk rows (n + 1) = match reduceToArray a f junk rows n with
          | .error e => .error e
          | .ok out => if (f n (column a rows n)).length ≠ (f 0 (column a rows 0)).length then
              .error (.valueError "cannot assign slice from input of different size")
            else .ok (writeColumn (f 0 (column a rows 0)).length n (fun i => ((f n (column a rows n))[i]?).getD (out i n)) out) := by
        unfold reduceToArray
        dsimp only
        rw [List.range_succ, loopE_append]
        cases loopE (fun out col =>
          if (f col (column a rows col)).length ≠ (f 0 (column a rows 0)).length then
            Except.error (.valueError "cannot assign slice from input of different size")
          else .ok (writeColumn (f 0 (column a rows 0)).length col
            (fun i => ((f col (column a rows col))[i]?).getD (out i col)) out)) junk (List.range n) with
        | error e => rfl
        | ok out =>
          dsimp only
          unfold loopE
          by_cases h : (f n (column a rows n)).length ≠ (f 0 (column a rows 0)).length
          · rw [if_pos h]
          · rw [if_neg h]; rfl
      rw [hs]
      constructor
      · intro h
        obtain ⟨out, h1, h2⟩ := ih.1 fun c hc => h c (by omega)
        rw [h1]
        dsimp only
        rw [if_neg (by simpa using h n (by omega))]
        refine ⟨_, rfl, fun c hc k x hx => ?_⟩
        unfold writeColumn
        by_cases hcn : c = n
        · subst hcn
          have hk : k < (f 0 (column a rows 0)).length := by
            rw [← h c (by omega)]
            exact (List.getElem?_eq_some_iff.mp hx).1
          rw [if_pos ⟨rfl, hk⟩]
          show ((f c (column a rows c))[k]?).getD (out k c) = x
          rw [hx]; rfl
        · rw [if_neg fun h => hcn h.1]
          exact h2 c (by omega) k x hx
      · rintro ⟨c, hc, hne⟩
        by_cases hall : ∀ c < n, (f c (column a rows c)).length = (f 0 (column a rows 0)).length
        · obtain ⟨out, h1, h2⟩ := ih.1 hall
          rw [h1]
          dsimp only
          have : c = n := by
            by_contra h
            exact hne (hall c (by omega))
          rw [if_pos (by rw [← this]; exact hne)]
        · push Not at hall
          rw [ih.2 hall]
  exact step cols

/-! ## Groups of columns -/

/-- The columns of the groups are disjoint and cover all columns. -/
theorem C81_group_columns {lens : List Nat} {c : Nat} (hc : c < lens.sum) :
    ∃ g, (g < lens.length ∧ c ∈ colsOf lens g) ∧ ∀ g', g' < lens.length → c ∈ colsOf lens g' → g' = g := by
  have mem : ∀ g, c ∈ colsOf lens g ↔ firstCol lens g ≤ c ∧ c < firstCol lens (g + 1) := fun g => by
    unfold colsOf
    simp only [List.mem_filter, List.mem_range, decide_eq_true_eq]
    exact ⟨fun h => h.2, fun h => ⟨hc, h⟩⟩
  have ex : ∀ n, n ≤ lens.length → c < firstCol lens n → ∃ g < n, firstCol lens g ≤ c ∧ c < firstCol lens (g + 1) := by
    intro n
    induction n with
    | zero => intro _ h; simp [firstCol] at h
    | succ n ih =>
      intro hn h
      by_cases hlt : c < firstCol lens n
      · obtain ⟨g, h1, h2⟩ := ih (by omega) hlt
        exact ⟨g, by omega, h2⟩
      · exact ⟨n, by omega, by omega, h⟩
  obtain ⟨g, hg, h1, h2⟩ := ex lens.length (le_refl _) (by unfold firstCol; rw [List.take_length]; exact hc)
  refine ⟨g, ⟨hg, (mem g).mpr ⟨h1, h2⟩⟩, fun g' _ hm => ?_⟩
  obtain ⟨h3, h4⟩ := (mem g').mp hm
  rcases Nat.lt_trichotomy g' g with h | h | h
  · have := firstCol_mono lens (show g' + 1 ≤ g by omega); omega
  · exact h
  · have := firstCol_mono lens (show g + 1 ≤ g' by omega); omega

/-- **C81** (groups of columns).  Every group is reduced from exactly its own columns. -/
theorem C81_reduce_grouped (a : Nat → Nat → α) (lens : List Nat) (f : Nat → List (List α) → β) (junk : Nat → β) (rows : Nat)
    {g : Nat} (hg : g < lens.length) :
    reduceGrouped a lens f junk rows g = f g (groupCells a lens rows g) := by
  unfold reduceGrouped
  rw [overGroups_eq, foldl_setAt (fun g => f g (block a rows (firstCol lens g) (firstCol lens (g + 1)))), if_pos hg, block_group a hg]

/-- **C81** (groups of columns, to arrays). -/
theorem C81_reduce_grouped_array (a : Nat → Nat → α) (lens : List Nat) (f : Nat → List (List α) → Nat → β)
    (junk : Nat → Nat → β) (rows k : Nat) {g i : Nat} (hg : g < lens.length) (hi : i < k) :
    reduceGroupedToArray a lens f junk rows k i g = f g (groupCells a lens rows g) i := by
  unfold reduceGroupedToArray
  rw [overGroups_eq, foldl_writeColumn (fun g => f g (block a rows (firstCol lens g) (firstCol lens (g + 1)))), if_pos ⟨hg, hi⟩,
    block_group a hg]

/-- **C81** (squeeze).  Every cell of a squeezed group is the function of the cells of that row and group. -/
theorem C81_squeeze (a : Nat → Nat → α) (lens : List Nat) (f : Nat → Nat → List α → β) (junk : Nat → Nat → β) {rows g i : Nat}
    (hg : g < lens.length) (hi : i < rows) :
    squeezeGrouped a lens f junk rows i g = f i g ((colsOf lens g).map (a i)) := by
  unfold squeezeGrouped
  rw [overGroups_eq]
  have inner : ∀ (g : Nat) (out : Nat → Nat → β), (List.range rows).foldl (fun out i =>
      writeCell i g (f i g (rowSlice a i (firstCol lens g) (firstCol lens (g + 1)))) out) out =
      writeColumn rows g (fun i => f i g (rowSlice a i (firstCol lens g) (firstCol lens (g + 1)))) out := by
    intro g out
    funext i c
    have := foldl_writeCell_rows g (fun i => f i g (rowSlice a i (firstCol lens g) (firstCol lens (g + 1)))) (fun _ => true)
      rows out i c
    rw [List.filter_true] at this
    rw [this]
    unfold writeColumn
    simp
  have e : (List.range lens.length).foldl (fun out g => (List.range rows).foldl (fun out i =>
      writeCell i g (f i g (rowSlice a i (firstCol lens g) (firstCol lens (g + 1)))) out) out) junk =
      (List.range lens.length).foldl (fun out g =>
        writeColumn rows g (fun i => f i g (rowSlice a i (firstCol lens g) (firstCol lens (g + 1)))) out) junk := by
    congr 1
    funext out g
    exact inner g out
  rw [e, foldl_writeColumn (fun g i => f i g (rowSlice a i (firstCol lens g) (firstCol lens (g + 1)))), if_pos ⟨hg, hi⟩,
    rowSlice_group a hg]

/-! ## Flattened groups -/

/-- **C81** (flattened groups).  A flat reduction is given every cell of its group exactly once: `rows * width` values, the cell
in row `i` and the `k`-th column of the group at `i * width + k` (C order) or `k * rows + i` (F order). -/
theorem C81_flat_reduce (a : Nat → Nat → α) (lens : List Nat) (inC : Bool) (f : Nat → List α → β) (junkA : Nat → α)
    (junk : Nat → β) (rows : Nat) {g : Nat} (hg : g < lens.length) :
    ∃ l : List α, flatReduceGrouped a lens inC f junkA junk rows g = f g l ∧ l.length = rows * lens.getD g 0 ∧
      ∀ i < rows, ∀ k < lens.getD g 0, l[flatPos inC rows (lens.getD g 0) i k]? = some (a i (firstCol lens g + k)) := by
  unfold flatReduceGrouped
  rw [overGroups_eq, foldl_setAt (fun g => f g (flatBlock a junkA inC rows (firstCol lens g) (firstCol lens (g + 1)))), if_pos hg,
    firstCol_next hg]
  refine ⟨_, rfl, flatBlock_length _ _ _ _ _ _, fun i hi k hk => ?_⟩
  rw [flatBlock_get a junkA inC rows (firstCol lens g) (lens.getD g 0) (flatPos_lt inC hi hk), flatPos_row inC hi hk,
    flatPos_col inC hi hk]

/-- **C81** (flattened groups, to arrays). -/
theorem C81_flat_reduce_array (a : Nat → Nat → α) (lens : List Nat) (inC : Bool) (f : Nat → List α → Nat → β) (junkA : Nat → α)
    (nan : β) (rows n : Nat) {g : Nat} (hg : g < lens.length) :
    ∃ l : List α, (∀ j < n, flatReduceGroupedToArray a lens inC f junkA nan rows n j g = f g l j) ∧
      l.length = rows * lens.getD g 0 ∧
      ∀ i < rows, ∀ k < lens.getD g 0, l[flatPos inC rows (lens.getD g 0) i k]? = some (a i (firstCol lens g + k)) := by
  unfold flatReduceGroupedToArray
  rw [overGroups_eq]
  refine ⟨flatBlock a junkA inC rows (firstCol lens g) (firstCol lens g + lens.getD g 0), fun j hj => ?_,
    flatBlock_length _ _ _ _ _ _, fun i hi k hk => ?_⟩
  · rw [foldl_writeColumn (fun g => f g (flatBlock a junkA inC rows (firstCol lens g) (firstCol lens (g + 1)))), if_pos ⟨hg, hj⟩,
      firstCol_next hg]
  · rw [flatBlock_get a junkA inC rows (firstCol lens g) (lens.getD g 0) (flatPos_lt inC hi hk), flatPos_row inC hi hk,
      flatPos_col inC hi hk]

/-- **C81** (row of a flat position).  The row computed from the position in the flattened group is the row of the cell at that
position, in both orders. -/
theorem C81_flat_row (a : Nat → Nat → α) (lens : List Nat) (inC : Bool) (f : Nat → List α → Nat) (junkA : Nat → α)
    (junk : Nat → Nat) (rows : Nat) {g : Nat} (hg : g < lens.length) :
    ∃ l : List α, l.length = rows * lens.getD g 0 ∧ (∀ x ∈ l, ∃ i < rows, ∃ c ∈ colsOf lens g, a i c = x) ∧
      (∀ i < rows, ∀ c ∈ colsOf lens g, a i c ∈ l) ∧
      ∀ x, l[f g l]? = some x → flatRow inC lens rows (flatReduceGrouped a lens inC f junkA junk rows) g < rows ∧
        ∃ c ∈ colsOf lens g, a (flatRow inC lens rows (flatReduceGrouped a lens inC f junkA junk rows) g) c = x := by
  unfold flatReduceGrouped flatRow
  rw [overGroups_eq, foldl_setAt (fun g => f g (flatBlock a junkA inC rows (firstCol lens g) (firstCol lens (g + 1)))), if_pos hg,
    firstCol_next hg]
  have hlen := flatBlock_length a junkA inC rows (firstCol lens g) (lens.getD g 0)
  have hget : ∀ {p : Nat}, p < rows * lens.getD g 0 → _ := fun hp =>
    flatBlock_get a junkA inC rows (firstCol lens g) (lens.getD g 0) hp
  have cell : ∀ p, p < rows * lens.getD g 0 → (if inC then p / lens.getD g 0 else p % rows) < rows ∧
      firstCol lens g + (if inC then p % lens.getD g 0 else p / rows) ∈ colsOf lens g := by
    intro p hp
    have hr : 0 < rows := Nat.pos_of_ne_zero fun h => by rw [h, Nat.zero_mul] at hp; omega
    have hw : 0 < lens.getD g 0 := Nat.pos_of_ne_zero fun h => by rw [h, Nat.mul_zero] at hp; omega
    rw [colsOf_eq hg]
    have h1 := Nat.mod_lt p hr
    have h2 := Nat.mod_lt p hw
    have h3 : p / lens.getD g 0 < rows := Nat.div_lt_of_lt_mul (by rw [Nat.mul_comm]; exact hp)
    have h4 : p / rows < lens.getD g 0 := Nat.div_lt_of_lt_mul hp
    cases inC with
    | true =>
      simp only [if_true]
      exact ⟨h3, by rw [List.mem_range'_1]; exact ⟨Nat.le_add_right _ _, Nat.add_lt_add_left h2 _⟩⟩
    | false =>
      simp only [Bool.false_eq_true, if_false]
      exact ⟨h1, by rw [List.mem_range'_1]; exact ⟨Nat.le_add_right _ _, Nat.add_lt_add_left h4 _⟩⟩
  refine ⟨flatBlock a junkA inC rows (firstCol lens g) (firstCol lens g + lens.getD g 0), hlen, fun x hx => ?_,
    fun i hi c hc => ?_, fun x hx => ?_⟩
  · obtain ⟨p, hp, rfl⟩ := List.getElem_of_mem hx
    rw [hlen] at hp
    obtain ⟨c1, c2⟩ := cell p hp
    have := hget hp
    rw [List.getElem?_eq_getElem (by rw [hlen]; exact hp)] at this
    exact ⟨_, c1, _, c2, (Option.some.inj this).symm⟩
  · rw [colsOf_eq hg, List.mem_range'_1] at hc
    obtain ⟨k, rfl⟩ : ∃ k, c = firstCol lens g + k := ⟨c - firstCol lens g, by omega⟩
    have hk : k < lens.getD g 0 := by omega
    have := hget (flatPos_lt inC hi hk)
    rw [flatPos_row inC hi hk, flatPos_col inC hi hk] at this
    exact List.mem_of_getElem? this
  · have hp := (List.getElem?_eq_some_iff.mp hx).1
    rw [hlen] at hp
    rw [hget hp] at hx
    obtain ⟨c1, c2⟩ := cell _ hp
    exact ⟨c1, _, c2, Option.some.inj hx⟩

/-- **C81** (flatten, for reading).  `flatten_grouped` puts the cell in row `i` and the `k`-th column of group `g` into column
`g` at `flatPos`, and NaN everywhere else; groups may have different lengths.  Nothing uninitialised is left. -/
theorem C81_flatten (a : Nat → Nat → F) (lens : List Nat) (inC : Bool) (junk : Nat → Nat → F) (rows : Nat) {g : Nat}
    (hg : g < lens.length) :
    (∀ i < rows, ∀ k < lens.getD g 0,
      flattenAccessor a lens inC junk rows (flatPos inC rows (maxLen lens) i k) g = a i (firstCol lens g + k)) ∧
    ∀ p < rows * maxLen lens, (¬ ∃ i < rows, ∃ k < lens.getD g 0, p = flatPos inC rows (maxLen lens) i k) →
      flattenAccessor a lens inC junk rows p g = nan := by
  have hle := le_maxLen hg
  unfold flattenAccessor
  constructor
  · intro i hi k hk
    have hkM : k < maxLen lens := by omega
    have hp := flatPos_lt inC hi hkM
    have e : ∀ out : Nat → Nat → F, flattenLoop a lens inC rows out (flatPos inC rows (maxLen lens) i k) g =
        a i (firstCol lens g + k) := by
      intro out
      rw [flattenLoop_eq, if_pos ⟨hg, hp, by rw [flatPos_col inC hi hkM]; exact hk⟩, flatPos_row inC hi hkM, flatPos_col inC hi hkM]
    by_cases hu : (lens.all fun n => n == lens.getD 0 0) = true
    · rw [if_pos hu]; exact e junk
    · rw [if_neg hu]; exact e _
  · intro p hp hno
    have hr : 0 < rows := Nat.pos_of_ne_zero fun h => by rw [h, Nat.zero_mul] at hp; omega
    have hM : 0 < maxLen lens := Nat.pos_of_ne_zero fun h => by rw [h, Nat.mul_zero] at hp; omega
    have hrow : (if inC then p / maxLen lens else p % rows) < rows := by
      cases inC with
      | true => exact Nat.div_lt_of_lt_mul (by rw [Nat.mul_comm]; exact hp)
      | false => exact Nat.mod_lt p hr
    have hcolM : (if inC then p % maxLen lens else p / rows) < maxLen lens := by
      cases inC with
      | true => exact Nat.mod_lt p hM
      | false => exact Nat.div_lt_of_lt_mul hp
    have hpos : p = flatPos inC rows (maxLen lens) (if inC then p / maxLen lens else p % rows)
        (if inC then p % maxLen lens else p / rows) := by
      unfold flatPos
      cases inC with
      | true => simp only [if_true]; rw [Nat.mul_comm]; exact (Nat.div_add_mod p _).symm
      | false => simp only [Bool.false_eq_true, if_false]; rw [Nat.mul_comm]; exact (Nat.div_add_mod p _).symm
    have hcol : ¬ (if inC then p % maxLen lens else p / rows) < lens.getD g 0 := fun h =>
      hno ⟨_, hrow, _, h, hpos⟩
    by_cases hu : (lens.all fun n => n == lens.getD 0 0) = true
    · rw [← maxLen_uniform hu hg] at hcol
      exact absurd hcolM hcol
    · rw [if_neg hu]
      unfold flattenGrouped
      rw [flattenLoop_eq, if_neg fun h => hcol h.2.2]

/-! ## Value counts -/

theorem count_fold (g : Nat) (L : List Nat) : ∀ (out : Nat → Nat → Nat) (code c : Nat),
    L.foldl (fun out x => writeCell x g (out x g + 1) out) out code c = out code c + if c = g then L.count code else 0 := by
  induction L with
  | nil => intro out code c; simp
  | cons x L ih =>
    intro out code c
    rw [List.foldl_cons, ih, List.count_cons]
    unfold writeCell
    by_cases hc : c = g
    · by_cases hx : code = x
      · subst hx; subst hc; simp; omega
      · have : ¬ x = code := fun h => hx h.symm
        simp [hx, hc, this]
    · simp [hc]

theorem count_swap {xs ys : List Nat} (h : Nat → Nat → Nat) :
    (xs.map fun x => (ys.map (h x)).sum).sum = (ys.map fun y => (xs.map fun x => h x y).sum).sum := by
  induction xs with
  | nil => simp
  | cons x xs ih =>
    rw [List.map_cons, List.sum_cons, ih]
    have : ∀ ys : List Nat, (ys.map (h x)).sum + (ys.map fun y => (xs.map fun x => h x y).sum).sum =
        (ys.map fun y => ((x :: xs).map fun x => h x y).sum).sum := by
      intro ys
      induction ys with
      | nil => rfl
      | cons y ys ih => simp only [List.map_cons, List.sum_cons] at ih ⊢; omega
    exact this ys

theorem count_map_sum (f : Nat → Nat) (code : Nat) (l : List Nat) :
    (l.map f).count code = (l.map fun i => if f i = code then 1 else 0).sum := by
  induction l with
  | nil => rfl
  | cons x l ih =>
    rw [List.map_cons, List.count_cons, ih, List.map_cons, List.sum_cons]
    by_cases h : f x = code
    · simp [h]; omega
    · simp [h]

/-- **C81** (value counts).  The count of a code in a group is the number of cells of the group with that code. -/
theorem C81_value_counts (codes : Nat → Nat → Nat) (lens : List Nat) (rows : Nat) {g : Nat} (hg : g < lens.length) (code : Nat) :
    valueCounts codes lens rows code g = (groupCells codes lens rows g).flatten.count code := by
  unfold valueCounts
  rw [overGroups_eq]
  have inner : ∀ (c : Nat) (cols : List Nat) (out : Nat → Nat → Nat), cols.foldl (fun out col =>
      (List.range rows).foldl (fun out i => writeCell (codes i col) c (out (codes i col) c + 1) out) out) out code g =
      out code g + if g = c then (cols.map fun col => ((List.range rows).map fun i => codes i col).count code).sum else 0 := by
    intro c cols
    induction cols with
    | nil => intro out; simp
    | cons x cols ih =>
      intro out
      have e : (List.range rows).foldl (fun out i => writeCell (codes i x) c (out (codes i x) c + 1) out) out =
          ((List.range rows).map fun i => codes i x).foldl (fun out x => writeCell x c (out x c + 1) out) out := by
        rw [List.foldl_map]
      rw [List.foldl_cons, ih, e, count_fold]
      by_cases h : g = c
      · simp [h]; omega
      · simp [h]
  have outer : ∀ n, n ≤ lens.length → (List.range n).foldl (fun out c =>
      (List.range' (firstCol lens c) (firstCol lens (c + 1) - firstCol lens c)).foldl (fun out col =>
        (List.range rows).foldl (fun out i => writeCell (codes i col) c (out (codes i col) c + 1) out) out) out)
      (fun _ _ => 0) code g =
      if g < n then ((colsOf lens g).map fun col => ((List.range rows).map fun i => codes i col).count code).sum else 0 := by
    intro n
    induction n with
    | zero => intro _; simp
    | succ n ih =>
      intro hn
      rw [List.range_succ, List.foldl_append]
      simp only [List.foldl_cons, List.foldl_nil]
      rw [inner, ih (by omega)]
      by_cases h : g = n
      · subst h
        rw [if_neg (Nat.lt_irrefl g), if_pos rfl, if_pos (by omega), Nat.zero_add, colsOf_eq (by omega),
          firstCol_next (by omega), Nat.add_sub_cancel_left]
      · rw [if_neg h, Nat.add_zero]
        by_cases h' : g < n
        · rw [if_pos h', if_pos (by omega)]
        · rw [if_neg h', if_neg (by omega)]
  rw [outer lens.length (le_refl _), if_pos hg]
  unfold groupCells
  rw [List.count_flatten, List.map_map]
  simp only [count_map_sum, Function.comp_def]
  exact count_swap fun col i => if codes i col = code then 1 else 0

/-- **C81** (value counts add up).  The counts of a group add up to its number of cells. -/
theorem C81_value_counts_total (codes : Nat → Nat → Nat) (lens : List Nat) (rows nUniques : Nat) {g : Nat} (hg : g < lens.length)
    (hcodes : ∀ i < rows, ∀ c ∈ colsOf lens g, codes i c < nUniques) :
    ((List.range nUniques).map fun code => valueCounts codes lens rows code g).sum = rows * lens.getD g 0 := by
  have total : ∀ L : List Nat, (∀ x ∈ L, x < nUniques) → ((List.range nUniques).map fun code => L.count code).sum = L.length := by
    intro L hL
    have : ∀ code, L.count code = (L.map fun x => if x = code then 1 else 0).sum := fun code => by
      have := count_map_sum (fun x => x) code L
      simpa using this
    simp only [this]
    rw [count_swap fun code x => if x = code then 1 else 0]
    have one : ∀ x ∈ L, ((List.range nUniques).map fun code => if x = code then 1 else 0).sum = 1 := by
      intro x hx
      have h := count_map_sum (fun y => y) x (List.range nUniques)
      have e : ((List.range nUniques).map fun code => if x = code then 1 else 0) =
          (List.range nUniques).map fun i => if i = x then 1 else 0 :=
        List.map_congr_left fun i _ => by simp only [eq_comm]
      rw [e, ← h, List.map_id', List.count_eq_one_of_mem List.nodup_range (List.mem_range.mpr (hL x hx))]
    rw [List.map_congr_left one]
    simp
  simp only [C81_value_counts codes lens rows hg]
  rw [total]
  · unfold groupCells
    rw [List.length_flatten, List.map_map]
    have : (List.length ∘ fun i => (colsOf lens g).map (codes i)) = fun _ => lens.getD g 0 := by
      funext i
      rw [colsOf_eq hg]; simp
    rw [this]; simp
  · intro x hx
    obtain ⟨l, hl, hxl⟩ := List.mem_flatten.mp hx
    obtain ⟨i, hi, rfl⟩ := List.mem_map.mp hl
    obtain ⟨c, hc, rfl⟩ := List.mem_map.mp hxl
    exact hcodes i (List.mem_range.mp hi) c hc

/-! ## Reducers -/

/-- **C81** (n-th value).  Non-negative positions count from the start, negative ones from the end; others are refused. -/
theorem C81_nth (l : List α) (n : Int) :
    (∀ k : Nat, k < l.length → n = k ∨ n = k - l.length → nthIndexReduce l n = .ok k ∧ ∃ x, l[k]? = some x ∧ nthReduce l n = .ok x) ∧
    (n ≥ l.length ∨ n < -(l.length : Int) → nthReduce l n = .error (.valueError "index is out of bounds") ∧
      nthIndexReduce l n = .error (.valueError "index is out of bounds")) := by
  constructor
  · intro k hk hn
    have hok : ¬ ((n < 0 ∧ n.natAbs > l.length) ∨ n ≥ l.length) := by omega
    unfold nthReduce nthIndexReduce
    rw [if_neg hok, if_neg hok]
    have e1 : (if n ≥ 0 then n else l.length + n) = k := by
      rcases hn with h | h
      · rw [if_pos (by omega), h]
      · rw [if_neg (by omega), h]; omega
    have e2 : (if n < 0 then ((l.length : Int) + n).toNat else n.toNat) = k := by
      rcases hn with h | h
      · rw [if_neg (by omega), h]; omega
      · rw [if_pos (by omega), h]; omega
    rw [e1, e2, List.getElem?_eq_getElem hk]
    exact ⟨rfl, _, rfl, rfl⟩
  · intro h
    have hb : (n < 0 ∧ n.natAbs > l.length) ∨ n ≥ l.length := by omega
    unfold nthReduce nthIndexReduce
    rw [if_pos hb, if_pos hb]
    exact ⟨rfl, rfl⟩

/-- **C81** (min and max).  They ignore missing values; NaN if all are missing. -/
theorem C81_min_max {l : List F} (hl : l ≠ []) :
    (∃ v, minReduce l = .ok v ∧ ((∀ x ∈ l, x.isnan = true) → v = nan) ∧
      ((∃ x ∈ l, x.isnan = false) → v ∈ l ∧ v.isnan = false ∧ ∀ x ∈ l, x.isnan = false → le v x = true)) ∧
    ∃ v, maxReduce l = .ok v ∧ ((∀ x ∈ l, x.isnan = true) → v = nan) ∧
      ((∃ x ∈ l, x.isnan = false) → v ∈ l ∧ v.isnan = false ∧ ∀ x ∈ l, x.isnan = false → le x v = true) :=
  ⟨nanSel_eq selOrder_lt hl, nanSel_eq selOrder_gt hl⟩

theorem not_le_of_lt_F {x y : F} (h : lt x y = true) : ¬ le y x = true := by
  cases x <;> cases y <;> simp_all [lt, le]

/-- **C81** (positions of min and max, partial).  The position of the minimum is the first position of the smallest present
value, provided some value is present and less than infinity; likewise the maximum.  Missing: `C81_counterexample_arg`. -/
theorem C81_arg_partial {l : List F} :
    ((∃ x ∈ l, x.isnan = false ∧ x ≠ pinf) → ∃ p, argminReduce l = .ok p ∧ FirstBest le l p) ∧
    ((∃ x ∈ l, x.isnan = false ∧ x ≠ ninf) → ∃ p, argmaxReduce l = .ok p ∧ FirstBest (fun x y => le y x) l p) ∧
    ((∀ x ∈ l, x.isnan = true) → argminReduce l = .error (.valueError "All-NaN slice encountered") ∧
      argmaxReduce l = .error (.valueError "All-NaN slice encountered")) := by
  have gen : ∀ (cmp leq : F → F → Bool) (worst : F), SelOrder cmp leq → (∀ x y, cmp x y = true → ¬ leq y x = true) →
      worst.isnan = false → (∀ x, leq worst x = true → x.isnan = false → x = worst) →
      (∃ x ∈ l, x.isnan = false ∧ x ≠ worst) → FirstBest leq l (argBest cmp (l.map fun x => if x.isnan then worst else x)) := by
    rintro cmp leq worst ho hy hw hlast ⟨x, hx, hxn, hxw⟩
    obtain ⟨v, h1, h2, h3, h4⟩ := argBest_eq ho hy (l := l.map fun x => if x.isnan then worst else x)
      (by intro h; rw [List.map_eq_nil_iff] at h; rw [h] at hx; cases hx)
      (by intro z hz
          obtain ⟨w, -, rfl⟩ := List.mem_map.mp hz
          by_cases h : w.isnan = true
          · rw [if_pos h]; exact hw
          · rw [if_neg h]; simpa using h)
    have mem : ∀ y ∈ l, y.isnan = false → y ∈ l.map fun x => if x.isnan then worst else x := fun y hy hn =>
      List.mem_map.mpr ⟨y, hy, by simp [hn]⟩
    rw [List.getElem?_map] at h1
    obtain ⟨w, hw1, hw2⟩ := Option.map_eq_some_iff.mp h1
    have hwn : w.isnan = false := by
      by_contra hc
      rw [if_pos (by simpa using hc)] at hw2
      have := h3 x (mem x hx hxn) hxn
      rw [← hw2] at this
      exact hxw (hlast x this hxn)
    rw [if_neg (by simp [hwn])] at hw2
    refine ⟨v, by rw [hw1, hw2], h2, fun y hy hn => h3 y (mem y hy hn) hn, fun q hq y hyq hn => ?_⟩
    refine h4 q hq y ?_ hn
    rw [List.getElem?_map, hyq]
    simp [hn]
  have notall : ∀ {w : F}, (∃ x ∈ l, x.isnan = false ∧ x ≠ w) → ¬ l.all isnan = true := by
    rintro w ⟨x, hx, hn, -⟩ h
    rw [List.all_eq_true] at h
    rw [h x hx] at hn; cases hn
  refine ⟨fun h => ?_, fun h => ?_, fun h => ?_⟩
  · unfold argminReduce
    rw [if_neg (notall h)]
    exact ⟨_, rfl, gen lt le pinf selOrder_lt (fun x y h => not_le_of_lt_F h) rfl
      (fun x hx hn => by cases x <;> simp_all [le, isnan]) h⟩
  · unfold argmaxReduce
    rw [if_neg (notall h)]
    exact ⟨_, rfl, gen gt (fun x y => le y x) ninf selOrder_gt (fun x y h => not_le_of_lt_F h) rfl
      (fun x hx hn => by cases x <;> simp_all [le, isnan]) h⟩
  · have : l.all isnan = true := List.all_eq_true.mpr h
    unfold argminReduce argmaxReduce
    rw [if_pos this, if_pos this]
    exact ⟨rfl, rfl⟩

/-- **C81** (sum, count and mean).  In exact arithmetic the sum and the mean are those of the present values. -/
theorem C81_sum_mean {r t : ℚ} {l : List F} (hf : ∀ x ∈ l, x.isinf = false) :
    nansum (Arith.exact r t) l = fin ((l.filter fun x => !x.isnan).map F.val).sum ∧
    countReduce l = (l.filter fun x => !x.isnan).length ∧
    ((∃ x ∈ l, x.isnan = false) → nanmean (Arith.exact r t) l = fin (meanOf ((l.filter fun x => !x.isnan).map F.val))) := by
  have key : ∀ (l : List F) (q : ℚ), (∀ x ∈ l, x.isinf = false) →
      l.foldl (fun s x => if x.isnan then s else add (Arith.exact r t) s x) (fin q) =
        fin (q + ((l.filter fun x => !x.isnan).map F.val).sum) := by
    intro l
    induction l with
    | nil => intro q _; simp
    | cons x l ih =>
      intro q hf
      rw [List.foldl_cons, List.filter_cons]
      have hx := hf x (by simp)
      cases x with
      | nan => simpa [isnan] using ih q fun x hx => hf x (List.mem_cons_of_mem _ hx)
      | ninf => cases hx
      | pinf => cases hx
      | fin p =>
        rw [if_neg (by simp [isnan]), add_exact, ih (q + p) fun x hx => hf x (List.mem_cons_of_mem _ hx)]
        simp [isnan, F.val]
        ring
  have hsum : nansum (Arith.exact r t) l = fin ((l.filter fun x => !x.isnan).map F.val).sum := by
    unfold nansum
    rw [key l 0 hf, zero_add]
  refine ⟨hsum, rfl, ?_⟩
  rintro ⟨x, hx, hn⟩
  unfold nanmean
  have hpos : (l.filter fun x => !x.isnan).length ≠ 0 := by
    have : x ∈ l.filter fun x => !x.isnan := List.mem_filter.mpr ⟨hx, by simp [hn]⟩
    exact Nat.pos_iff_ne_zero.mp (List.length_pos_of_mem this)
  have hq : ((l.filter fun x => !x.isnan).length : ℚ) ≠ 0 := by exact_mod_cast hpos
  rw [hsum]
  unfold countReduce meanOf
  rw [List.length_map, div_exact (hb := hq)]

/-! ## Grouped positions of the minimum -/

/-- **C81** (`idxmin` of a group).  For a group with a present finite value, the row returned by the grouped position of the
minimum holds a value of the group that is not greater than any present value of the group, in both flattening orders. -/
theorem C81_idxmin (a : Nat → Nat → F) (lens : List Nat) (inC : Bool) (junkA : Nat → F) (junk : Nat → Nat) (rows : Nat) {g : Nat}
    (hg : g < lens.length) (hsome : ∃ i < rows, ∃ c ∈ colsOf lens g, (a i c).isnan = false ∧ a i c ≠ pinf) :
    let arg : Nat → List F → Nat := fun _ l => match argminReduce l with | .ok p => p | .error _ => 0
    let row := flatRow inC lens rows (flatReduceGrouped a lens inC arg junkA junk rows) g
    row < rows ∧ ∃ c ∈ colsOf lens g, (a row c).isnan = false ∧
      ∀ i < rows, ∀ k ∈ colsOf lens g, (a i k).isnan = false → le (a row c) (a i k) = true := by
  intro arg row
  obtain ⟨l, -, h2, h3, h4⟩ := C81_flat_row a lens inC arg junkA junk rows hg
  obtain ⟨i, hi, c, hc, hn, hp⟩ := hsome
  obtain ⟨p, hp1, x, hp2, hp3, hp4, -⟩ := (C81_arg_partial (l := l)).1 ⟨a i c, h3 i hi c hc, hn, hp⟩
  have harg : arg g l = p := by
    show (match argminReduce l with | .ok p => p | .error _ => 0) = p
    rw [hp1]
  obtain ⟨h5, k, hk, h6⟩ := h4 x (by rw [harg]; exact hp2)
  exact ⟨h5, k, hk, by rw [h6]; exact hp3, fun i hi k' hk' hn' => by rw [h6]; exact hp4 _ (h3 i hi k' hk') hn'⟩

/-! ## Where the documentation is wrong -/

/-- **C81** (matrix windows are counted wrongly).  The matrix version counts the missing values of the current row only, over all
columns: with one column [nan, 1], a window of 2 and two required values it calls the function at row 1, where the window holds
one value; with the three columns of one row missing it calls it nowhere, and from row `window` on the count may exceed the
window. -/
theorem C81_counterexample_matrix :
    ∃ (a : Nat → Nat → F) (f : Nat → List (List F) → Nat → F), ¬ MatrixRow a 2 2 f 1 1
      (rollingMatrixApply a 2 none f (fun _ => 0) (fun _ _ => nan) 2 1) := by
  refine ⟨fun i _ => if i = 0 then nan else one, fun _ _ _ => one, fun h => ?_⟩
  have h1 := h 0 (by decide)
  rw [if_pos ⟨0, by decide, by decide +kernel⟩] at h1
  exact absurd h1 (by decide +kernel)

/-- **C81** (position of the minimum).  The position returned for [nan, inf] is that of the missing value. -/
theorem C81_counterexample_arg :
    argminReduce [nan, pinf] = .ok 0 ∧ ¬ FirstBest le [nan, pinf] 0 ∧
    argmaxReduce [nan, ninf] = .ok 0 ∧ ¬ FirstBest (fun x y => le y x) [nan, ninf] 0 := by
  refine ⟨by decide +kernel, ?_, by decide +kernel, ?_⟩ <;>
  · rintro ⟨x, h1, h2, -⟩
    cases h1
    cases h2

/-- **C81** (any).  Documented to ignore missing values, it takes a group with nothing but missing values for true. -/
theorem C81_counterexample_any : anySqueeze [nan] = true ∧ anySqueeze [zero] = false := by decide +kernel

/-- **C81** (any, partial).  Without missing values it tells whether a value is not zero. -/
theorem C81_any_partial {l : List F} (h : ∀ x ∈ l, x.isnan = false) : anySqueeze l = true ↔ ∃ x ∈ l, x ≠ zero := by
  unfold anySqueeze
  rw [List.any_eq_true]
  refine exists_congr fun x => and_congr_right fun hx => ?_
  have := h x hx
  cases x <;> simp_all [eqb, isnan]

/-! ## Examples -/

/-- A frame of three rows and three columns in groups of two and one. -/
def wCells : Nat → Nat → F := fun i c => if i = 1 ∧ c = 0 then nan else fin (i + 10 * c)

example : rollingApply2 wCells 2 (some 1) (fun _ _ l => fin l.length) (fun _ => 7) (fun _ _ => nan) 3 3 2 0 = fin 2 := by
  decide +kernel

example : rollingApply2 wCells 2 none (fun _ _ l => fin l.length) (fun _ => 7) (fun _ _ => nan) 3 3 2 0 = nan := by
  decide +kernel

example : flattenAccessor wCells [2, 1] true (fun _ _ => one) 3 3 0 = fin 11 ∧
    flattenAccessor wCells [2, 1] true (fun _ _ => one) 3 3 1 = nan ∧
    flattenAccessor wCells [2, 1] false (fun _ _ => one) 3 2 1 = fin 22 := by decide +kernel

example : ∃ i < 3, ∃ c ∈ colsOf [2, 1] 0, (wCells i c).isnan = false ∧ wCells i c ≠ pinf := by decide +kernel

example : flatRow true [2, 1] 3 (flatReduceGrouped wCells [2, 1] true
    (fun _ l => match argmaxReduce l with | .ok p => p | .error _ => 0) (fun _ => nan) (fun _ => 0) 3) 0 = 2 := by
  decide +kernel

example : valueCounts (fun i c => (i + c) % 2) [2, 1] 3 1 0 = 3 := by decide +kernel

example : (groupbyApply wCells (enumGroups [("x", [0, 2]), ("y", [1])]) (fun _ _ l => fin l.length) (fun _ _ => nan) 3 0 1) = fin 2 := by
  decide +kernel

example : (∃ x ∈ [nan, fin 3, fin 1, fin 1], x.isnan = false ∧ x ≠ pinf) ∧ argminReduce [nan, fin 3, fin 1, fin 1] = .ok 2 := by
  decide +kernel

example : nthReduce [fin 5, fin 6, fin 7] (-1) = .ok (fin 7) ∧ nthIndexReduce [fin 5, fin 6, fin 7] (-1) = .ok 2 := by
  decide +kernel

end Vbt
