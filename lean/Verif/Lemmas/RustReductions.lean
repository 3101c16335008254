import Verif.Model.RustReductions
import Verif.Lemmas.RustRatios
import Verif.Lemmas.Factory
import Verif.Spec.RustReductions

/-!
# Masks, reductions and statistics of the Rust engine against those of the Numba engine
-/

namespace Vbt.RsRed
open F RsGen RsRet

variable {A : Arith} {r t : ℚ}

/-! ## Masks -/

theorem mask_fold {β : Type} (cond : Nat → Bool) (v : Nat → β) (n : Nat) (out : Nat → β) (i : Nat) :
    (List.range n).foldl (fun out k => if cond k then setAt out k (v k) else out) out i =
      if i < n ∧ cond i = true then v i else out i := by
  induction n with
  | zero => simp
  | succ n ih =>
    rw [List.range_succ, List.foldl_append, List.foldl_cons, List.foldl_nil]
    by_cases hn : cond n = true
    · rw [if_pos hn]
      by_cases hi : i = n
      · subst hi; simp [setAt, hn]
      · rw [setAt, if_neg hi, ih]
        have : i < n + 1 ↔ i < n := by omega
        simp only [this]
    · rw [if_neg hn, ih]
      by_cases hi : i = n
      · subst hi; simp [hn]
      · have : i < n + 1 ↔ i < n := by omega
        simp only [this]

theorem mask_rows {β : Type} (cond : Nat → Bool) (v : Nat → β) (col n : Nat) (out : Nat → Nat → β) (i c : Nat) :
    (List.range n).foldl (fun out k => if cond k then writeCell k col (v k) out else out) out i c =
      if c = col ∧ i < n ∧ cond i = true then v i else out i c := by
  induction n with
  | zero => simp
  | succ n ih =>
    rw [List.range_succ, List.foldl_append, List.foldl_cons, List.foldl_nil]
    have hlt : i ≠ n → (i < n + 1 ↔ i < n) := fun h => by omega
    by_cases hn : cond n = true
    · rw [if_pos hn]
      have e : ∀ o : Nat → Nat → β, writeCell n col (v n) o i c = if i = n ∧ c = col then v n else o i c := fun _ => rfl
      rw [e, ih]
      by_cases hi : i = n
      · subst hi
        by_cases hc : c = col
        · simp [hc, hn]
        · simp [hc]
      · simp only [hi, false_and, if_false, hlt hi]
    · rw [if_neg hn, ih]
      by_cases hi : i = n
      · subst hi; simp [hn]
      · simp only [hlt hi]

theorem mask_cells {β : Type} (cond : Nat → Nat → Bool) (v : Nat → Nat → β) (rows cols : Nat) (out : Nat → Nat → β) (i c : Nat) :
    (List.range cols).foldl (fun out col =>
      (List.range rows).foldl (fun out k => if cond k col then writeCell k col (v k col) out else out) out) out i c =
      if c < cols ∧ i < rows ∧ cond i c = true then v i c else out i c := by
  induction cols with
  | zero => simp
  | succ n ih =>
    rw [List.range_succ, List.foldl_append, List.foldl_cons, List.foldl_nil, mask_rows, ih]
    by_cases hc : c = n
    · subst hc
      by_cases h : i < rows ∧ cond i c = true
      · simp [h]
      · rw [if_neg (by tauto), if_neg (by tauto), if_neg (by tauto)]
    · have : c < n + 1 ↔ c < n := by omega
      rw [if_neg (by tauto)]; simp only [this]

theorem cellLoop_get (nrows ncols : Nat) (f : Nat → Nat → F) {i c : Nat} (hi : i < nrows) (hc : c < ncols) :
    cellLoop nrows ncols f i c = f i c := by
  unfold cellLoop
  have row : ∀ (n : Nat) (out : Nat → Nat → F) (row : Nat), (List.range n).foldl (fun out col => writeCell row col (f row col) out) out i c =
      if i = row ∧ c < n then f i c else out i c := by
    intro n
    induction n with
    | zero => intro out row; simp
    | succ n ih =>
      intro out row
      rw [List.range_succ, List.foldl_append, List.foldl_cons, List.foldl_nil, writeCell]
      by_cases h : i = row ∧ c = n
      · obtain ⟨rfl, rfl⟩ := h; simp
      · rw [if_neg h, ih]
        have : (i = row ∧ c < n + 1) ↔ (i = row ∧ c < n) := by omega
        simp only [this]
  have all : ∀ (n : Nat) (out : Nat → Nat → F), (List.range n).foldl (fun out row =>
      (List.range ncols).foldl (fun out col => writeCell row col (f row col) out) out) out i c = if i < n then f i c else out i c := by
    intro n
    induction n with
    | zero => intro out; simp
    | succ n ih =>
      intro out
      rw [List.range_succ, List.foldl_append, List.foldl_cons, List.foldl_nil, row, ih]
      by_cases h : i = n
      · simp [h, hc]
      · have : i < n + 1 ↔ i < n := by omega
        rw [if_neg (by tauto)]; simp only [this]
  rw [all, if_pos hi]

theorem flat_pos {nrows ncols i c : Nat} (hi : i < nrows) (hc : c < ncols) :
    i * ncols + c < nrows * ncols ∧ (i * ncols + c) / ncols = i ∧ (i * ncols + c) % ncols = c := by
  refine ⟨?_, ?_, ?_⟩
  · calc i * ncols + c < i * ncols + ncols := by omega
      _ = (i + 1) * ncols := by rw [Nat.add_mul, Nat.one_mul]
      _ ≤ nrows * ncols := Nat.mul_le_mul_right _ hi
  · rw [Nat.mul_comm, Nat.mul_add_div (by omega), Nat.div_eq_of_lt hc, Nat.add_zero]
  · rw [Nat.mul_comm, Nat.mul_add_mod, Nat.mod_eq_of_lt hc]

theorem fromShape_get {nrows ncols : Nat} {out : List F} (h : out.length = nrows * ncols) :
    ∃ v, fromShape nrows ncols out = .ok v ∧ ∀ i < nrows, ∀ c < ncols, some (v i c) = out[i * ncols + c]? := by
  unfold fromShape
  rw [if_pos h]
  refine ⟨_, rfl, fun i hi c hc => ?_⟩
  have := (flat_pos hi hc).1
  unfold cells
  rw [List.getElem?_eq_getElem (by omega)]
  show some (out.getD (i * ncols + c) nan) = _
  rw [List.getD_eq_getElem _ nan (by omega)]

theorem setByMask_get (a : View2) (mask : Mask2) (value : F) :
    CellsOf a.nrows a.ncols (setByMask a mask value) fun i c => if mask.get i c then value else a.get i c := by
  unfold setByMask
  by_cases h : (a.standard && mask.standard) = true
  · rw [if_pos h]
    obtain ⟨v, h1, h2⟩ := fromShape_get (nrows := a.nrows) (ncols := a.ncols)
      (out := setByMask1 (flat a.slice a) (flat (mask.slice a.ncols) a) value) (by simp [setByMask1, flat])
    refine ⟨v, h1, fun i hi c hc => ?_⟩
    obtain ⟨p1, p2, p3⟩ := flat_pos hi hc
    have := h2 i hi c hc
    unfold setByMask1 flat at this
    rw [List.zip_map', List.map_map, List.getElem?_map, List.getElem?_range p1] at this
    have := Option.some.inj this
    rw [this]
    show (if mask.get ((i * a.ncols + c) / a.ncols) ((i * a.ncols + c) % a.ncols) then value
      else a.get ((i * a.ncols + c) / a.ncols) ((i * a.ncols + c) % a.ncols)) = _
    rw [p2, p3]
  · rw [if_neg h]
    exact ⟨_, rfl, fun i hi c hc => cellLoop_get _ _ _ hi hc⟩

theorem setByMaskMult_get (a : View2) (mask : Mask2) (values : View2) (hr : values.nrows = a.nrows) (hn : values.ncols = a.ncols) :
    CellsOf a.nrows a.ncols (setByMaskMult a mask values) fun i c => if mask.get i c then values.get i c else a.get i c := by
  unfold setByMaskMult
  by_cases h : (a.standard && mask.standard && values.standard) = true
  · rw [if_pos h]
    obtain ⟨v, h1, h2⟩ := fromShape_get (nrows := a.nrows) (ncols := a.ncols)
      (out := setByMaskMult1 (flat a.slice a) (flat (mask.slice a.ncols) a) (flat values.slice values))
      (by simp [setByMaskMult1, flat, hr, hn])
    refine ⟨v, h1, fun i hi c hc => ?_⟩
    obtain ⟨p1, p2, p3⟩ := flat_pos hi hc
    have := h2 i hi c hc
    unfold setByMaskMult1 flat at this
    rw [hr, hn, List.zip_map', List.zip_map', List.map_map, List.getElem?_map, List.getElem?_range p1] at this
    have := Option.some.inj this
    rw [this]
    show (if mask.get ((i * a.ncols + c) / a.ncols) ((i * a.ncols + c) % a.ncols)
      then values.get ((i * a.ncols + c) / values.ncols) ((i * a.ncols + c) % values.ncols)
      else a.get ((i * a.ncols + c) / a.ncols) ((i * a.ncols + c) % a.ncols)) = _
    rw [hn, p2, p3]
  · rw [if_neg h]
    exact ⟨_, rfl, fun i hi c hc => cellLoop_get _ _ _ hi hc⟩

theorem fillna_get (a : View2) (value : F) {i c : Nat} (hi : i < a.nrows) (hc : c < a.ncols) :
    fillna a value i c = if (a.get i c).isnan then value else a.get i c := by
  unfold fillna
  by_cases h : a.standard = true
  · rw [if_pos h]
    obtain ⟨p1, p2, p3⟩ := flat_pos hi hc
    unfold fillnaC cells
    rw [Vbt.foldl_setAt (fun k => if (a.slice k).isnan then value else a.slice k), if_pos p1]
    unfold View2.slice
    rw [p2, p3]
  · rw [if_neg h]
    exact byColInplace_get a _ (fun col r => if (col r).isnan then value else col r) (fun col buf r hr => by
      unfold fillnaInto
      rw [Vbt.foldl_setAt (fun i => if (col i).isnan then value else col i), if_pos hr]) hi hc

/-! ## Cumulative sums and products -/

/-- A kernel that writes every row, in either layout. -/
theorem cum_layout {σ : Type} (turn : (Nat → F) → σ → Nat → σ × F) (s0 : σ) (a : View2) (junk : Nat → F) {i c : Nat}
    (hi : i < a.nrows) (hc : c < a.ncols) :
    (if a.standard then cells a.ncols (fillCells (fun col s i => ((turn (a.sliceCol col) s i).1, some (turn (a.sliceCol col) s i).2))
        (fun _ => s0) (fun _ => zero) a.ncols (List.range a.nrows)).2
      else byColInplace a fun col out len => (fillRows (fun s i => ((turn col s i).1, some (turn col s i).2)) s0 out (List.range len)).2) i c =
      (scanRows (turn (a.column c)) s0 junk a.nrows).2 i := by
  have key : ∀ (col : Nat → F) (out out' : Nat → F) (n : Nat),
      (fillRows (fun s i => ((turn col s i).1, some (turn col s i).2)) s0 out (List.range n)).1 = (scanRows (turn col) s0 out' n).1 ∧
      ∀ i < n, (fillRows (fun s i => ((turn col s i).1, some (turn col s i).2)) s0 out (List.range n)).2 i =
        (scanRows (turn col) s0 out' n).2 i := by
    intro col out out' n
    induction n with
    | zero => exact ⟨rfl, fun i hi => absurd hi (Nat.not_lt_zero _)⟩
    | succ n ih =>
      unfold fillRows scanRows at *
      rw [List.range_succ, List.foldl_append, List.foldl_append, List.foldl_cons, List.foldl_nil, List.foldl_cons, List.foldl_nil]
      dsimp only
      rw [ih.1]
      refine ⟨rfl, fun i hi => ?_⟩
      by_cases h : i = n
      · simp [setAt, h]
      · simp only [setAt, h, if_false]
        exact ih.2 i (by omega)
  cases a.standard with
  | true =>
    rw [if_pos rfl]
    unfold cells
    rw [(fillCells_col (fun col s i => ((turn (a.sliceCol col) s i).1, some (turn (a.sliceCol col) s i).2)) a.ncols
      (List.range a.nrows) (fun _ => s0) (fun _ => zero) hc).2 i, sliceCol_eq a hc]
    exact (key (a.column c) _ junk a.nrows).2 i hi
  | false =>
    rw [if_neg Bool.false_ne_true]
    exact byColInplace_get a _ (fun col r => (scanRows (turn col) s0 junk a.nrows).2 r)
      (fun col buf r hr => (key col buf junk a.nrows).2 r hr) hi hc

theorem nancumsum_get (A : Arith) (a : View2) (junk : Nat → F) {i c : Nat} (hi : i < a.nrows) (hc : c < a.ncols) :
    nancumsum A a i c = Vbt.nancumsum A (a.column c) junk a.nrows i := by
  have := cum_layout (fun a (s : F) i => ((if !(a i).isnan then add A s (a i) else s), if !(a i).isnan then add A s (a i) else s))
    zero a junk hi hc
  unfold nancumsum cumsumTurn Vbt.nancumsum
  rw [this]
  refine congrArg (fun f => (scanRows f _ junk a.nrows).2 i) ?_
  funext s i
  cases h : (a.column c i).isnan <;> simp

theorem nancumprod_get (A : Arith) (a : View2) (junk : Nat → F) {i c : Nat} (hi : i < a.nrows) (hc : c < a.ncols) :
    nancumprod A a i c = Vbt.nancumprod A (a.column c) junk a.nrows i := by
  have := cum_layout (fun a (s : F) i => ((if !(a i).isnan then mul A s (a i) else s), if !(a i).isnan then mul A s (a i) else s))
    one a junk hi hc
  unfold nancumprod cumprodTurn Vbt.nancumprod
  rw [this]
  refine congrArg (fun f => (scanRows f _ junk a.nrows).2 i) ?_
  funext s i
  cases h : (a.column c i).isnan <;> simp

/-! ## Reductions of a column -/

theorem nanprod1_eq (A : Arith) (l : List F) : nanprod1 A l = Vbt.nanprod A l := by
  unfold nanprod1 Vbt.nanprod
  congr 1
  funext c v
  cases v.isnan <;> simp

theorem nansum1_eq (A : Arith) (l : List F) : nansum1 A l = Vbt.nansum A l := by
  unfold nansum1 Vbt.nansum
  rw [List.foldl_filter]
  congr 1
  funext c v
  cases v.isnan <;> simp

theorem best_rest (better : F → F → Bool) (hb : ∀ x, better nan x = false) (l : List F) {m : F} (hm : m.isnan = false) :
    (∀ x y, better x y = true → x.isnan = false) →
    l.foldl (fun out v => if better v out then v else out) m =
      l.foldl (fun best x => if x.isnan then best else if best.isnan || better x best then x else best) m := by
  intro hn
  induction l generalizing m with
  | nil => rfl
  | cons x l ih =>
    rw [List.foldl_cons, List.foldl_cons]
    by_cases hx : x.isnan = true
    · have : better x m = false := by
        cases h : better x m with
        | false => rfl
        | true => rw [hn x m h] at hx; cases hx
      rw [if_pos hx, this, if_neg Bool.false_ne_true]
      exact ih hm
    · rw [if_neg hx, hm, Bool.false_or]
      by_cases h : better x m = true
      · rw [if_pos h]; exact ih (by simpa using hx)
      · rw [if_neg h]; exact ih hm

theorem best1_eq (better : F → F → Bool) (hn : ∀ x y, better x y = true → x.isnan = false) {l : List F} (hl : l ≠ []) :
    nanSel better l = .ok (best1 better l) := by
  have hb : ∀ x, better nan x = false := fun x => by
    cases h : better nan x with
    | false => rfl
    | true => exact absurd (hn _ _ h) (by simp [isnan])
  have key : ∀ l : List F, l.foldl (fun best x => if x.isnan then best else if best.isnan || better x best then x else best) nan =
      best1 better l := by
    intro l
    induction l with
    | nil => rfl
    | cons x l ih =>
      rw [List.foldl_cons, best1]
      by_cases hx : x.isnan = true
      · rw [if_pos hx, ih, hx]; rfl
      · have hx' : x.isnan = false := by simpa using hx
        rw [if_neg hx, hx', show (nan : F).isnan = true from rfl, Bool.true_or, if_pos rfl, Bool.not_false, if_pos rfl]
        exact (best_rest better hb l hx' hn).symm
  unfold nanSel
  rw [if_neg (by simpa using hl), key]

/-- The elements of the sorted list from a list arranged around position `k`. -/
theorem arranged_sort {l before after : List F} {x : F} (hp : (before ++ x :: after).Perm l) (hn : ∀ x ∈ l, x.isnan = false)
    (hb : ∀ y ∈ before, le y x = true) (ha : ∀ y ∈ after, le x y = true) :
    l.insertionSort (fun x y => sortLe x y = true) = before.insertionSort (fun x y => sortLe x y = true) ++
      x :: after.insertionSort (fun x y => sortLe x y = true) := by
  have mb := List.perm_insertionSort (fun x y => sortLe x y = true) before
  have ma := List.perm_insertionSort (fun x y => sortLe x y = true) after
  refine sorted_eq (((mb.append (ma.cons x))).trans hp) ?_
  rw [List.pairwise_append, List.pairwise_cons]
  have le' : ∀ {u v : F}, le u v = true → sortLe u v = true := fun h => by unfold sortLe; rw [h, Bool.or_true]
  refine ⟨List.pairwise_insertionSort _ _, ⟨fun y hy => le' (ha y (ma.mem_iff.mp hy)), List.pairwise_insertionSort _ _⟩, ?_⟩
  intro u hu v hv
  have hux := hb u (mb.mem_iff.mp hu)
  rcases List.mem_cons.mp hv with rfl | hv
  · exact le' hux
  · exact le' (le_trans' hux (ha v (ma.mem_iff.mp hv)))

/-- The greatest element of a sorted list is the last one. -/
theorem max_sorted {l : List F} (hl : l ≠ []) (hn : ∀ x ∈ l, x.isnan = false) :
    l.foldl (fun m v => if gt v m then v else m) ninf =
      (l.insertionSort fun x y => sortLe x y = true).getD (l.length - 1) nan := by
  have spec : ∀ (l : List F) (m : F), m.isnan = false → (∀ x ∈ l, x.isnan = false) →
      (l.foldl (fun m v => if gt v m then v else m) m = m ∨ l.foldl (fun m v => if gt v m then v else m) m ∈ l) ∧
      le m (l.foldl (fun m v => if gt v m then v else m) m) = true ∧
      ∀ x ∈ l, le x (l.foldl (fun m v => if gt v m then v else m) m) = true := by
    intro l
    induction l with
    | nil => intro m hm _; exact ⟨Or.inl rfl, le_rfl' hm, fun x hx => by cases hx⟩
    | cons x l ih =>
      intro m hm hn
      have hx := hn x List.mem_cons_self
      rw [List.foldl_cons]
      by_cases h : gt x m = true
      · rw [if_pos h]
        obtain ⟨h1, h2, h3⟩ := ih x hx fun y hy => hn y (List.mem_cons_of_mem _ hy)
        refine ⟨?_, le_trans' (lt_le (by simpa [gt] using h)) h2, fun y hy => ?_⟩
        · rcases h1 with h1 | h1
          · rw [h1]; exact Or.inr List.mem_cons_self
          · exact Or.inr (List.mem_cons_of_mem _ h1)
        · rcases List.mem_cons.mp hy with rfl | hy
          · exact h2
          · exact h3 y hy
      · rw [if_neg h]
        obtain ⟨h1, h2, h3⟩ := ih m hm fun y hy => hn y (List.mem_cons_of_mem _ hy)
        have hxm : le x m = true := (not_lt_iff hm hx).mp (by simpa [gt] using h)
        refine ⟨?_, h2, fun y hy => ?_⟩
        · rcases h1 with h1 | h1
          · exact Or.inl h1
          · exact Or.inr (List.mem_cons_of_mem _ h1)
        · rcases List.mem_cons.mp hy with rfl | hy
          · exact le_trans' hxm h2
          · exact h3 y hy
  set s := l.insertionSort fun x y => sortLe x y = true with hs
  have hp : s.Perm l := List.perm_insertionSort _ _
  have hlen : s.length = l.length := hp.length_eq
  have hpos : 0 < l.length := List.length_pos_iff.mpr hl
  have hsort : s.Pairwise fun x y => sortLe x y = true := List.pairwise_insertionSort _ _
  rw [List.getD_eq_getElem _ nan (by omega)]
  obtain ⟨h1, -, h3⟩ := spec l ninf rfl hn
  set m := l.foldl (fun m v => if gt v m then v else m) ninf with hm
  have hlast : ∀ x ∈ l, le x (s[l.length - 1]'(by omega)) = true := by
    intro x hx
    obtain ⟨i, hi, rfl⟩ := List.getElem_of_mem (hp.mem_iff.mpr hx)
    have hn' := hn _ (hp.mem_iff.mp (List.getElem_mem (show l.length - 1 < s.length by omega)))
    by_cases he : i = l.length - 1
    · subst he; exact le_rfl' hn'
    · have := List.pairwise_iff_getElem.mp hsort i (l.length - 1) hi (by omega) (by omega)
      simpa [sortLe, hn'] using this
  have hmem : s[l.length - 1]'(by omega) ∈ l := hp.mem_iff.mp (List.getElem_mem _)
  rcases h1 with h1 | h1
  · have := h3 _ hmem
    rw [h1] at this ⊢
    have hn' := hn _ hmem
    cases h : s[l.length - 1]'(by omega) with
    | nan => rw [h] at hn'; cases hn'
    | ninf => rfl
    | fin q => rw [h] at this; cases this
    | pinf => rw [h] at this; cases this
  · exact le_antisymm' (hlast _ h1) (h3 _ hmem)

theorem nanmedian1_eq (A : Arith) {arrange : List F → Nat → List F} (ha : Arranges arrange) (l : List F) :
    nanmedian1 A arrange l = Vbt.nanmedian A l := by
  unfold nanmedian1 Vbt.nanmedian
  set vals := l.filter fun v => !v.isnan with hv
  have hn : ∀ x ∈ vals, x.isnan = false := fun x hx => by
    have := (List.mem_filter.mp hx).2
    simpa using this
  dsimp only
  by_cases he : vals = []
  · rw [he]; rfl
  have hpos : 0 < vals.length := List.length_pos_iff.mpr he
  have hmid : vals.length / 2 < vals.length := Nat.div_lt_self hpos (by omega)
  rw [if_neg (show ¬ vals.isEmpty = true by simpa using he), if_neg (show ¬ vals.length = 0 by omega)]
  obtain ⟨before, x, after, h1, h2, h3, h4, h5⟩ := ha vals hn _ hmid
  have hsort := arranged_sort h2 hn h4 h5
  have blen : (before.insertionSort fun x y => sortLe x y = true).length = vals.length / 2 := by
    rw [List.length_insertionSort, h3]
  have e1 : (arrange vals (vals.length / 2)).getD (vals.length / 2) nan =
      (vals.insertionSort fun x y => sortLe x y = true).getD (vals.length / 2) nan := by
    rw [hsort, h1, List.getD_append_right _ _ _ _ (by omega), List.getD_append_right _ _ _ _ (by omega), h3, blen]
    simp
  rw [e1]
  by_cases h : vals.length % 2 = 0
  · rw [if_pos h, if_pos h]
    have e2 : (arrange vals (vals.length / 2)).take (vals.length / 2) = before := by
      rw [h1, List.take_append_of_le_length (by omega), List.take_of_length_le (by omega)]
    have hbne : before ≠ [] := fun h0 => by rw [h0] at h3; simp at h3; omega
    have hbn : ∀ x ∈ before, x.isnan = false := fun y hy => hn y (h2.mem_iff.mp (List.mem_append_left _ hy))
    rw [e2, max_sorted hbne hbn]
    congr 2
    conv_rhs => rw [hsort]
    rw [List.getD_append _ _ _ _ (by omega), h3]
  · rw [if_neg h, if_neg h]

/-! ## Reductions of all columns -/

theorem reduceC_get {σ β : Type} (a : View2) (step : σ → F → σ) (s0 : σ) (last : σ → β) (empty : β) :
    ∃ v, reduceC a step s0 last empty = .ok v ∧ ∀ c < a.ncols, v c = last ((colList a c).foldl step s0) := by
  unfold reduceC
  by_cases h : a.ncols = 0
  · rw [if_pos h]
    exact ⟨_, rfl, fun c hc => by omega⟩
  · rw [if_neg h]
    obtain ⟨s, h1, h2⟩ := chunkFold_ok (fun col s row => step s (a.sliceCol col row)) (fun _ => s0) a.nrows (ncols := a.ncols) (by omega)
    rw [h1]
    refine ⟨_, rfl, fun c hc => ?_⟩
    rw [h2 c hc, foldl_colList step a hc]

theorem nansum_get (A : Arith) (a : View2) : EntriesOf a.ncols (nansum A a) fun c => Vbt.nansum A (colList a c) := by
  unfold nansum
  by_cases h : a.standard = true
  · rw [if_pos h]
    obtain ⟨v, h1, h2⟩ := reduceC_get a (fun out v => if !v.isnan then add A out v else out) zero id nan
    refine ⟨v, h1, fun c hc => ?_⟩
    rw [h2 c hc]
    unfold Vbt.nansum
    show List.foldl _ _ _ = _
    congr 1
    funext s x
    cases x.isnan <;> simp
  · rw [if_neg h]
    exact ⟨_, rfl, fun c hc => by rw [reduceCols_get _ _ hc, nansum1_eq]⟩

theorem nanprod_get (A : Arith) (a : View2) : EntriesOf a.ncols (nanprod A a) fun c => Vbt.nanprod A (colList a c) := by
  unfold nanprod
  by_cases h : a.standard = true
  · rw [if_pos h]
    obtain ⟨v, h1, h2⟩ := reduceC_get a (fun out v => if !v.isnan then mul A out v else out) one id nan
    refine ⟨v, h1, fun c hc => ?_⟩
    rw [h2 c hc]
    exact nanprod1_eq A _
  · rw [if_neg h]
    exact ⟨_, rfl, fun c hc => by rw [reduceCols_get _ _ hc, nanprod1_eq]⟩

theorem nancnt_get (a : View2) : ∃ v, nancnt a = .ok v ∧ ∀ c < a.ncols, v c = countReduce (colList a c) := by
  unfold nancnt
  by_cases h : a.standard = true
  · rw [if_pos h]
    obtain ⟨v, h1, h2⟩ := reduceC_get a (fun out v => if !v.isnan then out + 1 else out) 0 id 0
    refine ⟨v, h1, fun c hc => ?_⟩
    rw [h2 c hc]
    have : ∀ (l : List F) (n : Nat), l.foldl (fun out v => if !v.isnan then out + 1 else out) n = n + countReduce l := by
      intro l
      induction l with
      | nil => intro n; rfl
      | cons x l ih =>
        intro n
        rw [List.foldl_cons, ih]
        unfold countReduce
        cases hx : x.isnan <;> simp [hx]; omega
    show List.foldl _ _ _ = _
    rw [this, Nat.zero_add]
  · rw [if_neg h]
    refine ⟨_, rfl, fun c hc => ?_⟩
    rw [Vbt.foldl_setAt (fun col => nancnt1 (slice (a.column col) 0 a.nrows)), if_pos hc, slice_column]
    rfl

theorem nanmean_get (A : Arith) (a : View2) : EntriesOf a.ncols (nanmean A a) fun c => Vbt.nanmean A (colList a c) := by
  unfold nanmean
  by_cases h : a.standard = true
  · rw [if_pos h]
    obtain ⟨v, h1, h2⟩ := reduceC_get a (fun (s : F × Nat) v => if !v.isnan then (add A s.1 v, s.2 + 1) else s) (zero, 0)
      (fun s => if s.2 = 0 then nan else div A s.1 (fin s.2)) nan
    refine ⟨v, h1, fun c hc => ?_⟩
    rw [h2 c hc]
    have := meanOfSome_eq A id (colList a c)
    rw [List.map_id] at this
    show _ = Vbt.nanmean A (colList a c)
    rw [← this]
    rfl
  · rw [if_neg h]
    refine ⟨_, rfl, fun c hc => ?_⟩
    rw [reduceCols_get _ _ hc, meanOfSome_eq, List.map_id]

end Vbt.RsRed
