import Verif.Lemmas.MappedArray

/-!
# C109  Sorting, filtering, combining and counting mapped arrays keeps values with their columns
-/

namespace Vbt
open F

/-- **C109** (sorting).  `sort()` keeps every entry with its value, column, id and row; the columns come in order, and within
a column nothing moves. -/
theorem C109_sort {m : Mapped} (h : m.WF) :
    (m.sort false none).WF ∧
    (m.sort false none).entries.Perm m.entries ∧
    ((m.sort false none).entries.Pairwise fun a b => a.col ≤ b.col) ∧
    ∀ c, ((m.sort false none).entries.filter fun e => e.col = c) = m.entries.filter fun e => e.col = c := by
  obtain ⟨h1, h2⟩ := sort_entries h false
  rw [h1]
  refine ⟨h2, List.perm_insertionSort _ _, List.pairwise_insertionSort (entryLe false) _, fun c => ?_⟩
  exact stable_filter (entryLe false) _ (fun a b ha hb => by
    simp only [decide_eq_true_eq] at ha hb
    show a.col ≤ b.col
    omega) _

/-- **C109** (sorting with ids).  `sort(incl_id=True)` orders the entries of a column by id, and nothing moves among entries
with the same id. -/
theorem C109_sort_ids {m : Mapped} (h : m.WF) :
    (m.sort true none).WF ∧
    (m.sort true none).entries.Perm m.entries ∧
    ((m.sort true none).entries.Pairwise fun a b => a.col ≤ b.col ∧ (a.col = b.col → a.id ≤ b.id)) ∧
    ∀ c k, ((m.sort true none).entries.filter fun e => e.col = c ∧ e.id = k) =
      m.entries.filter fun e => e.col = c ∧ e.id = k := by
  obtain ⟨h1, h2⟩ := sort_entries h true
  rw [h1]
  refine ⟨h2, List.perm_insertionSort _ _, ?_, fun c k => ?_⟩
  · refine (List.pairwise_insertionSort (entryLe true) _).imp ?_
    intro a b hab
    have : a.col < b.col ∨ (a.col = b.col ∧ a.id ≤ b.id) := hab
    omega
  · exact stable_filter (entryLe true) _ (fun a b ha hb => by
      simp only [decide_eq_true_eq] at ha hb
      show a.col < b.col ∨ (a.col = b.col ∧ a.id ≤ b.id)
      omega) _

/-- **C109** (sorted arrays).  An array is left as it is exactly if it is sorted, so sorting twice is sorting once. -/
theorem C109_sort_twice {m : Mapped} (h : m.WF) (inclId : Bool) :
    (m.sort inclId none).isSorted inclId = true ∧ (m.sort inclId none).sort inclId none = m.sort inclId none ∧
    (m.isSorted inclId = true → m.sort inclId none = m) := by
  obtain ⟨h1, h2⟩ := sort_entries h inclId
  have hs : (m.sort inclId none).isSorted inclId = true := by
    rw [isSorted_iff h2, h1]; exact List.pairwise_insertionSort _ _
  have keep : ∀ k : Mapped, k.isSorted inclId = true → k.sort inclId none = k := by
    intro k hk
    unfold Mapped.sort
    rw [if_pos hk]
  exact ⟨hs, keep _ hs, keep m⟩

/-- **C109** (sorting and reducing).  Sorting by column changes no reduction of a column, whatever the function, and no
reduction to a row; of a group it keeps the values but for their order. -/
theorem C109_sort_reduce {β : Type} {m : Mapped} (h : m.WF) (f : Nat → List F → β) (fill : β) (fi : Nat → List F → Nat)
    (junk junk' : Nat → Nat) (nCols : Nat) :
    reduceMapped f fill (m.sort false none).vals (colMap (m.sort false none).cols junk') nCols =
      reduceMapped f fill m.vals (colMap m.cols junk) nCols ∧
    (∀ l, m.idx = some l → ∃ l', (m.sort false none).idx = some l' ∧ ∀ fillI : Nat,
      reduceMappedToIdx fi fillI (m.sort false none).vals (colMap (m.sort false none).cols junk') l' nCols =
        reduceMappedToIdx fi fillI m.vals (colMap m.cols junk) l nCols) ∧
    ∀ g c, (columnValues (m.sort false none).vals ((m.sort false none).cols.map g) c).Perm
      (columnValues m.vals (m.cols.map g) c) := by
  obtain ⟨hw, hp, -, hf⟩ := C109_sort h
  have hv : ∀ c, columnValues (m.sort false none).vals (m.sort false none).cols c = columnValues m.vals m.cols c := fun c => by
    rw [columnValues_entries' hw, columnValues_entries' h, hf]
  refine ⟨?_, fun l hl => ?_, fun g c => ?_⟩
  · apply List.ext_getElem?
    intro c
    by_cases hc : c < nCols
    · rw [(C67_reduce f fill hw.cols junk' nCols).2 c hc, (C67_reduce f fill h.cols junk nCols).2 c hc, hv]
    · rw [List.getElem?_eq_none (by rw [(C67_reduce f fill hw.cols junk' nCols).1]; omega),
        List.getElem?_eq_none (by rw [(C67_reduce f fill h.cols junk nCols).1]; omega)]
  · obtain ⟨l', hl'⟩ : ∃ l', (m.sort false none).idx = some l' := by
      unfold Mapped.sort
      simp only
      split
      · exact ⟨l, hl⟩
      · simp [Mapped.take, hl]
    refine ⟨l', hl', fun fillI => ?_⟩
    have hli : ∀ c, columnValues l' (m.sort false none).cols c = columnValues l m.cols c := fun c => by
      have e1 := columnIdx_entries hw hl' c
      have e2 := columnIdx_entries h hl c
      rw [hf, ← e2] at e1
      exact List.map_injective_iff.mpr (Option.some_injective _) e1
    have a1 := C67_reduce_idx fi fillI hw.cols (hw.cols.trans (hw.idx l' hl').symm) junk' nCols
    have a2 := C67_reduce_idx fi fillI h.cols (h.cols.trans (h.idx l hl).symm) junk nCols
    apply List.ext_getElem?
    intro c
    by_cases hc : c < nCols
    · rw [a1.2 c hc, a2.2 c hc, hv, hli]
    · rw [List.getElem?_eq_none (by rw [a1.1]; omega), List.getElem?_eq_none (by rw [a2.1]; omega)]
  · rw [columnValues_entries hw, columnValues_entries h]
    exact (hp.filter _).map _

def wMapped : Mapped := ⟨[fin 5, fin 7, fin 6, fin 8], [1, 0, 1, 0], [0, 1, 2, 3], some [4, 1, 2, 9]⟩

theorem wMapped_WF : wMapped.WF := ⟨rfl, rfl, fun l hl => by cases hl; rfl⟩

/-- Sorting may change the first value of a group. -/
theorem C109_sort_group_counterexample :
    columnValues wMapped.vals (wMapped.cols.map fun _ => 0) 0 = [fin 5, fin 7, fin 6, fin 8] ∧
    columnValues (wMapped.sort false none).vals ((wMapped.sort false none).cols.map fun _ => 0) 0 =
      [fin 7, fin 8, fin 5, fin 6] := by decide +kernel

/-- **C109** (filtering).  A mask keeps exactly the entries at its positions, in their order. -/
theorem C109_mask {m : Mapped} (h : m.WF) (mask : Nat → Bool) :
    (m.applyMask mask none).WF ∧
    (m.applyMask mask none).entries = ((m.entries.zipIdx).filter fun x => mask x.2).map Prod.fst := by
  have hr : ∀ i ∈ (List.range m.vals.length).filter mask, i < m.vals.length := fun i hi => by
    simpa using (List.mem_filter.mp hi).1
  obtain ⟨h1, h2⟩ := take_entries h hr
  refine ⟨h2, h1.trans ?_⟩
  have e : m.entries.zipIdx = (List.range m.vals.length).map fun i => (m.entry i, i) := by
    apply List.ext_getElem?
    intro i
    rw [List.getElem?_zipIdx, Mapped.entries, List.getElem?_map, List.getElem?_map]
    by_cases hi : i < m.vals.length
    · rw [List.getElem?_range hi]; simp
    · rw [List.getElem?_eq_none (by simpa using hi)]; rfl
  rw [e, List.filter_map, List.map_map]
  rfl

/-- **C109** (largest and smallest).  `top_n` keeps, of every column or group of the wrapper, `n` entries (or all there are),
and each is at least as large as every one left out; `bottom_n` likewise.  The argument `group_by` only sets the groups of
the result. -/
theorem C109_pick {m : Mapped} (h : m.WF) (own : MappedGroups) (arg : Option (Option (Nat → Nat))) (n : Nat)
    (junk : Nat → Nat) (top : Bool) :
    ∃ kept : Nat → Bool,
      (m.pickN (if top then topN n else bottomN n) own arg junk).1.entries =
        ((m.entries.zipIdx).filter fun x => kept x.2).map Prod.fst ∧
      (m.pickN (if top then topN n else bottomN n) own arg junk).2 = resolveGroups own.groups arg ∧
      ∀ c, c < own.count →
        ((positions c (getColArr m.cols own.groups)).filter kept).length =
          min n (positions c (getColArr m.cols own.groups)).length ∧
        ∀ i ∈ positions c (getColArr m.cols own.groups), ∀ j ∈ positions c (getColArr m.cols own.groups),
          kept i = true → kept j = false → (m.vals.getD j nan).isnan = true ∨
            (if top then ge (m.vals.getD i nan) (m.vals.getD j nan) else le (m.vals.getD i nan) (m.vals.getD j nan)) = true := by
  have hlen : (getColArr m.cols own.groups).length = m.vals.length := by
    unfold getColArr
    split
    · rw [List.length_map, h.cols]
    · exact h.cols
  refine ⟨_, (C109_mask h _).2, rfl, fun c hc => ?_⟩
  cases top
  · exact C46_bottom hlen n junk hc
  · exact C46_top hlen n junk hc

/-- `top_n(1, group_by=…)` with one group of two columns keeps two entries rather than one. -/
theorem C109_pick_group_counterexample :
    let r := wMapped.pickN (topN 1) ⟨none, 2⟩ (some (some fun _ => 0)) id
    r.1.vals = [fin 6, fin 8] ∧ (getColArr r.1.cols r.2) = [0, 0] ∧
    (wMapped.pickN (topN 1) ⟨some fun _ => 0, 1⟩ none id).1.vals = [fin 8] := by decide +kernel

/-- **C109** (combining).  Two mapped arrays are combined exactly if their ids and columns are the same, and then entry by
entry; rows are those of the first. -/
theorem C109_combine (f : F → F → F) {m o : Mapped} (hm : m.WF) (ho : o.WF) :
    (∀ r, m.combine f o = .ok r → m.ids = o.ids ∧ m.cols = o.cols ∧ r.WF ∧
      r.entries = (List.range m.vals.length).map fun i => { m.entry i with val := f (m.entry i).val (o.entry i).val }) ∧
    (m.ids = o.ids → m.cols = o.cols → ∃ r, m.combine f o = .ok r) := by
  unfold Mapped.combine
  constructor
  · intro r hr
    by_cases h1 : m.ids = o.ids
    · rw [if_neg (by simpa using h1)] at hr
      by_cases h2 : m.cols = o.cols
      · rw [if_neg (by simpa using h2)] at hr
        cases hr
        have hl : o.vals.length = m.vals.length := by rw [← ho.cols, ← h2, hm.cols]
        refine ⟨h1, h2, ⟨by simp [hm.cols, hl], by simp [hm.ids, hl], fun l hl' => by simp [hm.idx l hl', hl]⟩, ?_⟩
        unfold Mapped.entries
        have : (m.vals.zipWith f o.vals).length = m.vals.length := by simp [hl]
        rw [this]
        apply List.map_congr_left
        intro i hi
        rw [List.mem_range] at hi
        simp only [Mapped.entry, Entry.mk.injEq, and_self, and_true]
        simp [List.getD_eq_getElem?_getD, hi, hl]
      · rw [if_pos h2] at hr; cases hr
    · rw [if_pos h1] at hr; cases hr
  · intro h1 h2
    rw [if_neg (by simpa using h1), if_neg (by simpa using h2)]
    exact ⟨_, rfl⟩

theorem takeIdxs_zipWith (f : F → F → F) {a b : List F} {ind : List Nat} (hab : b.length = a.length)
    (hi : ∀ i ∈ ind, i < a.length) : takeIdxs (a.zipWith f b) ind = (takeIdxs a ind).zipWith f (takeIdxs b ind) := by
  have hz : (a.zipWith f b).length = a.length := by simp [hab]
  rw [takeIdxs_mapGetD _ nan ind (fun i h => hz ▸ hi i h), takeIdxs_mapGetD a nan ind hi,
    takeIdxs_mapGetD b nan ind (fun i h => hab ▸ hi i h), List.zipWith_map, List.zipWith_self]
  apply List.map_congr_left
  intro i h
  have := hi i h
  simp [List.getD_eq_getElem?_getD, this, hab]

/-- **C109** (laws of combining).  Combining commutes with sorting and with filtering by the same mask. -/
theorem C109_combine_laws (f : F → F → F) {m o r : Mapped} (hm : m.WF) (ho : o.WF) (h : m.combine f o = .ok r)
    (inclId : Bool) (mask : Nat → Bool) :
    (m.sort inclId none).combine f (o.sort inclId none) = .ok (r.sort inclId none) ∧
    (m.applyMask mask none).combine f (o.applyMask mask none) = .ok (r.applyMask mask none) := by
  obtain ⟨h1, h2, -, -⟩ := (C109_combine f hm ho).1 r h
  have hr : r = { m with vals := m.vals.zipWith f o.vals } := by
    unfold Mapped.combine at h
    rw [if_neg (by simpa using h1), if_neg (by simpa using h2)] at h
    exact (Except.ok.inj h).symm
  have hl : o.vals.length = m.vals.length := by rw [← ho.cols, ← h2, hm.cols]
  have takes : ∀ ind : List Nat, (∀ i ∈ ind, i < m.vals.length) →
      (m.take m.idx ind).combine f (o.take o.idx ind) = .ok (r.take r.idx ind) := by
    intro ind hi
    unfold Mapped.combine Mapped.take
    simp only
    rw [if_neg (by simp [h1]), if_neg (by simp [h2]), ← takeIdxs_zipWith f hl hi, hr]
  constructor
  · have s1 : o.isSorted inclId = m.isSorted inclId := by unfold Mapped.isSorted; rw [h1, h2]
    have s2 : r.isSorted inclId = m.isSorted inclId := by subst hr; rfl
    have o1 : o.order inclId = m.order inclId := by unfold Mapped.order; rw [h1, h2]
    have o2 : r.order inclId = m.order inclId := by subst hr; rfl
    unfold Mapped.sort
    simp only [s1, s2, o1, o2]
    split
    · exact h
    · exact takes _ (order_lt hm inclId)
  · unfold Mapped.applyMask
    have hrl : r.vals.length = m.vals.length := by subst hr; simp [hl]
    simp only [hl, hrl]
    exact takes _ fun i hi => by simpa using (List.mem_filter.mp hi).1

/-- **C109** (counting).  The rows of `value_counts` are the values that occur (with `incl_all_keys` also the keys of the
mapping, with `dropna` without NaN), each once, and every cell is the number of entries with this value in this column, or
its share of all entries counted. -/
theorem C109_counts (A : Arith) (o : VcOpts) {keys : Option (List F)} (hk : ∀ ks, keys = some ks → ks.Nodup) {vals : List F}
    {cols : List Nat} (hlen : cols.length = vals.length) (nCols : Nat) (junk : Nat → Nat) :
    ((valueCountsOf A o keys vals cols nCols junk).map Prod.fst).Nodup ∧
    (∀ v, v ∈ (valueCountsOf A o keys vals cols nCols junk).map Prod.fst ↔
      (v ∈ vals ∨ (o.inclAllKeys = true ∧ ∃ ks, keys = some ks ∧ v ∈ ks)) ∧ (o.dropna = true → v.isnan = false)) ∧
    ∀ row ∈ valueCountsOf A o keys vals cols nCols junk, row.2 = (List.range nCols).map fun c =>
      if o.normalize then div A (fin (cellCount vals cols row.1 c : Nat))
        (fin ((cols.zip vals).countP fun x => decide (x.1 < nCols ∧ (o.dropna = true → x.2.isnan = false)) : Nat))
      else fin (cellCount vals cols row.1 c : Nat) := by
  obtain ⟨L, hp, he, -, -⟩ := valueCounts_rows A o keys hlen nCols junk
  have hn := vcLabels_nodup o hk vals
  have hfst : (valueCountsOf A o keys vals cols nCols junk).map Prod.fst = L := by
    rw [he, List.map_map]; exact List.map_id _
  refine ⟨by rw [hfst]; exact hp.nodup_iff.mpr hn, fun v => by rw [hfst, hp.mem_iff]; exact mem_vcLabels o keys vals v, ?_⟩
  intro row hrow
  rw [he] at hrow
  obtain ⟨v, -, rfl⟩ := List.mem_map.mp hrow
  simp only
  rw [sum_labelTotal hn]
  have : (cols.zip vals).countP (fun x => decide (x.1 < nCols ∧ x.2 ∈ vcLabels o keys vals)) =
      (cols.zip vals).countP fun x => decide (x.1 < nCols ∧ (o.dropna = true → x.2.isnan = false)) := by
    apply List.countP_congr
    intro x hx
    have hv : x.2 ∈ vals := (List.of_mem_zip hx).2
    simp only [decide_eq_true_eq, mem_vcLabels, hv, true_or, true_and]
  rw [this]

/-- **C109** (order of counts).  By default the values come in ascending order, NaN last; with `sort` by their total, the
largest first unless `ascending`, and equal totals by value. -/
theorem C109_counts_order (A : Arith) (o : VcOpts) (keys : Option (List F)) {vals : List F}
    {cols : List Nat} (hlen : cols.length = vals.length) (nCols : Nat) (junk : Nat → Nat) :
    (o.sortUniques = true → o.sort = false →
      ((valueCountsOf A o keys vals cols nCols junk).map Prod.fst).Pairwise fun a b => sortLe a b = true) ∧
    (o.sort = true → ((valueCountsOf A o keys vals cols nCols junk).map Prod.fst).Pairwise fun a b =>
      (if o.ascending then labelTotal vals cols nCols a ≤ labelTotal vals cols nCols b
        else labelTotal vals cols nCols b ≤ labelTotal vals cols nCols a) ∧
      (labelTotal vals cols nCols a = labelTotal vals cols nCols b → o.sortUniques = true → sortLe a b = true)) := by
  obtain ⟨L, hp, he, h1, h2⟩ := valueCounts_rows A o keys hlen nCols junk
  have hfst : (valueCountsOf A o keys vals cols nCols junk).map Prod.fst = L := by
    rw [he, List.map_map]; exact List.map_id _
  rw [hfst]
  exact ⟨h1, h2⟩

/-- **C109** (totals).  Without `dropna` every entry is counted: the cells of a column add up to the number of its
entries. -/
theorem C109_counts_total (A : Arith) (o : VcOpts) {keys : Option (List F)} (hk : ∀ ks, keys = some ks → ks.Nodup)
    {vals : List F} {cols : List Nat} (hlen : cols.length = vals.length) (nCols : Nat) (junk : Nat → Nat)
    (hd : o.dropna = false) (c : Nat) :
    (((valueCountsOf A o keys vals cols nCols junk).map Prod.fst).map fun v => cellCount vals cols v c).sum = cols.count c := by
  obtain ⟨hn, hm, -⟩ := C109_counts A o hk hlen nCols junk
  set L := (valueCountsOf A o keys vals cols nCols junk).map Prod.fst with hL
  have hall : ∀ v ∈ vals, v ∈ L := fun v hv => (hm v).mpr ⟨Or.inl hv, fun h => by rw [hd] at h; cases h⟩
  have key : ∀ P : List (Nat × F), (∀ x ∈ P, x.2 ∈ L) → (L.map fun v => P.count (c, v)).sum = (P.map Prod.fst).count c := by
    intro P hP
    induction P with
    | nil => simp
    | cons p P ih =>
      obtain ⟨d, x⟩ := p
      rw [List.map_cons, List.count_cons, ← ih fun y hy => hP y (by simp [hy])]
      have e : ∀ v, ((d, x) :: P).count (c, v) = P.count (c, v) + if x = v then (if d = c then 1 else 0) else 0 := by
        intro v
        rw [List.count_cons]
        congr 1
        by_cases h1 : d = c <;> by_cases h2 : x = v <;> simp [h1, h2]
      simp only [e, List.sum_map_add, sum_indicator_nodup hn, hP (d, x) (by simp), if_true, beq_iff_eq]
  unfold cellCount
  rw [key _ fun x hx => hall _ (List.of_mem_zip hx).2, List.map_fst_zip (by omega)]

/-! ## Instances -/

example : (wMapped.sort false none).vals = [fin 7, fin 8, fin 5, fin 6] ∧ (wMapped.sort false none).cols = [0, 0, 1, 1] ∧
    (wMapped.sort false none).ids = [1, 3, 0, 2] ∧ (wMapped.sort false none).idx = some [1, 9, 4, 2] := by decide +kernel

example : (wMapped.applyMask (fun i => i % 2 = 0) none).vals = [fin 5, fin 6] := by decide +kernel

example : ((wMapped.combine (fun x _ => x) wMapped).toOption.map Mapped.vals) = some wMapped.vals := by decide +kernel

example : valueCountsOf (Arith.exact 0 0) { sort := true, inclAllKeys := true } (some [fin 1, fin 9])
    [fin 3, fin 1, fin 3, nan] [0, 0, 1, 1] 2 id =
    [(fin 3, [fin 1, fin 1]), (fin 1, [fin 1, fin 0]), (nan, [fin 0, fin 1]), (fin 9, [fin 0, fin 0])] := by decide +kernel

example : valueCountsOf (Arith.exact 0 0) { normalize := true, dropna := true } none
    [fin 3, fin 1, fin 3, nan, fin 3] [0, 0, 1, 1, 1] 2 id =
    [(fin 1, [fin (1 / 4), fin 0]), (fin 3, [fin (1 / 4), fin (1 / 2)])] := by decide +kernel

end Vbt
