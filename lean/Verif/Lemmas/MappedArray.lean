import Verif.Spec.MappedRows
import Verif.Lemmas.FloatOrder
import Verif.Props.C67
import Verif.Props.C49

/-! # Sorting and filtering mapped arrays -/

namespace Vbt
open F

theorem takeIdxs_mapGetD {α : Type} (l : List α) (d : α) : ∀ ind : List Nat, (∀ i ∈ ind, i < l.length) →
    takeIdxs l ind = ind.map fun i => l.getD i d
  | [], _ => rfl
  | i :: ind, h => by
    have hi := h i (by simp)
    have ih := takeIdxs_mapGetD l d ind fun j hj => h j (by simp [hj])
    unfold takeIdxs at ih ⊢
    rw [List.filterMap_cons, List.getElem?_eq_getElem hi]
    simp only [List.map_cons, ih]
    rw [List.getD_eq_getElem?_getD, List.getElem?_eq_getElem hi]; rfl

theorem map_getD_range {α : Type} (l : List α) (d : α) : ((List.range l.length).map fun i => l.getD i d) = l := by
  apply List.ext_getElem?
  intro i
  rw [List.getElem?_map]
  by_cases h : i < l.length
  · rw [List.getElem?_range h, List.getElem?_eq_getElem h]
    simp [List.getD_eq_getElem?_getD, h]
  · rw [List.getElem?_eq_none (by simpa using h), List.getElem?_eq_none (by omega)]; rfl

theorem getD_map_lt {α : Type} (f : Nat → α) (ind : List Nat) {i : Nat} (h : i < ind.length) (d : α) :
    (ind.map f).getD i d = f (ind.getD i 0) := by
  simp [List.getD_eq_getElem?_getD, h]

theorem entries_vals (m : Mapped) : m.entries.map Entry.val = m.vals := by
  rw [Mapped.entries, List.map_map]; exact map_getD_range m.vals nan

theorem entries_cols {m : Mapped} (h : m.WF) : m.entries.map Entry.col = m.cols := by
  rw [Mapped.entries, List.map_map, ← h.cols]; exact map_getD_range m.cols 0

theorem entries_ids {m : Mapped} (h : m.WF) : m.entries.map Entry.id = m.ids := by
  rw [Mapped.entries, List.map_map, ← h.ids]; exact map_getD_range m.ids 0

theorem entries_length (m : Mapped) : m.entries.length = m.vals.length := by simp [Mapped.entries]

/-- The replacement of the rows. -/
theorem withIdx_WF {m : Mapped} (h : m.WF) {idxArr : Option (List Nat)} (hi : ∀ l, idxArr = some l → l.length = m.vals.length) :
    Mapped.WF { m with idx := match idxArr with
      | none => m.idx
      | some l => some l } := by
  refine ⟨h.cols, h.ids, fun l hl => ?_⟩
  cases idxArr with
  | none => exact h.idx l hl
  | some k => exact (Option.some.inj hl) ▸ hi k rfl

theorem take_entries {m : Mapped} (h : m.WF) {ind : List Nat} (hr : ∀ i ∈ ind, i < m.vals.length) :
    (m.take m.idx ind).entries = ind.map m.entry ∧ (m.take m.idx ind).WF := by
  have e1 := takeIdxs_mapGetD m.vals nan ind hr
  have e2 := takeIdxs_mapGetD m.cols 0 ind fun i hi => h.cols ▸ hr i hi
  have e3 := takeIdxs_mapGetD m.ids 0 ind fun i hi => h.ids ▸ hr i hi
  have e4 : ∀ l, m.idx = some l → takeIdxs l ind = ind.map fun i => l.getD i 0 := fun l hl =>
    takeIdxs_mapGetD l 0 ind fun i hi => (h.idx l hl).symm ▸ hr i hi
  constructor
  · unfold Mapped.entries
    have hl : (m.take m.idx ind).vals.length = ind.length := by simp [Mapped.take, e1]
    rw [hl]
    conv_rhs => rw [← map_getD_range ind 0, List.map_map]
    apply List.map_congr_left
    intro i hi
    rw [List.mem_range] at hi
    simp only [Function.comp, Mapped.entry, Mapped.take, e1, e2, e3, Entry.mk.injEq]
    refine ⟨getD_map_lt _ _ hi _, getD_map_lt _ _ hi _, getD_map_lt _ _ hi _, ?_⟩
    cases hx : m.idx with
    | none => rfl
    | some l =>
      simp only [Option.map_some, Option.some.injEq]
      rw [e4 l hx]
      exact getD_map_lt _ _ hi _
  · refine ⟨by simp [Mapped.take, e1, e2], by simp [Mapped.take, e1, e3], fun l hl => ?_⟩
    simp only [Mapped.take, Option.map_eq_some_iff] at hl
    obtain ⟨k, hk, rfl⟩ := hl
    simp [Mapped.take, e1, e4 k hk]

/-- The order of entries by column, or by column and id. -/
def entryLe (inclId : Bool) (a b : Entry) : Prop :=
  if inclId then a.col < b.col ∨ (a.col = b.col ∧ a.id ≤ b.id) else a.col ≤ b.col

instance (inclId : Bool) : DecidableRel (entryLe inclId) := fun a b => by unfold entryLe; infer_instance

instance entryLe_total (inclId : Bool) : Std.Total (entryLe inclId) :=
  ⟨fun a b => by unfold entryLe; cases inclId <;> simp only [Bool.false_eq_true, if_false, if_true] <;> omega⟩

instance entryLe_trans (inclId : Bool) : IsTrans Entry (entryLe inclId) :=
  ⟨fun a b c h1 h2 => by
    revert h1 h2; unfold entryLe; cases inclId <;> simp only [Bool.false_eq_true, if_false, if_true] <;> omega⟩

theorem order_lt {m : Mapped} (h : m.WF) (inclId : Bool) : ∀ i ∈ m.order inclId, i < m.vals.length := by
  intro i hi
  unfold Mapped.order argsortStable at hi
  cases inclId <;> simp [h.cols] at hi <;> exact hi

theorem order_entries {m : Mapped} (h : m.WF) (inclId : Bool) :
    (m.order inclId).map m.entry = m.entries.insertionSort (entryLe inclId) := by
  unfold Mapped.order argsortStable Mapped.entries
  rw [h.cols]
  cases inclId
  · simp only [Bool.false_eq_true, if_false]
    exact List.map_insertionSort _ _ m.entry (List.range m.vals.length) fun a _ b _ => by simp [entryLe, Mapped.entry]
  · simp only [if_true]
    exact List.map_insertionSort _ _ m.entry (List.range m.vals.length) fun a _ b _ => by simp [entryLe, Mapped.entry]

theorem isColSorted_iff : ∀ cols : List Nat, isColSorted cols = true ↔ cols.Pairwise (· ≤ ·)
  | [] => by simp [isColSorted]
  | [a] => by simp [isColSorted]
  | a :: b :: rest => by
    have ih := isColSorted_iff (b :: rest)
    unfold isColSorted
    by_cases hba : b < a
    · rw [if_pos hba]
      simp only [Bool.false_eq_true, false_iff, List.pairwise_cons, not_and]
      intro h; exact absurd (h b (by simp)) (by omega)
    · rw [if_neg hba, ih, List.pairwise_cons (a := a)]
      refine ⟨fun h => ⟨fun c hc => ?_, h⟩, fun h => h.2⟩
      rcases List.mem_cons.mp hc with rfl | hc
      · omega
      · exact le_trans (by omega) ((List.pairwise_cons.mp h).1 c hc)

theorem isColIdxSorted_iff : ∀ l : List (Nat × Nat), isColIdxSorted l = true ↔
    l.Pairwise fun a b => a.1 < b.1 ∨ (a.1 = b.1 ∧ a.2 ≤ b.2)
  | [] => by simp [isColIdxSorted]
  | [a] => by simp [isColIdxSorted]
  | a :: b :: rest => by
    have ih := isColIdxSorted_iff (b :: rest)
    unfold isColIdxSorted
    by_cases h1 : b.1 < a.1
    · rw [if_pos h1]
      simp only [Bool.false_eq_true, false_iff, List.pairwise_cons, not_and]
      intro h; have := h b (by simp); omega
    rw [if_neg h1]
    by_cases h2 : b.1 = a.1 ∧ b.2 < a.2
    · rw [if_pos h2]
      simp only [Bool.false_eq_true, false_iff, List.pairwise_cons, not_and]
      intro h; have := h b (by simp); omega
    · rw [if_neg h2, ih, List.pairwise_cons (a := a)]
      refine ⟨fun h => ⟨fun c hc => ?_, h⟩, fun h => h.2⟩
      rcases List.mem_cons.mp hc with rfl | hc
      · omega
      · have := (List.pairwise_cons.mp h).1 c hc
        omega

theorem isSorted_iff {m : Mapped} (h : m.WF) (inclId : Bool) :
    m.isSorted inclId = true ↔ m.entries.Pairwise (entryLe inclId) := by
  unfold Mapped.isSorted
  cases inclId
  · simp only [Bool.false_eq_true, if_false]
    rw [isColSorted_iff, ← entries_cols h, List.pairwise_map]
    exact Iff.rfl
  · simp only [if_true]
    rw [isColIdxSorted_iff]
    have : m.cols.zip m.ids = m.entries.map fun e => (e.col, e.id) := by
      conv_lhs => rw [← entries_cols h, ← entries_ids h]
      rw [List.zip_map']
    rw [this, List.pairwise_map]
    exact Iff.rfl

theorem stable_filter {α : Type} (r : α → α → Prop) [DecidableRel r] [Std.Total r] [IsTrans α r] (p : α → Bool)
    (hp : ∀ a b, p a = true → p b = true → r a b) (l : List α) : (l.insertionSort r).filter p = l.filter p := by
  have h1 : (l.filter p).Sublist (l.insertionSort r) := by
    apply List.sublist_insertionSort _ List.filter_sublist
    rw [List.pairwise_filter]
    exact List.Pairwise.imp_of_mem (R := fun _ _ => True) (fun {a b} _ _ _ ha hb => hp a b ha hb)
      (by simp [List.pairwise_iff_getElem])
  have h2 := h1.filter p
  rw [List.filter_filter] at h2
  simp only [Bool.and_self] at h2
  exact (h2.eq_of_length ((List.perm_insertionSort r l).filter p).length_eq.symm).symm

/-- A stable sort by a key keeps the order among equal keys. -/
theorem stable_pairwise {α : Type} (r : α → α → Prop) [DecidableRel r] [Std.Total r] [IsTrans α r] (key : α → Nat)
    (hr : ∀ a b, key a = key b → r a b) {q : α → α → Prop} {l : List α} (hq : l.Pairwise q) :
    (l.insertionSort r).Pairwise fun a b => r a b ∧ (key a = key b → q a b) := by
  rw [List.pairwise_and_iff]
  refine ⟨List.pairwise_insertionSort r l, ?_⟩
  rw [List.pairwise_iff_forall_sublist]
  intro a b hab hk
  have h1 := hab.filter fun x => decide (key x = key a)
  rw [stable_filter r _ (fun x y hx hy => hr x y (by simp only [decide_eq_true_eq] at hx hy; omega))] at h1
  simp only [List.filter_cons, hk, decide_true, if_true, List.filter_nil] at h1
  exact List.pairwise_iff_forall_sublist.mp hq (h1.trans List.filter_sublist)

theorem sort_entries {m : Mapped} (h : m.WF) (inclId : Bool) :
    (m.sort inclId none).entries = m.entries.insertionSort (entryLe inclId) ∧ (m.sort inclId none).WF := by
  unfold Mapped.sort
  by_cases hs : m.isSorted inclId = true
  · simp only [hs, if_true]
    refine ⟨?_, h⟩
    exact (((isSorted_iff h inclId).mp hs).insertionSort_eq).symm
  · simp only [hs, if_false, Bool.false_eq_true]
    obtain ⟨h1, h2⟩ := take_entries h (order_lt h inclId)
    exact ⟨by rw [h1, order_entries h], h2⟩

theorem sort_given (m : Mapped) (inclId : Bool) (l : List Nat) :
    m.sort inclId (some l) = Mapped.sort { m with idx := some l } inclId none := rfl

theorem columnValues_entries {m : Mapped} (h : m.WF) (g : Nat → Nat) (c : Nat) :
    columnValues m.vals (m.cols.map g) c = (m.entries.filter fun e => g e.col = c).map Entry.val := by
  unfold columnValues
  conv_lhs => rw [← entries_vals m, ← entries_cols h, List.map_map, List.zip_map', List.filter_map, List.map_map]
  rfl

theorem columnValues_entries' {m : Mapped} (h : m.WF) (c : Nat) :
    columnValues m.vals m.cols c = (m.entries.filter fun e => e.col = c).map Entry.val := by
  have := columnValues_entries h id c
  rwa [List.map_id] at this

theorem columnIdx_entries {m : Mapped} (h : m.WF) {l : List Nat} (hl : m.idx = some l) (c : Nat) :
    (columnValues l m.cols c).map some = (m.entries.filter fun e => e.col = c).map Entry.idx := by
  unfold columnValues
  have e : m.entries.map Entry.idx = l.map some := by
    rw [Mapped.entries, List.map_map, ← h.idx l hl]
    conv_rhs => rw [← map_getD_range l 0, List.map_map]
    apply List.map_congr_left
    intro i _
    simp [Mapped.entry, hl]
  have e2 : (m.cols.zip l).map (fun x => (x.1, some x.2)) = m.entries.map fun e => (e.col, e.idx) := by
    conv_rhs => rw [← List.zip_map', e, entries_cols h, List.zip_map_right]
    rfl
  rw [List.map_map]
  have : ((m.cols.zip l).filter fun x => decide (x.1 = c)).map (some ∘ Prod.snd) =
      (((m.cols.zip l).map fun x => (x.1, some x.2)).filter fun x => decide (x.1 = c)).map Prod.snd := by
    rw [List.filter_map, List.map_map]; rfl
  rw [this, e2, List.filter_map, List.map_map]
  rfl

/-! ## Counting values -/

theorem missingKeys_eq (u ks : List F) : missingKeys u ks = ks.filter fun x => decide (x ∉ u) := by
  unfold missingKeys
  apply List.filter_congr
  intro x _
  by_cases hx : x ∈ u
  · simp only [hx, not_true, decide_false, Bool.and_eq_false_iff, Bool.not_eq_false']
    by_cases hn : x.isnan = true
    · left
      simp only [hn, Bool.true_and, List.any_eq_true]
      exact ⟨x, hx, hn⟩
    · right
      rw [List.any_eq_true]
      exact ⟨x, hx, eqb_iff.mpr ⟨rfl, by simpa using hn⟩⟩
  · simp only [hx, not_false_eq_true, decide_true, Bool.and_eq_true, Bool.not_eq_true']
    constructor
    · rw [Bool.and_eq_false_iff]
      by_cases hn : x.isnan = true
      · right
        rw [List.any_eq_false]
        intro y hy hyn
        apply hx
        have : x = y := by cases x <;> cases y <;> simp_all [isnan]
        exact this ▸ hy
      · left; simpa using hn
    · rw [List.any_eq_false]
      intro y hy he
      exact hx ((eqb_iff.mp he).1 ▸ hy)

theorem count_codes {vals : List F} {cols : List Nat} {u : List F} (hu : ∀ v ∈ vals, v ∈ u) (hn : u.Nodup) {k : Nat} {v : F}
    (hk : u[k]? = some v) (c : Nat) :
    (cols.zip (vals.map fun x => u.idxOf x)).count (c, k) = (cols.zip vals).count (c, v) := by
  induction vals generalizing cols with
  | nil => simp
  | cons x xs ih =>
    cases cols with
    | nil => simp
    | cons d ds =>
      have hx := hu x (by simp)
      have e : u.idxOf x = k ↔ x = v := by
        obtain ⟨hk', hv⟩ := List.getElem?_eq_some_iff.mp hk
        constructor
        · intro he
          have := List.getElem_idxOf (List.idxOf_lt_length_of_mem hx)
          rw [← this, ← hv]
          exact getElem_congr_idx he
        · rintro rfl
          rw [← hv]; exact hn.idxOf_getElem k hk'
      simp only [List.map_cons, List.zip_cons_cons, List.count_cons, ih (fun w hw => hu w (by simp [hw]))]
      congr 1
      simp only [beq_iff_eq, Prod.mk.injEq, e]

/-- The keys that are added to the values. -/
def vcExtra (o : VcOpts) (u : List F) : Option (List F) → List F
  | some ks => if o.inclAllKeys then missingKeys u ks else []
  | none => []

/-- The labels of a table of counts. -/
def vcLabels (o : VcOpts) (keys : Option (List F)) (vals : List F) : List F :=
  let u := (factorize (vals.map some)).1
  if o.dropna then (u ++ vcExtra o u keys).filter fun v => !v.isnan else u ++ vcExtra o u keys

theorem vcTable_eq (o : VcOpts) (keys : Option (List F)) {vals : List F} {cols : List Nat} (hlen : cols.length = vals.length)
    (nCols : Nat) (junk : Nat → Nat) :
    vcTable o keys vals cols nCols junk =
      (vcLabels o keys vals).map fun v => (v, (List.range nCols).map (cellCount vals cols v)) := by
  unfold vcTable vcLabels
  have hf := factorize_inv vals
  generalize factorize (vals.map some) = fz at hf ⊢
  obtain ⟨u, cs⟩ := fz
  have hcodes : cs.map Int.toNat = vals.map fun x => u.idxOf x := by
    have := hf.codes
    simp only at this
    rw [this, List.map_map]; rfl
  have base : (u.zipIdx.map fun x => (x.1, (List.range nCols).map
      (mappedValueCounts (cs.map Int.toNat) (colMap cols junk) nCols x.2))) =
      u.map fun v => (v, (List.range nCols).map (cellCount vals cols v)) := by
    conv_rhs => rw [← List.zipIdx_map_fst 0 u, List.map_map]
    apply List.map_congr_left
    rintro ⟨v, k⟩ hk
    have hk' : u[k]? = some v := List.mem_zipIdx_iff_getElem?.mp hk
    simp only [Function.comp, Prod.mk.injEq, true_and]
    apply List.map_congr_left
    intro c hc
    rw [List.mem_range] at hc
    rw [hcodes, C67_counts (by simpa using hlen) junk hc]
    exact count_codes (fun v hv => (hf.mem v).mpr hv) hf.nodup hk' c
  have miss : ∀ ks, ((missingKeys u ks).map fun x => (x, List.replicate nCols 0)) =
      (missingKeys u ks).map fun v => (v, (List.range nCols).map (cellCount vals cols v)) := by
    intro ks
    apply List.map_congr_left
    intro x hx
    rw [missingKeys_eq, List.mem_filter, decide_eq_true_eq, hf.mem] at hx
    simp only [Prod.mk.injEq, true_and]
    symm
    rw [List.eq_replicate_iff]
    refine ⟨by simp, fun b hb => ?_⟩
    obtain ⟨c, -, rfl⟩ := List.mem_map.mp hb
    unfold cellCount
    rw [List.count_eq_zero]
    intro hm
    exact hx.2 (List.of_mem_zip hm).2
  simp only [base]
  have all : ∀ rows : List (F × List Nat),
      rows = (u ++ vcExtra o u keys).map (fun v => (v, (List.range nCols).map (cellCount vals cols v))) →
      (if o.dropna = true then rows.filter fun r => !r.1.isnan else rows) =
        (if o.dropna = true then (u ++ vcExtra o u keys).filter fun v => !v.isnan else u ++ vcExtra o u keys).map
          fun v => (v, (List.range nCols).map (cellCount vals cols v)) := by
    rintro rows rfl
    cases o.dropna
    · simp
    · simp only [if_true, List.filter_map]; rfl
  apply all
  cases keys with
  | none => simp [vcExtra]
  | some ks =>
    simp only [vcExtra]
    split
    · rw [miss, List.map_append]
    · rw [List.append_nil]

theorem mem_vcLabels (o : VcOpts) (keys : Option (List F)) (vals : List F) (v : F) :
    v ∈ vcLabels o keys vals ↔
      (v ∈ vals ∨ (o.inclAllKeys = true ∧ ∃ ks, keys = some ks ∧ v ∈ ks)) ∧ (o.dropna = true → v.isnan = false) := by
  unfold vcLabels
  have hf := (factorize_inv vals).mem
  generalize (factorize (vals.map some)).1 = u at hf ⊢
  have h1 : v ∈ u ++ vcExtra o u keys ↔ (v ∈ vals ∨ (o.inclAllKeys = true ∧ ∃ ks, keys = some ks ∧ v ∈ ks)) := by
    rw [List.mem_append, hf]
    cases keys with
    | none => simp [vcExtra]
    | some ks =>
      unfold vcExtra
      cases o.inclAllKeys
      · simp
      · simp only [if_true, missingKeys_eq, List.mem_filter, decide_eq_true_eq, hf, true_and, Option.some.injEq,
          exists_eq_left']
        tauto
  simp only
  cases o.dropna
  · simp only [Bool.false_eq_true, if_false, false_imp_iff, and_true]; exact h1
  · simp only [if_true, List.mem_filter, h1, true_imp_iff, Bool.not_eq_true']

theorem vcLabels_nodup (o : VcOpts) {keys : Option (List F)} (hk : ∀ ks, keys = some ks → ks.Nodup) (vals : List F) :
    (vcLabels o keys vals).Nodup := by
  unfold vcLabels
  have hf := (factorize_inv vals).nodup
  generalize (factorize (vals.map some)).1 = u at hf ⊢
  have h1 : (u ++ vcExtra o u keys).Nodup := by
    rw [List.nodup_append]
    unfold vcExtra
    refine ⟨hf, ?_, ?_⟩
    · split
      · rename_i ks
        split
        · rw [missingKeys_eq]; exact (hk ks rfl).filter _
        · simp
      · simp
    · intro a ha b hb
      split at hb
      · split at hb
        · rw [missingKeys_eq, List.mem_filter, decide_eq_true_eq] at hb
          rintro rfl; exact hb.2 ha
        · simp at hb
      · simp at hb
  simp only
  split
  · exact h1.filter _
  · exact h1

theorem sum_indicator_range (c : Nat) : ∀ n : Nat, ((List.range n).map fun d => if c = d then 1 else 0).sum = if c < n then 1 else 0
  | 0 => by simp
  | n + 1 => by
    rw [List.range_succ, List.map_append, List.sum_append, sum_indicator_range c n]
    simp only [List.map_cons, List.map_nil, List.sum_cons, List.sum_nil]
    split <;> split <;> split <;> omega

theorem sum_indicator_nodup {u : List F} (hn : u.Nodup) (x : F) (k : Nat) :
    (u.map fun v => if x = v then k else 0).sum = if x ∈ u then k else 0 := by
  induction u with
  | nil => simp
  | cons a u ih =>
    rw [List.nodup_cons] at hn
    rw [List.map_cons, List.sum_cons, ih hn.2]
    by_cases h : x = a
    · subst h; simp [hn.1]
    · simp [h]

theorem sum_labelTotal {u : List F} (hn : u.Nodup) (vals : List F) (cols : List Nat) (nCols : Nat) :
    (u.map (labelTotal vals cols nCols)).sum =
      (cols.zip vals).countP fun x => decide (x.1 < nCols ∧ x.2 ∈ u) := by
  unfold labelTotal
  have key : ∀ L : List (Nat × F), (u.map fun v => ((List.range nCols).map fun c => L.count (c, v)).sum).sum =
      L.countP fun x => decide (x.1 < nCols ∧ x.2 ∈ u) := by
    intro L
    induction L with
    | nil => simp
    | cons p L ih =>
      obtain ⟨d, x⟩ := p
      rw [List.countP_cons, ← ih]
      have e1 : ∀ v, ((List.range nCols).map fun c => ((d, x) :: L).count (c, v)).sum =
          ((List.range nCols).map fun c => L.count (c, v)).sum + (if x = v then (if d < nCols then 1 else 0) else 0) := by
        intro v
        simp only [List.count_cons, beq_iff_eq, Prod.mk.injEq]
        rw [List.sum_map_add]
        congr 1
        by_cases hv : x = v
        · simp only [hv, and_true, if_true]
          exact sum_indicator_range d nCols
        · simp [hv]
      simp only [e1, List.sum_map_add, sum_indicator_nodup hn]
      congr 1
      by_cases h1 : d < nCols <;> by_cases h2 : x ∈ u <;> simp [h1, h2]
  exact key _

/-- The rows of a table of counts: the labels in some order with their counts or shares. -/
theorem valueCounts_rows (A : Arith) (o : VcOpts) (keys : Option (List F)) {vals : List F} {cols : List Nat}
    (hlen : cols.length = vals.length) (nCols : Nat) (junk : Nat → Nat) :
    ∃ labels : List F, labels.Perm (vcLabels o keys vals) ∧
      valueCountsOf A o keys vals cols nCols junk = labels.map (fun v => (v, (List.range nCols).map fun c =>
        if o.normalize then div A (fin (cellCount vals cols v c : Nat))
          (fin (((vcLabels o keys vals).map (labelTotal vals cols nCols)).sum : Nat))
        else fin (cellCount vals cols v c : Nat))) ∧
      (o.sortUniques = true → o.sort = false → labels.Pairwise fun a b => sortLe a b = true) ∧
      (o.sort = true → labels.Pairwise fun a b =>
        (if o.ascending then labelTotal vals cols nCols a ≤ labelTotal vals cols nCols b
          else labelTotal vals cols nCols b ≤ labelTotal vals cols nCols a) ∧
        (labelTotal vals cols nCols a = labelTotal vals cols nCols b → o.sortUniques = true → sortLe a b = true)) := by
  unfold valueCountsOf
  rw [vcTable_eq o keys hlen]
  set L := vcLabels o keys vals with hL
  obtain ⟨L1, hp1, hs1, he1⟩ : ∃ L1 : List F, L1.Perm L ∧ (o.sortUniques = true → L1.Pairwise fun a b => sortLe a b = true) ∧
      (if o.sortUniques then (L.map fun v => (v, (List.range nCols).map (cellCount vals cols v))).insertionSort
          fun a b => sortLe a.1 b.1 = true
        else L.map fun v => (v, (List.range nCols).map (cellCount vals cols v))) =
        L1.map fun v => (v, (List.range nCols).map (cellCount vals cols v)) := by
    cases o.sortUniques
    · exact ⟨L, List.Perm.refl _, by simp, by simp⟩
    · refine ⟨L.insertionSort fun x y => sortLe x y = true, List.perm_insertionSort _ _, fun _ => ?_, ?_⟩
      · exact List.pairwise_insertionSort _ _
      · simp only [if_true]
        exact (List.map_insertionSort (fun x y : F => sortLe x y = true) (fun a b : F × List Nat => sortLe a.1 b.1 = true)
          (fun v => (v, (List.range nCols).map (cellCount vals cols v))) L fun a _ b _ => Iff.rfl).symm
  have ht : ((L1.map fun v => (v, (List.range nCols).map (cellCount vals cols v))).map fun r => r.2.sum).sum =
      (L.map (labelTotal vals cols nCols)).sum := by
    rw [List.map_map]
    exact (hp1.map (labelTotal vals cols nCols)).sum_eq
  simp only [he1, ht]
  set total := (L.map (labelTotal vals cols nCols)).sum
  let cell : F → F × Nat × List F := fun v => (v, labelTotal vals cols nCols v, (List.range nCols).map fun c =>
    if o.normalize then div A (fin (cellCount vals cols v c : Nat)) (fin (total : Nat))
    else fin (cellCount vals cols v c : Nat))
  have hc : ((L1.map fun v => (v, (List.range nCols).map (cellCount vals cols v))).map fun r => (r.1, r.2.sum,
      r.2.map fun k : Nat => if o.normalize then div A (fin k) (fin (total : Nat)) else fin k)) = L1.map cell := by
    rw [List.map_map]
    apply List.map_congr_left
    intro v _
    simp only [Function.comp, cell, labelTotal, List.map_map]
    rfl
  rw [hc]
  cases hsort : o.sort
  · refine ⟨L1, hp1, ?_, fun h _ => hs1 h, fun h => by cases h⟩
    simp only [Bool.false_eq_true, if_false, List.map_map]
    rfl
  · simp only [if_true]
    have hq : L1.Pairwise fun a b => o.sortUniques = true → sortLe a b = true := by
      by_cases h : o.sortUniques = true
      · exact (hs1 h).imp fun hab _ => hab
      · exact List.pairwise_iff_forall_sublist.mpr fun {a b} _ h' => absurd h' h
    cases o.ascending
    · simp only [Bool.false_eq_true, if_false]
      let r : F → F → Prop := fun a b => labelTotal vals cols nCols b ≤ labelTotal vals cols nCols a
      haveI : DecidableRel r := fun a b => by unfold r; infer_instance
      haveI : Std.Total r := ⟨fun a b => by unfold r; omega⟩
      haveI : IsTrans F r := ⟨fun a b c h1 h2 => le_trans h2 h1⟩
      refine ⟨L1.insertionSort r, (List.perm_insertionSort r L1).trans hp1, ?_, (fun _ h => by cases h), fun _ => ?_⟩
      · rw [← List.map_insertionSort r (fun a b : F × Nat × List F => b.2.1 ≤ a.2.1) cell L1 fun a _ b _ => Iff.rfl,
          List.map_map]
        rfl
      · exact stable_pairwise r (labelTotal vals cols nCols) (fun a b h => by unfold r; omega) hq
    · simp only [if_true]
      let r : F → F → Prop := fun a b => labelTotal vals cols nCols a ≤ labelTotal vals cols nCols b
      haveI : DecidableRel r := fun a b => by unfold r; infer_instance
      haveI : Std.Total r := ⟨fun a b => by unfold r; omega⟩
      haveI : IsTrans F r := ⟨fun a b c h1 h2 => le_trans h1 h2⟩
      refine ⟨L1.insertionSort r, (List.perm_insertionSort r L1).trans hp1, ?_, (fun _ h => by cases h), fun _ => ?_⟩
      · rw [← List.map_insertionSort r (fun a b : F × Nat × List F => a.2.1 ≤ b.2.1) cell L1 fun a _ b _ => Iff.rfl,
          List.map_map]
        rfl
      · exact stable_pairwise r (labelTotal vals cols nCols) (fun a b h => by unfold r; omega) hq

end Vbt
