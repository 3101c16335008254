import Verif.Lemmas.Indexing
import Verif.Spec.Selection

/-! # Selections of groups -/

namespace Vbt
open F

section
variable {L : Type} [DecidableEq L]

theorem Blocks.map {G H : Type} {cols : List G} {gs lens} (h : Blocks cols gs lens) (f : G → H) :
    Blocks (cols.map f) (gs.map f) lens := by
  refine ⟨by rw [List.length_map, h.same], ?_, h.pos⟩
  rw [h.cols, List.map_flatMap, List.zip_map_left, List.flatMap_map]
  simp

/-- Consecutive blocks of different groups are unique. -/
theorem Blocks.unique {G : Type} {cols : List G} {gs lens gs' lens'} (h : Blocks cols gs lens) (hn : gs.Nodup)
    (h' : Blocks cols gs' lens') (hn' : gs'.Nodup) : gs = gs' ∧ lens = lens' := by
  induction gs generalizing cols lens gs' lens' with
  | nil =>
    have hc : cols = [] := by rw [h.cols]; simp
    have hl : lens = [] := List.eq_nil_of_length_eq_zero h.same.symm
    have hg : gs' = [] := by
      rw [List.eq_nil_iff_forall_not_mem]
      intro g hg
      have := (h'.mem g).mpr hg
      rw [hc] at this
      cases this
    subst hg
    exact ⟨rfl, hl.trans (List.eq_nil_of_length_eq_zero h'.same.symm).symm⟩
  | cons g gs ih =>
    cases lens with
    | nil => have := h.same; simp at this
    | cons l lens =>
      cases gs' with
      | nil =>
        have := (h.mem g).mpr List.mem_cons_self
        rw [h'.cols] at this
        simp at this
      | cons g' gs' =>
        cases lens' with
        | nil => have := h'.same; simp at this
        | cons l' lens' =>
          have b1 := h.between hn (k := 0) (by simp)
          have b2 := h'.between hn' (k := 0) (by simp)
          simp only [List.getElem?_cons_zero, List.take_zero, List.sum_nil, Nat.zero_le, true_and, zero_add,
            List.take_succ_cons, List.sum_cons, Nat.add_zero] at b1 b2
          have hl := h.pos l (by simp)
          have hl' := h'.pos l' (by simp)
          have hg : g = g' := by
            have e1 := (b1 0).mpr hl
            have e2 := (b2 0).mpr hl'
            rw [e1] at e2
            exact Option.some.inj e2
          subst hg
          have hll : l = l' := by
            by_contra hne
            rcases Nat.lt_or_gt_of_ne hne with hlt | hlt
            · have := (b1 l).mp ((b2 l).mpr hlt); omega
            · have := (b2 l').mp ((b1 l').mpr hlt); omega
          subst hll
          obtain ⟨r1, c1, t1⟩ := h.tail
          obtain ⟨r2, c2, t2⟩ := h'.tail
          have : r1 = r2 := List.append_cancel_left (c1.symm.trans c2)
          subst this
          rw [List.nodup_cons] at hn hn'
          obtain ⟨e1, e2⟩ := ih t1 hn.2 t2 hn'.2
          rw [e1, e2]
          exact ⟨rfl, rfl⟩

/-- Labels in consecutive blocks: equal labels are next to each other. -/
theorem Blocks.coherent {labels gs : List L} {lens} (h : Blocks labels gs lens) (hn : gs.Nodup) : Coherent labels := by
  intro i j k hij hjk a hi hk
  have ha : a ∈ gs := (h.mem a).mp (List.mem_of_getElem? hi)
  obtain ⟨m, hm, rfl⟩ := List.getElem_of_mem ha
  have hml : m < lens.length := by rw [← h.same]; exact hm
  have hb := h.between hn hml
  rw [List.getElem?_eq_getElem hm] at hb
  have h1 := (hb i).mp hi
  have h2 := (hb k).mp hk
  exact (hb j).mpr ⟨by omega, by omega⟩

/-- The labels are consecutive blocks of the unique labels, of the lengths found. -/
theorem groupLens_blocks {n : Nat} {labels : List L} (hc : Coherent labels) :
    ∃ lens, getGroupLens n (some (labels.map some)) = .ok lens ∧
      Blocks labels (factorize (labels.map some)).1 lens := by
  have hf := factorize_inv labels
  have hpos : ∀ g ∈ (factorize (labels.map some)).2, 0 ≤ g := by rw [hf.codes]; simp
  have hs := (codes_sorted_iff labels).mpr hc
  obtain ⟨lens, h1, gs, hb, hsort⟩ := groupLens_done hpos hs
  set u := (factorize (labels.map some)).1 with hu
  have hn : gs.Nodup := hsort.imp (fun h => ne_of_lt h)
  have hgs : gs = (List.range u.length).map (fun k : Nat => (k : Int)) := by
    have hperm : gs.Perm ((List.range u.length).map (fun k : Nat => (k : Int))) := by
      rw [List.perm_ext_iff_of_nodup hn (List.Nodup.map (fun a b h => by simpa using h) List.nodup_range)]
      intro g
      rw [← hb.mem, hf.codes]
      simp only [List.mem_map, List.mem_range]
      constructor
      · rintro ⟨l, hl, rfl⟩
        exact ⟨u.idxOf l, List.idxOf_lt_length_of_mem ((hf.mem l).mpr hl), rfl⟩
      · rintro ⟨k, hk, rfl⟩
        exact ⟨u[k], (hf.mem _).mp (List.getElem_mem hk), by rw [hf.nodup.idxOf_getElem k hk]⟩
    refine hperm.eq_of_pairwise (le := (· < ·)) (fun a b _ _ h1 h2 => absurd h1 (not_lt.mpr (le_of_lt h2))) hsort ?_
    rw [List.pairwise_map]
    exact List.pairwise_lt_range.imp (fun h => by exact_mod_cast h)
  refine ⟨lens, ?_, ?_⟩
  · unfold getGroupLens
    simp only
    rw [(isSortedArr_iff _).mpr hs]
    exact h1
  · have hb' := hb.map (fun g : Int => u[g.toNat]?)
    have e1 : (factorize (labels.map some)).2.map (fun g : Int => u[g.toNat]?) = labels.map some := by
      rw [hf.codes, List.map_map]
      apply List.map_congr_left
      intro l hl
      have hm : l ∈ u := (hf.mem l).mpr hl
      simp only [Function.comp_apply, Int.toNat_natCast]
      rw [List.getElem?_eq_getElem (List.idxOf_lt_length_of_mem hm), List.getElem_idxOf]
    have e2 : gs.map (fun g : Int => u[g.toNat]?) = u.map some := by
      rw [hgs, List.map_map]
      apply List.ext_getElem?
      intro k
      simp only [List.getElem?_map, Function.comp_apply, Int.toNat_natCast]
      by_cases hk : k < u.length
      · rw [List.getElem?_range hk, List.getElem?_eq_getElem hk]
        simp [List.getElem?_eq_getElem hk]
      · rw [List.getElem?_eq_none (by simpa using hk), List.getElem?_eq_none (by simpa using hk)]
        rfl
    rw [e1, e2] at hb'
    refine ⟨by rw [← hb'.same, List.length_map], ?_, hb'.pos⟩
    have := hb'.cols
    rw [List.zip_map_left, List.flatMap_map] at this
    have e3 : ((u.zip lens).flatMap fun p => List.replicate p.2 p.1).map some =
        (u.zip lens).flatMap fun p => List.replicate p.2 (some p.1) := by
      rw [List.map_flatMap]; simp
    exact List.map_injective_iff.mpr (Option.some_injective L) (this.trans (by rw [e3]; rfl))

/-- Labels in consecutive blocks of different groups: the lengths are those of the blocks. -/
theorem groupLens_of_blocks {n : Nat} {labels gs : List L} {lens} (h : Blocks labels gs lens) (hn : gs.Nodup) :
    getGroupLens n (some (labels.map some)) = .ok lens ∧ (factorize (labels.map some)).1 = gs := by
  obtain ⟨lens', h1, h2⟩ := groupLens_blocks (n := n) (h.coherent hn)
  obtain ⟨e1, e2⟩ := h2.unique (factorize_inv labels).nodup h hn
  rw [h1, e2]
  exact ⟨rfl, e1⟩

theorem filter_interval {s t n : Nat} (h1 : s ≤ t) (h2 : t ≤ n) :
    (List.range n).filter (fun c => decide (s ≤ c ∧ c < t)) = List.range' s (t - s) := by
  obtain ⟨m, rfl⟩ := Nat.exists_eq_add_of_le h1
  obtain ⟨r, rfl⟩ := Nat.exists_eq_add_of_le h2
  have e : List.range (s + m + r) = List.range' 0 s ++ List.range' s m ++ List.range' (s + m) r := by
    rw [List.range_eq_range']
    have := List.range'_append_1 (s := 0) (m := s) (n := m)
    rw [zero_add] at this
    rw [this]
    have := List.range'_append_1 (s := 0) (m := s + m) (n := r)
    rw [zero_add] at this
    rw [this]
  rw [e, List.filter_append, List.filter_append]
  rw [List.filter_eq_nil_iff.mpr (by
    intro c hc; rw [List.mem_range'_1] at hc; simp only [decide_eq_true_eq]; omega)]
  rw [List.filter_eq_self.mpr (by
    intro c hc; rw [List.mem_range'_1] at hc; simp only [decide_eq_true_eq]; omega)]
  rw [List.filter_eq_nil_iff.mpr (by
    intro c hc; rw [List.mem_range'_1] at hc; simp only [decide_eq_true_eq]; omega)]
  simp

theorem Blocks.whereLabel {labels gs : List L} {lens} (h : Blocks labels gs lens) (hn : gs.Nodup) {k : Nat} {l : L}
    (hk : gs[k]? = some l) :
    Vbt.whereLabel labels l = List.range' (lens.take k).sum ((lens.take (k + 1)).sum - (lens.take k).sum) := by
  have hkl : k < lens.length := by
    rw [← h.same]; exact (List.getElem?_eq_some_iff.mp hk).1
  have hb := h.between hn hkl
  rw [hk] at hb
  have hle : (lens.take k).sum ≤ (lens.take (k + 1)).sum := by
    rw [← List.take_concat_get' _ _ hkl, List.sum_append]; omega
  have htot : (lens.take (k + 1)).sum ≤ labels.length := by
    rw [← h.sum, ← List.sum_take_add_sum_drop lens (k + 1)]; omega
  unfold Vbt.whereLabel
  have e : (List.range labels.length).filter (fun c => decide (labels[c]? = some l)) =
      (List.range labels.length).filter fun c => decide ((lens.take k).sum ≤ c ∧ c < (lens.take (k + 1)).sum) := by
    apply List.filter_congr
    intro c _
    rw [decide_eq_decide]
    exact hb c
  rw [e]
  exact filter_interval hle htot

theorem takeIdxs_map {α : Type} {l : List α} {idxs : List Nat} {f : Nat → α} (h : ∀ g ∈ idxs, l[g]? = some (f g)) :
    takeIdxs l idxs = idxs.map f := by
  induction idxs with
  | nil => rfl
  | cons g idxs ih =>
    unfold takeIdxs at ih ⊢
    rw [List.filterMap_cons_some (h g List.mem_cons_self), List.map_cons,
      ih fun x hx => h x (List.mem_cons_of_mem _ hx)]

theorem takeIdxs_getD {α : Type} {l : List α} {idxs : List Nat} (d : α) (h : ∀ g ∈ idxs, g < l.length) :
    takeIdxs l idxs = idxs.map (l.getD · d) :=
  takeIdxs_map fun g hg => by
    rw [List.getD_eq_getElem?_getD, List.getElem?_eq_getElem (h g hg)]; rfl

theorem takeIdxs_atPositions {α : Type} {l : List α} {idxs : List Nat} (h : ∀ g ∈ idxs, g < l.length) :
    AtPositions l idxs (takeIdxs l idxs) := by
  cases l with
  | nil =>
    cases idxs with
    | nil => exact ⟨rfl, fun k c hk => by simp at hk⟩
    | cons g _ => exact absurd (h g List.mem_cons_self) (by simp)
  | cons a l =>
    rw [takeIdxs_getD a h]
    refine ⟨by simp, fun k c hk => ?_⟩
    have hc := h c (List.mem_of_getElem? hk)
    refine ⟨_, List.getElem?_eq_getElem hc, ?_⟩
    rw [List.getElem?_map, hk]
    simp only [Option.map_some, List.getD_eq_getElem?_getD, List.getElem?_eq_getElem hc, Option.getD_some]

/-- A wrapper whose columns are grouped by labels that are next to each other. -/
structure GoodGroups (w : Wrapper L) (labels : List L) : Prop where
  groupBy : w.groupBy = some labels
  same : labels.length = w.columns.length
  coherent : Coherent labels

/-- Starts and ends of groups. -/
def groupSpans (lens gi : List Nat) : List (Nat × Nat) := gi.map fun g => ((lens.take g).sum, (lens.take (g + 1)).sum)

theorem take_succ_sum {lens : List Nat} {g : Nat} (h : g < lens.length) :
    (lens.take (g + 1)).sum = (lens.take g).sum + lens.getD g 0 := by
  rw [← List.take_concat_get' _ _ h, List.sum_append]
  simp [List.getD_eq_getElem?_getD, List.getElem?_eq_getElem h]

theorem getD_pos {lens : List Nat} (hpos : ∀ l ∈ lens, 0 < l) {g : Nat} (h : g < lens.length) : 0 < lens.getD g 0 := by
  rw [List.getD_eq_getElem?_getD, List.getElem?_eq_getElem h]
  exact hpos _ (List.getElem_mem h)

theorem groupSpans_lt {lens gi : List Nat} (hpos : ∀ l ∈ lens, 0 < l) (hgi : ∀ g ∈ gi, g < lens.length) :
    ∀ b ∈ groupSpans lens gi, b.1 < b.2 := by
  intro b hb
  obtain ⟨g, hg, rfl⟩ := List.mem_map.mp hb
  simp only
  rw [take_succ_sum (hgi g hg)]
  have := getD_pos hpos (hgi g hg)
  omega

theorem groupSpans_lens {lens gi : List Nat} (hgi : ∀ g ∈ gi, g < lens.length) :
    (groupSpans lens gi).map (fun b => b.2 - b.1) = gi.map (lens.getD · 0) := by
  unfold groupSpans
  rw [List.map_map]
  apply List.map_congr_left
  intro g hg
  simp only [Function.comp_apply]
  rw [take_succ_sum (hgi g hg)]
  omega

/-- The selected columns, all groups one after the other. -/
def pickedCols (lens gi : List Nat) : List Nat := rangesFlat (groupSpans lens gi)

/-- The lengths of the selected groups. -/
def pickedLens (lens gi : List Nat) : List Nat := gi.map (lens.getD · 0)

/-- The numbers of the groups as written by the code. -/
def writtenMarks (sel : List Nat) : List Nat :=
  (List.range sel.sum).map fun i => (prefixSum (groupFlags sel) (i + 1)).toNat

theorem pickedCols_length {lens gi : List Nat} (hgi : ∀ g ∈ gi, g < lens.length) :
    (pickedCols lens gi).length = (pickedLens lens gi).sum := by
  unfold pickedCols pickedLens
  rw [rangesFlat_length, rangesTotal, groupSpans_lens hgi]

theorem pickedLens_pos {lens gi : List Nat} (hpos : ∀ l ∈ lens, 0 < l) (hgi : ∀ g ∈ gi, g < lens.length) :
    ∀ l ∈ pickedLens lens gi, 0 < l := by
  intro l hl
  obtain ⟨g, hg, rfl⟩ := List.mem_map.mp hl
  exact getD_pos hpos (hgi g hg)

theorem dropLast_lt_sum {sel : List Nat} (hpos : ∀ l ∈ sel, 0 < l) : ∀ l ∈ sel.dropLast, l < sel.sum := by
  intro l hl
  have hne : sel ≠ [] := by rintro rfl; simp at hl
  have hlast := hpos _ (List.getLast_mem hne)
  have : sel.sum = sel.dropLast.sum + sel.getLast hne := by
    conv_lhs => rw [← List.dropLast_append_getLast hne]
    simp
  have := List.le_sum_of_mem hl
  omega

theorem pickGroups_eq {w : Wrapper L} {labels : List L} (hw : GoodGroups w labels) {lens : List Nat}
    (hl : w.groupLens = .ok lens) (hb : Blocks labels (factorize (labels.map some)).1 lens) {gi : List Nat}
    {names : List L} {d : Nat} (hne : gi ≠ []) (hgi : ∀ g ∈ gi, g < lens.length) :
    w.pickGroups (gi, names, d) =
      .ok { wrapper := { columns := takeIdxs w.columns (pickedCols lens gi),
                         ndim := if d = 1 ∧ (pickedCols lens gi).length = 1 then 1 else 2,
                         groupBy := some (takeIdxs names (writtenMarks (pickedLens lens gi))), groupedNdim := some d },
            groupIdxs := gi, colIdxs := pickedCols lens gi } := by
  unfold Wrapper.pickGroups
  rw [hl]
  simp only
  have e1 : takeIdxs (groupStarts lens) gi = (groupSpans lens gi).map Prod.fst := by
    rw [takeIdxs_map fun g hg => groupStarts_get (hgi g hg)]
    simp [groupSpans]
  have e2 : takeIdxs (groupEnds lens) gi = (groupSpans lens gi).map Prod.snd := by
    rw [takeIdxs_map fun g hg => groupEnds_get (hgi g hg)]
    simp [groupSpans]
  have hspan := groupSpans_lt hb.pos hgi
  rw [e1, e2, rangesArr_eq (by simpa [groupSpans] using hne) hspan]
  simp only
  have e3 : ((rangesFlat (groupSpans lens gi)).map Int.ofNat).map Int.toNat = pickedCols lens gi := by
    rw [List.map_map]
    have : (Int.toNat ∘ Int.ofNat) = id := by funext x; rfl
    rw [this, List.map_id]; rfl
  rw [e3, takeIdxs_getD 0 hgi]
  have hpos := pickedLens_pos hb.pos hgi
  have hm := groupMarks_eq (lens := pickedLens lens gi) (n := (pickedCols lens gi).length) (by
    rw [pickedCols_length hgi]; exact dropLast_lt_sum hpos)
  have e4 : gi.map (fun x => lens.getD x 0) = pickedLens lens gi := rfl
  rw [e4, hm]
  simp only [pickedCols_length hgi, List.map_map]
  rfl

theorem takeIdxs_append {α : Type} (l : List α) (a b : List Nat) : takeIdxs l (a ++ b) = takeIdxs l a ++ takeIdxs l b := by
  simp [takeIdxs]

/-- The selected columns are those of the selected groups. -/
theorem pickedCols_eq {labels : List L} {lens : List Nat} {u : List L} (hn : u.Nodup) (hb : Blocks labels u lens)
    {gi : List Nat} (hgi : ∀ g ∈ gi, g < lens.length) :
    pickedCols lens gi = groupColumns labels (takeIdxs u gi) := by
  unfold pickedCols groupColumns
  induction gi with
  | nil => rfl
  | cons g gi ih =>
    have hg : g < u.length := by rw [hb.same]; exact hgi g List.mem_cons_self
    have e : takeIdxs u (g :: gi) = u[g] :: takeIdxs u gi := by
      unfold takeIdxs
      rw [List.filterMap_cons_some (List.getElem?_eq_getElem hg)]
    rw [e, List.flatMap_cons, ← ih fun x hx => hgi x (List.mem_cons_of_mem _ hx),
      hb.whereLabel hn (List.getElem?_eq_getElem hg)]
    rfl

theorem pickedCols_lt {labels : List L} {lens : List Nat} {u : List L} (hb : Blocks labels u lens) {gi : List Nat}
    (hgi : ∀ g ∈ gi, g < lens.length) : ∀ c ∈ pickedCols lens gi, c < labels.length := by
  intro c hc
  obtain ⟨b, hb', hm⟩ := List.mem_flatMap.mp hc
  obtain ⟨g, hg, rfl⟩ := List.mem_map.mp hb'
  rw [List.mem_range'_1] at hm
  simp only at hm
  have : (lens.take (g + 1)).sum ≤ labels.length := by
    rw [← hb.sum, ← List.sum_take_add_sum_drop lens (g + 1)]; omega
  omega

/-! ## The numbers written -/

theorem writtenMarks_lt {sel : List Nat} (hne : sel ≠ []) : ∀ m ∈ writtenMarks sel, m < sel.length := by
  intro m hm
  obtain ⟨i, hi, rfl⟩ := List.mem_map.mp hm
  have := (prefixSum_flags sel.dropLast (i + 1)).2
  have h0 := (prefixSum_flags sel.dropLast (i + 1)).1
  rw [List.length_dropLast] at this
  have hl := List.length_pos_iff.mpr hne
  have e : prefixSum (groupFlags sel) (i + 1) = prefixSum (fun i => if i ∈ sel.dropLast then 1 else 0) (i + 1) := rfl
  rw [e]
  omega

/-- One group: every column gets the number 0. -/
theorem writtenMarks_one (l : Nat) : writtenMarks [l] = List.replicate l 0 := by
  unfold writtenMarks
  have : ∀ n, prefixSum (groupFlags [l]) n = 0 := by
    intro n
    induction n with
    | zero => simp [prefixSum]
    | succ n ih => rw [prefixSum_succ, ih]; simp [groupFlags]
  simp [this]

/-- Two groups: 0 for the columns of the first, 1 for those of the second. -/
theorem writtenMarks_two {l l' : Nat} : writtenMarks [l, l'] = List.replicate l 0 ++ List.replicate l' 1 := by
  unfold writtenMarks
  have h : ∀ n, prefixSum (groupFlags [l, l']) n = if l < n then 1 else 0 := by
    intro n
    induction n with
    | zero => simp [prefixSum]
    | succ n ih =>
      rw [prefixSum_succ, ih]
      simp only [groupFlags, List.dropLast_cons₂, List.dropLast_singleton, List.mem_singleton]
      by_cases h1 : n = l
      · rw [if_neg (by omega), if_pos h1, if_pos (by omega)]; rfl
      · by_cases h2 : l < n
        · rw [if_pos h2, if_neg h1, if_pos (by omega)]; rfl
        · rw [if_neg h2, if_neg h1, if_neg (by omega)]; rfl
  simp only [h, List.sum_cons, List.sum_nil, Nat.add_zero]
  rw [List.range_add, List.map_append]
  congr 1
  · rw [List.eq_replicate_iff]
    refine ⟨by simp, fun b hb => ?_⟩
    obtain ⟨i, hi, rfl⟩ := List.mem_map.mp hb
    rw [List.mem_range] at hi
    rw [if_neg (by omega)]; rfl
  · rw [List.eq_replicate_iff]
    refine ⟨by simp, fun b hb => ?_⟩
    rw [List.map_map] at hb
    obtain ⟨i, hi, rfl⟩ := List.mem_map.mp hb
    simp only [Function.comp_apply]
    rw [if_pos (by omega)]; rfl

/-- Three or more groups: the first column of the last group gets the number of the last column of the group before. -/
theorem writtenMarks_merge {pre : List Nat} {l l' : Nat} (hne : pre ≠ []) (hpos : ∀ x ∈ pre ++ [l, l'], 0 < x) :
    (writtenMarks (pre ++ [l, l']))[pre.sum + l - 1]? = (writtenMarks (pre ++ [l, l']))[pre.sum + l]? ∧
      pre.sum + l < (writtenMarks (pre ++ [l, l'])).length := by
  have hl : 0 < l := hpos l (by simp)
  have hl' : 0 < l' := hpos l' (by simp)
  have hp : 0 < pre.sum := by
    cases pre with
    | nil => exact absurd rfl hne
    | cons x xs => have := hpos x (by simp); rw [List.sum_cons]; omega
  have hlen : (writtenMarks (pre ++ [l, l'])).length = pre.sum + l + l' := by
    simp [writtenMarks]; omega
  refine ⟨?_, by omega⟩
  unfold writtenMarks
  have hs : (pre ++ [l, l']).sum = pre.sum + l + l' := by simp; omega
  rw [hs, List.getElem?_map, List.getElem?_map, List.getElem?_range (by omega), List.getElem?_range (by omega),
    Option.map_some, Option.map_some]
  congr 2
  rw [Nat.sub_add_cancel (by omega), prefixSum_succ]
  have : groupFlags (pre ++ [l, l']) (pre.sum + l) = 0 := by
    unfold groupFlags
    have e : (pre ++ [l, l']).dropLast = pre ++ [l] := by
      rw [show pre ++ [l, l'] = pre ++ [l] ++ [l'] by simp, List.dropLast_concat]
    rw [e, if_neg]
    intro hm
    rw [List.mem_append, List.mem_singleton] at hm
    rcases hm with hm | hm
    · have := List.le_sum_of_mem hm; omega
    · omega
  rw [this]; simp

end

end Vbt
