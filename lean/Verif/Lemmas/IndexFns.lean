import Verif.Spec.IndexFns

/-! # Lemmas about stacked and combined labels -/

namespace Vbt
variable {N V : Type} [DecidableEq N] [DecidableEq V]

/-! ## Repeating and tiling lists -/

theorem repeatList_length {α : Type} (n : Nat) (l : List α) : (repeatList n l).length = l.length * n := by
  induction l with
  | nil => simp [repeatList]
  | cons a l ih =>
    have h : repeatList n (a :: l) = List.replicate n a ++ repeatList n l := rfl
    rw [h, List.length_append, ih, List.length_replicate, List.length_cons, Nat.succ_mul, Nat.add_comm]

theorem repeatList_get {α : Type} (n : Nat) (l : List α) (k : Nat) (h : k < l.length * n) :
    (repeatList n l)[k]? = l[k / n]? := by
  induction l generalizing k with
  | nil => simp at h
  | cons a l ih =>
    have hn : 0 < n := by
      rcases Nat.eq_zero_or_pos n with h0 | h0
      · subst h0; simp at h
      · exact h0
    have h0 : repeatList n (a :: l) = List.replicate n a ++ repeatList n l := rfl
    rw [h0]
    by_cases hk : k < n
    · rw [List.getElem?_append_left (by simpa using hk), Nat.div_eq_of_lt hk]
      simp [hk]
    · have hk' : n ≤ k := by omega
      rw [List.getElem?_append_right (by simpa using hk'), List.length_replicate,
        ih (k - n) (by rw [List.length_cons, Nat.succ_mul] at h; omega)]
      have : k / n = (k - n) / n + 1 := by
        rw [Nat.div_eq k n, if_pos ⟨hn, hk'⟩]
      rw [this, List.getElem?_cons_succ]

theorem tileList_succ {α : Type} (n : Nat) (l : List α) : tileList (n + 1) l = l ++ tileList n l := by
  simp [tileList, List.replicate_succ]

theorem tileList_length {α : Type} (n : Nat) (l : List α) : (tileList n l).length = l.length * n := by
  induction n with
  | zero => simp [tileList]
  | succ n ih => rw [tileList_succ, List.length_append, ih, Nat.mul_succ, Nat.add_comm]

theorem tileList_get {α : Type} (n : Nat) (l : List α) (k : Nat) (h : k < l.length * n) :
    (tileList n l)[k]? = l[k % l.length]? := by
  induction n generalizing k with
  | zero => simp at h
  | succ n ih =>
    rw [tileList_succ]
    by_cases hk : k < l.length
    · rw [List.getElem?_append_left hk, Nat.mod_eq_of_lt hk]
    · have hk' : l.length ≤ k := by omega
      rw [List.getElem?_append_right hk', ih _ (by rw [Nat.mul_succ] at h; omega), ← Nat.mod_eq_sub_mod hk']

/-! ## Levels of the operations -/

theorem levels_mapVals (f : List V → List V) (i : Idx N V) :
    (i.mapVals f).levels = i.levels.map (fun l => ⟨l.name, f l.vals⟩) := by
  cases i <;> rfl

theorem len_of_mem {i : Idx N V} (h : i.WF) {l : Lev N V} (hl : l ∈ i.levels) : l.vals.length = i.len := h.same_len l hl

theorem wf_of_levels {i : Idx N V} {n : Nat} (h0 : i.levels ≠ []) (h : ∀ l ∈ i.levels, l.vals.length = n) :
    i.WF ∧ i.len = n := by
  have hl : i.len = n := by
    unfold Idx.len
    cases hc : i.levels with
    | nil => exact absurd hc h0
    | cons a t => exact h a (by rw [hc]; simp)
  exact ⟨⟨h0, fun l hm => by rw [hl]; exact h l hm⟩, hl⟩

theorem wf_rangeIndex (nat : Nat → V) (n : Nat) : (rangeIndex nat n : Idx N V).WF ∧ (rangeIndex nat n : Idx N V).len = n :=
  wf_of_levels (by simp [rangeIndex, Idx.levels]) (by simp [rangeIndex, Idx.levels])

theorem wf_mapVals {f : List V → List V} {i : Idx N V} {n : Nat} (h : i.WF) (hf : ∀ l : List V, l.length = i.len → (f l).length = n) :
    (i.mapVals f).WF ∧ (i.mapVals f).len = n := by
  apply wf_of_levels
  · rw [levels_mapVals]
    intro h0
    exact h.some_level (List.map_eq_nil_iff.mp h0)
  · intro l hl
    rw [levels_mapVals] at hl
    obtain ⟨m, hm, rfl⟩ := List.mem_map.mp hl
    exact hf _ (h.same_len m hm)

theorem wf_repeatIndex (nat : Nat → V) (ign : Bool) {i : Idx N V} (h : i.WF) (n : Nat) :
    (repeatIndex nat ign i n).WF ∧ (repeatIndex nat ign i n).len = i.len * n := by
  unfold repeatIndex
  by_cases hd : (isDefaultIndex nat i && ign) = true
  · rw [if_pos hd]; exact wf_rangeIndex nat _
  · rw [if_neg hd]
    exact wf_mapVals h (fun l hl => by rw [repeatList_length, hl])

theorem wf_tileIndex (nat : Nat → V) (ign : Bool) {i : Idx N V} (h : i.WF) (n : Nat) :
    (tileIndex nat ign i n).WF ∧ (tileIndex nat ign i n).len = i.len * n := by
  unfold tileIndex
  by_cases hd : (isDefaultIndex nat i && ign) = true
  · rw [if_pos hd]; exact wf_rangeIndex nat _
  · rw [if_neg hd]
    exact wf_mapVals h (fun l hl => by rw [tileList_length, hl])

theorem row_mapVals {f : List V → List V} {i : Idx N V} (h : i.WF) {k m : Nat}
    (hf : ∀ l : List V, l.length = i.len → (f l)[k]? = l[m]?) : (i.mapVals f).row k = i.row m := by
  unfold Idx.row
  rw [levels_mapVals, List.map_map]
  apply List.map_congr_left
  intro l hl
  exact hf _ (h.same_len l hl)

/-! ## Dropping levels -/

theorem nodup_snd_zipIdx {α : Type} (l : List α) : (l.zipIdx.map Prod.snd).Nodup := by
  rw [List.zipIdx_map_snd]
  exact List.nodup_range'

theorem dropLevelPos_levels {ls : List (Lev N V)} {drop : List Nat} (h : drop.length < ls.length) :
    ∃ i, dropLevelPos ls drop = .ok i ∧
      i.levels = (ls.zipIdx.filter (fun p => !drop.contains p.2)).map Prod.fst := by
  unfold dropLevelPos
  rw [if_neg (by omega)]
  dsimp only
  split
  · rename_i l hl
    exact ⟨_, rfl, by rw [hl]; rfl⟩
  · exact ⟨_, rfl, rfl⟩

theorem contains_filter_snd {α : Type} {p : α × Nat → Bool} {r : List (α × Nat)} (hr : (r.map Prod.snd).Nodup)
    {q : α × Nat} (hq : q ∈ r) : ((r.filter p).map Prod.snd).contains q.2 = p q := by
  rw [Bool.eq_iff_iff, List.contains_iff_mem, List.mem_map]
  constructor
  · rintro ⟨q', hq', he⟩
    have hm := List.mem_filter.mp hq'
    have : q' = q := List.inj_on_of_nodup_map hr hm.1 hq he
    rw [← this]; exact hm.2
  · intro h
    exact ⟨q, List.mem_filter.mpr ⟨hq, h⟩, rfl⟩

theorem zipIdx_filter_fst {α : Type} (p : α → Bool) (l : List α) (k : Nat) :
    ((l.zipIdx k).filter (fun q => p q.1)).map Prod.fst = l.filter p := by
  induction l generalizing k with
  | nil => rfl
  | cons a l ih =>
    rw [List.zipIdx_cons]
    by_cases h : p a = true
    · rw [List.filter_cons_of_pos (by exact h), List.filter_cons_of_pos h, List.map_cons, ih]
    · rw [List.filter_cons_of_neg (by exact h), List.filter_cons_of_neg h, ih]

theorem redundantLev_iff (nat : Nat → V) (len : Nat) (l : Lev N V) :
    redundantLev nat len l = true ↔ Redundant nat len l := by
  unfold redundantLev isDefaultIndex rangeIndex isIndexEqual
  simp only [Bool.or_eq_true, Bool.and_eq_true, decide_eq_true_eq, Bool.not_true, Bool.false_or, Option.isNone_iff_eq_none]
  have hlen : (Idx.single l).len = l.vals.length := rfl
  rw [hlen]
  have hd : l.vals.dedup.length = 1 ↔ ∃ v, l.vals ≠ [] ∧ ∀ w ∈ l.vals, w = v := by
    constructor
    · intro h
      obtain ⟨v, hv⟩ := List.length_eq_one_iff.mp h
      refine ⟨v, ?_, ?_⟩
      · intro h0; rw [h0] at hv; simp at hv
      · intro w hw
        have := List.mem_dedup.mpr hw
        rw [hv] at this
        simpa using this
    · rintro ⟨v, h0, h⟩
      have hn := List.nodup_dedup l.vals
      have hv : ∀ w ∈ l.vals.dedup, w = v := fun w hw => h w (List.mem_dedup.mp hw)
      cases hc : l.vals.dedup with
      | nil =>
        rw [List.dedup_eq_nil] at hc
        exact absurd hc h0
      | cons a t =>
        cases t with
        | nil => rfl
        | cons b t =>
          rw [hc] at hn hv
          have ha := hv a (by simp)
          have hb := hv b (by simp)
          rw [ha, hb] at hn
          simp at hn
  rw [hd]
  constructor
  · rintro (⟨⟨h1, h2⟩, h3⟩ | ⟨h1, h2⟩)
    · exact ⟨h3, Or.inl ⟨h1, h2⟩⟩
    · exact ⟨h1, Or.inr h2⟩
  · rintro ⟨h1, h2 | h2⟩
    · exact Or.inl ⟨⟨h2.1, h2.2⟩, h1⟩
    · exact Or.inr ⟨h1, h2⟩

/-- The levels that are left without the redundant ones. -/
def leftLevs (nat : Nat → V) (ls : List (Lev N V)) : List (Lev N V) :=
  if ls.filter (fun l => !redundantLev nat (levsLen ls) l) = [] then ls
  else ls.filter (fun l => !redundantLev nat (levsLen ls) l)

theorem dropRedundant_levels (nat : Nat → V) (i : Idx N V) :
    ∃ j, dropRedundantLevels nat i = .ok j ∧ j.levels = leftLevs nat i.levels := by
  cases i with
  | single l =>
    refine ⟨_, rfl, ?_⟩
    unfold leftLevs
    by_cases h : redundantLev nat (levsLen [l]) l = true
    · simp [Idx.levels, h]
    · simp [Idx.levels, h]
  | multi ls =>
    have hL : (Idx.multi ls).levels = ls := rfl
    rw [hL]
    unfold dropRedundantLevels leftLevs
    dsimp only
    obtain ⟨p, hp⟩ : ∃ p : Lev N V → Bool, redundantLev nat (levsLen ls) = p := ⟨_, rfl⟩
    simp only [hp]
    have hlen : ((ls.zipIdx.filter (fun q => p q.1)).map Prod.snd).length = (ls.filter p).length := by
      rw [List.length_map, ← zipIdx_filter_fst p ls 0, List.length_map]
    have hsum : (ls.filter p).length + (ls.filter (fun l => !p l)).length = ls.length := by
      have := List.length_eq_length_filter_add (l := ls) p
      omega
    by_cases h : ((ls.zipIdx.filter (fun q => p q.1)).map Prod.snd).length < ls.length
    · rw [if_pos h, if_neg (by
        intro h0
        rw [h0] at hsum
        rw [hlen] at h
        simp only [List.length_nil] at hsum
        omega)]
      obtain ⟨j, h1, h2⟩ := dropLevelPos_levels h
      refine ⟨j, h1, ?_⟩
      rw [h2, ← zipIdx_filter_fst (fun l => !p l) ls 0]
      congr 1
      apply List.filter_congr
      intro q hq
      rw [contains_filter_snd (nodup_snd_zipIdx ls) hq]
    · rw [if_neg h, if_pos (by
        apply List.length_eq_zero_iff.mp
        rw [hlen] at h
        omega)]
      exact ⟨_, rfl, rfl⟩

/-! ## Dropping duplicates -/

/-- The first occurrences. -/
def firstOf {α : Type} [DecidableEq α] (seen : List α) : List α → List α
  | [] => []
  | a :: l => if a ∈ seen then firstOf seen l else a :: firstOf (seen ++ [a]) l

theorem firstOf_append {α : Type} [DecidableEq α] (l : List α) (a : α) (seen : List α) :
    firstOf seen (l ++ [a]) = firstOf seen l ++ (if a ∈ seen ∨ a ∈ l then [] else [a]) := by
  induction l generalizing seen with
  | nil =>
    by_cases h : a ∈ seen <;> simp [firstOf, h]
  | cons b l ih =>
    rw [List.cons_append, firstOf, firstOf]
    by_cases h : b ∈ seen
    · rw [if_pos h, if_pos h, ih]
      congr 1
      have : (a ∈ seen ∨ a ∈ l) ↔ (a ∈ seen ∨ a ∈ b :: l) := by
        simp only [List.mem_cons]
        constructor
        · rintro (h1 | h1)
          · exact Or.inl h1
          · exact Or.inr (Or.inr h1)
        · rintro (h1 | h1 | h1)
          · exact Or.inl h1
          · exact Or.inl (h1 ▸ h)
          · exact Or.inr h1
      simp only [this]
    · rw [if_neg h, if_neg h, ih, List.cons_append]
      have : (a ∈ seen ++ [b] ∨ a ∈ l) ↔ (a ∈ seen ∨ a ∈ b :: l) := by
        simp only [List.mem_append, List.mem_cons, List.not_mem_nil, or_false, or_assoc]
      simp only [this]

theorem firstOf_reverse {α : Type} [DecidableEq α] (l : List α) : (firstOf [] l.reverse).reverse = l.dedup := by
  induction l with
  | nil => rfl
  | cons a l ih =>
    rw [List.reverse_cons, firstOf_append, List.reverse_append, ih]
    by_cases h : a ∈ l
    · rw [if_pos (Or.inr (List.mem_reverse.mpr h)), List.dedup_cons_of_mem h]; rfl
    · rw [if_neg (by simp [h]), List.dedup_cons_of_notMem h]; rfl

theorem dupLoop_drop_mem (r : List (Lev N V × Nat)) (seen : List (Lev N V)) (drop : List Nat) (k : Nat) :
    k ∈ (dupLoop r (seen, drop)).2 → k ∈ drop ∨ k ∈ r.map Prod.snd := by
  induction r generalizing seen drop with
  | nil => intro h; exact Or.inl h
  | cons p r ih =>
    obtain ⟨l, i⟩ := p
    rw [dupLoop]
    by_cases h : l ∉ seen
    · rw [if_pos h]
      intro hk
      rcases ih _ _ hk with h1 | h1
      · exact Or.inl h1
      · exact Or.inr (by simp [h1])
    · rw [if_neg h]
      intro hk
      rcases ih _ _ hk with h1 | h1
      · rcases List.mem_append.mp h1 with h2 | h2
        · exact Or.inl h2
        · right
          rw [List.mem_singleton] at h2
          simp [h2]
      · exact Or.inr (by simp [h1])

theorem dupLoop_drop_keeps (r : List (Lev N V × Nat)) (seen : List (Lev N V)) (drop : List Nat) {k : Nat} (hk : k ∈ drop) :
    k ∈ (dupLoop r (seen, drop)).2 := by
  induction r generalizing seen drop with
  | nil => exact hk
  | cons p r ih =>
    obtain ⟨l, i⟩ := p
    rw [dupLoop]
    by_cases h : l ∉ seen
    · rw [if_pos h]; exact ih _ _ hk
    · rw [if_neg h]; exact ih _ _ (List.mem_append_left _ hk)

theorem dupLoop_length (r : List (Lev N V × Nat)) (seen : List (Lev N V)) (drop : List Nat) :
    (dupLoop r (seen, drop)).2.length + (firstOf seen (r.map Prod.fst)).length = drop.length + r.length := by
  induction r generalizing seen drop with
  | nil => rfl
  | cons p r ih =>
    obtain ⟨l, i⟩ := p
    rw [dupLoop, List.map_cons, firstOf]
    dsimp only
    by_cases h : l ∈ seen
    · rw [if_neg (not_not_intro h), if_pos h, ih]
      simp only [List.length_append, List.length_cons, List.length_nil]
      omega
    · rw [if_pos h, if_neg h, List.length_cons, List.length_cons]
      have := ih (seen ++ [l]) drop
      omega

theorem dupLoop_kept (r : List (Lev N V × Nat)) (seen : List (Lev N V)) (drop : List Nat) (hr : (r.map Prod.snd).Nodup)
    (hd : ∀ k ∈ drop, k ∉ r.map Prod.snd) :
    (r.filter (fun p => !(dupLoop r (seen, drop)).2.contains p.2)).map Prod.fst = firstOf seen (r.map Prod.fst) := by
  induction r generalizing seen drop with
  | nil => rfl
  | cons p r ih =>
    obtain ⟨l, i⟩ := p
    rw [List.map_cons] at hr
    have hn := List.nodup_cons.mp hr
    have hd' : ∀ k ∈ drop, k ∉ r.map Prod.snd := fun k hk hm => hd k hk (by simp [hm])
    rw [dupLoop, List.map_cons, firstOf]
    by_cases h : l ∈ seen
    · rw [if_neg (not_not_intro h), if_pos h]
      have hi : i ∈ (dupLoop r (seen, drop ++ [i])).2 := dupLoop_drop_keeps _ _ _ (by simp)
      rw [List.filter_cons_of_neg (by simp [hi])]
      apply ih _ _ hn.2
      intro k hk
      rcases List.mem_append.mp hk with h1 | h1
      · exact hd' k h1
      · rw [List.mem_singleton] at h1
        rw [h1]; exact hn.1
    · rw [if_pos h, if_neg h]
      have hi : i ∉ (dupLoop r (seen ++ [l], drop)).2 := by
        intro hm
        rcases dupLoop_drop_mem _ _ _ _ hm with h1 | h1
        · exact hd i h1 (by simp)
        · exact hn.1 h1
      rw [List.filter_cons_of_pos (by simp [hi]), List.map_cons, ih _ _ hn.2 hd']

/-- The different levels: the last (or the first) of those that are equal. -/
def keptLevs (keep : String) (ls : List (Lev N V)) : List (Lev N V) :=
  if keep = "first" then ls.reverse.dedup.reverse else ls.dedup

theorem firstOf_ne_nil {α : Type} [DecidableEq α] {l : List α} (h : l ≠ []) : firstOf [] l ≠ [] := by
  cases l with
  | nil => exact absurd rfl h
  | cons a l => rw [firstOf, if_neg (by simp)]; simp

theorem dropDuplicate_levels {keep : String} (hk : keep.toLower = "first" ∨ keep.toLower = "last") {i : Idx N V}
    (h0 : i.levels ≠ []) :
    ∃ j, dropDuplicateLevels keep i = .ok j ∧ j.levels = keptLevs keep i.levels := by
  cases i with
  | single l =>
    refine ⟨_, rfl, ?_⟩
    unfold keptLevs
    by_cases h : keep = "first"
    · rw [if_pos h]; simp [Idx.levels]
    · rw [if_neg h]; simp [Idx.levels]
  | multi ls =>
    change ls ≠ [] at h0
    have hL : (Idx.multi ls).levels = ls := rfl
    rw [hL]
    unfold dropDuplicateLevels keptLevs
    dsimp only
    rw [if_neg (by
      rintro ⟨h1, h2⟩
      rcases hk with h | h
      · exact h1 h
      · exact h2 h)]
    have hfst : ls.zipIdx.map Prod.fst = ls := List.zipIdx_map_fst 0 ls
    by_cases h : keep = "first"
    · rw [if_pos h, if_pos h]
      have hl := dupLoop_length ls.zipIdx ([] : List (Lev N V)) []
      rw [hfst] at hl
      have hne := List.length_pos_iff.mpr (firstOf_ne_nil h0)
      simp only [List.length_nil, List.length_zipIdx] at hl
      obtain ⟨j, h1, h2⟩ := dropLevelPos_levels (ls := ls) (drop := (dupLoop ls.zipIdx ([], [])).2) (by omega)
      refine ⟨j, h1, ?_⟩
      rw [h2, dupLoop_kept _ _ _ (nodup_snd_zipIdx ls) (by simp), hfst, ← firstOf_reverse, List.reverse_reverse,
        List.reverse_reverse]
    · rw [if_neg h, if_neg h]
      have hl := dupLoop_length ls.zipIdx.reverse ([] : List (Lev N V)) []
      rw [List.map_reverse, hfst] at hl
      have hne := List.length_pos_iff.mpr (firstOf_ne_nil (l := ls.reverse) (by simpa using h0))
      simp only [List.length_nil, List.length_reverse, List.length_zipIdx] at hl
      obtain ⟨j, h1, h2⟩ := dropLevelPos_levels (ls := ls) (drop := (dupLoop ls.zipIdx.reverse ([], [])).2) (by omega)
      refine ⟨j, h1, ?_⟩
      have hk := dupLoop_kept ls.zipIdx.reverse ([] : List (Lev N V)) []
        (by rw [List.map_reverse, List.nodup_reverse]; exact nodup_snd_zipIdx ls) (by simp)
      rw [List.map_reverse, hfst] at hk
      rw [h2, ← firstOf_reverse, ← hk, ← List.map_reverse, ← List.filter_reverse, List.reverse_reverse]

/-! ## Stacking -/

theorem fromArrays_ok {ls : List (Lev N V)} {n : Nat} (h0 : ls ≠ []) (h : ∀ l ∈ ls, l.vals.length = n) :
    fromArrays ls = .ok (.multi ls) := by
  cases ls with
  | nil => exact absurd rfl h0
  | cons a t =>
    unfold fromArrays
    dsimp only
    rw [if_pos]
    rw [List.all_eq_true]
    intro l hl
    rw [decide_eq_true_eq, h l (by simp [hl]), h a (by simp)]

/-- The levels of a stacked index. -/
def stackedLevs (nat : Nat → V) (o : StackOpts) (ls : List (Lev N V)) : List (Lev N V) :=
  let d := if o.dropDuplicates then keptLevs o.keep ls else ls
  if o.dropRedundant then leftLevs nat d else d

theorem keptLevs_mem (keep : String) (ls : List (Lev N V)) (l : Lev N V) : l ∈ keptLevs keep ls ↔ l ∈ ls := by
  unfold keptLevs
  by_cases h : keep = "first"
  · rw [if_pos h]; simp
  · rw [if_neg h]; simp

theorem keptLevs_ne {keep : String} {ls : List (Lev N V)} (h : ls ≠ []) : keptLevs keep ls ≠ [] := by
  cases ls with
  | nil => exact absurd rfl h
  | cons a t => exact List.ne_nil_of_mem ((keptLevs_mem keep _ a).mpr (by simp))

theorem leftLevs_ne {nat : Nat → V} {ls : List (Lev N V)} (h : ls ≠ []) : leftLevs nat ls ≠ [] := by
  unfold leftLevs
  by_cases h1 : ls.filter (fun l => !redundantLev nat (levsLen ls) l) = []
  · rw [if_pos h1]; exact h
  · rw [if_neg h1]; exact h1

theorem leftLevs_sub {nat : Nat → V} {ls : List (Lev N V)} {l : Lev N V} (h : l ∈ leftLevs nat ls) : l ∈ ls := by
  unfold leftLevs at h
  by_cases h1 : ls.filter (fun l => !redundantLev nat (levsLen ls) l) = []
  · rw [if_pos h1] at h; exact h
  · rw [if_neg h1] at h; exact (List.mem_filter.mp h).1

theorem stackedLevs_sub {nat : Nat → V} {o : StackOpts} {ls : List (Lev N V)} {l : Lev N V}
    (h : l ∈ stackedLevs nat o ls) : l ∈ ls := by
  unfold stackedLevs at h
  dsimp only at h
  have hd : ∀ l, l ∈ (if o.dropDuplicates then keptLevs o.keep ls else ls) → l ∈ ls := by
    intro l hl
    by_cases h1 : o.dropDuplicates = true
    · rw [if_pos h1] at hl; exact (keptLevs_mem _ _ _).mp hl
    · rw [if_neg h1] at hl; exact hl
  by_cases h2 : o.dropRedundant = true
  · rw [if_pos h2] at h; exact hd _ (leftLevs_sub h)
  · rw [if_neg h2] at h; exact hd _ h

theorem stackedLevs_ne {nat : Nat → V} {o : StackOpts} {ls : List (Lev N V)} (h0 : ls ≠ []) : stackedLevs nat o ls ≠ [] := by
  unfold stackedLevs
  dsimp only
  have hd : (if o.dropDuplicates then keptLevs o.keep ls else ls) ≠ [] := by
    by_cases h1 : o.dropDuplicates = true
    · rw [if_pos h1]; exact keptLevs_ne h0
    · rw [if_neg h1]; exact h0
  by_cases h2 : o.dropRedundant = true
  · rw [if_pos h2]; exact leftLevs_ne hd
  · rw [if_neg h2]; exact hd

theorem stackIndexes_ok (nat : Nat → V) (o : StackOpts) (hk : o.keep.toLower = "first" ∨ o.keep.toLower = "last")
    {is : List (Idx N V)} {n : Nat} (h0 : is.flatMap Idx.levels ≠ [])
    (h : ∀ l ∈ is.flatMap Idx.levels, l.vals.length = n) :
    ∃ j, stackIndexes nat o is = .ok j ∧ j.levels = stackedLevs nat o (is.flatMap Idx.levels) ∧ j.WF ∧ j.len = n := by
  have hmain : ∃ j, stackIndexes nat o is = .ok j ∧ j.levels = stackedLevs nat o (is.flatMap Idx.levels) := by
    unfold stackIndexes stackedLevs
    rw [fromArrays_ok h0 h]
    dsimp only
    by_cases h1 : o.dropDuplicates = true
    · obtain ⟨j, e1, l1⟩ := dropDuplicate_levels hk (i := .multi (is.flatMap Idx.levels)) h0
      rw [if_pos h1, if_pos h1, e1]
      dsimp only
      by_cases h2 : o.dropRedundant = true
      · rw [if_pos h2, if_pos h2]
        obtain ⟨j', e2, l2⟩ := dropRedundant_levels nat j
        exact ⟨j', e2, by rw [l2, l1]; rfl⟩
      · rw [if_neg h2, if_neg h2]
        exact ⟨j, rfl, l1⟩
    · rw [if_neg h1, if_neg h1]
      dsimp only
      by_cases h2 : o.dropRedundant = true
      · rw [if_pos h2, if_pos h2]
        obtain ⟨j', e2, l2⟩ := dropRedundant_levels nat (.multi (is.flatMap Idx.levels))
        exact ⟨j', e2, l2⟩
      · rw [if_neg h2, if_neg h2]
        exact ⟨_, rfl, rfl⟩
  obtain ⟨j, e, l⟩ := hmain
  have hw := wf_of_levels (i := j) (n := n) (by rw [l]; exact stackedLevs_ne h0)
    (fun m hm => h m (stackedLevs_sub (by rw [← l]; exact hm)))
  exact ⟨j, e, l, hw.1, hw.2⟩

end Vbt
