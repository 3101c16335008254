import Verif.Model.Grouping
import Verif.Lemmas.Sim
import Mathlib.Data.List.Sort
import Mathlib.Data.List.Dedup

/-!
# C49  Group lengths partition the columns
-/

namespace Vbt

/-- The columns are consecutive blocks of the groups `gs`, of lengths `lens`. -/
structure Blocks {G : Type} (cols : List G) (gs : List G) (lens : List Nat) : Prop where
  same : gs.length = lens.length
  cols : cols = (gs.zip lens).flatMap fun p => List.replicate p.2 p.1
  pos : ∀ l ∈ lens, 0 < l

theorem Blocks.snoc {G : Type} {cols : List G} {gs lens} (h : Blocks cols gs lens) (g : G) {l : Nat} (hl : 0 < l) :
    Blocks (cols ++ List.replicate l g) (gs ++ [g]) (lens ++ [l]) := by
  refine ⟨by simp [h.same], ?_, ?_⟩
  · rw [List.zip_append h.same, List.flatMap_append, ← h.cols]; simp
  · intro x hx
    rw [List.mem_append, List.mem_singleton] at hx
    rcases hx with hx | rfl
    · exact h.pos x hx
    · exact hl

/-- The loop invariant after the columns `pre`. -/
def LensInv (pre : List Int) (s : LensState) : Prop :=
  (pre = [] ∧ s = ⟨[], -1, 0⟩) ∨
  ∃ done gs g, pre = done ++ List.replicate s.len g ∧ 0 < s.len ∧ s.last = g ∧ 0 ≤ g ∧ Blocks done gs s.result ∧
    (gs ++ [g]).Pairwise (· < ·)

/-- What is returned. -/
def LensDone (groups : List Int) (lens : List Nat) : Prop := ∃ gs, Blocks groups gs lens ∧ gs.Pairwise (· < ·)

/-- The state after a column that is not the last one. -/
def lensNext (s : LensState) (g : Int) : LensState :=
  let s1 : LensState :=
    if g ≠ s.last then
      let s0 : LensState := if s.last ≠ -1 then { s with result := s.result ++ [s.len], len := 0 } else s
      { s0 with last := g }
    else s
  { s1 with len := s1.len + 1 }

theorem LensInv.next {pre s g} (h : LensInv pre s) (hg : 0 ≤ g) (hle : s.last ≤ g) : LensInv (pre ++ [g]) (lensNext s g) := by
  right
  rcases h with ⟨rfl, rfl⟩ | ⟨done, gs, g', hpre, hlen, hlast, hg', hb, hs⟩
  · refine ⟨[], [], g, ?_⟩
    have : g ≠ -1 := by omega
    simp only [lensNext, ne_eq, this, not_false_eq_true, if_true, not_true, if_false]
    refine ⟨by simp, by omega, by simp, hg, ⟨rfl, rfl, by simp⟩, by simp⟩
  · obtain ⟨result, last, len⟩ := s
    dsimp only at hpre hlen hlast hle hb
    subst hlast
    have h1 : last ≠ -1 := by omega
    by_cases he : g = last
    · subst he
      have e : lensNext ⟨result, g, len⟩ g = ⟨result, g, len + 1⟩ := by simp [lensNext]
      rw [e]
      exact ⟨done, gs, g, by rw [hpre, List.append_assoc, List.replicate_succ'], by simp only; omega, rfl, hg, hb, hs⟩
    · have e : lensNext ⟨result, last, len⟩ g = ⟨result ++ [len], g, 1⟩ := by simp [lensNext, he, h1]
      rw [e]
      refine ⟨pre, gs ++ [last], g, by simp, by simp only; omega, rfl, hg, ?_, ?_⟩
      · rw [hpre]; exact hb.snoc last hlen
      · rw [List.pairwise_append]
        refine ⟨hs, by simp, fun a ha b hb' => ?_⟩
        rw [List.mem_singleton] at hb'
        subst hb'
        rw [List.pairwise_append] at hs
        rw [List.mem_append, List.mem_singleton] at ha
        rcases ha with ha | rfl
        · have := hs.2.2 a ha last (by simp)
          omega
        · omega

theorem lensNext_last (s : LensState) (g : Int) : (lensNext s g).last = g := by
  unfold lensNext
  by_cases h : g = s.last
  · simp [h]
  · simp only [ne_eq, h, not_false_eq_true, if_true]

theorem lensStep_ok {n s g i} (h : s.last ≤ g) :
    lensStep n s (g, i) = .ok (if (i : Int) = n - 1 then
      { lensNext s g with result := (lensNext s g).result ++ [(lensNext s g).len], len := 0 } else lensNext s g) := by
  unfold lensStep
  rw [if_neg (by simpa using h)]
  rfl

theorem lens_loop {rest : List Int} {k n : Nat} {s : LensState} {pre : List Int} (hk : pre.length = k)
    (hn : n = k + rest.length) (hne : rest ≠ []) (hinv : LensInv pre s) (hpos : ∀ g ∈ rest, 0 ≤ g)
    (hs : (s.last :: rest).Pairwise (· ≤ ·)) :
    ∃ s', loopE (lensStep n) s (rest.zipIdx k) = .ok s' ∧ LensDone (pre ++ rest) s'.result := by
  induction rest generalizing k s pre with
  | nil => exact absurd rfl hne
  | cons g rest ih =>
    rw [List.pairwise_cons, List.pairwise_cons] at hs
    have hle : s.last ≤ g := hs.1 g (by simp)
    have hi := hinv.next (hpos g (by simp)) hle
    rw [List.zipIdx_cons, loopE, lensStep_ok hle]
    cases rest with
    | nil =>
      simp only [List.length_cons, List.length_nil] at hn
      rw [if_pos (by omega)]
      refine ⟨_, rfl, ?_⟩
      rcases hi with ⟨h, -⟩ | ⟨done, gs, g', hpre, hlen, -, -, hb, hsort⟩
      · simp at h
      · exact ⟨gs ++ [g'], by rw [hpre]; exact hb.snoc g' hlen, hsort⟩
    | cons g2 rest =>
      simp only [List.length_cons] at hn
      rw [if_neg (by omega)]
      simp only
      have hl := lensNext_last s g
      have := ih (k := k + 1) (s := lensNext s g) (pre := pre ++ [g]) (by simp [hk]) (by simp only [List.length_cons]; omega)
        (by simp) hi (fun x hx => hpos x (List.mem_cons_of_mem _ hx)) (by rw [hl, List.pairwise_cons]; exact hs.2)
      simpa using this

/-- Sorted groups: the lengths are those of consecutive blocks, one per group in ascending order. -/
theorem groupLens_done {groups : List Int} (hpos : ∀ g ∈ groups, 0 ≤ g) (hs : groups.Pairwise (· ≤ ·)) :
    ∃ lens, groupLensNb groups = .ok lens ∧ LensDone groups lens := by
  unfold groupLensNb
  cases hg : groups with
  | nil => exact ⟨[], rfl, [], ⟨rfl, rfl, by simp⟩, by simp⟩
  | cons g rest =>
    rw [← hg]
    obtain ⟨s', h1, h2⟩ := lens_loop (k := 0) (n := groups.length) (s := ⟨[], -1, 0⟩) (pre := []) (rest := groups) rfl
      (by simp) (by simp [hg]) (Or.inl ⟨rfl, rfl⟩) hpos (by
        rw [List.pairwise_cons]
        exact ⟨fun x hx => by have := hpos x hx; simp only; omega, hs⟩)
    rw [h1]
    exact ⟨s'.result, rfl, by simpa using h2⟩

theorem lensStep_last {n s x s'} (h : lensStep n s x = .ok s') : s.last ≤ x.1 ∧ s'.last = x.1 := by
  obtain ⟨g, i⟩ := x
  have hle : s.last ≤ g := by
    by_contra hc
    unfold lensStep at h
    rw [if_pos (by simpa using hc)] at h
    cases h
  rw [lensStep_ok hle] at h
  refine ⟨hle, ?_⟩
  have hl := lensNext_last s g
  cases h
  split <;> exact hl

theorem lens_sorted {n : Nat} {rest : List Int} {k : Nat} {s s' : LensState}
    (h : loopE (lensStep n) s (rest.zipIdx k) = .ok s') : (s.last :: rest).Pairwise (· ≤ ·) := by
  induction rest generalizing k s with
  | nil => simp
  | cons g rest ih =>
    rw [List.zipIdx_cons] at h
    obtain ⟨s1, h1, h2⟩ := loopE_cons_ok h
    obtain ⟨a, b⟩ := lensStep_last h1
    have := ih h2
    rw [b] at this
    rw [List.pairwise_cons]
    refine ⟨fun x hx => ?_, this⟩
    rw [List.mem_cons] at hx
    rcases hx with rfl | hx
    · exact a
    · rw [List.pairwise_cons] at this
      exact le_trans a (this.1 x hx)

/-- Groups that are not sorted raise, and only those. -/
theorem C49_unsorted {groups : List Int} (hpos : ∀ g ∈ groups, 0 ≤ g) :
    (∃ e, groupLensNb groups = .error e) ↔ ¬ groups.Pairwise (· ≤ ·) := by
  constructor
  · rintro ⟨e, he⟩ hs
    obtain ⟨l, hl, -⟩ := groupLens_done hpos hs
    rw [hl] at he; cases he
  · intro hs
    unfold groupLensNb
    cases h : loopE (lensStep groups.length) ⟨[], -1, 0⟩ groups.zipIdx with
    | error e => exact ⟨e, rfl⟩
    | ok s =>
      have := lens_sorted h
      rw [List.pairwise_cons] at this
      exact absurd this.2 hs

/-! ## Blocks -/

theorem Blocks.sum {G : Type} {cols : List G} {gs lens} (h : Blocks cols gs lens) : lens.sum = cols.length := by
  obtain ⟨h1, h2, -⟩ := h
  subst h2
  induction gs generalizing lens with
  | nil =>
    cases lens with
    | nil => rfl
    | cons _ _ => simp at h1
  | cons g gs ih =>
    cases lens with
    | nil => simp at h1
    | cons l lens =>
      simp only [List.length_cons, Nat.add_right_cancel_iff] at h1
      simp only [List.sum_cons, List.zip_cons_cons, List.flatMap_cons, List.length_append, List.length_replicate, ih h1]

theorem Blocks.tail {G : Type} {cols : List G} {g gs l lens} (h : Blocks cols (g :: gs) (l :: lens)) :
    ∃ rest, cols = List.replicate l g ++ rest ∧ Blocks rest gs lens :=
  ⟨(gs.zip lens).flatMap fun p => List.replicate p.2 p.1, by rw [h.cols]; simp,
    by have := h.same; simpa using this, rfl, fun x hx => h.pos x (List.mem_cons_of_mem _ hx)⟩

theorem Blocks.mem {G : Type} {cols : List G} {gs lens} (h : Blocks cols gs lens) (g : G) : g ∈ cols ↔ g ∈ gs := by
  induction gs generalizing lens cols with
  | nil =>
    rw [h.cols]; simp
  | cons g' gs ih =>
    cases lens with
    | nil => have := h.same; simp at this
    | cons l lens =>
      obtain ⟨rest, hc, hb⟩ := h.tail
      have hl := h.pos l (by simp)
      rw [hc, List.mem_append, ih hb, List.mem_cons, List.mem_replicate]
      constructor
      · rintro (⟨-, rfl⟩ | h)
        · exact Or.inl rfl
        · exact Or.inr h
      · rintro (rfl | h)
        · exact Or.inl ⟨by omega, rfl⟩
        · exact Or.inr h

/-- `k`-th start and end. -/
theorem groupEnds_get {lens : List Nat} {k : Nat} (hk : k < lens.length) :
    (groupEnds lens)[k]? = some ((lens.take (k + 1)).sum) := by
  simp [groupEnds, cumLens, hk]

theorem groupStarts_get {lens : List Nat} {k : Nat} (hk : k < lens.length) :
    (groupStarts lens)[k]? = some ((lens.take k).sum) := by
  have e : (lens.take (k + 1)).sum = (lens.take k).sum + lens[k] := by
    rw [← List.take_concat_get' _ _ hk, List.sum_append]; simp
  simp [groupStarts, cumLens, hk, e]

/-- A column belongs to the `k`-th group exactly if it is between the `k`-th start and the `k`-th end. -/
theorem Blocks.between {G : Type} {cols : List G} {gs lens} (h : Blocks cols gs lens) (hn : gs.Nodup) {k : Nat}
    (hk : k < lens.length) (c : Nat) :
    (cols[c]? = gs[k]? ↔ (lens.take k).sum ≤ c ∧ c < (lens.take (k + 1)).sum) := by
  induction gs generalizing lens cols k c with
  | nil => have := h.same; simp at this; omega
  | cons g gs ih =>
    cases lens with
    | nil => simp at hk
    | cons l lens =>
      obtain ⟨rest, hc, hb⟩ := h.tail
      rw [List.nodup_cons] at hn
      subst hc
      cases k with
      | zero =>
        simp only [List.getElem?_cons_zero, List.take_zero, List.sum_nil, Nat.zero_le, true_and, zero_add,
          List.take_succ_cons, List.sum_cons, Nat.add_zero]
        by_cases hcl : c < l
        · rw [List.getElem?_append_left (by simpa using hcl)]
          simp [hcl]
        · rw [List.getElem?_append_right (by simpa using hcl)]
          constructor
          · intro he
            have := List.mem_of_getElem? he
            rw [hb.mem] at this
            exact absurd this hn.1
          · intro h'; exact absurd h' hcl
      | succ k =>
        simp only [List.length_cons, Nat.add_lt_add_iff_right] at hk
        simp only [List.getElem?_cons_succ, List.take_succ_cons, List.sum_cons]
        have hkg : k < gs.length := by rw [hb.same]; exact hk
        by_cases hcl : c < l
        · rw [List.getElem?_append_left (by simpa using hcl)]
          constructor
          · intro he
            rw [List.getElem?_replicate, if_pos hcl] at he
            exact absurd (List.mem_of_getElem? he.symm) hn.1
          · intro h'; omega
        · rw [List.getElem?_append_right (by simpa using hcl), List.length_replicate, ih hb hn.2 hk]
          omega

/-- For sorted groups: the lengths sum up to the number of columns, there is one for each group in ascending order, each is
the number of columns of its group, and the columns of the `k`-th group are those between the `k`-th start and end. -/
theorem C49_lens_partial {groups : List Int} (hpos : ∀ g ∈ groups, 0 ≤ g) (hs : groups.Pairwise (· ≤ ·)) :
    ∃ lens, ∃ gs : List Int, groupLensNb groups = .ok lens ∧ lens.sum = groups.length ∧ gs.length = lens.length ∧
      gs.Pairwise (· < ·) ∧ (∀ g, g ∈ groups ↔ g ∈ gs) ∧ lens = gs.map (fun g => groups.count g) ∧
      ∀ k, k < lens.length → ∃ start stop, (groupStarts lens)[k]? = some start ∧ (groupEnds lens)[k]? = some stop ∧
        ∀ c, groups[c]? = gs[k]? ↔ start ≤ c ∧ c < stop := by
  obtain ⟨lens, h1, gs, hb, hsort⟩ := groupLens_done hpos hs
  have hn : gs.Nodup := hsort.imp (fun h => ne_of_lt h)
  refine ⟨lens, gs, h1, hb.sum, hb.same, hsort, hb.mem, ?_, fun k hk =>
    ⟨_, _, groupStarts_get hk, groupEnds_get hk, hb.between hn hk⟩⟩
  clear h1 hsort hs hpos
  induction gs generalizing lens groups with
  | nil =>
    have := hb.same
    cases lens with
    | nil => rfl
    | cons _ _ => simp at this
  | cons g gs ih =>
    cases lens with
    | nil => have := hb.same; simp at this
    | cons l lens =>
      obtain ⟨rest, hc, hb'⟩ := hb.tail
      rw [List.nodup_cons] at hn
      rw [List.map_cons]
      congr 1
      · rw [hc, List.count_append, List.count_replicate_self, List.count_eq_zero.mpr (by rw [hb'.mem]; exact hn.1)]
        omega
      · rw [ih _ hb' hn.2]
        apply List.map_congr_left
        intro x hx
        rw [hc, List.count_append, List.count_replicate]
        rw [if_neg (by
          simp only [beq_iff_eq]
          rintro rfl
          exact hn.1 hx)]
        omega

/-- The intervals cover the columns one after the other: the first starts at 0, each starts where the previous ends, and
the last ends at the number of columns. -/
theorem C49_consecutive (lens : List Nat) (h : lens ≠ []) :
    (groupStarts lens)[0]? = some 0 ∧ (∀ k, k + 1 < lens.length → (groupStarts lens)[k + 1]? = (groupEnds lens)[k]?) ∧
      (groupEnds lens)[lens.length - 1]? = some lens.sum := by
  have hl : 0 < lens.length := List.length_pos_iff.mpr h
  refine ⟨?_, fun k hk => ?_, ?_⟩
  · rw [groupStarts_get hl]; simp
  · rw [groupStarts_get hk, groupEnds_get (by omega)]
  · rw [groupEnds_get (by omega)]
    congr 2
    rw [Nat.sub_add_cancel hl, List.take_length]

/-! ## Labels -/

section
variable {L : Type} [DecidableEq L]

/-- After the labels `pre`: the codes are the positions in `u`, and `u` lists the labels by first appearance. -/
structure FactInv (pre : List L) (s : List L × List Int) : Prop where
  codes : s.2 = pre.map fun l => (s.1.idxOf l : Int)
  mem : ∀ l, l ∈ s.1 ↔ l ∈ pre
  nodup : s.1.Nodup
  order : ∀ a b, a ∈ pre → b ∈ pre → (s.1.idxOf a < s.1.idxOf b ↔ pre.idxOf a < pre.idxOf b)

theorem FactInv.step {pre : List L} {s} (h : FactInv pre s) (l : L) : FactInv (pre ++ [l]) (factorizeStep s (some l)) := by
  obtain ⟨u, codes⟩ := s
  obtain ⟨h1, h2, h3, h4⟩ := h
  dsimp only at h1 h2 h3 h4
  unfold factorizeStep
  simp only
  by_cases hl : l ∈ u
  · rw [if_pos hl]
    have hp : l ∈ pre := (h2 l).mp hl
    refine ⟨?_, ?_, h3, ?_⟩ <;> simp only
    · rw [List.map_append, ← h1]; rfl
    · intro x
      rw [List.mem_append, List.mem_singleton, h2]
      constructor
      · exact Or.inl
      · rintro (h | rfl)
        · exact h
        · exact hp
    · intro a b ha hb
      have ha' : a ∈ pre := by
        rw [List.mem_append, List.mem_singleton] at ha
        rcases ha with ha | rfl
        · exact ha
        · exact hp
      have hb' : b ∈ pre := by
        rw [List.mem_append, List.mem_singleton] at hb
        rcases hb with hb | rfl
        · exact hb
        · exact hp
      rw [List.idxOf_append_of_mem ha', List.idxOf_append_of_mem hb']
      exact h4 a b ha' hb'
  · rw [if_neg hl]
    have hp : l ∉ pre := fun h => hl ((h2 l).mpr h)
    refine ⟨?_, ?_, ?_, ?_⟩ <;> simp only
    · rw [List.map_append, h1]
      congr 1
      · apply List.map_congr_left
        intro x hx
        rw [List.idxOf_append_of_mem ((h2 x).mpr hx)]
      · simp [List.idxOf_append_of_notMem hl]
    · intro x
      rw [List.mem_append, List.mem_append, h2]
    · rw [List.nodup_append]
      refine ⟨h3, by simp, fun a ha b hb => ?_⟩
      rw [List.mem_singleton] at hb
      rintro rfl
      subst hb
      exact hl ha
    · intro a b ha hb
      have pu : ∀ x, x ∈ pre → u.idxOf x < u.length ∧ pre.idxOf x < pre.length := fun x hx =>
        ⟨List.idxOf_lt_length_of_mem ((h2 x).mpr hx), List.idxOf_lt_length_of_mem hx⟩
      rw [List.mem_append, List.mem_singleton] at ha hb
      rcases ha with ha | rfl <;> rcases hb with hb | rfl
      · rw [List.idxOf_append_of_mem ha, List.idxOf_append_of_mem hb, List.idxOf_append_of_mem ((h2 a).mpr ha),
          List.idxOf_append_of_mem ((h2 b).mpr hb)]
        exact h4 a b ha hb
      · rw [List.idxOf_append_of_mem ha, List.idxOf_append_of_notMem hp, List.idxOf_append_of_mem ((h2 a).mpr ha),
          List.idxOf_append_of_notMem hl]
        have := pu a ha
        simp only [List.idxOf_cons_self]
        omega
      · rw [List.idxOf_append_of_mem hb, List.idxOf_append_of_notMem hp, List.idxOf_append_of_mem ((h2 b).mpr hb),
          List.idxOf_append_of_notMem hl]
        have := pu b hb
        simp only [List.idxOf_cons_self]
        omega
      · simp

theorem factorize_inv (labels : List L) : FactInv labels (factorize (labels.map some)) := by
  unfold factorize
  have key : ∀ (rest pre : List L) s, FactInv pre s → FactInv (pre ++ rest) ((rest.map some).foldl factorizeStep s) := by
    intro rest
    induction rest with
    | nil => intro pre s h; simpa using h
    | cons l rest ih =>
      intro pre s h
      have := ih (pre ++ [l]) _ (h.step l)
      simpa using this
  exact key labels [] ([], []) ⟨rfl, by simp, by simp, by simp⟩

/-- Equal labels are next to each other. -/
def Coherent (labels : List L) : Prop :=
  ∀ i j k : Nat, i < j → j < k → ∀ a, labels[i]? = some a → labels[k]? = some a → labels[j]? = some a

theorem codes_sorted_iff (labels : List L) :
    (factorize (labels.map some)).2.Pairwise (· ≤ ·) ↔ Coherent labels := by
  obtain ⟨h1, h2, h3, h4⟩ := factorize_inv labels
  set u := (factorize (labels.map some)).1
  rw [h1, List.pairwise_map]
  constructor
  · intro hs i j k hij hjk a hi hk
    rw [List.pairwise_iff_getElem] at hs
    obtain ⟨hk', rfl⟩ := List.getElem?_eq_some_iff.mp hk
    obtain ⟨hi', hia⟩ := List.getElem?_eq_some_iff.mp hi
    have hj' : j < labels.length := by omega
    have e1 := hs i j hi' hj' hij
    have e2 := hs j k hj' hk' hjk
    rw [hia] at e1
    have e3 : u.idxOf labels[j] = u.idxOf labels[k] := by omega
    rw [List.getElem?_eq_getElem hj']
    congr 1
    exact (List.idxOf_inj ((h2 _).mpr (List.getElem_mem hj'))).mp e3
  · intro hc
    rw [List.pairwise_iff_getElem]
    intro i j hi hj hij
    by_contra hlt
    have hlt' : u.idxOf labels[j] < u.idxOf labels[i] := by omega
    rw [h4 _ _ (List.getElem_mem hj) (List.getElem_mem hi)] at hlt'
    have hfi : labels.idxOf labels[i] ≤ i := by
      by_contra hgt
      have := List.not_of_lt_findIdx (p := (· == labels[i])) (xs := labels) (i := i) (by simpa [List.idxOf] using hgt)
      simp at this
    have hfj := List.idxOf_lt_length_of_mem (List.getElem_mem hj)
    have := hc (labels.idxOf labels[j]) i j (by omega) hij labels[j]
      (by rw [List.getElem?_eq_getElem hfj, List.getElem_idxOf]) (List.getElem?_eq_getElem hj)
    rw [List.getElem?_eq_getElem hi] at this
    have e : labels[i] = labels[j] := by simpa using this
    rw [e] at hlt'
    omega

theorem isSortedArr_iff (a : List Int) : isSortedArr a = true ↔ a.Pairwise (· ≤ ·) := by
  induction a with
  | nil => simp [isSortedArr]
  | cons x a ih =>
    cases a with
    | nil => simp [isSortedArr]
    | cons y a =>
      have e : isSortedArr (x :: y :: a) = (decide (x ≤ y) && isSortedArr (y :: a)) := by
        simp [isSortedArr]
      rw [e, Bool.and_eq_true, ih, List.pairwise_cons (a := x), decide_eq_true_iff]
      constructor
      · rintro ⟨h1, h2⟩
        refine ⟨fun z hz => ?_, h2⟩
        rw [List.mem_cons] at hz
        rcases hz with rfl | hz
        · exact h1
        · rw [List.pairwise_cons] at h2
          exact le_trans h1 (h2.1 z hz)
      · rintro ⟨h1, h2⟩
        exact ⟨h1 y (by simp), h2⟩

/-- Grouping by labels: it raises exactly if equal labels are not next to each other. -/
theorem C49_incoherent {n : Nat} (labels : List L) :
    (∃ e, getGroupLens n (some (labels.map some)) = .error e) ↔ ¬ Coherent labels := by
  rw [← codes_sorted_iff]
  unfold getGroupLens
  simp only
  have hpos : ∀ g ∈ (factorize (labels.map some)).2, 0 ≤ g := by
    rw [(factorize_inv labels).codes]
    simp
  by_cases hs : (factorize (labels.map some)).2.Pairwise (· ≤ ·)
  · rw [(isSortedArr_iff _).mpr hs]
    obtain ⟨l, hl, -⟩ := groupLens_done hpos hs
    simp [hl, hs]
  · have : isSortedArr (factorize (labels.map some)).2 = false := by
      rw [Bool.eq_false_iff]
      exact fun h => hs ((isSortedArr_iff _).mp h)
    rw [this]
    simp [hs]

/-- Grouping by labels without missing ones that are next to each other: one length for each label in order of appearance;
column `c` has the `k`-th label exactly if it is between the `k`-th start and end; the lengths sum up to the number of
columns. -/
theorem C49_labels_partial {n : Nat} (labels : List L) (hc : Coherent labels) :
    ∃ lens, getGroupLens n (some (labels.map some)) = .ok lens ∧ lens.sum = labels.length ∧
      lens.length = (factorize (labels.map some)).1.length ∧ (∀ l ∈ lens, 0 < l) ∧
      ∀ k, k < lens.length → ∃ label start stop, (factorize (labels.map some)).1[k]? = some label ∧
        (groupStarts lens)[k]? = some start ∧ (groupEnds lens)[k]? = some stop ∧
        ∀ c, labels[c]? = some label ↔ start ≤ c ∧ c < stop := by
  have hf := factorize_inv labels
  have hpos : ∀ g ∈ (factorize (labels.map some)).2, 0 ≤ g := by
    rw [hf.codes]; simp
  have hs := (codes_sorted_iff labels).mpr hc
  obtain ⟨lens, h1, gs, hb, hsort⟩ := groupLens_done hpos hs
  set u := (factorize (labels.map some)).1 with hu
  have hn : gs.Nodup := hsort.imp (fun h => ne_of_lt h)
  have hgs : gs = (List.range u.length).map (fun k : Nat => (k : Int)) := by
    have hperm : gs.Perm ((List.range u.length).map (fun k : Nat => (k : Int))) := by
      rw [List.perm_ext_iff_of_nodup hn (List.Nodup.map (fun a b h => by simpa using h) List.nodup_range)]
      intro g
      rw [← hb.mem, hf.codes]
      simp only [List.mem_map, List.mem_range]
      constructor
      · rintro ⟨l, hl, rfl⟩
        exact ⟨u.idxOf l, List.idxOf_lt_length_of_mem ((hf.mem l).mpr hl), rfl⟩
      · rintro ⟨k, hk, rfl⟩
        exact ⟨u[k], (hf.mem _).mp (List.getElem_mem hk), by rw [hf.nodup.idxOf_getElem k hk]⟩
    refine hperm.eq_of_pairwise (le := (· < ·)) (fun a b _ _ h1 h2 => absurd h1 (not_lt.mpr (le_of_lt h2))) hsort ?_
    rw [List.pairwise_map]
    exact List.pairwise_lt_range.imp (fun h => by exact_mod_cast h)
  have hlen : lens.length = u.length := by rw [← hb.same, hgs]; simp
  refine ⟨lens, ?_, ?_, hlen, hb.pos, fun k hk => ?_⟩
  · unfold getGroupLens
    simp only
    rw [(isSortedArr_iff _).mpr hs]
    exact h1
  · rw [hb.sum, hf.codes]; simp
  · have hku : k < u.length := by omega
    refine ⟨u[k], _, _, List.getElem?_eq_getElem hku, groupStarts_get hk, groupEnds_get hk, fun c => ?_⟩
    rw [← hb.between hn hk c, hgs, hf.codes]
    simp only [List.getElem?_map, List.getElem?_range hku, Option.map_some]
    constructor
    · intro h
      rw [h, Option.map_some, hf.nodup.idxOf_getElem k hku]
    · intro h
      cases hl : labels[c]? with
      | none => rw [hl] at h; cases h
      | some l =>
        rw [hl, Option.map_some, Option.some.injEq] at h
        have h' : u.idxOf l = k := by exact_mod_cast h
        have hm : l ∈ u := (hf.mem l).mpr (List.mem_of_getElem? hl)
        congr 1
        subst h'
        exact (List.getElem_idxOf (List.idxOf_lt_length_of_mem hm)).symm

/-- Without grouping every column is a group of its own. -/
theorem C49_no_grouping (n : Nat) : ∃ lens, getGroupLens (L := L) n none = .ok lens ∧ lens.length = n ∧ lens.sum = n ∧
    ∀ k, k < n → (groupStarts lens)[k]? = some k ∧ (groupEnds lens)[k]? = some (k + 1) := by
  refine ⟨List.replicate n 1, rfl, by simp, by simp, fun k hk => ?_⟩
  rw [groupStarts_get (by simpa using hk), groupEnds_get (by simpa using hk)]
  simp [List.take_replicate, Nat.min_eq_left (le_of_lt hk), Nat.min_eq_left (Nat.succ_le_of_lt hk)]

end

/-- A column without a label (NaN) in front is counted in the group of the first label, which it does not belong to. -/
theorem C49_counterexample_missing : ∃ labels : List (Option Nat), ∃ lens,
    getGroupLens labels.length (some labels) = .ok lens ∧ lens ≠ [labels.count (some 7)] ∧
    (factorize labels).1 = [7] ∧ lens = [3] :=
  ⟨[none, some 7, some 7], [3], rfl, by decide, rfl, rfl⟩

/-! ## The hypotheses can be met -/

example : (∀ g ∈ [(0 : Int), 0, 1, 2, 2], 0 ≤ g) ∧ [(0 : Int), 0, 1, 2, 2].Pairwise (· ≤ ·) ∧
    groupLensNb [0, 0, 1, 2, 2] = .ok [2, 1, 2] ∧ groupStarts [2, 1, 2] = [0, 2, 3] ∧ groupEnds [2, 1, 2] = [2, 3, 5] := by
  decide

example : ¬ [(0 : Int), 1, 0].Pairwise (· ≤ ·) := by decide

example : Coherent ["b", "b", "a"] ∧ getGroupLens 3 (some (["b", "b", "a"].map some)) = .ok [2, 1] := by
  refine ⟨(codes_sorted_iff _).mp ?_, rfl⟩
  decide

example : ¬ Coherent ["b", "a", "b"] := by
  rw [← codes_sorted_iff]
  decide

end Vbt
