import Verif.Spec.Unstack
import Mathlib.Data.List.Induction

/-! # Lemmas about reshaping by labels -/

namespace Vbt
open F
variable {R K : Type} [DecidableEq R] [LinearOrder K]

theorem npUnique_perm (l : List K) : (npUnique l).Perm l.dedup := List.perm_insertionSort _ _

theorem npUnique_mem (l : List K) (a : K) : a ∈ npUnique l ↔ a ∈ l := by
  rw [(npUnique_perm l).mem_iff, List.mem_dedup]

theorem npUnique_nodup (l : List K) : (npUnique l).Nodup := (npUnique_perm l).nodup_iff.mpr (List.nodup_dedup l)

theorem npUnique_sorted (l : List K) : (npUnique l).Pairwise (· < ·) := by
  have h : (npUnique l).Pairwise (· ≤ ·) := List.pairwise_insertionSort (· ≤ ·) l.dedup
  have hn := npUnique_nodup l
  exact (h.and hn).imp (fun h => lt_of_le_of_ne h.1 h.2)

theorem pdUnique_mem {α : Type} [DecidableEq α] (l : List α) (a : α) : a ∈ pdUnique l ↔ a ∈ l := by
  induction l with
  | nil => simp [pdUnique]
  | cons b l ih =>
    rw [pdUnique, List.mem_cons, List.mem_filter, ih, List.mem_cons]
    by_cases h : a = b <;> simp [h]

theorem pdUnique_nodup {α : Type} [DecidableEq α] (l : List α) : (pdUnique l).Nodup := by
  induction l with
  | nil => simp [pdUnique]
  | cons b l ih =>
    rw [pdUnique, List.nodup_cons]
    exact ⟨by simp, ih.filter _⟩

theorem pdUnique_perm (l : List K) : (pdUnique l).Perm (npUnique l) := by
  rw [List.perm_ext_iff_of_nodup (pdUnique_nodup l) (npUnique_nodup l)]
  intro a
  rw [pdUnique_mem, npUnique_mem]

theorem pdUnique_eq_iff (l : List K) : pdUnique l = npUnique l ↔ (pdUnique l).Pairwise (· < ·) := by
  constructor
  · intro h; rw [h]; exact npUnique_sorted l
  · intro h
    exact List.Perm.eq_of_pairwise (le := (· < ·)) (fun a b _ _ h1 h2 => absurd h2 (lt_asymm h1)) h (npUnique_sorted l)
      (pdUnique_perm l)

theorem pdUnique_append {α : Type} [DecidableEq α] (l : List α) (b : α) :
    pdUnique (l ++ [b]) = pdUnique l ++ (if b ∈ l then [] else [b]) := by
  induction l with
  | nil => simp [pdUnique]
  | cons c l ih =>
    rw [List.cons_append, pdUnique, pdUnique, ih, List.filter_append, List.cons_append]
    by_cases hb : b ∈ l
    · simp [hb]
    · by_cases hc : b = c
      · simp [hb, hc]
      · simp [hb, hc]

/-- The order of first occurrences is increasing exactly if new values are larger than all before them. -/
theorem pdUnique_sorted_iff (l : List K) : (pdUnique l).Pairwise (· < ·) ↔ ComesSorted l := by
  induction l using List.reverseRecOn with
  | nil => simp [pdUnique, ComesSorted]
  | append_singleton l b ih =>
    rw [pdUnique_append, List.pairwise_append, ih]
    constructor
    · rintro ⟨h1, -, h3⟩ j c hj hn a ha
      by_cases hjl : j < l.length
      · rw [List.getElem?_append_left hjl] at hj
        rw [List.take_append_of_le_length (by omega)] at hn ha
        exact h1 j c hj hn a ha
      · have hje : j = l.length := by
          have := (List.getElem?_eq_some_iff.mp hj).1
          rw [List.length_append, List.length_singleton] at this
          omega
        subst hje
        rw [List.getElem?_append_right (le_refl _), Nat.sub_self] at hj
        have hcb : b = c := by simpa using hj
        subst hcb
        rw [List.take_left] at hn ha
        rw [if_neg hn] at h3
        exact h3 a ((pdUnique_mem l a).mpr ha) b (by simp)
    · intro h
      refine ⟨?_, ?_, ?_⟩
      · intro j c hj hn a ha
        have hjl := (List.getElem?_eq_some_iff.mp hj).1
        have ht : (l ++ [b]).take j = l.take j := List.take_append_of_le_length (by omega)
        exact h j c (by rw [List.getElem?_append_left hjl]; exact hj) (by rw [ht]; exact hn) a (by rw [ht]; exact ha)
      · by_cases hb : b ∈ l
        · rw [if_pos hb]; exact List.Pairwise.nil
        · rw [if_neg hb]; simp
      · intro a ha c hc
        by_cases hb : b ∈ l
        · rw [if_pos hb] at hc; simp at hc
        · rw [if_neg hb] at hc
          have hcb : c = b := by simpa using hc
          subst hcb
          exact h l.length c (by simp) (by rw [List.take_left]; exact hb) a
            (by rw [List.take_left]; exact (pdUnique_mem l a).mp ha)

theorem fold_setCell (pos : R → List Nat) (rv : List (R × F)) (a : List Nat → F) (q : List Nat) :
    (rv.foldl (fun a rv => setCell a (pos rv.1) rv.2) a) q =
      match (rv.filter (fun x => decide (pos x.1 = q))).getLast? with
      | some x => x.2
      | none => a q := by
  induction rv using List.reverseRecOn with
  | nil => rfl
  | append_singleton rv x ih =>
    rw [List.foldl_append, List.foldl_cons, List.foldl_nil, List.filter_append]
    show (if q = pos x.1 then x.2 else _) = _
    by_cases h : pos x.1 = q
    · rw [if_pos h.symm, List.filter_cons_of_pos (by simp [h])]
      simp
    · rw [if_neg (fun hc => h hc.symm), List.filter_cons_of_neg (by simp [h]), List.filter_nil, List.append_nil]
      exact ih

theorem lastVal_cases (rv : List (R × F)) (p : R → Bool) :
    lastVal rv p = nan ∨ ∃ x ∈ rv, p x.1 = true ∧ lastVal rv p = x.2 := by
  unfold lastVal
  cases h : (rv.filter (fun x => p x.1)).getLast? with
  | none => exact Or.inl rfl
  | some x =>
    right
    have hm := List.mem_filter.mp (List.mem_of_getLast? h)
    exact ⟨x, hm.1, hm.2, rfl⟩

theorem lastVal_congr {rv : List (R × F)} {p q : R → Bool} (h : ∀ x ∈ rv, p x.1 = q x.1) : lastVal rv p = lastVal rv q := by
  unfold lastVal
  rw [List.filter_congr h]

/-- If only one row has the property, its value is the last. -/
theorem lastVal_unique {rows : List R} {vals : List F} (hn : rows.Nodup) (hl : vals.length = rows.length) {p : R → Bool}
    {k : Nat} {r : R} {x : F} (hr : rows[k]? = some r) (hx : vals[k]? = some x)
    (hp : ∀ s ∈ rows, p s = true ↔ s = r) : lastVal (rows.zip vals) p = x := by
  have hmem : (r, x) ∈ rows.zip vals := by
    apply List.mem_of_getElem? (i := k)
    rw [List.getElem?_zip_eq_some]
    exact ⟨hr, hx⟩
  have hr' : p r = true := (hp r (List.mem_of_getElem? hr)).mpr rfl
  unfold lastVal
  cases hf : ((rows.zip vals).filter (fun x => p x.1)).getLast? with
  | none =>
    rw [List.getLast?_eq_none_iff, List.filter_eq_nil_iff] at hf
    exact absurd hr' (hf (r, x) hmem)
  | some z =>
    have hz := List.mem_filter.mp (List.mem_of_getLast? hf)
    obtain ⟨m, hm⟩ := List.mem_iff_getElem?.mp hz.1
    rw [List.getElem?_zip_eq_some] at hm
    have hzr : z.1 = r := (hp z.1 (List.mem_of_getElem? hm.1)).mp hz.2
    rw [hzr] at hm
    have hmk : m = k := by
      obtain ⟨a1, a2⟩ := List.getElem?_eq_some_iff.mp hm.1
      obtain ⟨b1, b2⟩ := List.getElem?_eq_some_iff.mp hr
      exact (List.Nodup.getElem_inj_iff hn).mp (a2.trans b2.symm)
    rw [hmk, hx] at hm
    exact (Option.some.inj hm.2).symm

end Vbt
