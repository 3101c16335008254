import Verif.Lemmas.CallSeq

/-!
# C25  Automatic call sequence sorts by order value
-/

namespace Vbt
open F

theorem isnan_eq {x : F} (h : x.isnan = true) : x = nan := by
  cases x <;> first | rfl | cases h

/-- Ascending, NaN last: the order in which calls are made. -/
def Ascending (l : List F) : Prop :=
  l.Pairwise fun a b => b = nan ∨ le a b = true

theorem before_le {α : Type} {a b : F × α} (h : Before a b) : b.1 = nan ∨ le a.1 b.1 = true := by
  obtain ⟨a, _⟩ := a; obtain ⟨b, _⟩ := b
  unfold Before at h
  cases a <;> cases b <;> simp_all [gt, lt, le]

/-- **C25**.  Sorting the segment `seq` by `values` (one per entry): a permutation, with the values (carried
along) ascending and NaN last; entries with equal values keep their order. -/
theorem C25_sorted (values : List F) (seq : List Nat) (hlen : values.length = seq.length) :
    let out := insertArgsort (values.zip seq)
    (out.map (·.2)).Perm seq ∧ Ascending (out.map (·.1)) ∧ out.Perm (values.zip seq) ∧
      ∀ v, (out.filter fun p => eqb p.1 v).map (·.2) = ((values.zip seq).filter fun p => eqb p.1 v).map (·.2) := by
  refine ⟨sortCallSeq_perm values seq hlen, ?_, insertArgsort_perm _, ?_⟩
  · unfold Ascending
    rw [List.pairwise_map]
    exact (insertArgsort_sorted _).imp before_le
  · intro v; rw [insertArgsort_stable]

/-- **C25** (NaN): entries without a value come last, in reverse order. -/
theorem C25_nan_last (values : List F) (seq : List Nat) (hlen : values.length = seq.length) :
    ∃ pre, sortCallSeq values seq =
        pre ++ (((values.zip seq).filter fun p => p.1.isnan).map (·.2)).reverse ∧
      pre.Perm (((values.zip seq).filter fun p => !p.1.isnan).map (·.2)) := by
  have hs := insertArgsort_sorted (values.zip seq)
  have hn := insertArgsort_nan (values.zip seq)
  have hp := insertArgsort_perm (values.zip seq)
  unfold sortCallSeq
  generalize insertArgsort (values.zip seq) = out at hs hn hp
  refine ⟨(out.filter fun p => !p.1.isnan).map (·.2), ?_, (hp.filter _).map _⟩
  rw [← List.map_reverse, ← hn, ← List.map_append]
  congr 1
  clear hn hp
  induction out with
  | nil => rfl
  | cons x xs ih =>
    rw [List.pairwise_cons] at hs
    by_cases hx : x.1.isnan = true
    · have : ∀ y ∈ xs, y.1.isnan = true := by
        intro y hy
        have := (hs.1 y hy).2 (isnan_eq hx)
        rw [this]; rfl
      have h1 : xs.filter (fun p => !p.1.isnan) = [] := by
        rw [List.filter_eq_nil_iff]; intro y hy; simp [this y hy]
      have h2 : xs.filter (fun p => p.1.isnan) = xs := by
        rw [List.filter_eq_self]; exact this
      simp [hx, h1, h2]
    · have := ih hs.2
      simp only [Bool.not_eq_true] at hx
      simp only [List.filter_cons, hx, Bool.not_false, if_true, List.cons_append, Bool.false_eq_true, if_false]
      rw [← this]

/-- **C25**, as used by the simulators and by `sort_call_seq_nb`: from the default sequence 0..n-1 with the order
values of the columns, the columns are called in ascending order of their values, NaN last. -/
theorem C25_calls (values : List F) :
    (sortCallSeq values (List.range values.length)).Perm (List.range values.length) ∧
    Ascending ((sortCallSeq values (List.range values.length)).map fun k => values.getD k nan) := by
  refine ⟨sortCallSeq_perm _ _ (by simp), ?_⟩
  have h := (C25_sorted values (List.range values.length) (by simp)).2
  have : (sortCallSeq values (List.range values.length)).map (fun k => values.getD k nan) =
      (insertArgsort (values.zip (List.range values.length))).map (·.1) := by
    unfold sortCallSeq
    rw [List.map_map]
    apply List.map_congr_left
    intro p hp
    have hp := h.2.1.mem_iff.mp hp
    obtain ⟨i, hi, rfl⟩ := List.getElem_of_mem hp
    simp only [List.length_zip, List.length_range, Nat.min_self] at hi
    simp [hi]
  rw [this]
  exact h.1

/-- **C25** (consequence): every sell (negative value) is called before every buy (positive value). -/
theorem C25_sells_first (values : List F) :
    ((sortCallSeq values (List.range values.length)).map fun k => values.getD k nan).Pairwise
      fun a b => ¬ (gt a zero = true ∧ lt b zero = true) := by
  refine (C25_calls values).2.imp ?_
  rintro a b h ⟨h1, h2⟩
  cases a <;> cases b <;> simp_all [gt, lt, le]
  linarith

/-- **C25** for `sort_call_seq_out_nb`: succeeds exactly on the default sequence under cash sharing, and then
returns a sorted permutation. -/
theorem C25_sort_call_seq_out {A : Arith} {sharing cash free cols seq} :
    (∀ out, sortCallSeqOut A sharing cash free cols seq = .ok out →
      sharing = true ∧ seq = List.range cols.length ∧ (out.map (·.2)).Perm seq ∧ Ascending (out.map (·.1))) ∧
    (sharing = true → seq = List.range cols.length → ∃ out, sortCallSeqOut A sharing cash free cols seq = .ok out) := by
  constructor
  · intro out h
    unfold sortCallSeqOut at h
    split at h
    · cases h
    · rename_i hs
      simp only at h
      split at h
      · cases h
      · rename_i hq
        push Not at hq
        cases h
        have := C25_sorted (cols.map fun c =>
          approxOrderValue A c.1 c.2.1 c.2.2.1 cash c.2.2.2.1 free c.2.2.2.2
            (cols.foldl (fun v c => if !eqb c.2.2.2.1 zero then add A v (mul A c.2.2.2.1 c.2.2.2.2) else v) cash))
          seq (by rw [hq]; simp)
        exact ⟨by simpa using hs, hq, this.1, this.2.1⟩
  · rintro rfl rfl
    simp [sortCallSeqOut]

/-- Non-vacuity: a buy, a sell, a NaN, two equal values, another NaN. -/
example : sortCallSeq [fin 5, fin (-3), nan, fin 5, ninf, nan] (List.range 6) = [4, 1, 0, 3, 5, 2] := by
  decide +kernel

end Vbt
