import Verif.Props.C46

/-!
# C47  Expanding mapped records is lossless when allowed

Cells are (row, column) and lie within the target shape.
-/

namespace Vbt
open F

theorem expandableLoop_iff (cells : List (Nat × Nat)) (temp : Nat × Nat → Bool) :
    expandableLoop cells temp = true ↔ cells.Nodup ∧ ∀ x ∈ cells, temp x = false := by
  induction cells generalizing temp with
  | nil => simp [expandableLoop]
  | cons x xs ih =>
    unfold expandableLoop
    by_cases h : temp x = true
    · rw [if_pos h]
      simp [h]
    · rw [if_neg h, ih, List.nodup_cons]
      simp only [List.mem_cons, forall_eq_or_imp]
      rw [Bool.not_eq_true] at h
      constructor
      · rintro ⟨h1, h2⟩
        have hx : x ∉ xs := fun hx => by have := h2 x hx; simp at this
        refine ⟨⟨hx, h1⟩, h, fun y hy => ?_⟩
        have := h2 y hy
        split at this
        · cases this
        · exact this
      · rintro ⟨⟨h1, h2⟩, _, h4⟩
        refine ⟨h2, fun y hy => ?_⟩
        rw [if_neg (fun e : y = x => h1 (e ▸ hy))]; exact h4 y hy

/-- **C47** (check).  Expandable iff no two records share a row and column. -/
theorem C47_expandable (cells : List (Nat × Nat)) :
    isMappedExpandable cells = true ↔ ∀ i j : Nat, ∀ x, cells[i]? = some x → cells[j]? = some x → i = j := by
  unfold isMappedExpandable
  rw [expandableLoop_iff]
  constructor
  · rintro ⟨h, _⟩ i j x hi hj
    obtain ⟨hi', ei⟩ := List.getElem?_eq_some_iff.mp hi
    obtain ⟨hj', ej⟩ := List.getElem?_eq_some_iff.mp hj
    exact (List.Nodup.getElem_inj_iff h).mp (ei.trans ej.symm)
  · intro h
    refine ⟨?_, fun _ _ => rfl⟩
    rw [List.nodup_iff_getElem?_ne_getElem?]
    intro i j hij hj e
    have := h i j cells[j] (by rw [e]; exact List.getElem?_eq_getElem hj) (List.getElem?_eq_getElem hj)
    omega

theorem expand_untouched {β : Type} (xs : List ((Nat × Nat) × β)) (out : Nat × Nat → β) {y : Nat × Nat}
    (h : ∀ x ∈ xs, x.1 ≠ y) :
    xs.foldl (fun out x => fun y => if y = x.1 then x.2 else out y) out y = out y := by
  induction xs generalizing out with
  | nil => rfl
  | cons x xs ih =>
    rw [List.foldl_cons, ih _ (fun z hz => h z (List.mem_cons_of_mem _ hz)), if_neg]
    exact fun e => h x List.mem_cons_self e.symm

/-- **C47** (values).  When expandable, each record's value stands at its cell; other cells have the fill value. -/
theorem C47_expand {β : Type} {cells : List (Nat × Nat)} {mapped : List β} (hlen : cells.length = mapped.length)
    (h : isMappedExpandable cells = true) (fill : β) :
    (∀ (r : Nat) x v, cells[r]? = some x → mapped[r]? = some v → expandMapped cells mapped fill x = v) ∧
    ∀ y, y ∉ cells → expandMapped cells mapped fill y = fill := by
  have hnd : cells.Nodup := ((expandableLoop_iff _ _).mp h).1
  unfold expandMapped
  refine ⟨fun r x v hr hv => ?_, fun y hy => expand_untouched _ _ ?_⟩
  · clear h
    generalize (fun _ => fill : Nat × Nat → β) = out
    induction cells generalizing mapped r out with
    | nil => simp at hr
    | cons c cs ih =>
      cases mapped with
      | nil => simp at hlen
      | cons w ws =>
        rw [List.nodup_cons] at hnd
        rw [List.zip_cons_cons, List.foldl_cons]
        cases r with
        | zero =>
          simp only [List.getElem?_cons_zero, Option.some.injEq] at hr hv
          subst hr hv
          rw [expand_untouched, if_pos rfl]
          intro z hz e
          exact hnd.1 (e ▸ (List.of_mem_zip hz).1)
        | succ r =>
          simp only [List.getElem?_cons_succ] at hr hv
          exact ih (by simpa using hlen) hnd.2 r hr hv _
  · intro z hz e
    exact hy (e ▸ (List.of_mem_zip hz).1)

/-- Without the check a later record silently overwrites an earlier one in the same cell. -/
theorem C47_conflict {β : Type} {cells : List (Nat × Nat)} {mapped : List β} (hlen : cells.length = mapped.length)
    (x : Nat × Nat) (v fill : β) : expandMapped (cells ++ [x]) (mapped ++ [v]) fill x = v := by
  unfold expandMapped
  rw [List.zip_append hlen, List.foldl_append]
  simp

/-- Stacking needs no check: the `k`-th record of a column stands in row `k`, fill values below. -/
theorem C47_stack {mapped : List F} {cols : List Nat} (hlen : cols.length = mapped.length) (junk : Nat → Nat) (fill : F)
    (c k : Nat) :
    stackExpandMapped mapped (colMap cols junk) fill k c =
      ((positions c cols).map fun r => mapped.getD r nan).getD k fill := by
  have hcol : (colMap cols junk).col c = positions c cols := (C45_map cols junk c).1
  have hl : (colMap cols junk).lens c = (positions c cols).length := by
    rw [positions_length]; exact (C45_map cols junk c).2
  unfold stackExpandMapped
  rw [hcol, hl, takeIdxs_positions hlen]
  by_cases h0 : (positions c cols).length = 0
  · rw [if_pos h0, getD_ge _ _ (by simp [h0])]
  · rw [if_neg h0]
    by_cases hk : k < (positions c cols).length
    · rw [if_pos hk, getD_lt _ _ (by simpa using hk), List.getElem?_eq_getElem (by simpa using hk)]; rfl
    · rw [if_neg hk, getD_ge _ _ (by simpa using hk)]

example : isMappedExpandable [(0, 0), (2, 1), (0, 1)] = true ∧ isMappedExpandable [(0, 0), (2, 1), (0, 0)] = false ∧
    expandMapped [(0, 0), (2, 1), (0, 1)] [fin 5, fin 6, fin 7] nan (2, 1) = fin 6 ∧
    expandMapped [(0, 0), (2, 1), (0, 1)] [fin 5, fin 6, fin 7] nan (1, 1) = nan := by decide +kernel

end Vbt
