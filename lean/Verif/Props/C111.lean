import Verif.Model.RowIndexing
import Verif.Lemmas.Witness

/-!
# C111  Indexing a wrapper gives the positions and labels that pandas selects
-/

namespace Vbt

variable {L V : Type} [Inhabited L]

/-- A selection that names at least two different positions. -/
def TwoDifferent (ks : List Nat) : Prop := ∃ a ∈ ks, ∃ b ∈ ks, a ≠ b

/-- Reading an array at the positions returned and wrapping it with the new wrapper. -/
def CellMeta.read (m : CellMeta L) (cell : Nat → Nat → V) : PdRes L V :=
  match m.idxIdxs, m.colIdxs with
  | .many rs, .many cs => .frame m.index m.columns (rs.map fun r => cs.map fun c => cell r c)
  | .many rs, .one c => .series m.index (m.columns.getD 0 default) (rs.map fun r => cell r c)
  | .one r, .many cs => .series m.index (m.columns.getD 0 default) (cs.map fun c => cell r c)
  | .one r, .one c => .scalar (cell r c)

/-- The columns that are read. -/
def AxisSel.list : AxisSel → List Nat
  | .one k => [k]
  | .many ks => ks

/-- The selections that are accepted. -/
def Accepts (s : PdSel) (ndim : Nat) (grouped : Bool) : Prop :=
  if ndim = 1 then ∃ rs, s.rows = .many rs
  else
    (∃ rs cs, s.rows = .many rs ∧ s.cols = .many cs ∧ rs ≠ [] ∧ cs ≠ []) ∨
    (∃ rs c, s.rows = .many rs ∧ s.cols = .one c ∧ TwoDifferent rs) ∨
    (∃ r cs, s.rows = .one r ∧ s.cols = .many cs ∧ TwoDifferent cs ∧ grouped = false)

theorem allFirst_cases (vals : List Nat) :
    (vals = [] ∧ allFirst vals = .error (.indexError "index 0 is out of bounds for size 0")) ∨
    (vals ≠ [] ∧ TwoDifferent vals ∧ allFirst vals = .ok false) ∨
    (vals ≠ [] ∧ ¬ TwoDifferent vals ∧ allFirst vals = .ok true) := by
  cases vals with
  | nil => exact Or.inl ⟨rfl, rfl⟩
  | cons v vs =>
    right
    show _ ∨ _
    simp only [allFirst]
    cases hv : (v :: vs).all (fun x => decide (x = v))
    · refine Or.inl ⟨by simp, ?_, rfl⟩
      obtain ⟨x, hx, hne⟩ := List.all_eq_false.mp hv
      exact ⟨x, hx, v, by simp, by simpa using hne⟩
    · refine Or.inr ⟨by simp, ?_, rfl⟩
      rintro ⟨a, ha, b, hb, hab⟩
      have h := List.all_eq_true.mp hv
      exact hab ((of_decide_eq_true (h a ha)).trans (of_decide_eq_true (h b hb)).symm)

theorem map_const_allFirst {α : Type} (l : List α) (k : Nat) (h : l ≠ []) : allFirst (l.map fun _ => k) = .ok true := by
  cases l with
  | nil => exact absurd rfl h
  | cons a as =>
    show Except.ok ((k :: as.map fun _ => k).all _) = _
    congr 1
    rw [List.all_eq_true]
    intro x hx
    simp at hx
    rcases hx with rfl | ⟨-, rfl⟩ <;> simp

/-- The positions that are recovered from the two frames of numbers. -/
theorem cellIdxs_cases (s : PdSel) (index columns : List L) (ndim : Nat) (grouped : Bool) :
    (∃ i c, cellIdxs s index columns ndim = .ok (i, c) ∧ s.rows = i ∧ (if ndim = 1 then c = .one 0 else s.cols = c) ∧
      ((∃ r, i = .one r) → grouped = false → Accepts s ndim grouped) ∧ ((∃ rs, i = .many rs) → Accepts s ndim grouped) ∧
      ¬ (ndim ≠ 1 ∧ (∃ r, i = .one r) ∧ ∃ k, c = .one k) ∧ (ndim = 1 → ∃ rs, i = .many rs)) ∨
    (∃ e, cellIdxs s index columns ndim = .error e ∧ ¬ Accepts s ndim grouped) := by
  obtain ⟨rows, cols⟩ := s
  unfold cellIdxs PdSel.apply Accepts
  by_cases hn : ndim = 1
  · simp only [hn, if_true]
    cases rows with
    | many rs => exact Or.inl ⟨_, _, rfl, by simp, rfl, by simp, by simp, by simp, by simp⟩
    | one r => exact Or.inr ⟨_, rfl, by simp⟩
  · simp only [if_neg hn]
    cases rows with
    | many rs =>
      cases cols with
      | many cs =>
        by_cases hc : cs = []
        · subst hc
          exact Or.inr ⟨_, rfl, by simp⟩
        · have hl : ¬ (pickLabels columns cs).length = 0 := by simpa [pickLabels] using hc
          simp only [if_neg hl]
          cases rs with
          | nil => exact Or.inr ⟨_, rfl, by simp⟩
          | cons r rs =>
            refine Or.inl ⟨.many (r :: rs), .many cs, ?_, rfl, rfl, by simp, fun _ => Or.inl ⟨_, _, rfl, rfl, by simp, hc⟩,
              by simp, fun h => absurd h hn⟩
            obtain ⟨c, cs', rfl⟩ := List.exists_cons_of_ne_nil hc
            simp only [List.map_cons, List.getD_cons_zero, Except.ok.injEq, Prod.mk.injEq, AxisSel.many.injEq,
              List.cons.injEq, true_and, List.map_map, and_true]
            refine ⟨?_, ?_⟩
            · conv_rhs => rw [← List.map_id rs]
              exact List.map_congr_left fun a _ => rfl
            · exact List.map_id' cs'
      | one c =>
        simp only
        have hid : (rs.map fun r => r) = rs := List.map_id' rs
        rw [hid]
        by_cases hr : rs = []
        · subst hr
          refine Or.inr ⟨_, rfl, ?_⟩
          rintro (⟨_, _, _, h, _⟩ | ⟨rs, _, h1, _, ⟨a, ha, _⟩⟩ | ⟨_, _, h, _⟩)
          · cases h
          · cases h1
            cases ha
          · cases h
        · rw [map_const_allFirst rs c hr]
          rcases allFirst_cases rs with h | h | h
          · exact absurd h.1 hr
          · rw [h.2.2]
            refine Or.inl ⟨.many rs, .one c, ?_, rfl, rfl, by simp, fun _ => Or.inr (Or.inl ⟨_, _, rfl, rfl, h.2.1⟩), by simp,
              fun h => absurd h hn⟩
            obtain ⟨a, as, rfl⟩ := List.exists_cons_of_ne_nil hr
            simp
          · rw [h.2.2]
            refine Or.inr ⟨_, rfl, ?_⟩
            rintro (⟨_, _, _, h', _⟩ | ⟨rs', _, h1, _, h'⟩ | ⟨_, _, h', _⟩)
            · cases h'
            · cases h1
              exact h.2.1 h'
            · cases h'
    | one r =>
      cases cols with
      | one c => exact Or.inr ⟨_, rfl, by simp⟩
      | many cs =>
        simp only
        have hid : (cs.map fun c => c) = cs := List.map_id' cs
        rw [hid]
        by_cases hr : cs = []
        · subst hr
          refine Or.inr ⟨_, rfl, ?_⟩
          rintro (⟨_, _, h, _⟩ | ⟨_, _, h, _⟩ | ⟨_, cs, _, h1, ⟨a, ha, _⟩, _⟩)
          · cases h
          · cases h
          · cases h1
            cases ha
        · rw [map_const_allFirst cs r hr]
          rcases allFirst_cases cs with h | h | h
          · exact absurd h.1 hr
          · rw [h.2.2]
            refine Or.inl ⟨.one r, .many cs, ?_, rfl, rfl, fun _ hg => Or.inr (Or.inr ⟨_, _, rfl, rfl, h.2.1, hg⟩), by simp, by simp,
              fun h => absurd h hn⟩
            obtain ⟨a, as, rfl⟩ := List.exists_cons_of_ne_nil hr
            simp
          · rw [h.2.2]
            refine Or.inr ⟨_, rfl, ?_⟩
            rintro (⟨_, _, h', _⟩ | ⟨_, _, h', _⟩ | ⟨_, cs', _, h1, h', _⟩)
            · cases h'
            · cases h'
            · cases h1
              exact h.2.1 h'

/-- **C111** (what is accepted).  Indexing succeeds exactly for a list of rows of a series; for a frame, for non-empty lists
on both axes, or one position on one axis and two different ones on the other; and a single row only without groups. -/
theorem C111_accepts (s : PdSel) (index columns : List L) (ndim : Nat) (gb : Option (List L)) :
    (∃ m, cellMeta s index columns ndim gb = .ok m) ↔ Accepts s ndim gb.isSome := by
  unfold cellMeta
  rcases cellIdxs_cases s index columns ndim gb.isSome with ⟨i, c, h, h1, h2, h3, h4, h5, h6⟩ | ⟨e, h, hn⟩
  · rw [h]
    simp only
    cases gb with
    | none =>
      simp only
      refine ⟨fun _ => ?_, fun _ => ⟨_, rfl⟩⟩
      cases i with
      | one r => exact h3 ⟨r, rfl⟩ rfl
      | many rs => exact h4 ⟨rs, rfl⟩
    | some g =>
      cases i with
      | many rs => exact ⟨fun _ => h4 ⟨rs, rfl⟩, fun _ => ⟨_, rfl⟩⟩
      | one r =>
        simp only
        refine ⟨fun ⟨m, hm⟩ => (by cases hm), fun ha => ?_⟩
        exfalso
        unfold Accepts at ha
        by_cases hd : ndim = 1
        · obtain ⟨rs, hr⟩ := h6 hd
          cases hr
        · rw [if_neg hd, h1] at ha
          rcases ha with ⟨_, _, h', _⟩ | ⟨_, _, h', _⟩ | ⟨_, _, _, _, _, h'⟩ <;> cases h'
  · rw [h]
    exact ⟨fun ⟨m, hm⟩ => (by cases hm), fun ha => absurd ha hn⟩

/-- **C111** (reading off).  The array at the positions returned, under the labels of the new wrapper, is what pandas selects
from the wrapped array, for arrays with any cells. -/
theorem C111_reads {s : PdSel} {index columns : List L} {ndim : Nat} {gb : Option (List L)} {m : CellMeta L}
    (h : cellMeta s index columns ndim gb = .ok m) (cell : Nat → Nat → V) :
    m.read cell = s.apply index columns ndim cell := by
  unfold cellMeta at h
  rcases cellIdxs_cases s index columns ndim gb.isSome with ⟨i, c, h0, h1, h2, -, -, h5, h6⟩ | ⟨e, h0, -⟩
  swap
  · rw [h0] at h
    cases h
  rw [h0] at h
  simp only at h
  obtain ⟨rows, cols⟩ := s
  simp only at h1 h2
  subst h1
  have key : ∃ g, m = ⟨(PdSel.apply ⟨rows, cols⟩ index columns ndim fun r _ => r).labels.1,
      (match rows, c with
        | .one r, _ => pickLabels index [r]
        | _, .one c => pickLabels columns [c]
        | _, _ => (PdSel.apply ⟨rows, cols⟩ index columns ndim fun r _ => r).labels.2),
      (match (PdSel.apply ⟨rows, cols⟩ index columns ndim fun r _ => r) with
        | .frame _ _ _ => 2
        | _ => 1), g, rows, c⟩ := by
    cases gb with
    | none =>
      cases h
      exact ⟨_, rfl⟩
    | some g =>
      cases rows with
      | one r => cases h
      | many rs =>
        cases h
        exact ⟨_, rfl⟩
  obtain ⟨g, rfl⟩ := key
  unfold CellMeta.read PdSel.apply PdRes.labels
  by_cases hd : ndim = 1
  · obtain ⟨rs, rfl⟩ := h6 hd
    rw [if_pos hd] at h2
    subst h2
    simp [hd, pickLabels]
  · rw [if_neg hd] at h2
    subst h2
    simp only [if_neg hd]
    cases rows <;> cases cols <;> simp [pickLabels]

/-- **C111** (dimensions and groups).  The new wrapper has two dimensions exactly if lists were selected on both axes of a
frame; it has one group label for each of its columns, that of the column it was read from. -/
theorem C111_groups {s : PdSel} {index columns : List L} {ndim : Nat} {gb : Option (List L)} {m : CellMeta L}
    (h : cellMeta s index columns ndim gb = .ok m) :
    (m.ndim = 2 ↔ ndim ≠ 1 ∧ (∃ rs, m.idxIdxs = .many rs) ∧ ∃ cs, m.colIdxs = .many cs) ∧
    (m.ndim = 1 ∨ m.ndim = 2) ∧
    m.groupBy = gb.map (fun g => m.colIdxs.list.map fun c => g.getD c default) ∧
    ∀ g', m.groupBy = some g' → g'.length = m.columns.length := by
  unfold cellMeta at h
  rcases cellIdxs_cases s index columns ndim gb.isSome with ⟨i, c, h0, h1, h2, -, -, h5, h6⟩ | ⟨e, h0, -⟩
  swap
  · rw [h0] at h
    cases h
  rw [h0] at h
  simp only at h
  obtain ⟨rows, cols⟩ := s
  simp only at h1 h2
  subst h1
  unfold PdSel.apply PdRes.labels at h
  by_cases hd : ndim = 1
  · obtain ⟨rs, rfl⟩ := h6 hd
    rw [if_pos hd] at h2
    subst h2
    simp only [if_pos hd] at h
    cases gb <;> (cases h; simp [AxisSel.list, pickLabels, hd])
  · rw [if_neg hd] at h2
    subst h2
    simp only [if_neg hd] at h
    cases rows <;> cases cols <;> cases gb <;> simp only at h <;> cases h <;> simp [AxisSel.list, pickLabels, hd]

/-- A frame with a single row has no column that can be selected, although pandas gives a series of one row. -/
theorem C111_one_row_rejected (i : L) (columns : List L) (gb : Option (List L)) (c : Nat) :
    cellMeta ⟨.many [0], .one c⟩ [i] columns 2 gb =
      .error (.rejected "Must select at least two unique indices in one of both axes") := by
  simp [cellMeta, cellIdxs, PdSel.apply, allFirst]

/-- An empty selection of rows raises on a frame and works on a series. -/
theorem C111_empty_rows (index columns : List L) (cs : List Nat) (gb : Option (List L)) :
    (∃ e, cellMeta ⟨.many [], .many cs⟩ index columns 2 gb = .error e) ∧
    ∃ m, cellMeta ⟨.many [], .many cs⟩ index columns 1 gb = .ok m ∧ m.index = [] := by
  constructor
  · rcases cellIdxs_cases (⟨.many [], .many cs⟩ : PdSel) index columns 2 gb.isSome with ⟨i, c, h, h1, h2, h3, h4, -⟩ | ⟨e, h, -⟩
    · exfalso
      have := h4 ⟨[], h1.symm⟩
      simp [Accepts] at this
    · exact ⟨e, by unfold cellMeta; rw [h]⟩
  · cases gb <;> exact ⟨_, rfl, rfl⟩

/-! ## Instances -/

example : cellMeta ⟨.many [0, 2], .many [1]⟩ [10, 11, 12] [20, 21] 2 (some [7, 8]) =
    .ok ⟨[10, 12], [21], 2, some [8], .many [0, 2], .many [1]⟩ := by decide +kernel

example : cellMeta ⟨.one 1, .many [0, 1]⟩ [10, 11, 12] [20, 21] 2 none =
    .ok ⟨[20, 21], [11], 1, none, .one 1, .many [0, 1]⟩ := by decide +kernel

example : cellMeta ⟨.many [2, 0], .one 1⟩ [10, 11, 12] [20, 21] 2 (some [7, 8]) =
    .ok ⟨[12, 10], [21], 1, some [8], .many [2, 0], .one 1⟩ := by decide +kernel

example : Accepts ⟨.many [2, 0], .one 1⟩ 2 true := Or.inr (Or.inl ⟨_, _, rfl, rfl, 2, by decide, 0, by decide, by decide⟩)

end Vbt
