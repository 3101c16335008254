import Mathlib.Data.List.Nodup
import Mathlib.Tactic.Common
import Verif.Model.SelectOne

/-!
# C116: the `column` argument names one column or group

Plots, indicators and reports take `column`: a label or, if there is no such label, a position.  `select_one` selects it from an
object, `select_one_from_obj` from a result.  The theorems say exactly which unit is selected and when the two disagree.
-/

namespace Vbt

variable {L V : Type} [DecidableEq L]

/-- Unit `i` is meant by `c`: it is the only one with that label, or no unit has the label and `c` is an integer that is the
position of `i`, from the start or from the end. -/
def Meant (asInt : L → Option Int) (labels : List L) (c : L) (i : Nat) : Prop :=
  (labels[i]? = some c ∧ ∀ j, labels[j]? = some c → j = i) ∨
    (c ∉ labels ∧ i < labels.length ∧ (asInt c = some (i : Int) ∨ asInt c = some ((i : Int) - labels.length)))

/-- There is one unit: a Series if the columns are not grouped, no second group otherwise. -/
def SelCtx.OneUnit (w : SelCtx L) : Prop := (w.groups = none → w.ndim = 1) ∧ ∀ g, w.groups = some g → g[1]? = none

/-- `labels` are those of the units: of the groups, or of the columns if these are not grouped. -/
def SelCtx.HasUnits (w : SelCtx L) (labels : List L) : Prop := w.groups = some labels ∨ w.groups = none ∧ w.columns = labels

/-- The object is indexed by columns only: its own attribute says so, or it has none and the setting does. -/
def SelCtx.ByColumns (setting : Bool) (w : SelCtx L) : Prop := w.colOnly = some true ∨ w.colOnly = none ∧ setting = true

omit [DecidableEq L] in
theorem selCtx_columnsOnly (setting : Bool) (w : SelCtx L) : w.columnsOnly setting = true ↔ w.ByColumns setting := by
  unfold SelCtx.columnsOnly SelCtx.ByColumns
  cases w.colOnly <;> simp

omit [DecidableEq L] in
theorem selCtx_columnsOnly_false (setting : Bool) (w : SelCtx L) : w.columnsOnly setting = false ↔ ¬ w.ByColumns setting := by
  rw [← selCtx_columnsOnly, Bool.not_eq_true]

omit [DecidableEq L] in
theorem selCtx_one_iff (w : SelCtx L) : w.one = true ↔ w.OneUnit := by
  unfold SelCtx.one SelCtx.OneUnit
  cases w.groups <;> simp

omit [DecidableEq L] in
theorem selCtx_one_false (w : SelCtx L) : w.one = false ↔ ¬ w.OneUnit := by
  rw [← selCtx_one_iff, Bool.not_eq_true]

omit [DecidableEq L] in
theorem selCtx_labels {w : SelCtx L} {labels : List L} (h : w.HasUnits labels) : w.labels = labels := by
  unfold SelCtx.labels
  rcases h with h | ⟨h, rfl⟩ <;> rw [h] <;> rfl

/-! ## Positions -/

theorem mem_labelPositions {labels : List L} {c : L} {i : Nat} : i ∈ labelPositions labels c ↔ labels[i]? = some c := by
  unfold labelPositions
  rw [List.mem_filter, List.mem_range]
  constructor
  · rintro ⟨_, h⟩; simpa using h
  · intro h
    exact ⟨(List.getElem?_eq_some_iff.mp h).1, by simpa using h⟩

theorem nodup_labelPositions (labels : List L) (c : L) : (labelPositions labels c).Nodup :=
  List.Nodup.filter _ List.nodup_range

/-- A label has one position exactly when no other unit has it. -/
theorem labelPositions_singleton {labels : List L} {c : L} {i : Nat} :
    labelPositions labels c = [i] ↔ labels[i]? = some c ∧ ∀ j, labels[j]? = some c → j = i := by
  constructor
  · intro h
    refine ⟨mem_labelPositions.mp (by rw [h]; simp), fun j hj => ?_⟩
    have := mem_labelPositions.mpr hj
    rw [h] at this
    simpa using this
  · rintro ⟨h1, h2⟩
    have hm := mem_labelPositions.mpr h1
    have hn := nodup_labelPositions labels c
    have ha : ∀ j ∈ labelPositions labels c, j = i := fun j hj => h2 j (mem_labelPositions.mp hj)
    generalize labelPositions labels c = l at hm hn ha
    cases l with
    | nil => simp at hm
    | cons a t =>
      have h3 := ha a (by simp)
      subst h3
      cases t with
      | nil => rfl
      | cons b t =>
        have h4 := ha b (by simp)
        subst h4
        simp at hn

theorem labelPositions_nil {labels : List L} {c : L} : labelPositions labels c = [] ↔ c ∉ labels := by
  rw [List.eq_nil_iff_forall_not_mem]
  constructor
  · intro h hc
    obtain ⟨i, hi⟩ := List.mem_iff_getElem?.mp hc
    exact h i (mem_labelPositions.mpr hi)
  · intro h i hi
    exact h (List.mem_iff_getElem?.mpr ⟨i, mem_labelPositions.mp hi⟩)

theorem pickInt_ok {n : Nat} {z : Int} {i : Nat} : pickInt n z = .ok i ↔ i < n ∧ (z = i ∨ z = (i : Int) - n) := by
  unfold pickInt
  by_cases h1 : 0 ≤ z ∧ z < n
  · rw [if_pos h1]
    constructor
    · intro h; cases h; omega
    · intro h; congr 1; omega
  · rw [if_neg h1]
    by_cases h2 : z < 0 ∧ -(n : Int) ≤ z
    · rw [if_pos h2]
      constructor
      · intro h; cases h; omega
      · intro h; congr 1; omega
    · rw [if_neg h2]
      constructor
      · intro h; cases h
      · intro h; omega

/-! ## Objects -/

omit [DecidableEq L] in
theorem indexUnit_ok {setting : Bool} {w : SelCtx L} {i : Nat} {r : Option Nat} :
    indexUnit setting w i = .ok r ↔ r = some i ∧ (w.columnsOnly setting = true ∨ 2 ≤ w.nRows) := by
  unfold indexUnit
  by_cases h : w.columnsOnly setting = true
  · rw [if_pos h]
    constructor
    · intro e; cases e; exact ⟨rfl, Or.inl h⟩
    · rintro ⟨rfl, _⟩; rfl
  · rw [if_neg h]
    by_cases h2 : w.nRows < 2
    · rw [if_pos h2]
      constructor
      · intro e; cases e
      · rintro ⟨_, e | e⟩
        · exact absurd e h
        · omega
    · rw [if_neg h2]
      constructor
      · intro e; cases e; exact ⟨rfl, Or.inr (by omega)⟩
      · rintro ⟨rfl, _⟩; rfl

/-- `select_one` with the labels and the number of units as the model computes them. -/
theorem selectOne_ok (asInt : L → Option Int) (setting : Bool) (w : SelCtx L) (c : L) (r : Option Nat) :
    selectOne asInt setting w (some c) = .ok r ↔
      ∃ i, r = some i ∧ w.one = false ∧ Meant asInt w.labels c i ∧ (w.columnsOnly setting = true ∨ 2 ≤ w.nRows) ∧
        (c ∈ w.labels ∨ w.colOnly = some true ∨ w.columnsOnly setting = false) := by
  unfold selectOne
  by_cases h1 : w.one = true
  · simp only [h1, if_true]
    constructor
    · intro e; cases e
    · rintro ⟨_, _, e, _⟩; cases e
  · have h1' : w.one = false := by simpa using h1
    simp only [h1', Bool.false_eq_true, if_false]
    by_cases hc : c ∈ w.labels
    · rw [if_pos hc]
      have hmeant : ∀ i, Meant asInt w.labels c i ↔ labelPositions w.labels c = [i] := by
        intro i
        rw [labelPositions_singleton]
        constructor
        · rintro (h | ⟨h, _⟩)
          · exact h
          · exact absurd hc h
        · exact Or.inl
      cases hl : labelPositions w.labels c with
      | nil => exact absurd hc (labelPositions_nil.mp hl)
      | cons a t =>
        cases t with
        | nil =>
          simp only [indexUnit_ok]
          constructor
          · rintro ⟨rfl, h⟩; exact ⟨a, rfl, trivial, (hmeant a).mpr hl, h, Or.inl hc⟩
          · rintro ⟨i, rfl, _, hm, h, _⟩
            have := (hmeant i).mp hm
            rw [hl] at this
            simp only [List.cons.injEq, and_true] at this
            exact ⟨by rw [this], h⟩
        | cons b t =>
          constructor
          · intro e; cases e
          · rintro ⟨i, _, _, hm, _⟩
            have := (hmeant i).mp hm
            rw [hl] at this
            cases this
    · rw [if_neg hc]
      have hmeant : ∀ z, asInt c = some z → ∀ i, Meant asInt w.labels c i ↔ pickInt w.labels.length z = .ok i := by
        intro z hz i
        rw [pickInt_ok]
        unfold Meant
        rw [hz, Option.some.injEq, Option.some.injEq]
        constructor
        · rintro (⟨h, _⟩ | ⟨_, h⟩)
          · exact absurd (List.mem_iff_getElem?.mpr ⟨i, h⟩) hc
          · exact h
        · intro h; exact Or.inr ⟨hc, h⟩
      cases hz : asInt c with
      | none =>
        constructor
        · intro e; cases e
        · rintro ⟨i, _, _, ⟨h, _⟩ | ⟨_, _, h⟩, _⟩
          · exact absurd (List.mem_iff_getElem?.mpr ⟨i, h⟩) hc
          · rw [hz] at h; rcases h with h | h <;> cases h
      | some z =>
        simp only
        have key : (match pickInt w.labels.length z with
            | .error e => .error e
            | .ok i => indexUnit setting w i : Except Err (Option Nat)) = .ok r ↔
            ∃ i, r = some i ∧ Meant asInt w.labels c i ∧ (w.columnsOnly setting = true ∨ 2 ≤ w.nRows) := by
          cases hp : pickInt w.labels.length z with
          | error e =>
            constructor
            · intro e; cases e
            · rintro ⟨i, _, h, _⟩
              have := (hmeant z hz i).mp h
              rw [hp] at this; cases this
          | ok a =>
            simp only [indexUnit_ok]
            constructor
            · rintro ⟨rfl, h⟩; exact ⟨a, rfl, (hmeant z hz a).mpr hp, h⟩
            · rintro ⟨i, rfl, hm, h⟩
              have := (hmeant z hz i).mp hm
              rw [hp] at this; cases this
              exact ⟨rfl, h⟩
        by_cases h2 : w.colOnly = some true
        · rw [if_pos h2]
          refine key.trans ⟨?_, ?_⟩
          · rintro ⟨i, h, hm, hr⟩; exact ⟨i, h, trivial, hm, hr, Or.inr (Or.inl h2)⟩
          · rintro ⟨i, h, _, hm, hr, _⟩; exact ⟨i, h, hm, hr⟩
        · rw [if_neg h2]
          by_cases h3 : w.columnsOnly setting = true
          · rw [if_pos h3]
            constructor
            · intro e; cases e
            · rintro ⟨_, _, _, _, _, h | h | h⟩
              · exact absurd h hc
              · exact absurd h h2
              · rw [h3] at h; cases h
          · rw [if_neg h3]
            refine key.trans ⟨?_, ?_⟩
            · rintro ⟨i, h, hm, hr⟩; exact ⟨i, h, trivial, hm, hr, Or.inr (Or.inr (by simpa using h3))⟩
            · rintro ⟨i, h, _, hm, hr, _⟩; exact ⟨i, h, hm, hr⟩

/-- **C116, selection.**  Given `column`, `select_one` succeeds exactly if there are several units, one is meant by `column`, and
the object can be indexed: it has at least two rows or is indexed by columns only, and then positions work only if the wrapper
itself, not the settings, says so. -/
theorem C116_select_one (asInt : L → Option Int) (setting : Bool) (w : SelCtx L) (labels : List L) (hl : w.HasUnits labels) (c : L)
    (r : Option Nat) :
    selectOne asInt setting w (some c) = .ok r ↔
      ∃ i, r = some i ∧ ¬ w.OneUnit ∧ Meant asInt labels c i ∧ (w.ByColumns setting ∨ 2 ≤ w.nRows) ∧
        (c ∈ labels ∨ w.colOnly = some true ∨ ¬ w.ByColumns setting) := by
  rw [selectOne_ok, selCtx_labels hl]
  simp only [selCtx_one_false, selCtx_columnsOnly, selCtx_columnsOnly_false]

omit [DecidableEq L] in
/-- A unit meant by an argument is the only one. -/
theorem meant_unique {asInt : L → Option Int} {labels : List L} {c : L} {i j : Nat} (hi : Meant asInt labels c i)
    (hj : Meant asInt labels c j) : i = j := by
  rcases hi with ⟨a, b⟩ | ⟨a, b, d⟩
  · rcases hj with ⟨a', _⟩ | ⟨a', _⟩
    · exact (b j a').symm
    · exact absurd (List.mem_iff_getElem?.mpr ⟨i, a⟩) a'
  · rcases hj with ⟨a', _⟩ | ⟨_, b', d'⟩
    · exact absurd (List.mem_iff_getElem?.mpr ⟨j, a'⟩) a
    · rcases d with d | d <;> rcases d' with d' | d' <;> rw [d, Option.some.injEq] at d' <;> omega

/-- **C116, defaults.**  With the default settings and at least two rows the unit selected is the one meant, and there is at most
one such. -/
theorem C116_default (asInt : L → Option Int) (w : SelCtx L) (hw : w.colOnly = none) (hr : 2 ≤ w.nRows) (hm : ¬ w.OneUnit)
    (labels : List L) (hl : w.HasUnits labels) (c : L) (i : Nat) :
    (selectOne asInt false w (some c) = .ok (some i) ↔ Meant asInt labels c i) ∧
      ∀ j, Meant asInt labels c i → Meant asInt labels c j → i = j := by
  refine ⟨?_, fun j => meant_unique⟩
  rw [C116_select_one asInt false w labels hl]
  constructor
  · rintro ⟨j, h, _, hj, _⟩; cases h; exact hj
  · intro h
    exact ⟨i, rfl, hm, h, Or.inr hr, Or.inr (Or.inr (by simp [SelCtx.ByColumns, hw]))⟩

/-- **C116, no argument.**  Without `column` both functions give the object itself exactly if there is one unit. -/
theorem C116_no_column (asInt : L → Option Int) (setting : Bool) (w : SelCtx L) (o : SelObj L V) :
    (selectOne asInt setting w none = .ok none ↔ w.OneUnit) ∧ (selectOneFromObj asInt w o none = .ok o ↔ w.OneUnit) ∧
      (¬ w.OneUnit → (∃ e, selectOne asInt setting w none = .error e) ∧ ∃ e, selectOneFromObj asInt w o none = .error e) := by
  rw [← selCtx_one_iff]
  unfold selectOne selectOneFromObj
  cases w.one <;> simp

/-! ## Results -/

/-- A result with one entry per unit: its labels are those of the units. -/
def SelObj.PerUnit (o : SelObj L V) (labels : List L) : Prop :=
  match o with
  | .frame columns _ values => columns = labels ∧ values.length = labels.length
  | .series index values => index = labels ∧ values.length = labels.length
  | .scalar _ => False

omit [DecidableEq L] in
theorem entryLabels_perUnit {o : SelObj L V} {labels : List L} (h : o.PerUnit labels) : o.entryLabels = labels := by
  cases o with
  | frame => exact h.1
  | series => exact h.1
  | scalar => exact h.elim

/-- **C116, results.**  From a result with one entry per unit, several units, `select_one_from_obj` selects the entry of the unit
meant; if several units have the label it gives all of them, where `select_one` raises. -/
theorem C116_from_obj (asInt : L → Option Int) (w : SelCtx L) (o : SelObj L V) (ho : o.PerUnit w.labels) (hn : w.ndim ≠ 1)
    (c : L) (out : SelObj L V) :
    selectOneFromObj asInt w o (some c) = .ok out ↔
      (∃ i, Meant asInt w.labels c i ∧ o.entry i = .ok out) ∨
        (∃ i j : Nat, i ≠ j ∧ w.labels[i]? = some c ∧ w.labels[j]? = some c) ∧ out = o.entries (labelPositions w.labels c) := by
  unfold selectOneFromObj
  simp only [hn, if_false]
  by_cases hc : c ∈ w.labels
  · rw [if_pos hc]
    unfold SelObj.getLabel
    rw [entryLabels_perUnit ho]
    have hmeant : ∀ i, Meant asInt w.labels c i ↔ labelPositions w.labels c = [i] := by
      intro i
      rw [labelPositions_singleton]
      constructor
      · rintro (h | ⟨h, _⟩)
        · exact h
        · exact absurd hc h
      · exact Or.inl
    cases hl : labelPositions w.labels c with
    | nil => exact absurd hc (labelPositions_nil.mp hl)
    | cons a t =>
      cases t with
      | nil =>
        constructor
        · intro h; exact Or.inl ⟨a, (hmeant a).mpr hl, h⟩
        · rintro (⟨i, hm, h⟩ | ⟨⟨i, j, hij, hi, hj⟩, _⟩)
          · have := (hmeant i).mp hm
            rw [hl] at this
            simp only [List.cons.injEq, and_true] at this
            subst this; exact h
          · have hs := labelPositions_singleton.mp hl
            exact absurd ((hs.2 i hi).trans (hs.2 j hj).symm) hij
      | cons b t =>
        have hnd := nodup_labelPositions w.labels c
        rw [hl] at hnd
        have hab : a ≠ b := by rintro rfl; simp at hnd
        have ha := mem_labelPositions.mp (by rw [hl]; simp : a ∈ labelPositions w.labels c)
        have hb := mem_labelPositions.mp (by rw [hl]; simp : b ∈ labelPositions w.labels c)
        constructor
        · intro h; cases h; exact Or.inr ⟨⟨a, b, hab, ha, hb⟩, rfl⟩
        · rintro (⟨i, hm, _⟩ | ⟨_, rfl⟩)
          · have := (hmeant i).mp hm
            rw [hl] at this; cases this
          · rfl
  · rw [if_neg hc]
    have hnodup : ¬ ∃ i j : Nat, i ≠ j ∧ w.labels[i]? = some c ∧ w.labels[j]? = some c := by
      rintro ⟨i, _, _, h, _⟩
      exact hc (List.mem_iff_getElem?.mpr ⟨i, h⟩)
    cases hz : asInt c with
    | none =>
      constructor
      · intro e; cases e
      · rintro (⟨i, ⟨h, _⟩ | ⟨_, _, h⟩, _⟩ | ⟨h, _⟩)
        · exact absurd (List.mem_iff_getElem?.mpr ⟨i, h⟩) hc
        · rw [hz] at h; rcases h with h | h <;> cases h
        · exact absurd h hnodup
    | some z =>
      have hmeant : ∀ i, Meant asInt w.labels c i ↔ pickInt w.labels.length z = .ok i := by
        intro i
        rw [pickInt_ok]
        unfold Meant
        rw [hz, Option.some.injEq, Option.some.injEq]
        constructor
        · rintro (⟨h, _⟩ | ⟨_, h⟩)
          · exact absurd (List.mem_iff_getElem?.mpr ⟨i, h⟩) hc
          · exact h
        · intro h; exact Or.inr ⟨hc, h⟩
      simp only
      unfold SelObj.iloc
      rw [entryLabels_perUnit ho]
      cases hp : pickInt w.labels.length z with
      | error e =>
        constructor
        · intro e; cases e
        · rintro (⟨i, h, _⟩ | ⟨h, _⟩)
          · have := (hmeant i).mp h
            rw [hp] at this; cases this
          · exact absurd h hnodup
      | ok a =>
        constructor
        · intro h; exact Or.inl ⟨a, (hmeant a).mpr hp, h⟩
        · rintro (⟨i, hm, h⟩ | ⟨h, _⟩)
          · have := (hmeant i).mp hm
            rw [hp] at this; cases this
            exact h
          · exact absurd h hnodup

/-- **C116, agreement.**  What `select_one` selects from the object, `select_one_from_obj` selects from a result with one entry
per unit: the values of that unit. -/
theorem C116_agree (asInt : L → Option Int) (setting : Bool) (w : SelCtx L) (hn : w.ndim ≠ 1) (c : L) (i : Nat)
    (h : selectOne asInt setting w (some c) = .ok (some i)) :
    (∀ (index : List L) (values : List (List V)), values.length = w.labels.length →
      ∃ vs, values[i]? = some vs ∧ selectOneFromObj asInt w (.frame w.labels index values) (some c) = .ok (.series index vs)) ∧
    (∀ values : List V, values.length = w.labels.length →
      ∃ v, values[i]? = some v ∧ selectOneFromObj asInt w (.series w.labels values) (some c) = .ok (.scalar v)) := by
  obtain ⟨j, hj, _, hm, _⟩ := (selectOne_ok asInt setting w c _).mp h
  cases hj
  have hlt : i < w.labels.length := by
    rcases hm with ⟨a, _⟩ | ⟨_, a, _⟩
    · exact (List.getElem?_eq_some_iff.mp a).1
    · exact a
  constructor
  · intro index values hv
    have hi : i < values.length := by rw [hv]; exact hlt
    refine ⟨values[i], List.getElem?_eq_getElem hi, ?_⟩
    rw [C116_from_obj asInt w (.frame w.labels index values) ⟨rfl, hv⟩ hn]
    refine Or.inl ⟨i, hm, ?_⟩
    unfold SelObj.entry
    simp only [List.getElem?_eq_getElem hi]
  · intro values hv
    have hi : i < values.length := by rw [hv]; exact hlt
    refine ⟨values[i], List.getElem?_eq_getElem hi, ?_⟩
    rw [C116_from_obj asInt w (.series w.labels values) ⟨rfl, hv⟩ hn]
    refine Or.inl ⟨i, hm, ?_⟩
    unfold SelObj.entry
    simp only [List.getElem?_eq_getElem hi]

/-! ## Findings -/

/-- The positions of a label in a longer list. -/
theorem labelPositions_cons (a : L) (labels : List L) (c : L) :
    labelPositions (a :: labels) c = (if a = c then [0] else []) ++ (labelPositions labels c).map (· + 1) := by
  unfold labelPositions
  rw [List.length_cons, List.range_succ_eq_map, List.filter_cons, List.filter_map]
  have h : (List.range labels.length).filter ((fun i => decide ((a :: labels)[i]? = some c)) ∘ Nat.succ) =
      (List.range labels.length).filter fun i => decide (labels[i]? = some c) := by
    apply List.filter_congr
    intro i _
    simp
  rw [h]
  by_cases hc : a = c
  · simp [hc]
  · simp [hc]

/-- Reading values at the positions of a label keeps the values with the label. -/
theorem filterMap_labelPositions {X : Type} (labels : List L) (c : L) (vals : List X) (h : vals.length = labels.length) :
    (labelPositions labels c).filterMap (vals[·]?) = ((labels.zip vals).filter fun p => p.1 = c).map Prod.snd := by
  induction labels generalizing vals with
  | nil => simp [labelPositions]
  | cons a t ih =>
    cases vals with
    | nil => simp at h
    | cons v vs =>
      have ih' := ih vs (by simpa using h)
      rw [labelPositions_cons, List.filterMap_append, List.filterMap_map]
      have hf : ((fun i => (v :: vs)[i]?) ∘ fun i => i + 1) = fun i : Nat => vs[i]? := by
        funext i; simp
      rw [hf, ih']
      by_cases hc : a = c
      · simp [hc]
      · simp [hc]

/-- **C116, finding.**  If several units have the label, `select_one` raises and `select_one_from_obj` gives the entries of all of
them, in their order. -/
theorem C116_repeated (asInt : L → Option Int) (setting : Bool) (w : SelCtx L) (hn : w.ndim ≠ 1) (c : L) (i j : Nat) (hij : i ≠ j)
    (hi : w.labels[i]? = some c) (hj : w.labels[j]? = some c) :
    (∃ e, selectOne asInt setting w (some c) = .error e) ∧
    (∀ values : List V, values.length = w.labels.length →
      selectOneFromObj asInt w (.series w.labels values) (some c) =
        .ok (.series (w.labels.filter (· = c)) (((w.labels.zip values).filter fun p => p.1 = c).map Prod.snd))) ∧
    (∀ (index : List L) (values : List (List V)), values.length = w.labels.length →
      selectOneFromObj asInt w (.frame w.labels index values) (some c) =
        .ok (.frame (w.labels.filter (· = c)) index (((w.labels.zip values).filter fun p => p.1 = c).map Prod.snd))) := by
  have hl : (labelPositions w.labels c).filterMap (w.labels[·]?) = w.labels.filter (· = c) := by
    rw [filterMap_labelPositions w.labels c w.labels rfl]
    generalize w.labels = l
    induction l with
    | nil => rfl
    | cons a t ih =>
      by_cases hc : a = c
      · simp [hc, ih]
      · simp [hc, ih]
  refine ⟨?_, fun values hv => ?_, fun index values hv => ?_⟩
  · cases h : selectOne asInt setting w (some c) with
    | error e => exact ⟨e, rfl⟩
    | ok r =>
      obtain ⟨k, _, _, ⟨_, hu⟩ | ⟨hc, _⟩, _⟩ := (selectOne_ok asInt setting w c r).mp h
      · exact absurd ((hu i hi).trans (hu j hj).symm) hij
      · exact absurd (List.mem_iff_getElem?.mpr ⟨i, hi⟩) hc
  · rw [C116_from_obj asInt w (.series w.labels values) ⟨rfl, hv⟩ hn]
    refine Or.inr ⟨⟨i, j, hij, hi, hj⟩, ?_⟩
    rw [SelObj.entries, hl, filterMap_labelPositions w.labels c values hv]
  · rw [C116_from_obj asInt w (.frame w.labels index values) ⟨rfl, hv⟩ hn]
    refine Or.inr ⟨⟨i, j, hij, hi, hj⟩, ?_⟩
    rw [SelObj.entries, hl, filterMap_labelPositions w.labels c values hv]

/-- **C116, finding.**  An object with one row has no unit that `select_one` can select, unless it is indexed by columns only. -/
theorem C116_one_row (asInt : L → Option Int) (setting : Bool) (w : SelCtx L) (hw : ¬ w.ByColumns setting)
    (hr : w.nRows < 2) (c : L) : ∃ e, selectOne asInt setting w (some c) = .error e := by
  cases h : selectOne asInt setting w (some c) with
  | error e => exact ⟨e, rfl⟩
  | ok r =>
    obtain ⟨_, _, _, _, h1 | h1, _⟩ := (selectOne_ok asInt setting w c r).mp h
    · exact absurd ((selCtx_columnsOnly setting w).mp h1) hw
    · omega

/-- **C116, finding.**  If indexing by columns only is switched on in the settings rather than for the object, positions raise. -/
theorem C116_setting (asInt : L → Option Int) (w : SelCtx L) (hw : w.colOnly = none) (c : L) (hc : c ∉ w.labels) :
    ∃ e, selectOne asInt true w (some c) = .error e := by
  cases h : selectOne asInt true w (some c) with
  | error e => exact ⟨e, rfl⟩
  | ok r =>
    obtain ⟨_, _, _, _, _, h1 | h1 | h1⟩ := (selectOne_ok asInt true w c r).mp h
    · exact absurd h1 hc
    · rw [hw] at h1; cases h1
    · simp [SelCtx.columnsOnly, hw] at h1

/-- **C116, finding.**  For several columns in one group, whose result is a Series over time, `select_one` raises for any `column`,
but `select_one_from_obj` takes a position for a row: `column=0` gives the first value instead of the Series or an exception. -/
theorem C116_single_group (asInt : L → Option Int) (setting : Bool) (w : SelCtx L) (g : L) (hg : w.groups = some [g])
    (hn : w.ndim ≠ 1) (c : L) (hc : c ≠ g) (k : Nat) (hk : asInt c = some (k : Int)) (index : List L) (values : List V)
    (hl : values.length = index.length) (hi : k < index.length) :
    (∃ e, selectOne asInt setting w (some c) = .error (.typeError e)) ∧
      ∃ v, values[k]? = some v ∧ selectOneFromObj asInt w (.series index values) (some c) = .ok (.scalar v) := by
  have hone : w.one = true := by simp [SelCtx.one, hg]
  have hlab : w.labels = [g] := by simp [SelCtx.labels, hg]
  refine ⟨⟨"This object already contains one column of data", by unfold selectOne; simp only [hone, if_true]⟩, ?_⟩
  have hv : k < values.length := by rw [hl]; exact hi
  refine ⟨values[k], List.getElem?_eq_getElem hv, ?_⟩
  unfold selectOneFromObj
  have hp : pickInt index.length (k : Int) = .ok k := pickInt_ok.mpr ⟨hi, Or.inl rfl⟩
  simp only [hn, if_false, hlab, List.mem_singleton, hc, hk, SelObj.iloc, SelObj.entryLabels, hp, SelObj.entry,
    List.getElem?_eq_getElem hv]

/-! ## The hypotheses can be met -/

/-- Three columns, two rows. -/
def threeColumns : SelCtx Int := ⟨2, 2, [10, 20, 20], none, none⟩

example : selectOne some false threeColumns (some 10) = .ok (some 0) := rfl
example : selectOne some false threeColumns (some 2) = .ok (some 2) := rfl
example : selectOne some false threeColumns (some (-1)) = .ok (some 2) := rfl
example : threeColumns.HasUnits [10, 20, 20] ∧ ¬ threeColumns.OneUnit := ⟨.inr ⟨rfl, rfl⟩, fun h => absurd (h.1 rfl) (by decide)⟩
/-- Two groups are several units, a frame of one column is not one unit, one group is. -/
example : selectOne some false (⟨2, 2, [1, 2, 3], some [7, 8], none⟩ : SelCtx Int) (some 8) = .ok (some 1) :=
  (C116_default some _ rfl (by decide) (fun h => by simpa using h.2 _ rfl) [7, 8] (.inl rfl) 8 1).1.mpr
    (.inl ⟨rfl, fun j h => by match j with | 0 => simp at h | 1 => rfl | _ + 2 => simp at h⟩)
example : ¬ (⟨2, 2, [1], none, none⟩ : SelCtx Int).OneUnit := fun h => absurd (h.1 rfl) (by decide)
example : (⟨2, 2, [1, 2], some [7], none⟩ : SelCtx Int).OneUnit := ⟨fun h => (by cases h), fun g h => (by cases h; rfl)⟩
example : Meant some threeColumns.labels (-1) 2 :=
  Or.inr ⟨by decide, by decide, Or.inr rfl⟩
example : selectOne some false threeColumns (some 20) =
    .error (.typeError "Could not select one column: multiple columns returned") := rfl
example : selectOneFromObj some threeColumns (.series [10, 20, 20] ["a", "b", "c"]) (some 20) =
    .ok (.series [20, 20] ["b", "c"]) := rfl
example : (SelObj.series [10, 20, 20] ["a", "b", "c"]).PerUnit threeColumns.labels := ⟨rfl, rfl⟩
/-- The label 1 is preferred to the position 1. -/
example : selectOne some false (⟨2, 2, [1, 0], none, none⟩ : SelCtx Int) (some 1) = .ok (some 0) := rfl

example : ∃ v, (["x", "y"] : List String)[0]? = some v ∧
    selectOneFromObj some (⟨2, 2, [1, 2], some [7], none⟩ : SelCtx Int) (.series [100, 200] ["x", "y"]) (some 0) = .ok (.scalar v) :=
  (C116_single_group some false ⟨2, 2, [1, 2], some [7], none⟩ 7 rfl (by decide) 0 (by decide) 0 rfl [100, 200] ["x", "y"]
    rfl (by decide)).2

example : ∃ e, selectOne some false (⟨2, 1, [1, 2], none, none⟩ : SelCtx Int) (some 1) = .error e :=
  C116_one_row some false _ (by simp [SelCtx.ByColumns]) (by decide) 1

example : selectOneFromObj some threeColumns (.series [10, 20, 20] ["a", "b", "c"]) (some 20) = .ok (.series [20, 20] ["b", "c"]) :=
  (C116_repeated some false threeColumns (by decide) 20 1 2 (by decide) rfl rfl).2.1 ["a", "b", "c"] rfl

example : ∃ e, selectOne some true threeColumns (some 0) = .error e := C116_setting some _ rfl 0 (by decide)

end Vbt
