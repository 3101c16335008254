import Verif.Lemmas.Regroup
import Verif.Props.C85

/-!
# C87: grouping anew

`group_by` given to a method, or to `regroup`, replaces the groups only where this is allowed; with shared cash a portfolio never
adopts other groups.  What is computed per group carries the labels of the groups — unless `group_by` is a `pd.Index` that turns
one group into several.
-/

namespace Vbt

variable {L : Type} [DecidableEq L]

/-- The groups asked for: those held, none, one for all columns, or those of the labels. -/
def wanted (whole : L) (w : Wrapper L) : GroupArg L → Option (List L)
  | .absent => w.groupBy
  | .off => none
  | .whole => some (List.replicate w.columns.length whole)
  | .seq ls => some ls
  | .index ls => some ls

/-- One label per column. -/
def OneLabelEach (n : Nat) : GroupArg L → Prop
  | .seq ls => ls.length = n
  | .index ls => ls.length = n
  | _ => True

/-- The wrapper has one label per column, if any. -/
def WellLabelled (w : Wrapper L) : Prop := ∀ ls, w.groupBy = some ls → ls.length = w.columns.length

/-- The restrictions permit going from the groups held to those asked for. -/
def Permitted (g : RestrictedWrapper L) : Option (List L) → Option (List L) → Prop
  | none, none => True
  | none, some _ => g.allowEnable = true
  | some _, none => g.allowDisable = true
  | some old, some new => g.allowModify = true ∨ SamePartition new old

/-- The dimensions held, if any, are those of the groups. -/
def RightDims (w : Wrapper L) : Prop := ∀ ls d, w.groupBy = some ls → w.groupedNdim = some d → GroupDims ls d

theorem toIndex_ok {whole : L} {w : Wrapper L} {a : GroupArg L} (hf : OneLabelEach w.columns.length a) (ha : a ≠ .absent) :
    groupByToIndex whole w.columns.length a = .ok (wanted whole w a) := by
  cases a with
  | absent => exact absurd rfl ha
  | off => rfl
  | whole => rfl
  | seq ls => unfold groupByToIndex; simp only [OneLabelEach] at hf; simp [hf, wanted]
  | index ls => unfold groupByToIndex; simp only [OneLabelEach] at hf; simp [hf, wanted]

theorem wanted_isSome {whole : L} {w : Wrapper L} {a : GroupArg L} : (wanted whole w a).isSome = w.isGroupedBy a := by
  cases a <;> rfl

/-- `is_grouping_modified` tells whether other columns are put together; names of groups do not matter. -/
theorem C87_modified {whole : L} {w : Wrapper L} {a : GroupArg L} {old new : List L} (hf : OneLabelEach w.columns.length a)
    (ho : w.groupBy = some old) (hn : wanted whole w a = some new) :
    ∃ m, w.groupingModified whole a = .ok m ∧ (m = true ↔ ¬ SamePartition new old) := by
  unfold Wrapper.groupingModified
  by_cases ha : a = .absent
  · rw [if_pos (.inl ha)]
    subst ha
    have : new = old := by have := hn.symm.trans ho; exact Option.some.inj this
    subst this
    exact ⟨false, rfl, by simp [SamePartition.rfl]⟩
  · rw [if_neg (by simp [ha, ho]), toIndex_ok hf ha, hn, ho]
    dsimp only
    by_cases he : new = old
    · subst he
      exact ⟨false, by simp, by simp [SamePartition.rfl]⟩
    · rw [if_pos he]
      exact ⟨_, rfl, by rw [decide_eq_true_iff, ne_eq, codes_eq_iff]⟩

example : ∃ m, (Wrapper.mk ["x", "y", "z"] 2 (some ["a", "a", "b"]) none).groupingModified "group" (.seq ["u", "v", "v"]) = .ok m
    ∧ (m = true ↔ ¬ SamePartition ["u", "v", "v"] ["a", "a", "b"]) :=
  C87_modified rfl rfl rfl

/-- `check_group_by` accepts exactly what the restrictions permit. -/
theorem C87_check {whole : L} {g : RestrictedWrapper L} {a : GroupArg L} (hf : OneLabelEach g.wrapper.columns.length a) :
    g.check whole a = .ok () ↔ Permitted g g.wrapper.groupBy (wanted whole g.wrapper a) := by
  have hw := wanted_isSome (whole := whole) (w := g.wrapper) (a := a)
  unfold RestrictedWrapper.check Wrapper.groupingEnabled Wrapper.groupingDisabled
  rw [← hw]
  cases ho : g.wrapper.groupBy with
  | none =>
    cases hn : wanted whole g.wrapper a with
    | none =>
      simp only [Option.isNone_none, Option.isSome_none, Bool.and_false, Bool.false_and, Bool.false_eq_true, if_false, Permitted,
        iff_true]
      have : g.wrapper.groupingModified whole a = .ok false := by
        unfold Wrapper.groupingModified
        cases a with
        | absent => simp
        | off => simp [ho]
        | whole => cases hn
        | seq ls => cases hn
        | index ls => cases hn
      rw [this]; rfl
    | some new =>
      simp only [Option.isNone_none, Option.isSome_some, Bool.and_true, if_true, Permitted]
      cases g.allowEnable <;> simp
  | some old =>
    cases hn : wanted whole g.wrapper a with
    | none =>
      simp only [Option.isNone_some, Option.isSome_some, Option.isSome_none, Bool.and_false, Bool.not_false, Bool.and_true, if_true,
        Bool.false_eq_true, if_false, Permitted]
      cases g.allowDisable <;> simp
    | some new =>
      obtain ⟨m, h1, h2⟩ := C87_modified (whole := whole) hf ho hn
      simp only [Option.isNone_some, Option.isSome_some, Bool.false_and, Bool.not_true, Bool.and_false, Bool.false_eq_true,
        if_false, Permitted, h1]
      cases m with
      | false =>
        have : SamePartition new old := by by_contra hc; exact absurd (h2.mpr hc) (by simp)
        simp [this]
      | true =>
        have := h2.mp rfl
        cases g.allowModify <;> simp [this]

/-- Labels of the wrong number are never taken. -/
theorem C87_misfit {whole : L} {g : RestrictedWrapper L} {a : GroupArg L} (hf : ¬ OneLabelEach g.wrapper.columns.length a)
    (hl : WellLabelled g.wrapper) :
    (∃ e, g.resolveGroupBy whole a = .error e) ∧ (∃ e, g.regroup whole a = .error e) ∧ (∃ e, g.resolve whole a = .error e) := by
  have ha : a ≠ .absent := by rintro rfl; exact hf trivial
  have hb : a ≠ .off := by rintro rfl; exact hf trivial
  have he : ∃ e, groupByToIndex whole g.wrapper.columns.length a = .error e := by
    cases a with
    | absent => exact absurd rfl ha
    | off => exact absurd rfl hb
    | whole => exact absurd trivial hf
    | seq ls => exact ⟨_, if_pos hf⟩
    | index ls => exact ⟨_, if_pos hf⟩
  obtain ⟨e, he⟩ := he
  have h2 : ∃ e, g.regroup whole a = .error e := by
    unfold RestrictedWrapper.regroup
    have hch : g.wrapper.groupingChanged a = true := by
      unfold Wrapper.groupingChanged
      rw [if_neg (by simp [ha, hb])]
      split
      · rename_i ls old ho
        rw [decide_eq_true_iff]
        rintro rfl
        exact hf (hl _ ho)
      · rfl
    rw [if_pos hch]
    unfold RestrictedWrapper.withGroups
    rw [he]
    split
    · exact ⟨_, rfl⟩
    · split
      · split <;> exact ⟨_, rfl⟩
      · exact ⟨_, rfl⟩
  refine ⟨?_, h2, ?_⟩
  · unfold RestrictedWrapper.resolveGroupBy
    simp only [ha, hb, if_false, false_and, he]
    split <;> exact ⟨_, rfl⟩
  · obtain ⟨e', h2⟩ := h2
    exact ⟨e', by unfold RestrictedWrapper.resolve; rw [h2]⟩

/-- `resolve_group_by` returns the groups asked for if they are permitted, and raises otherwise. -/
theorem C87_resolve_group_by {whole : L} {g : RestrictedWrapper L} {a : GroupArg L} (hf : OneLabelEach g.wrapper.columns.length a)
    (hl : WellLabelled g.wrapper) (r : Option (List L)) :
    g.resolveGroupBy whole a = .ok r ↔ r = wanted whole g.wrapper a ∧ Permitted g g.wrapper.groupBy (wanted whole g.wrapper a) := by
  -- the argument after the two replacements asks for the same
  have key : ∀ b : GroupArg L, OneLabelEach g.wrapper.columns.length b → wanted whole g.wrapper b = wanted whole g.wrapper a →
      groupByToIndex whole g.wrapper.columns.length b = .ok (wanted whole g.wrapper a) →
      ((match g.check whole b with
        | .error e => (.error e : Except Err (Option (List L)))
        | .ok () => groupByToIndex whole g.wrapper.columns.length b) = .ok r ↔
      r = wanted whole g.wrapper a ∧ Permitted g g.wrapper.groupBy (wanted whole g.wrapper a)) := by
    intro b hfb hwb hib
    have hc := C87_check (whole := whole) hfb
    rw [hwb] at hc
    cases hk : g.check whole b with
    | error e =>
      rw [hk] at hc
      constructor
      · intro h; cases h
      · rintro ⟨-, hp⟩; cases hc.mpr hp
    | ok u =>
      have hp := hc.mp hk
      dsimp only
      rw [hib]
      constructor
      · intro h; cases h; exact ⟨rfl, hp⟩
      · rintro ⟨rfl, -⟩; rfl
  unfold RestrictedWrapper.resolveGroupBy
  dsimp only
  by_cases ha : a = .absent
  · subst ha
    rw [if_pos rfl]
    cases ho : g.wrapper.groupBy with
    | none =>
      have := key .absent trivial rfl (by unfold groupByToIndex; simp [wanted, ho])
      rw [ho] at this
      exact this
    | some ls =>
      have hf' : OneLabelEach g.wrapper.columns.length (.index ls) := hl ls ho
      have := key (.index ls) hf' (by simp [wanted, ho]) (by rw [toIndex_ok hf' (by simp)]; simp [wanted, ho])
      rw [ho] at this
      exact this
  · rw [if_neg ha]
    by_cases hb : a = .off ∧ g.wrapper.groupBy = none
    · rw [if_pos hb]
      obtain ⟨rfl, ho⟩ := hb
      exact key .absent trivial (by simp [wanted, ho]) rfl
    · rw [if_neg hb]
      exact key _ hf rfl (toIndex_ok hf ha)

/-- Regrouping sets the groups asked for, which were permitted, and nothing else. -/
theorem C87_regroup {whole : L} {g r : RestrictedWrapper L} {a : GroupArg L} (hf : OneLabelEach g.wrapper.columns.length a)
    (h : g.regroup whole a = .ok r) :
    r.wrapper.groupBy = wanted whole g.wrapper a ∧ Permitted g g.wrapper.groupBy (wanted whole g.wrapper a) ∧
      r.wrapper.columns = g.wrapper.columns ∧ r.wrapper.ndim = g.wrapper.ndim ∧ r.allowEnable = g.allowEnable ∧
      r.allowDisable = g.allowDisable ∧ r.allowModify = g.allowModify := by
  unfold RestrictedWrapper.regroup at h
  by_cases hch : g.wrapper.groupingChanged a = true
  · rw [if_pos hch] at h
    have ha : a ≠ .absent := by rintro rfl; simp [Wrapper.groupingChanged] at hch
    cases hk : g.check whole a with
    | error e => rw [hk] at h; cases h
    | ok u =>
      rw [hk] at h
      have hp := (C87_check hf).mp hk
      have fin : ∀ d, g.withGroups whole a d = .ok r → _ := fun d hd => by
        unfold RestrictedWrapper.withGroups at hd
        rw [toIndex_ok hf ha] at hd
        exact hd
      dsimp only at h
      split at h
      · split at h
        · cases h
        · have := fin _ h
          cases this
          exact ⟨rfl, hp, rfl, rfl, rfl, rfl, rfl⟩
      · have := fin _ h
        cases this
        exact ⟨rfl, hp, rfl, rfl, rfl, rfl, rfl⟩
  · rw [if_neg hch] at h
    cases h
    have hw : g.wrapper.groupBy = wanted whole g.wrapper a := by
      unfold Wrapper.groupingChanged at hch
      split at hch
      · rename_i hc
        rcases hc with rfl | ⟨rfl, ho⟩
        · rfl
        · exact ho
      · split at hch
        · rename_i ls old ho _
          have : ls = old := by simpa using hch
          subst this
          exact ho
        · simp at hch
    refine ⟨hw, ?_, rfl, rfl, rfl, rfl, rfl⟩
    rw [← hw]
    cases g.wrapper.groupBy with
    | none => trivial
    | some ls => exact .inr SamePartition.rfl

/-- Permitted groups are accepted, provided the columns of each group held so far are next to each other. -/
theorem C87_regroup_accepts {whole : L} {g : RestrictedWrapper L} {a : GroupArg L} (hf : OneLabelEach g.wrapper.columns.length a)
    (hp : Permitted g g.wrapper.groupBy (wanted whole g.wrapper a)) (hc : ∀ ls, g.wrapper.groupBy = some ls → Coherent ls) :
    ∃ r, g.regroup whole a = .ok r := by
  unfold RestrictedWrapper.regroup
  split
  · rename_i hch
    have ha : a ≠ .absent := by rintro rfl; simp [Wrapper.groupingChanged] at hch
    rw [(C87_check hf).mpr hp]
    dsimp only
    have fin : ∀ d, ∃ r, g.withGroups whole a d = .ok r := fun d => by
      unfold RestrictedWrapper.withGroups
      rw [toIndex_ok hf ha]
      exact ⟨_, rfl⟩
    split
    · rename_i hcount
      have : ∃ ls, g.wrapper.groupBy = some ls := by
        cases ho : g.wrapper.groupBy with
        | some ls => exact ⟨ls, rfl⟩
        | none =>
          exfalso
          cases a <;> simp [Wrapper.isGroupedBy, Wrapper.groupCountChanged, ho] at hcount ha
      obtain ⟨ls, ho⟩ := this
      obtain ⟨d, hd⟩ := getNdim_ok ho (hc ls ho)
      rw [hd]
      exact fin _
    · exact fin _
  · exact ⟨_, rfl⟩

/-- Nothing is done where nothing is asked for, or the groups held are. -/
theorem C87_regroup_same (whole : L) (g : RestrictedWrapper L) :
    g.regroup whole .absent = .ok g ∧ (g.wrapper.groupBy = none → g.regroup whole .off = .ok g) ∧
      ∀ ls, g.wrapper.groupBy = some ls → g.regroup whole (.index ls) = .ok g := by
  refine ⟨rfl, fun h => ?_, fun ls h => ?_⟩
  · unfold RestrictedWrapper.regroup Wrapper.groupingChanged; simp [h]
  · unfold RestrictedWrapper.regroup Wrapper.groupingChanged; simp [h]

theorem sameGroups_self (x : Option (List L)) : SameGroups x x := by
  cases x with
  | none => trivial
  | some ls => exact SamePartition.rfl

/-- With shared cash a portfolio keeps its groups: `regroup` at most renames them. -/
theorem C87_shared_regroup {whole : L} {g r : RestrictedWrapper L} {a : GroupArg L} (hf : OneLabelEach g.wrapper.columns.length a)
    (h : pfRegroup whole true g a = .ok r) :
    SameGroups r.wrapper.groupBy g.wrapper.groupBy ∧ r.wrapper.columns = g.wrapper.columns := by
  unfold pfRegroup at h
  rw [if_pos rfl] at h
  have hw : (sharedGuard true g).wrapper = g.wrapper := rfl
  cases hm : (sharedGuard true g).wrapper.groupingModified whole a with
  | error e => rw [hm] at h; cases h
  | ok m =>
    rw [hm] at h
    cases m with
    | true => cases h
    | false =>
      dsimp only at h
      split at h
      · split at h
        · cases h
        · obtain ⟨h1, h2, h3, -⟩ := C87_regroup (g := sharedGuard true g) hf h
          refine ⟨?_, h3⟩
          rw [hw] at h1 h2 hm
          rw [h1]
          cases ho : g.wrapper.groupBy with
          | none =>
            rw [ho] at h2
            cases hn : wanted whole g.wrapper a with
            | none => trivial
            | some new => rw [hn] at h2; cases h2
          | some old =>
            rw [ho] at h2
            cases hn : wanted whole g.wrapper a with
            | some new =>
              rw [hn] at h2
              rcases h2 with h2 | h2
              · cases h2
              · exact h2
            | none =>
              exfalso
              have : a = .off := by
                cases a with
                | off => rfl
                | absent => exact absurd (ho.symm.trans hn) (by simp)
                | whole => cases hn
                | seq ls => cases hn
                | index ls => cases hn
              subst this
              unfold Wrapper.groupingModified at hm
              rw [if_neg (by simp [ho])] at hm
              simp [groupByToIndex] at hm
      · cases h
        exact ⟨sameGroups_self _, rfl⟩

/-- With shared cash a method computes over the groups held, or over none at all. -/
theorem C87_shared_methods {whole : L} {g : RestrictedWrapper L} {a : GroupArg L} (hf : OneLabelEach g.wrapper.columns.length a)
    (hl : WellLabelled g.wrapper) :
    (∀ r, (sharedGuard true g).resolveGroupBy whole a = .ok r → r = none ∨ SameGroups r g.wrapper.groupBy) ∧
    ∀ r, (sharedGuard true g).regroup whole a = .ok r → r.wrapper.groupBy = none ∨ SameGroups r.wrapper.groupBy g.wrapper.groupBy
    := by
  have key : Permitted (sharedGuard true g) g.wrapper.groupBy (wanted whole g.wrapper a) →
      wanted whole g.wrapper a = none ∨ SameGroups (wanted whole g.wrapper a) g.wrapper.groupBy := by
    intro hp
    cases hn : wanted whole g.wrapper a with
    | none => exact .inl rfl
    | some new =>
      right
      rw [hn] at hp
      cases ho : g.wrapper.groupBy with
      | none => rw [ho] at hp; cases hp
      | some old =>
        rw [ho] at hp
        rcases hp with hp | hp
        · cases hp
        · exact hp
  constructor
  · intro r h
    obtain ⟨rfl, hp⟩ := (C87_resolve_group_by (g := sharedGuard true g) hf hl r).mp h
    exact key hp
  · intro r h
    obtain ⟨h1, hp, -⟩ := C87_regroup (g := sharedGuard true g) hf h
    rw [h1]
    exact key hp

/-- Ungrouping a portfolio with shared cash for good is refused. -/
theorem C87_shared_ungroup {whole : L} {g : RestrictedWrapper L} {ls : List L} (h : g.wrapper.groupBy = some ls) :
    ∃ e, pfRegroup whole true g .off = .error e := by
  refine ⟨.valueError "Cannot modify grouping globally when cash_sharing=True", ?_⟩
  have hm : (sharedGuard true g).wrapper.groupingModified whole .off = .ok true := by
    unfold Wrapper.groupingModified
    have : (sharedGuard true g).wrapper.groupBy = some ls := h
    rw [if_neg (by simp [this])]
    simp [groupByToIndex]
  unfold pfRegroup
  rw [if_pos rfl, hm]

/-- The dimensions are those of the new groups, unless a `pd.Index` changes from one group to several or back. -/
def DimsKept (w : Wrapper L) (new : List L) : GroupArg L → Prop
  | .index _ => ∀ old, w.groupBy = some old → (Single old ↔ Single new)
  | _ => True

omit [DecidableEq L] in
theorem groupDims_of_iff {old new : List L} {d : Nat} (h : Single old ↔ Single new) (hd : GroupDims old d) : GroupDims new d := by
  rcases hd with ⟨h1, h2⟩ | ⟨h1, h2⟩
  · exact .inl ⟨h.mp h1, h2⟩
  · exact .inr ⟨fun hc => h1 (h.mpr hc), h2⟩

theorem getNdim_right {w : Wrapper L} {ls : List L} {d : Nat} (hg : w.groupBy = some ls) (hr : RightDims w)
    (h : w.getNdim = .ok d) : GroupDims ls d := by
  cases hn : w.groupedNdim with
  | none => exact getNdim_fresh hg hn h
  | some d' =>
    unfold Wrapper.getNdim at h
    rw [hn] at h
    cases h
    exact hr ls _ hg hn

theorem regroup_dims {whole : L} {g r : RestrictedWrapper L} {a : GroupArg L} {new : List L} (hf : OneLabelEach g.wrapper.columns.length a)
    (hr : RightDims g.wrapper) (hn : wanted whole g.wrapper a = some new) (hk : DimsKept g.wrapper new a)
    (h : g.regroup whole a = .ok r) : RightDims r.wrapper := by
  have hreg := C87_regroup hf h
  intro ls d hls hd
  rw [hreg.1, hn] at hls
  cases hls
  unfold RestrictedWrapper.regroup at h
  split at h
  · rename_i hch
    have ha : a ≠ .absent := by rintro rfl; simp [Wrapper.groupingChanged] at hch
    split at h
    · cases h
    · split at h
      · rename_i hcount
        split at h
        · cases h
        · rename_i d' hd'
          unfold RestrictedWrapper.withGroups at h
          rw [toIndex_ok hf ha] at h
          cases h
          cases hd
          cases a with
          | index ls =>
            cases ho : g.wrapper.groupBy with
            | none => simp [Wrapper.isGroupedBy, Wrapper.groupCountChanged, ho] at hcount
            | some old => exact groupDims_of_iff (hk old ho) (getNdim_right ho hr hd')
          | absent => exact absurd rfl ha
          | off => cases hn
          | whole => simp [Wrapper.isGroupedBy, Wrapper.groupCountChanged] at hcount
          | seq ls => simp [Wrapper.isGroupedBy, Wrapper.groupCountChanged] at hcount
      · unfold RestrictedWrapper.withGroups at h
        rw [toIndex_ok hf ha] at h
        cases h
        cases hd
  · cases h
    exact hr _ d (hreg.1.trans hn) hd

/-- What is computed per group has one column per group, labelled and ordered as the groups appear, in the dimensions that
follow from their number.  Missing: a `pd.Index` that turns one group into several or back (`C87_stale`). -/
theorem C87_resolve_partial {whole : L} {g r : RestrictedWrapper L} {a : GroupArg L} {new : List L} (hf : OneLabelEach g.wrapper.columns.length a)
    (hr : RightDims g.wrapper) (hn : wanted whole g.wrapper a = some new) (hk : DimsKept g.wrapper new a)
    (h : g.resolve whole a = .ok r) :
    FirstSeen new r.wrapper.columns ∧ GroupDims new r.wrapper.ndim ∧ r.wrapper.groupBy = none := by
  unfold RestrictedWrapper.resolve at h
  split at h
  · cases h
  · rename_i g1 hg1
    have hb := (C87_regroup hf hg1).1
    have hd := regroup_dims hf hr hn hk hg1
    rw [hn] at hb
    rw [hb] at h
    dsimp only at h
    split at h
    · cases h
    · rename_i d hd'
      cases h
      exact ⟨firstSeen_factorize new, getNdim_right hb hd hd', rfl⟩

/-- Without groups the columns stay. -/
theorem C87_resolve_off {whole : L} {g r : RestrictedWrapper L} {a : GroupArg L} (hf : OneLabelEach g.wrapper.columns.length a)
    (hn : wanted whole g.wrapper a = none) (h : g.resolve whole a = .ok r) :
    r.wrapper.columns = g.wrapper.columns ∧ r.wrapper.ndim = g.wrapper.ndim ∧ r.wrapper.groupBy = none := by
  unfold RestrictedWrapper.resolve at h
  split at h
  · cases h
  · rename_i g1 hg1
    obtain ⟨h1, -, h3, h4, -⟩ := C87_regroup hf hg1
    rw [h1, hn] at h
    cases h
    exact ⟨h3, h4, h1.trans hn⟩

/-- One number per group: a single one for one group, otherwise a Series labelled by the groups.  Missing: see
`C87_resolve_partial`. -/
theorem C87_reduced_partial {V : Type} {whole : L} {g : RestrictedWrapper L} {a : GroupArg L} {new : List L} {values : List V} {res}
    (hf : OneLabelEach g.wrapper.columns.length a) (hr : RightDims g.wrapper) (hn : wanted whole g.wrapper a = some new)
    (hk : DimsKept g.wrapper new a) (hv : values.length = (factorize (new.map some)).1.length) (hne : new ≠ [])
    (h : g.wrapReduced whole a values = .ok res) :
    (Single new ∧ ∃ v, values = [v] ∧ res = .scalar v) ∨
      ¬ Single new ∧ ∃ u, FirstSeen new u ∧ u.length = values.length ∧ res = .perColumn u values := by
  unfold RestrictedWrapper.wrapReduced at h
  cases hres : g.resolve whole a with
  | error e => rw [hres] at h; cases h
  | ok r =>
    rw [hres] at h
    dsimp only at h
    obtain ⟨h1, h2, -⟩ := C87_resolve_partial hf hr hn hk hres
    have hs := (firstSeen_factorize new).single
    rcases h2 with ⟨hs1, hd⟩ | ⟨hs1, hd⟩
    · left
      refine ⟨hs1, ?_⟩
      rw [if_pos hd] at h
      have hle := hs.mp hs1
      match values, hv with
      | [], hv =>
        exfalso
        obtain ⟨l, hl⟩ := List.exists_mem_of_ne_nil _ hne
        have := ((factorize_inv new).mem l).mpr hl
        rw [List.length_eq_zero_iff.mp hv.symm] at this
        cases this
      | [v], _ => cases h; exact ⟨v, rfl, rfl⟩
      | _ :: _ :: _, hv => simp at hv; omega
    · right
      refine ⟨hs1, ?_⟩
      rw [if_neg (by omega)] at h
      split at h
      · cases h
      · rename_i hlen
        cases h
        exact ⟨_, h1, by simpa using (Decidable.not_not.mp hlen).symm, rfl⟩

/-- A `pd.Index` that splits one group into several: the numbers come without the labels of the groups, under the name of the
first of them. -/
theorem C87_stale {V : Type} {whole : L} {g : RestrictedWrapper L} {old ls : List L} {values : List V} (ho : g.wrapper.groupBy = some old)
    (hd : g.wrapper.getNdim = .ok 1) (hs : Single old) (hl : ls.length = old.length) (hlc : old.length = g.wrapper.columns.length)
    (hn : ¬ Single ls) (hm : g.allowModify = true) (hv : values.length = (factorize (ls.map some)).1.length) :
    ∃ first, ls.head? = some first ∧ g.wrapReduced whole (.index ls) values = .ok (.unlabelled (some first) values) := by
  have hf : OneLabelEach g.wrapper.columns.length (.index ls) := by simp only [OneLabelEach]; omega
  have hne : ls ≠ old := by rintro rfl; exact hn hs
  have hreg : g.regroup whole (.index ls) =
      .ok { g with wrapper := { g.wrapper with groupBy := some ls, groupedNdim := some 1 } } := by
    unfold RestrictedWrapper.regroup
    have h1 : g.wrapper.groupingChanged (.index ls) = true := by simp [Wrapper.groupingChanged, ho, hne]
    have h2 : (g.wrapper.isGroupedBy (.index ls) && !g.wrapper.groupCountChanged (.index ls)) = true := by
      simp [Wrapper.isGroupedBy, Wrapper.groupCountChanged, ho, hl]
    have h3 : g.check whole (.index ls) = .ok () := (C87_check hf).mpr (by rw [ho]; exact .inl hm)
    rw [if_pos h1, h3]
    dsimp only
    rw [if_pos h2, hd]
    dsimp only
    unfold RestrictedWrapper.withGroups
    rw [toIndex_ok hf (by simp)]
    rfl
  have hlen : 1 < (factorize (ls.map some)).1.length := by
    have := (firstSeen_factorize ls).single
    by_contra hc
    exact hn (this.mpr (by omega))
  have fs := firstSeen_factorize ls
  -- the first group is that of the first column
  obtain ⟨first, rest, rfl⟩ : ∃ first rest, ls = first :: rest := by
    cases ls with
    | nil => exact absurd (fun a ha => by cases ha) hn
    | cons x xs => exact ⟨x, xs, rfl⟩
  have hhead : (factorize ((first :: rest).map some)).1.head? = some first := by
    set u := (factorize ((first :: rest).map some)).1 with hu
    have hmem : first ∈ u := (fs.mem first).mpr (by simp)
    cases hux : u with
    | nil => rw [hux] at hmem; cases hmem
    | cons x xs =>
      by_cases hx : x = first
      · rw [hx]; rfl
      · exfalso
        have hxm : x ∈ first :: rest := (fs.mem x).mp (by rw [hux]; simp)
        have := (fs.order x first hxm (by simp)).mp (by
          rw [hux, List.idxOf_cons_self, List.idxOf_cons_ne _ hx]; omega)
        simp at this
  refine ⟨first, rfl, ?_⟩
  unfold RestrictedWrapper.wrapReduced RestrictedWrapper.resolve
  rw [hreg]
  dsimp only [Wrapper.getNdim]
  rw [if_pos rfl, hhead]
  match values, hv with
  | [], hv => exact absurd hlen (by rw [← hv]; simp)
  | [v], hv => exact absurd hlen (by rw [← hv]; simp)
  | _ :: _ :: _, _ => rfl

/-- A `pd.Index` that joins several groups into one: a Series with one entry instead of the number. -/
theorem C87_stale_joined {V : Type} {whole : L} {g : RestrictedWrapper L} {old : List L} {l : L} {v : V} (ho : g.wrapper.groupBy = some old)
    (hd : g.wrapper.getNdim = .ok 2) (hs : ¬ Single old) (hlc : old.length = g.wrapper.columns.length) (hm : g.allowModify = true) :
    g.wrapReduced whole (.index (List.replicate old.length l)) [v] = .ok (.perColumn [l] [v]) := by
  have hne : List.replicate old.length l ≠ old := by
    intro e
    apply hs
    rw [← e]
    intro a ha b hb
    rw [(List.mem_replicate.mp ha).2, (List.mem_replicate.mp hb).2]
  have hf : OneLabelEach g.wrapper.columns.length (.index (List.replicate old.length l)) := by simp [OneLabelEach, hlc]
  have hreg : g.regroup whole (.index (List.replicate old.length l)) =
      .ok { g with wrapper := { g.wrapper with groupBy := some (List.replicate old.length l), groupedNdim := some 2 } } := by
    unfold RestrictedWrapper.regroup
    have h1 : g.wrapper.groupingChanged (.index (List.replicate old.length l)) = true := by simp [Wrapper.groupingChanged, ho, hne]
    have h2 : (g.wrapper.isGroupedBy (.index (List.replicate old.length l)) &&
        !g.wrapper.groupCountChanged (.index (List.replicate old.length l))) = true := by
      simp [Wrapper.isGroupedBy, Wrapper.groupCountChanged, ho]
    have h3 : g.check whole (.index (List.replicate old.length l)) = .ok () := (C87_check hf).mpr (by rw [ho]; exact .inl hm)
    rw [if_pos h1, h3]
    dsimp only
    rw [if_pos h2, hd]
    dsimp only
    unfold RestrictedWrapper.withGroups
    rw [toIndex_ok hf (by simp)]
    rfl
  have hu : (factorize ((List.replicate old.length l).map some)).1 = [l] := by
    have fs := firstSeen_factorize (List.replicate old.length l)
    have hsing : Single (List.replicate old.length l) := fun a ha b hb => by
      rw [(List.mem_replicate.mp ha).2, (List.mem_replicate.mp hb).2]
    have h1 := fs.single.mp hsing
    have hpos : old.length ≠ 0 := by
      intro h0
      rw [List.length_eq_zero_iff] at h0
      subst h0
      exact hs (fun a ha => by cases ha)
    have hmem : l ∈ (factorize ((List.replicate old.length l).map some)).1 :=
      (fs.mem l).mpr (List.mem_replicate.mpr ⟨hpos, rfl⟩)
    match hx : (factorize ((List.replicate old.length l).map some)).1 with
    | [] => rw [hx] at hmem; cases hmem
    | [x] => rw [hx] at hmem; rw [List.mem_singleton.mp hmem]
    | _ :: _ :: _ => rw [hx] at h1; simp at h1
  unfold RestrictedWrapper.wrapReduced RestrictedWrapper.resolve
  rw [hreg]
  dsimp only [Wrapper.getNdim]
  rw [hu]
  rfl

/-! ## Concrete cases -/

/-- Three columns in one group. -/
def wOne : RestrictedWrapper String := ⟨⟨["x", "y", "z"], 2, some ["group", "group", "group"], none⟩, true, true, true⟩

/-- Three columns in two groups. -/
def wTwo : RestrictedWrapper String := ⟨⟨["x", "y", "z"], 2, some ["a", "a", "b"], none⟩, true, true, true⟩

-- as a list the new labels show, as a `pd.Index` they are lost
example : wOne.wrapReduced "group" (.seq ["a", "b", "b"]) [1, 2] = .ok (.perColumn ["a", "b"] [1, 2]) := by decide +kernel
example : wOne.wrapReduced "group" (.index ["a", "b", "b"]) [1, 2] = .ok (.unlabelled (some "a") [1, 2]) := by decide +kernel
example : wTwo.wrapReduced "group" .whole [3] = .ok (.scalar 3) := by decide +kernel
example : wTwo.wrapReduced "group" (.index ["g", "g", "g"]) [3] = .ok (.perColumn ["g"] [3]) := by decide +kernel

-- hypotheses are met
example : ∃ first, ["a", "b", "b"].head? = some first ∧
    wOne.wrapReduced "group" (.index ["a", "b", "b"]) [1, 2] = .ok (.unlabelled (some first) [1, 2]) :=
  C87_stale (old := ["group", "group", "group"]) rfl (by decide +kernel) (by unfold Single; decide) rfl rfl
    (by unfold Single; decide) rfl (by decide +kernel)
example : wTwo.wrapReduced "group" (.index (List.replicate 3 "g")) [3] = .ok (.perColumn ["g"] [3]) :=
  C87_stale_joined (old := ["a", "a", "b"]) rfl (by decide +kernel) (by unfold Single; decide) rfl rfl
example : (sharedGuard true wTwo).check "group" (.seq ["u", "u", "v"]) = .ok () ↔
    Permitted (sharedGuard true wTwo) (some ["a", "a", "b"]) (some ["u", "u", "v"]) :=
  C87_check (g := sharedGuard true wTwo) (a := .seq ["u", "u", "v"]) rfl
example : (sharedGuard true wTwo).check "group" (.seq ["u", "u", "v"]) = .ok () := by decide +kernel
example : raised ((sharedGuard true wTwo).check "group" (.seq ["u", "v", "v"])) (.valueError "Modifying groups is not allowed") = true :=
  by decide +kernel
example : (∃ e, wTwo.resolveGroupBy "group" (.seq ["u"]) = .error e) ∧ (∃ e, wTwo.regroup "group" (.seq ["u"]) = .error e) ∧
    ∃ e, wTwo.resolve "group" (.seq ["u"]) = .error e :=
  C87_misfit (by simp [OneLabelEach, wTwo]) (fun ls h => by cases h; rfl)
example : ∃ r, wTwo.regroup "group" (.seq ["u", "v", "v"]) = .ok r :=
  C87_regroup_accepts rfl (.inl rfl) (fun ls h => by
    cases h
    exact (codes_sorted_iff _).mp ((isSortedArr_iff _).mp (by decide +kernel)))
example : okAnd (pfRegroup "group" true wTwo (.seq ["u", "u", "v"]))
    (fun r => r.wrapper.groupBy == some ["u", "u", "v"]) = true := by decide +kernel
example : ∃ e, pfRegroup "group" true wTwo .off = .error e := C87_shared_ungroup (ls := ["a", "a", "b"]) rfl
example : okAnd ((sharedGuard true wTwo).resolve "group" .off) (fun r => r.wrapper.columns == ["x", "y", "z"]) = true := by
  decide +kernel
example : DimsKept wOne.wrapper ["a", "b", "b"] (.seq ["a", "b", "b"]) ∧ RightDims wOne.wrapper := ⟨trivial, fun _ _ _ h => by cases h⟩

end Vbt
