import Verif.Spec.Broadcasting
import Verif.Lemmas.IndexFns

/-! # Lemmas for broadcasting -/

namespace Vbt

/-! ## Shapes -/

theorem forall₂_append_single {α β : Type} {R : α → β → Prop} {l : List α} {m : List β} {a : α} {b : β} :
    List.Forall₂ R (l ++ [a]) (m ++ [b]) ↔ List.Forall₂ R l m ∧ R a b := by
  rw [← List.forall₂_reverse_iff, List.reverse_append, List.reverse_append]
  simp only [List.reverse_cons, List.reverse_nil, List.nil_append, List.cons_append, List.forall₂_cons]
  rw [List.forall₂_reverse_iff, and_comm]

/-- The two descriptions of shapes that fit. -/
theorem fitsRev_iff (s t : List Nat) : fitsRev s t = true ↔ Broadcastable s.reverse t.reverse := by
  induction s generalizing t with
  | nil => simp [fitsRev, Broadcastable]
  | cons a s ih =>
    cases t with
    | nil => simp [fitsRev, Broadcastable]
    | cons b t =>
      have h := ih t
      unfold Broadcastable at h ⊢
      rw [fitsRev, Bool.and_eq_true, h]
      simp only [List.length_reverse, List.length_append, List.length_cons, List.length_nil, List.reverse_cons, Nat.zero_add,
        Nat.add_le_add_iff_right, Nat.add_sub_add_right, Bool.or_eq_true, decide_eq_true_eq]
      constructor
      · rintro ⟨h1, h2, h3⟩
        refine ⟨h2, ?_⟩
        rw [List.drop_append_of_le_length (by rw [List.length_reverse]; omega)]
        exact forall₂_append_single.mpr ⟨h3, h1⟩
      · rintro ⟨h2, h3⟩
        rw [List.drop_append_of_le_length (by rw [List.length_reverse]; omega)] at h3
        exact ⟨(forall₂_append_single.mp h3).2, h2, (forall₂_append_single.mp h3).1⟩

theorem fits_iff (s t : List Nat) : fitsRev s.reverse t.reverse = true ↔ Broadcastable s t := by
  rw [fitsRev_iff, List.reverse_reverse, List.reverse_reverse]

/-- The joined shape is the least one to which both shapes can be broadcast. -/
theorem joinRev_iff (s t u : List Nat) :
    (∃ r, joinRev s t = some r ∧ fitsRev r u = true) ↔ fitsRev s u = true ∧ fitsRev t u = true := by
  induction s generalizing t u with
  | nil => simp [joinRev, fitsRev]
  | cons a s ih =>
    cases t with
    | nil => simp [joinRev, fitsRev]
    | cons b t =>
      cases u with
      | nil =>
        constructor
        · rintro ⟨r, hr, hf⟩
          rw [joinRev] at hr
          split at hr
          · simp only [Option.some.injEq] at hr
            subst hr
            simp [fitsRev] at hf
          · exact absurd hr (by simp)
        · rintro ⟨h, _⟩; simp [fitsRev] at h
      | cons c u =>
        have h := ih t u
        constructor
        · rintro ⟨r, hr, hf⟩
          rw [joinRev] at hr
          split at hr
          · rename_i d r' hd hj
            simp only [Option.some.injEq] at hr
            subst hr
            rw [fitsRev, Bool.and_eq_true] at hf
            obtain ⟨h1, h2⟩ := h.mp ⟨r', hj, hf.2⟩
            rw [fitsRev, fitsRev, Bool.and_eq_true, Bool.and_eq_true]
            refine ⟨⟨?_, h1⟩, ?_, h2⟩ <;>
            · have h0 := hf.1
              simp only [Bool.or_eq_true, decide_eq_true_eq] at h0 ⊢
              by_cases ha : a = 1
              · rw [if_pos ha] at hd
                simp only [Option.some.injEq] at hd
                omega
              · rw [if_neg ha] at hd
                by_cases hb : b = 1
                · rw [if_pos hb] at hd
                  simp only [Option.some.injEq] at hd
                  omega
                · rw [if_neg hb] at hd
                  by_cases hab : a = b
                  · rw [if_pos hab] at hd
                    simp only [Option.some.injEq] at hd
                    omega
                  · rw [if_neg hab] at hd
                    exact absurd hd (by simp)
          · exact absurd hr (by simp)
        · rintro ⟨h1, h2⟩
          rw [fitsRev, Bool.and_eq_true, Bool.or_eq_true, decide_eq_true_eq, decide_eq_true_eq] at h1 h2
          obtain ⟨r, hr, hf⟩ := h.mpr ⟨h1.2, h2.2⟩
          have hd : ∃ d, (if a = 1 then some b else if b = 1 then some a else if a = b then some a else none) = some d ∧
              (d = 1 ∨ d = c) := by
            by_cases ha : a = 1
            · exact ⟨b, by rw [if_pos ha], h2.1⟩
            · rw [if_neg ha]
              by_cases hb : b = 1
              · exact ⟨a, by rw [if_pos hb], h1.1⟩
              · rw [if_neg hb]
                exact ⟨a, by rw [if_pos (by omega)], h1.1⟩
          obtain ⟨d, hd, hc⟩ := hd
          refine ⟨d :: r, ?_, ?_⟩
          · rw [joinRev, hd, hr]
          · rw [fitsRev, Bool.and_eq_true]
            exact ⟨by simpa using hc, hf⟩

theorem fitsRev_refl (s : List Nat) : fitsRev s s = true := by
  induction s with
  | nil => rfl
  | cons a s ih => rw [fitsRev, ih]; simp

theorem broadcastShapes_iff (shapes : List (List Nat)) (acc u : List Nat) :
    (∃ t, broadcastShapes shapes acc = .ok t ∧ fitsRev t.reverse u = true) ↔
      fitsRev acc u = true ∧ ∀ s ∈ shapes, fitsRev s.reverse u = true := by
  induction shapes generalizing acc with
  | nil =>
    rw [broadcastShapes]
    constructor
    · rintro ⟨t, ht, hf⟩
      injection ht with ht
      subst ht
      rw [List.reverse_reverse] at hf
      exact ⟨hf, by simp⟩
    · rintro ⟨hf, _⟩
      exact ⟨_, rfl, by rw [List.reverse_reverse]; exact hf⟩
  | cons s rest ih =>
    rw [broadcastShapes]
    have hj := joinRev_iff s.reverse acc u
    constructor
    · rintro ⟨t, ht, hf⟩
      split at ht
      · exact absurd ht (by simp)
      · rename_i r hr
        obtain ⟨h1, h2⟩ := (ih r).mp ⟨t, ht, hf⟩
        obtain ⟨h3, h4⟩ := hj.mp ⟨r, hr, h1⟩
        refine ⟨h4, ?_⟩
        intro s' hs'
        rcases List.mem_cons.mp hs' with h | h
        · rw [h]; exact h3
        · exact h2 s' h
    · rintro ⟨h1, h2⟩
      obtain ⟨r, hr, hf⟩ := hj.mpr ⟨h2 s (by simp), h1⟩
      rw [hr]
      dsimp only
      exact (ih r).mpr ⟨hf, fun s' hs' => h2 s' (by simp [hs'])⟩

/-- The position that is shown, from the last dimension on and from the first dimension on. -/
theorem srcRev_reverse (s p : List Nat) (h : s.length ≤ p.length) :
    (srcRev s.reverse p.reverse).reverse =
      List.zipWith (fun d j => if d = 1 then 0 else j) s (p.drop (p.length - s.length)) := by
  have key : ∀ s p : List Nat, s.length ≤ p.length →
      srcRev s p = List.zipWith (fun d j => if d = 1 then 0 else j) s (p.take s.length) := by
    intro s
    induction s with
    | nil => intro p _; simp [srcRev]
    | cons d s ih =>
      intro p hp
      cases p with
      | nil => simp at hp
      | cons q p =>
        rw [srcRev, ih p (by simpa using hp)]
        simp
  rw [key _ _ (by simpa using h), List.reverse_zipWith (by simp; omega), List.reverse_reverse]
  congr 1
  rw [List.length_reverse, List.take_reverse, List.reverse_reverse]

/-! ## Labels -/

variable {N V : Type} [DecidableEq N] [DecidableEq V]

omit [DecidableEq N] [DecidableEq V] in
theorem lev_ext_lists {a b : List (Lev N V)} (h1 : a.map Lev.name = b.map Lev.name) (h2 : a.map Lev.vals = b.map Lev.vals) :
    a = b := by
  induction a generalizing b with
  | nil => cases b with
    | nil => rfl
    | cons y b => simp at h1
  | cons x a ih => cases b with
    | nil => simp at h1
    | cons y b =>
      simp only [List.map_cons, List.cons.injEq] at h1 h2
      obtain ⟨n1, v1⟩ := x
      obtain ⟨n2, v2⟩ := y
      dsimp only at h1 h2
      rw [h1.1, h2.1, ih h1.2 h2.2]

theorem isIndexEqual_iff (a b : Idx N V) : isIndexEqual true a b = true ↔ a = b := by
  cases a with
  | single a =>
    cases b with
    | single b =>
      obtain ⟨n1, v1⟩ := a
      obtain ⟨n2, v2⟩ := b
      simp [isIndexEqual]
    | multi b => simp [isIndexEqual]
  | multi a =>
    cases b with
    | single b => simp [isIndexEqual]
    | multi b =>
      constructor
      · intro h
        simp only [isIndexEqual, Bool.not_true, Bool.false_or, Bool.and_eq_true, decide_eq_true_eq] at h
        rw [lev_ext_lists h.1 h.2]
      · intro h
        injection h with h
        subst h
        simp [isIndexEqual]

theorem conflictLoop_same (l : List (Bool × Idx N V)) (p : Idx N V) (c : Bool) :
    ((conflictLoop l (some p) c).2 = false ↔ c = false ∧ ∀ x ∈ l, x.2 = p) ∧
      ((conflictLoop l (some p) c).2 = false → (conflictLoop l (some p) c).1 = some p) := by
  induction l generalizing p c with
  | nil => simp [conflictLoop]
  | cons x l ih =>
    obtain ⟨s, i⟩ := x
    rw [conflictLoop]
    obtain ⟨h1, h2⟩ := ih i (if isIndexEqual true i p = true then c else true)
    have hc : (if isIndexEqual true i p = true then c else true) = false ↔ c = false ∧ i = p := by
      by_cases h : isIndexEqual true i p = true
      · rw [if_pos h]
        rw [isIndexEqual_iff] at h
        simp [h]
      · rw [if_neg h]
        rw [isIndexEqual_iff] at h
        simp [h]
    constructor
    · rw [h1, hc]
      constructor
      · rintro ⟨⟨a1, a2⟩, a3⟩
        refine ⟨a1, ?_⟩
        intro y hy
        rcases List.mem_cons.mp hy with h | h
        · rw [h]; exact a2
        · rw [a3 y h, a2]
      · rintro ⟨a1, a2⟩
        have hi : i = p := a2 (s, i) (by simp)
        exact ⟨⟨a1, hi⟩, fun y hy => by rw [hi]; exact a2 y (by simp [hy])⟩
    · intro h
      rw [h2 h]
      exact congrArg some (hc.mp (h1.mp h).1).2

/-- The labels differ, or there are none, or all are the same. -/
theorem ruleIndex_cases {α : Type} (nat : Nat → V) (o : BcLabels) (axis1 strict : Bool) (args : List (BArg N V α)) :
    ruleIndex nat o axis1 strict args =
      match pdIndexes nat axis1 args with
      | [] => .ok none
      | x :: l =>
        if ∀ y ∈ l, y.2 = x.2 then .ok (some x.2)
        else stackLoop nat o axis1 strict (x :: l) none := by
  unfold ruleIndex
  cases hp : pdIndexes nat axis1 args with
  | nil => rfl
  | cons x l =>
    obtain ⟨s, i⟩ := x
    dsimp only
    have h := conflictLoop_same l i false
    have he : conflictLoop ((s, i) :: l) none false = conflictLoop l (some i) false := rfl
    rw [he]
    by_cases hc : (conflictLoop l (some i) false).2 = true
    · rw [if_pos hc, if_neg]
      intro hall
      have := h.1.mpr ⟨rfl, hall⟩
      rw [hc] at this
      exact absurd this (by decide)
    · have hc' : (conflictLoop l (some i) false).2 = false := by simpa using hc
      rw [if_neg hc, if_pos (h.1.mp hc').2, h.2 hc']

omit [DecidableEq V] in
theorem two_of_ne {l : List V} (h : ∃ v ∈ l, ∃ w ∈ l, v ≠ w) : 2 ≤ l.length := by
  obtain ⟨v, hv, w, hw, hne⟩ := h
  match l with
  | [] => simp at hv
  | [x] =>
    simp only [List.mem_singleton] at hv hw
    exact absurd (hv.trans hw.symm) hne
  | _ :: _ :: _ => simp

theorem carried_self {i : Idx N V} (h : i.WF) {l : Lev N V} (hl : l ∈ i.levels) : Carried l i := by
  have hlen := h.same_len l hl
  refine ⟨Or.inr hlen, l, hl, rfl, ?_⟩
  intro k hk
  by_cases h1 : l.vals.length = 1
  · rw [if_pos h1, show k = 0 by omega]
  · rw [if_neg h1]

omit [DecidableEq N] [DecidableEq V] in
/-- A level that says something is not dropped when labels are stacked. -/
theorem telling_kept {nat : Nat → V} {l l' : Lev N V} {m : Nat} (ht : Telling nat l) (hfit : l.vals.length = 1 ∨ l.vals.length = m)
    (hn : l'.name = l.name) (hlen : l'.vals.length = m)
    (hv : ∀ k : Nat, k < m → l'.vals[k]? = l.vals[if l.vals.length = 1 then 0 else k]?) :
    ¬ Redundant nat m l' := by
  rintro ⟨h1, h2⟩
  rcases ht with ht | ⟨hd, hr⟩
  · exact ht (hn ▸ h1)
  · have hl2 := two_of_ne hd
    have hlm : l.vals.length = m := by omega
    have he : l'.vals = l.vals := by
      apply List.ext_getElem?
      intro k
      by_cases hk : k < m
      · rw [hv k hk, if_neg (by omega)]
      · rw [List.getElem?_eq_none (by omega), List.getElem?_eq_none (by omega)]
    rw [he] at h2
    rcases h2 with ⟨_, v, _, hall⟩ | h2
    · obtain ⟨a, ha, b, hb, hne⟩ := hd
      exact hne ((hall a ha).trans (hall b hb).symm)
    · exact hr h2

theorem mem_stackedLevs {nat : Nat → V} {o : StackOpts} {ls : List (Lev N V)} {n : Nat} (h : ∀ l ∈ ls, l.vals.length = n)
    {l : Lev N V} (hl : l ∈ ls) (hr : ¬ Redundant nat n l) : l ∈ stackedLevs nat o ls := by
  unfold stackedLevs
  dsimp only
  have hd : l ∈ (if o.dropDuplicates then keptLevs o.keep ls else ls) := by
    by_cases h1 : o.dropDuplicates = true
    · rw [if_pos h1]; exact (keptLevs_mem _ _ _).mpr hl
    · rw [if_neg h1]; exact hl
  have hn : ∀ l ∈ (if o.dropDuplicates then keptLevs o.keep ls else ls), l.vals.length = n := by
    intro m hm
    by_cases h1 : o.dropDuplicates = true
    · rw [if_pos h1] at hm; exact h m ((keptLevs_mem _ _ _).mp hm)
    · rw [if_neg h1] at hm; exact h m hm
  generalize (if o.dropDuplicates then keptLevs o.keep ls else ls) = d at hd hn
  by_cases h2 : o.dropRedundant = true
  · rw [if_pos h2]
    unfold leftLevs
    have hlev : levsLen d = n := by
      cases d with
      | nil => simp at hd
      | cons a t => exact hn a (by simp)
    rw [hlev]
    have hm : l ∈ d.filter (fun l => !redundantLev nat n l) := by
      rw [List.mem_filter]
      refine ⟨hd, ?_⟩
      rw [Bool.not_eq_true', ← Bool.not_eq_true, redundantLev_iff]
      exact hr
    rw [if_neg (List.ne_nil_of_mem hm)]
    exact hm
  · rw [if_neg h2]; exact hd

theorem carried_stack (nat : Nat → V) (o : StackOpts) (hk : o.keep.toLower = "first" ∨ o.keep.toLower = "last")
    {a b : Idx N V} {m : Nat} (ha : a.WF) (hb : b.WF) (hla : a.len = m) (hlb : b.len = m) :
    ∃ j, stackIndexes nat o [a, b] = .ok j ∧ j.WF ∧ j.len = m ∧
      ∀ l, Telling nat l → Carried l a ∨ Carried l b → Carried l j := by
  have h0 : [a, b].flatMap Idx.levels ≠ [] := by
    have := ha.some_level
    simp [List.flatMap_cons, this]
  have hall : ∀ l ∈ [a, b].flatMap Idx.levels, l.vals.length = m := by
    intro l hl
    simp only [List.flatMap_cons, List.flatMap_nil, List.append_nil, List.mem_append] at hl
    rcases hl with hl | hl
    · rw [ha.same_len l hl, hla]
    · rw [hb.same_len l hl, hlb]
  obtain ⟨j, e, hj, hw, hlen⟩ := stackIndexes_ok nat o hk h0 hall
  refine ⟨j, e, hw, hlen, ?_⟩
  intro l ht hc
  have hx : ∃ l' ∈ [a, b].flatMap Idx.levels, l'.name = l.name ∧ (l.vals.length = 1 ∨ l.vals.length = m) ∧
      ∀ k : Nat, k < m → l'.vals[k]? = l.vals[if l.vals.length = 1 then 0 else k]? := by
    rcases hc with ⟨hf, l', hl', hn, hv⟩ | ⟨hf, l', hl', hn, hv⟩
    · exact ⟨l', by simp [List.flatMap_cons, hl'], hn, by rw [← hla]; exact hf, by rw [← hla]; exact hv⟩
    · exact ⟨l', by simp [List.flatMap_cons, hl'], hn, by rw [← hlb]; exact hf, by rw [← hlb]; exact hv⟩
  obtain ⟨l', hl', hn, hf, hv⟩ := hx
  refine ⟨by rw [hlen]; exact hf, l', ?_, hn, by rw [hlen]; exact hv⟩
  rw [hj]
  exact mem_stackedLevs hall hl' (telling_kept ht hf hn (hall l' hl') hv)

theorem carried_repeat (nat : Nat → V) (ign : Bool) {j : Idx N V} (hw : j.WF) (h1 : j.len = 1) (n : Nat) {l : Lev N V}
    (ht : Telling nat l) (hc : Carried l j) : Carried l (repeatIndex nat ign j n) := by
  obtain ⟨hf, l', hl', hn, hv⟩ := hc
  have hl1 : l.vals.length = 1 := by omega
  have hname : l.name ≠ none := by
    rcases ht with ht | ⟨hd, _⟩
    · exact ht
    · have := two_of_ne hd; omega
  have hwr := wf_repeatIndex nat ign hw n
  refine ⟨Or.inl hl1, ⟨l'.name, repeatList n l'.vals⟩, ?_, hn, ?_⟩
  · unfold repeatIndex
    rw [if_neg]
    · rw [levels_mapVals]
      exact List.mem_map.mpr ⟨l', hl', rfl⟩
    · intro hd
      rw [Bool.and_eq_true] at hd
      have hd1 : isDefaultIndex nat j = true := hd.1
      unfold isDefaultIndex at hd1
      rw [isIndexEqual_iff] at hd1
      rw [hd1] at hl'
      simp only [rangeIndex, Idx.levels, List.mem_singleton] at hl'
      rw [hl'] at hn
      exact hname hn.symm
  · intro k hk
    rw [hwr.2, h1, Nat.one_mul] at hk
    have hl'1 : l'.vals.length = 1 := by rw [hw.same_len l' hl', h1]
    rw [repeatList_get n l'.vals k (by rw [hl'1]; omega), if_pos hl1]
    have := hv 0 (by omega)
    rw [if_pos hl1] at this
    rw [← this, Nat.div_eq_of_lt hk]

theorem stackPair_ok (nat : Nat → V) (o : BcLabels) (hk : o.stack.keep.toLower = "first" ∨ o.stack.keep.toLower = "last")
    {n i : Idx N V} {R : Nat} (hR : 1 ≤ R) (hn : n.WF) (hi : i.WF) (hnl : n.len = 1 ∨ n.len = R) (hil : i.len = 1 ∨ i.len = R) :
    ∃ j, stackPair nat o n i = .ok j ∧ j.WF ∧ (j.len = 1 ∨ j.len = R) ∧
      ∀ l, Telling nat l → Carried l n ∨ Carried l i → Carried l j := by
  unfold stackPair
  by_cases h : i.len = n.len
  · rw [if_neg (by simpa using h)]
    obtain ⟨j, e, hw, hl, hc⟩ := carried_stack nat o.stack hk hn hi (m := n.len) rfl h
    exact ⟨j, e, hw, by rw [hl]; exact hnl, hc⟩
  · rw [if_pos h, if_neg (by omega)]
    by_cases hg : i.len > n.len
    · rw [if_pos hg]
      have hn1 : n.len = 1 := by omega
      have hr := wf_repeatIndex nat o.ignoreDefault hn i.len
      obtain ⟨j, e, hw, hl, hc⟩ := carried_stack nat o.stack hk hr.1 hi (m := i.len) (by rw [hr.2, hn1]; omega) rfl
      refine ⟨j, e, hw, by rw [hl]; exact hil, ?_⟩
      intro l ht hh
      exact hc l ht (hh.imp_left (fun h => carried_repeat nat _ hn hn1 _ ht h))
    · rw [if_neg hg]
      have hi1 : i.len = 1 := by omega
      have hr := wf_repeatIndex nat o.ignoreDefault hi n.len
      obtain ⟨j, e, hw, hl, hc⟩ := carried_stack nat o.stack hk hn hr.1 (m := n.len) rfl (by rw [hr.2, hi1]; omega)
      refine ⟨j, e, hw, by rw [hl]; exact hnl, ?_⟩
      intro l ht hh
      exact hc l ht (hh.imp_right (fun h => carried_repeat nat _ hi hi1 _ ht h))

/-- Labels that are looked at if labels differ. -/
def Looked (nat : Nat → V) (o : BcLabels) (axis1 : Bool) (x : Bool × Idx N V) : Prop :=
  (axis1 && x.1 && o.ignoreSrNames) = false ∧ isDefaultIndex nat x.2 = false

theorem stackLoop_ok (nat : Nat → V) (o : BcLabels) (hk : o.stack.keep.toLower = "first" ∨ o.stack.keep.toLower = "last")
    (axis1 : Bool) {R : Nat} (hR : 1 ≤ R) (xs : List (Bool × Idx N V)) (new : Option (Idx N V))
    (hx : ∀ x ∈ xs, x.2.WF ∧ (x.2.len = 1 ∨ x.2.len = R)) (hn : ∀ n, new = some n → n.WF ∧ (n.len = 1 ∨ n.len = R)) :
    ∃ r, stackLoop nat o axis1 false xs new = .ok r ∧ (∀ j, r = some j → j.WF ∧ (j.len = 1 ∨ j.len = R)) ∧
      ∀ l, Telling nat l →
        (∃ n, new = some n ∧ Carried l n) ∨ (∃ x ∈ xs, Looked nat o axis1 x ∧ l ∈ x.2.levels) →
        ∃ j, r = some j ∧ Carried l j := by
  induction xs generalizing new with
  | nil =>
    refine ⟨new, rfl, hn, ?_⟩
    rintro l _ (h | ⟨x, hx, _⟩)
    · exact h
    · simp at hx
  | cons x xs ih =>
    obtain ⟨sr, index⟩ := x
    have hxs : ∀ x ∈ xs, x.2.WF ∧ (x.2.len = 1 ∨ x.2.len = R) := fun y hy => hx y (by simp [hy])
    have hi := hx (sr, index) (by simp)
    rw [stackLoop.eq_def]
    dsimp only
    by_cases hs : (axis1 && sr && o.ignoreSrNames) = true
    · rw [if_pos hs]
      obtain ⟨r, e, h1, h2⟩ := ih new hxs hn
      refine ⟨r, e, h1, ?_⟩
      intro l ht hh
      apply h2 l ht
      refine hh.imp_right ?_
      rintro ⟨y, hy, hlk, hl⟩
      rcases List.mem_cons.mp hy with h | h
      · subst h; exact absurd hlk.1 (by rw [hs]; decide)
      · exact ⟨y, h, hlk, hl⟩
    · rw [if_neg hs]
      by_cases hd : isDefaultIndex nat index = true
      · rw [if_pos hd]
        obtain ⟨r, e, h1, h2⟩ := ih new hxs hn
        refine ⟨r, e, h1, ?_⟩
        intro l ht hh
        apply h2 l ht
        refine hh.imp_right ?_
        rintro ⟨y, hy, hlk, hl⟩
        rcases List.mem_cons.mp hy with h | h
        · subst h; exact absurd hlk.2 (by rw [hd]; decide)
        · exact ⟨y, h, hlk, hl⟩
      · rw [if_neg hd]
        -- the labels afterwards carry those before and those of this argument
        have step : ∀ n' : Idx N V, n'.WF ∧ (n'.len = 1 ∨ n'.len = R) →
            (∀ l, Telling nat l → (∃ n, new = some n ∧ Carried l n) ∨ l ∈ index.levels → Carried l n') →
            ∃ r, stackLoop nat o axis1 false xs (some n') = .ok r ∧ (∀ j, r = some j → j.WF ∧ (j.len = 1 ∨ j.len = R)) ∧
              ∀ l, Telling nat l →
                (∃ n, new = some n ∧ Carried l n) ∨ (∃ x ∈ (sr, index) :: xs, Looked nat o axis1 x ∧ l ∈ x.2.levels) →
                ∃ j, r = some j ∧ Carried l j := by
          intro n' hn' hcar
          obtain ⟨r, e, h1, h2⟩ := ih (some n') hxs (fun n h => by injection h with h; subst h; exact hn')
          refine ⟨r, e, h1, ?_⟩
          intro l ht hh
          apply h2 l ht
          rcases hh with hh | ⟨y, hy, hlk, hl⟩
          · exact Or.inl ⟨n', rfl, hcar l ht (Or.inl hh)⟩
          · rcases List.mem_cons.mp hy with h | h
            · subst h; exact Or.inl ⟨n', rfl, hcar l ht (Or.inr hl)⟩
            · exact Or.inr ⟨y, h, hlk, hl⟩
        cases new with
        | none =>
          dsimp only
          apply step index hi
          rintro l _ (⟨n, h, _⟩ | h)
          · exact absurd h (by simp)
          · exact carried_self hi.1 h
        | some n =>
          dsimp only
          have hn' := hn n rfl
          by_cases he : isIndexEqual true index n = true
          · rw [if_pos he]
            rw [isIndexEqual_iff] at he
            subst he
            apply step index hi
            rintro l _ (⟨n, h, hc⟩ | h)
            · injection h with h; subst h; exact hc
            · exact carried_self hi.1 h
          · rw [if_neg he, if_neg (by simp)]
            obtain ⟨j, e, hw, hl, hc⟩ := stackPair_ok nat o hk hR hn'.1 hi.1 hn'.2 hi.2
            rw [e]
            dsimp only
            apply step j ⟨hw, hl⟩
            rintro l ht (⟨n2, h, hc2⟩ | h)
            · injection h with h; subst h; exact hc l ht (Or.inl hc2)
            · exact hc l ht (Or.inr (carried_self hi.1 h))

/-! ## Strict labels -/

/-- The test of `Looked`. -/
def lookedB (nat : Nat → V) (o : BcLabels) (axis1 : Bool) (x : Bool × Idx N V) : Bool :=
  !(axis1 && x.1 && o.ignoreSrNames) && !isDefaultIndex nat x.2

theorem lookedB_iff (nat : Nat → V) (o : BcLabels) (axis1 : Bool) (x : Bool × Idx N V) :
    lookedB nat o axis1 x = true ↔ Looked nat o axis1 x := by
  unfold lookedB Looked
  simp only [Bool.and_eq_true, Bool.not_eq_true']

theorem stackLoop_strict (nat : Nat → V) (o : BcLabels) (axis1 : Bool) (xs : List (Bool × Idx N V)) (n : Idx N V) :
    stackLoop nat o axis1 true xs (some n) =
      if ∀ x ∈ xs, lookedB nat o axis1 x = true → x.2 = n then .ok (some n)
      else .error (.valueError "Broadcasting index is not allowed when index_from=strict") := by
  induction xs with
  | nil => rw [if_pos (by simp)]; rfl
  | cons x xs ih =>
    obtain ⟨sr, index⟩ := x
    rw [stackLoop.eq_def]
    dsimp only
    by_cases hl : lookedB nat o axis1 (sr, index) = true
    · have h2 := (lookedB_iff nat o axis1 _).mp hl
      rw [if_neg (by rw [h2.1]; decide), if_neg (by rw [h2.2]; decide)]
      by_cases he : isIndexEqual true index n = true
      · rw [if_pos he, ih]
        rw [isIndexEqual_iff] at he
        have : (∀ x ∈ (sr, index) :: xs, lookedB nat o axis1 x = true → x.2 = n) ↔
            ∀ x ∈ xs, lookedB nat o axis1 x = true → x.2 = n := by
          constructor
          · exact fun h x hx => h x (by simp [hx])
          · intro h x hx hk
            rcases List.mem_cons.mp hx with h1 | h1
            · rw [h1]; exact he
            · exact h x h1 hk
        simp only [this]
      · rw [if_neg he, if_pos rfl, if_neg]
        intro h
        rw [isIndexEqual_iff] at he
        exact he (h (sr, index) (by simp) hl)
    · have hskip : stackLoop nat o axis1 true xs (some n) =
          (if (axis1 && sr && o.ignoreSrNames) = true then stackLoop nat o axis1 true xs (some n)
          else if isDefaultIndex nat index = true then stackLoop nat o axis1 true xs (some n)
          else if isIndexEqual true index n = true then stackLoop nat o axis1 true xs (some n)
          else if true = true then .error (.valueError "Broadcasting index is not allowed when index_from=strict")
          else
            match stackPair nat o n index with
            | .error e => .error e
            | .ok n' => stackLoop nat o axis1 true xs (some n')) := by
        by_cases h1 : (axis1 && sr && o.ignoreSrNames) = true
        · rw [if_pos h1]
        · rw [if_neg h1]
          by_cases h2 : isDefaultIndex nat index = true
          · rw [if_pos h2]
          · exfalso
            apply hl
            rw [lookedB_iff]
            exact ⟨by simpa using h1, by simpa using h2⟩
      refine hskip.symm.trans ?_
      rw [ih]
      have : (∀ x ∈ (sr, index) :: xs, lookedB nat o axis1 x = true → x.2 = n) ↔
          ∀ x ∈ xs, lookedB nat o axis1 x = true → x.2 = n := by
        constructor
        · exact fun h x hx => h x (by simp [hx])
        · intro h x hx hk
          rcases List.mem_cons.mp hx with h1 | h1
          · rw [h1] at hk; exact absurd hk hl
          · exact h x h1 hk
      simp only [this]

theorem stackLoop_strict_none (nat : Nat → V) (o : BcLabels) (axis1 : Bool) (xs : List (Bool × Idx N V)) :
    stackLoop nat o axis1 true xs none =
      match xs.filter (lookedB nat o axis1) with
      | [] => .ok none
      | x :: rest =>
        if ∀ y ∈ rest, y.2 = x.2 then .ok (some x.2)
        else .error (.valueError "Broadcasting index is not allowed when index_from=strict") := by
  induction xs with
  | nil => rfl
  | cons x xs ih =>
    obtain ⟨sr, index⟩ := x
    rw [stackLoop.eq_def]
    dsimp only
    by_cases hl : lookedB nat o axis1 (sr, index) = true
    · have h2 := (lookedB_iff nat o axis1 _).mp hl
      rw [if_neg (by rw [h2.1]; decide), if_neg (by rw [h2.2]; decide), stackLoop_strict, List.filter_cons, if_pos hl]
      dsimp only
      have : (∀ x ∈ xs, lookedB nat o axis1 x = true → x.2 = index) ↔
          ∀ y ∈ xs.filter (lookedB nat o axis1), y.2 = index := by
        simp only [List.mem_filter, and_imp]
      simp only [this]
    · rw [List.filter_cons, if_neg hl, ← ih]
      by_cases h1 : (axis1 && sr && o.ignoreSrNames) = true
      · rw [if_pos h1]
      · rw [if_neg h1]
        by_cases h2 : isDefaultIndex nat index = true
        · rw [if_pos h2]
        · exfalso
          apply hl
          rw [lookedB_iff]
          exact ⟨by simpa using h1, by simpa using h2⟩

/-! ## The loops over the arguments -/

variable {α : Type}

theorem npBroadcastTo_iff (a : NArr α) (t : List Nat) :
    (∃ b, npBroadcastTo a t = .ok b) ↔ Broadcastable a.shape t := by
  unfold npBroadcastTo
  rw [← fits_iff]
  by_cases h : fitsRev a.shape.reverse t.reverse = true
  · rw [if_pos h]; exact ⟨fun _ => h, fun _ => ⟨_, rfl⟩⟩
  · rw [if_neg h]
    constructor
    · rintro ⟨b, hb⟩; exact absurd hb (by simp)
    · intro h'; exact absurd h' h

theorem npBroadcastTo_ok {a b : NArr α} {t : List Nat} (h : npBroadcastTo a t = .ok b) :
    b.shape = t ∧ ∀ p : List Nat, p.length = t.length → b.get p = (a.broadcastTo t).get p := by
  have hb := (npBroadcastTo_iff a t).mp ⟨b, h⟩
  unfold npBroadcastTo at h
  rw [if_pos ((fits_iff _ _).mpr hb)] at h
  injection h with h
  subst h
  refine ⟨rfl, ?_⟩
  intro p hp
  show a.get _ = a.get _
  rw [srcRev_reverse a.shape p (by rw [hp]; exact hb.1), hp]

theorem bcLoop_ok {keep : PerArg} {t : List Nat} {arrs news : List (NArr α)} {k : Nat}
    (h : bcLoop keep t arrs k = .ok news) :
    news.length = arrs.length ∧ ∀ (n : Nat) (a : NArr α), arrs[n]? = some a →
      ∃ raw b, keep.get (k + n) = .ok raw ∧ npBroadcastTo a t = .ok b ∧ news[n]? = some (if raw then a else b) := by
  induction arrs generalizing k news with
  | nil =>
    rw [bcLoop] at h
    injection h with h
    subst h
    exact ⟨rfl, by simp⟩
  | cons a arrs ih =>
    rw [bcLoop] at h
    split at h
    · exact absurd h (by simp)
    rename_i raw hraw
    split at h
    · exact absurd h (by simp)
    rename_i b hb
    split at h
    · exact absurd h (by simp)
    rename_i bs hbs
    injection h with h
    subst h
    obtain ⟨h1, h2⟩ := ih hbs
    refine ⟨by simp [h1], ?_⟩
    intro n a' hn
    cases n with
    | zero =>
      simp only [List.getElem?_cons_zero, Option.some.injEq] at hn
      subst hn
      exact ⟨raw, b, hraw, hb, rfl⟩
    | succ n =>
      rw [List.getElem?_cons_succ] at hn
      obtain ⟨raw', b', e1, e2, e3⟩ := h2 n a' hn
      exact ⟨raw', b', by rw [← e1]; congr 1; omega, e2, by rw [List.getElem?_cons_succ]; exact e3⟩

theorem bcLoop_total {keep : PerArg} {t : List Nat} {arrs : List (NArr α)} {k : Nat}
    (hk : ∀ n : Nat, n < arrs.length → ∃ raw, keep.get (k + n) = .ok raw) (h : ∀ a ∈ arrs, Broadcastable a.shape t) :
    ∃ news, bcLoop keep t arrs k = .ok news := by
  induction arrs generalizing k with
  | nil => exact ⟨[], rfl⟩
  | cons a arrs ih =>
    obtain ⟨raw, hr⟩ := hk 0 (by simp)
    obtain ⟨b, hb⟩ := (npBroadcastTo_iff a t).mpr (h a (by simp))
    obtain ⟨bs, hbs⟩ := ih (k := k + 1) (fun n hn => by
      obtain ⟨raw, hr⟩ := hk (n + 1) (by simpa using hn)
      exact ⟨raw, by rw [← hr]; congr 1; omega⟩) (fun a' ha' => h a' (by simp [ha']))
    rw [bcLoop, show keep.get k = .ok raw from hr, hb]
    dsimp only
    rw [hbs]
    exact ⟨_, rfl⟩

theorem wrapLoop_ok {nat : Nat → V} {o : BcOpts N V} {isPd : Bool} {i c : Option (Idx N V)}
    {ps : List (BArg N V α × NArr α)} {ws : List (BArg N V α)} {k : Nat} (h : wrapLoop nat o isPd i c ps k = .ok ws) :
    ws.length = ps.length ∧ ∀ (n : Nat) (old : BArg N V α) (new : NArr α), ps[n]? = some (old, new) →
      ∃ w, wrapOne nat o isPd i c old new (k + n) = .ok w ∧ ws[n]? = some w := by
  induction ps generalizing k ws with
  | nil =>
    rw [wrapLoop] at h
    injection h with h
    subst h
    exact ⟨rfl, by simp⟩
  | cons p ps ih =>
    obtain ⟨old, new⟩ := p
    rw [wrapLoop] at h
    split at h
    · exact absurd h (by simp)
    rename_i w hw
    split at h
    · exact absurd h (by simp)
    rename_i ws' hws
    injection h with h
    subst h
    obtain ⟨h1, h2⟩ := ih hws
    refine ⟨by simp [h1], ?_⟩
    intro n old' new' hn
    cases n with
    | zero =>
      simp only [List.getElem?_cons_zero, Option.some.injEq, Prod.mk.injEq] at hn
      obtain ⟨rfl, rfl⟩ := hn
      exact ⟨w, hw, rfl⟩
    | succ n =>
      rw [List.getElem?_cons_succ] at hn
      obtain ⟨w', e1, e2⟩ := h2 n old' new' hn
      exact ⟨w', by rw [← e1]; congr 1; omega, by rw [List.getElem?_cons_succ]; exact e2⟩

theorem wrapLoop_total {nat : Nat → V} {o : BcOpts N V} {isPd : Bool} {i c : Option (Idx N V)}
    {ps : List (BArg N V α × NArr α)} {k : Nat}
    (h : ∀ (n : Nat) (old : BArg N V α) (new : NArr α), ps[n]? = some (old, new) →
      ∃ w, wrapOne nat o isPd i c old new (k + n) = .ok w) :
    ∃ ws, wrapLoop nat o isPd i c ps k = .ok ws := by
  induction ps generalizing k with
  | nil => exact ⟨[], rfl⟩
  | cons p ps ih =>
    obtain ⟨old, new⟩ := p
    obtain ⟨w, hw⟩ := h 0 old new rfl
    obtain ⟨ws, hws⟩ := ih (k := k + 1) (fun n old' new' hn => by
      obtain ⟨w, hw⟩ := h (n + 1) old' new' hn
      exact ⟨w, by rw [← hw]; congr 1; omega⟩)
    rw [wrapLoop, show wrapOne nat o isPd i c old new k = .ok w from hw]
    dsimp only
    rw [hws]
    exact ⟨_, rfl⟩

/-- What `broadcast` did if it returned. -/
theorem broadcast_steps {nat : Nat → V} {o : BcOpts N V} {args : List (BArg N V α)} {r : BcResult N V α}
    (h : broadcast nat o args = .ok r) :
    ∃ news, targetShape o (args.map (toArr2d (bc2d o args))) = .ok r.shape ∧
      bcLoop o.keepRaw r.shape (args.map (toArr2d (bc2d o args))) 0 = .ok news ∧
      bcLabels nat o args r.shape = .ok (r.index, r.columns) ∧
      wrapLoop nat o (bcPd o args) r.index r.columns (args.zip news) 0 = .ok r.args := by
  unfold broadcast at h
  dsimp only at h
  split at h
  · exact absurd h (by simp)
  rename_i t ht
  split at h
  · exact absurd h (by simp)
  rename_i news hn
  split at h
  · exact absurd h (by simp)
  rename_i i c hl
  split at h
  · exact absurd h (by simp)
  rename_i ws hw
  split at h
  · exact absurd h (by simp)
  injection h with h
  subst h
  exact ⟨news, ht, hn, hl, hw⟩

/-- Pandas objects are made of arrays of their shape. -/
theorem mkPandas_ok {nat : Nat → V} {new : NArr α} {i c : Option (Idx N V)} {w : BArg N V α}
    (h : mkPandas nat new i c = .ok w) :
    w.toArr.shape = new.shape ∧ ∀ p : List Nat, p.length = new.shape.length → w.toArr.get p = new.get p := by
  unfold mkPandas at h
  split at h
  · rename_i n hs
    dsimp only at h
    split at h
    · rename_i hl
      injection h with h
      subst h
      refine ⟨by rw [hs]; show [_] = [_]; rw [hl], ?_⟩
      intro p hp
      rw [hs] at hp
      match p, hp with
      | [x], _ => rfl
    · exact absurd h (by simp)
  · rename_i n m hs
    dsimp only at h
    split at h
    · rename_i hl
      injection h with h
      subst h
      refine ⟨by rw [hs]; show [_, _] = [_, _]; rw [hl.1, hl.2], ?_⟩
      intro p hp
      rw [hs] at hp
      match p, hp with
      | [x, y], _ => rfl
    · exact absurd h (by simp)
  · exact absurd h (by simp)

theorem wrapBroadcasted_ok {nat : Nat → V} {o : BcLabels} {old : BArg N V α} {new : NArr α} {pd : Bool}
    {i c : Option (Idx N V)} {w : BArg N V α} (h : wrapBroadcasted nat o old new pd i c = .ok w) :
    w.toArr.shape = new.shape ∧ ∀ p : List Nat, p.length = new.shape.length → w.toArr.get p = new.get p := by
  unfold wrapBroadcasted at h
  by_cases hp : pd = true
  · rw [if_pos hp] at h
    split at h
    · exact mkPandas_ok h
    · exact mkPandas_ok h
  · rw [if_neg hp] at h
    injection h with h
    subst h
    exact ⟨rfl, fun _ _ => rfl⟩

theorem joinRev_length {s t r : List Nat} (h : joinRev s t = some r) : r.length = max s.length t.length := by
  induction s generalizing t r with
  | nil => rw [joinRev] at h; injection h with h; subst h; simp
  | cons a s ih =>
    cases t with
    | nil =>
      have : joinRev (a :: s) [] = some (a :: s) := by simp [joinRev]
      rw [this] at h; injection h with h; subst h; simp
    | cons b t =>
      rw [joinRev] at h
      split at h
      · rename_i d r' _ hj
        injection h with h
        subst h
        rw [List.length_cons, ih hj, List.length_cons, List.length_cons]
        omega
      · exact absurd h (by simp)

theorem broadcastShapes_length {shapes : List (List Nat)} {acc t : List Nat} {n : Nat} (h : broadcastShapes shapes acc = .ok t)
    (ha : acc.length ≤ n) (hs : ∀ s ∈ shapes, s.length ≤ n) : t.length ≤ n := by
  induction shapes generalizing acc with
  | nil => rw [broadcastShapes] at h; injection h with h; subst h; simpa using ha
  | cons s rest ih =>
    rw [broadcastShapes] at h
    split at h
    · exact absurd h (by simp)
    · rename_i r hr
      refine ih h ?_ (fun s' hs' => hs s' (by simp [hs']))
      rw [joinRev_length hr, List.length_reverse]
      have := hs s (by simp)
      omega

/-- A result of two dimensions is worked on in two dimensions, unless this is switched off. -/
theorem bc2d_of_shape {o : BcOpts N V} {args : List (BArg N V α)} {t : List Nat} (hf : o.toFrame ≠ some false)
    (h : targetShape o (args.map (toArr2d (bc2d o args))) = .ok t) (ht : 1 < t.length) : bc2d o args = true := by
  by_contra hb
  have hb' : bc2d o args = false := by simpa using hb
  rw [hb'] at h
  unfold bc2d at hb'
  cases hto : o.toFrame with
  | some b =>
    rw [hto] at hb' hf
    dsimp only at hb'
    rw [hb'] at hf
    exact hf rfl
  | none =>
    rw [hto] at hb'
    dsimp only at hb'
    rw [Bool.or_eq_false_iff] at hb'
    unfold targetShape at h
    cases hsh : o.toShape with
    | some s =>
      rw [hsh] at h hb'
      injection h with h
      subst h
      have := hb'.2
      simp only [decide_eq_false_iff_not] at this
      omega
    | none =>
      rw [hsh] at h
      dsimp only at h
      have := broadcastShapes_length (n := 1) h (by simp) (by
        intro s hs
        obtain ⟨a, ha, rfl⟩ := List.mem_map.mp hs
        obtain ⟨b, hb, rfl⟩ := List.mem_map.mp ha
        have hx := hb'.1
        rw [List.any_eq_false] at hx
        have := hx b hb
        simp only [decide_eq_true_eq] at this
        have he : toArr2d false b = b.toArr := by cases b <;> rfl
        rw [he]
        omega)
      omega

end Vbt
