import Verif.Model.ConfigHeap

/-!
# C51, second part: merging does not modify the arguments
-/

namespace Vbt

/-- From `base` on: objects are new. `h'` has grown out of `h`: objects below `base` are unchanged. -/
structure Grown (base : Nat) (h h' : Heap) : Prop where
  next : h.next ≤ h'.next
  same : ∀ a, a < base → h'.node a = h.node a

theorem Grown.refl (base : Nat) (h : Heap) : Grown base h h := ⟨le_refl _, fun _ _ => rfl⟩

theorem Grown.trans {base : Nat} {h1 h2 h3 : Heap} (a : Grown base h1 h2) (b : Grown base h2 h3) : Grown base h1 h3 :=
  ⟨le_trans a.next b.next, fun x hx => (b.same x hx).trans (a.same x hx)⟩

/-- The references in a list of items are new objects. -/
def NewItems (base next : Nat) (items : List (String × HVal)) : Prop := ∀ p ∈ items, ∀ a, p.2 = .ref a → base ≤ a ∧ a < next

/-- All children of new objects are new. -/
def ClosedFrom (base : Nat) (h : Heap) : Prop := ∀ a, base ≤ a → a < h.next → NewItems base h.next (h.node a).items

theorem NewItems.mono {base n m : Nat} {items} (h : NewItems base n items) (hn : n ≤ m) : NewItems base m items :=
  fun p hp a ha => ⟨(h p hp a ha).1, lt_of_lt_of_le (h p hp a ha).2 hn⟩

theorem alloc_grown {base : Nat} {h : Heap} (hb : base ≤ h.next) (n : HNode) : Grown base h (h.alloc n).1 := by
  refine ⟨Nat.le_succ _, fun a ha => ?_⟩
  simp only [Heap.alloc, setAt]
  rw [if_neg (by omega)]

theorem alloc_closed {base : Nat} {h : Heap} (hc : ClosedFrom base h) {n : HNode} (hn : NewItems base h.next n.items) :
    ClosedFrom base (h.alloc n).1 := by
  intro a ha hlt
  simp only [Heap.alloc] at hlt ⊢
  by_cases he : a = h.next
  · subst he
    simp only [setAt, if_true]
    exact hn.mono (Nat.le_succ _)
  · simp only [setAt, if_neg he]
    exact (hc a ha (by omega)).mono (Nat.le_succ _)

/-- What a conversion guarantees. -/
def ConvertGood (base : Nat) (convert : Heap → Nat → Option (Heap × Nat)) : Prop :=
  ∀ h a h' b, base ≤ h.next → ClosedFrom base h → convert h a = some (h', b) →
    Grown base h h' ∧ ClosedFrom base h' ∧ base ≤ b ∧ b < h'.next

theorem convertItems_good {base : Nat} {convert} (hg : ConvertGood base convert) {items : List (String × HVal)} {h h' : Heap}
    {out} (hb : base ≤ h.next) (hc : ClosedFrom base h) (he : convertItemsH convert h items = some (h', out)) :
    Grown base h h' ∧ ClosedFrom base h' ∧ NewItems base h'.next out := by
  induction items generalizing h out with
  | nil =>
    simp only [convertItemsH, Option.some.injEq, Prod.mk.injEq] at he
    obtain ⟨rfl, rfl⟩ := he
    exact ⟨Grown.refl _ _, hc, by simp [NewItems]⟩
  | cons p items ih =>
    obtain ⟨k, v⟩ := p
    cases v with
    | atom x =>
      rw [convertItemsH] at he
      cases h1 : convertItemsH convert h items with
      | none => rw [h1] at he; cases he
      | some r =>
        obtain ⟨h2, o2⟩ := r
        rw [h1] at he
        simp only [Option.some.injEq, Prod.mk.injEq] at he
        obtain ⟨rfl, rfl⟩ := he
        obtain ⟨a1, a2, a3⟩ := ih hb hc h1
        refine ⟨a1, a2, ?_⟩
        intro q hq b hb'
        rw [List.mem_cons] at hq
        rcases hq with rfl | hq
        · cases hb'
        · exact a3 q hq b hb'
    | ref a =>
      rw [convertItemsH] at he
      cases h0 : convert h a with
      | none => rw [h0] at he; cases he
      | some r =>
        obtain ⟨h1, b1⟩ := r
        rw [h0] at he
        simp only at he
        obtain ⟨g1, g2, g3, g4⟩ := hg h a h1 b1 hb hc h0
        cases h2 : convertItemsH convert h1 items with
        | none => rw [h2] at he; cases he
        | some r =>
          obtain ⟨h3, o3⟩ := r
          rw [h2] at he
          simp only [Option.some.injEq, Prod.mk.injEq] at he
          obtain ⟨rfl, rfl⟩ := he
          obtain ⟨a1, a2, a3⟩ := ih (le_trans hb g1.next) g2 h2
          refine ⟨g1.trans a1, a2, ?_⟩
          intro q hq b hb'
          rw [List.mem_cons] at hq
          rcases hq with rfl | hq
          · cases hb'
            exact ⟨g3, lt_of_lt_of_le g4 a1.next⟩
          · exact a3 q hq b hb'

theorem convert_good (base fuel : Nat) : ConvertGood base (convertH true fuel) := by
  induction fuel with
  | zero => intro h a h' b _ _ he; cases he
  | succ fuel ih =>
    intro h a h' b hb hc he
    rw [convertH] at he
    simp only [if_true] at he
    cases h1 : convertItemsH (convertH true fuel) h (h.node a).items with
    | none => rw [h1] at he; cases he
    | some r =>
      obtain ⟨h2, items⟩ := r
      rw [h1] at he
      simp only [Option.some.injEq] at he
      obtain ⟨a1, a2, a3⟩ := convertItems_good ih hb hc h1
      have hb2 := le_trans hb a1.next
      generalize hk : (if (h.node a).kind.isAtomic = true then DictKind.atomic else DictKind.plain) = kind at he
      have e1 : (h2.alloc ⟨kind, items⟩).1 = h' := by rw [he]
      have e2 : (h2.alloc ⟨kind, items⟩).2 = b := by rw [he]
      rw [← e1, ← e2]
      exact ⟨a1.trans (alloc_grown hb2 _), alloc_closed a2 a3, hb2, Nat.lt_succ_self _⟩

theorem convert_flat_good {base fuel : Nat} {h : Heap} {a : Nat} {h' b} (hb : base ≤ h.next)
    (he : convertH false fuel h a = some (h', b)) : Grown base h h' ∧ base ≤ b ∧ b < h'.next := by
  cases fuel with
  | zero => cases he
  | succ fuel =>
    rw [convertH] at he
    simp only [Bool.false_eq_true, if_false, Option.some.injEq] at he
    generalize hk : (if (h.node a).kind.isAtomic = true then DictKind.atomic else DictKind.plain) = kind at he
    have e1 : (h.alloc ⟨kind, (h.node a).items⟩).1 = h' := by rw [he]
    have e2 : (h.alloc ⟨kind, (h.node a).items⟩).2 = b := by rw [he]
    rw [← e1, ← e2]
    exact ⟨alloc_grown hb _, hb, Nat.lt_succ_self _⟩

theorem hPut_mem {k : String} {v : HVal} {items : List (String × HVal)} {p : String × HVal} (h : p ∈ hPut k v items) :
    p = (k, v) ∨ p ∈ items := by
  induction items with
  | nil =>
    rw [hPut, List.mem_singleton] at h
    exact Or.inl h
  | cons q items ih =>
    rw [hPut] at h
    by_cases hq : q.1 = k
    · rw [if_pos hq, List.mem_cons] at h
      rcases h with h | h
      · exact Or.inl h
      · exact Or.inr (List.mem_cons_of_mem _ h)
    · rw [if_neg hq, List.mem_cons] at h
      rcases h with rfl | h
      · exact Or.inr (by simp)
      · rcases ih h with h | h
        · exact Or.inl h
        · exact Or.inr (List.mem_cons_of_mem _ h)

theorem hGet_mem {k : String} {v : HVal} {items : List (String × HVal)} (h : hGet k items = some v) :
    ∃ p ∈ items, p.2 = v := by
  unfold hGet at h
  cases hf : items.find? fun p => p.1 == k with
  | none => rw [hf] at h; cases h
  | some p =>
    rw [hf] at h
    simp only [Option.map_some, Option.some.injEq] at h
    exact ⟨p, List.mem_of_find?_eq_some hf, h⟩

theorem setItem_grown {base : Nat} {h : Heap} {x : Nat} (hx : base ≤ x) (k : String) (v : HVal) :
    Grown base h (h.setItem x k v) := by
  refine ⟨le_refl _, fun a ha => ?_⟩
  simp only [Heap.setItem, setAt]
  rw [if_neg (by omega)]

theorem setItem_closed {base : Nat} {h : Heap} {x : Nat} (hc : ClosedFrom base h) (hx : base ≤ x) (hxn : x < h.next)
    {k : String} {v : HVal} (hv : ∀ a, v = .ref a → base ≤ a ∧ a < h.next) : ClosedFrom base (h.setItem x k v) := by
  intro a ha hlt
  simp only [Heap.setItem] at hlt ⊢
  by_cases he : a = x
  · subst he
    simp only [setAt, if_true]
    intro p hp b hb
    rcases hPut_mem hp with rfl | hp
    · exact hv b hb
    · exact hc a hx hxn p hp b hb
  · simp only [setAt, if_neg he]
    exact hc a ha hlt

/-- What a nested update guarantees. -/
def UpdateGood (base : Nat) (upd : Heap → Nat → Nat → Option Heap) : Prop :=
  ∀ h x y h', ClosedFrom base h → base ≤ x → x < h.next → base ≤ y → y < h.next → upd h x y = some h' →
    Grown base h h' ∧ ClosedFrom base h'

theorem updateItems_good {base : Nat} {child} (hg : UpdateGood base child) {nested same : Bool} {x : Nat}
    {items : List (String × HVal)} {h h' : Heap} (hc : ClosedFrom base h) (hx : base ≤ x) (hxn : x < h.next)
    (hi : NewItems base h.next items) (he : updateItemsH child nested same x h items = some h') :
    Grown base h h' ∧ ClosedFrom base h' := by
  induction items generalizing h with
  | nil =>
    simp only [updateItemsH, Option.some.injEq] at he
    subst he
    exact ⟨Grown.refl _ _, hc⟩
  | cons p items ih =>
    rw [updateItemsH] at he
    cases h1 : updateItemH child nested same x h p with
    | none => rw [h1] at he; cases he
    | some h2 =>
      rw [h1] at he
      simp only at he
      have hstep : Grown base h h2 ∧ ClosedFrom base h2 := by
        have hset : (if same && (hGet p.1 (h.node x).items).isNone then some h else some (h.setItem x p.1 p.2)) = some h2 →
            Grown base h h2 ∧ ClosedFrom base h2 := by
          intro hs
          split at hs
          · cases hs; exact ⟨Grown.refl _ _, hc⟩
          · cases hs
            exact ⟨setItem_grown hx _ _, setItem_closed hc hx hxn (fun a ha => hi p (by simp) a ha)⟩
        unfold updateItemH at h1
        simp only at h1
        split at h1
        · rename_i b c hb hcc
          by_cases hn : (nested && !(h.node b).kind.isAtomic) = true
          · rw [if_pos hn] at h1
            obtain ⟨q, hq1, hq2⟩ := hGet_mem hcc
            have hcn := hc x hx hxn q hq1 c hq2
            have hbn := hi p (by simp) b hb
            exact hg h c b h2 hc hcn.1 hcn.2 hbn.1 hbn.2 h1
          · rw [if_neg hn] at h1
            exact hset h1
        · exact hset h1
      obtain ⟨r1, r2⟩ := ih hstep.2 (lt_of_lt_of_le hxn hstep.1.next)
        (NewItems.mono (n := h.next) (fun q hq a ha => hi q (List.mem_cons_of_mem _ hq) a ha) hstep.1.next) he
      exact ⟨hstep.1.trans r1, r2⟩

theorem update_good (base fuel : Nat) (nested same : Bool) : UpdateGood base (updateH fuel nested same) := by
  induction fuel generalizing nested same with
  | zero => intro h x y h' _ _ _ _ _ he; cases he
  | succ fuel ih =>
    intro h x y h' hc hx hxn hy hyn he
    rw [updateH] at he
    exact updateItems_good (ih true false) hc hx hxn (hc y hy hyn) he

/-- Without nesting only the first dictionary is written to. -/
theorem update_flat_grown {base fuel : Nat} {same : Bool} {h h' : Heap} {x y : Nat} (hx : base ≤ x)
    (he : updateH fuel false same h x y = some h') : Grown base h h' := by
  cases fuel with
  | zero => cases he
  | succ fuel =>
    rw [updateH] at he
    generalize (h.node y).items = items at he
    induction items generalizing h with
    | nil =>
      simp only [updateItemsH, Option.some.injEq] at he
      subst he
      exact Grown.refl _ _
    | cons p items ih =>
      rw [updateItemsH] at he
      cases h1 : updateItemH (fun h c b => updateH fuel true false h c b) false same x h p with
      | none => rw [h1] at he; cases he
      | some h2 =>
        rw [h1] at he
        refine Grown.trans ?_ (ih he)
        unfold updateItemH at h1
        have hset : (if same && (hGet p.1 (h.node x).items).isNone then some h else some (h.setItem x p.1 p.2)) = some h2 →
            Grown base h h2 := by
          intro hs
          split at hs
          · cases hs; exact Grown.refl _ _
          · cases hs; exact setItem_grown hx _ _
        simp only [Bool.false_and, Bool.false_eq_true, if_false] at h1
        split at h1 <;> exact hset h1

theorem convertArgs_good {base fuel : Nat} {nested : Bool} {dicts : List (Option Nat)} {h h' : Heap} {out : List Nat}
    (hb : base ≤ h.next) (hc : nested = true → ClosedFrom base h) (he : convertArgsH fuel nested h dicts = some (h', out)) :
    Grown base h h' ∧ (nested = true → ClosedFrom base h') ∧ ∀ a ∈ out, base ≤ a ∧ a < h'.next := by
  induction dicts generalizing h out with
  | nil =>
    simp only [convertArgsH, Option.some.injEq, Prod.mk.injEq] at he
    obtain ⟨rfl, rfl⟩ := he
    exact ⟨Grown.refl _ _, hc, by simp⟩
  | cons d dicts ih =>
    cases d with
    | none =>
      rw [convertArgsH] at he
      cases h1 : convertArgsH fuel nested (h.alloc ⟨.plain, []⟩).1 dicts with
      | none => rw [h1] at he; cases he
      | some r =>
        obtain ⟨h2, o2⟩ := r
        rw [h1] at he
        simp only [Option.some.injEq, Prod.mk.injEq] at he
        obtain ⟨rfl, rfl⟩ := he
        have g := alloc_grown (base := base) hb ⟨.plain, []⟩
        obtain ⟨a1, a2, a3⟩ := ih (le_trans hb g.next) (fun hn => alloc_closed (hc hn) (by simp [NewItems])) h1
        refine ⟨g.trans a1, a2, fun a ha => ?_⟩
        rw [List.mem_cons] at ha
        rcases ha with rfl | ha
        · exact ⟨hb, lt_of_lt_of_le (Nat.lt_succ_self _) a1.next⟩
        · exact a3 a ha
    | some x =>
      rw [convertArgsH] at he
      cases h0 : convertH nested fuel h x with
      | none => rw [h0] at he; cases he
      | some r =>
        obtain ⟨h1, b1⟩ := r
        rw [h0] at he
        simp only at he
        have hgood : Grown base h h1 ∧ (nested = true → ClosedFrom base h1) ∧ base ≤ b1 ∧ b1 < h1.next := by
          cases nested with
          | true =>
            obtain ⟨g1, g2, g3, g4⟩ := convert_good base fuel h x h1 b1 hb (hc rfl) h0
            exact ⟨g1, fun _ => g2, g3, g4⟩
          | false =>
            obtain ⟨g1, g3, g4⟩ := convert_flat_good hb h0
            exact ⟨g1, (fun hf => by cases hf), g3, g4⟩
        obtain ⟨g1, g2, g3, g4⟩ := hgood
        cases h2 : convertArgsH fuel nested h1 dicts with
        | none => rw [h2] at he; cases he
        | some r =>
          obtain ⟨h3, o3⟩ := r
          rw [h2] at he
          simp only [Option.some.injEq, Prod.mk.injEq] at he
          obtain ⟨rfl, rfl⟩ := he
          obtain ⟨a1, a2, a3⟩ := ih (le_trans hb g1.next) g2 h2
          refine ⟨g1.trans a1, a2, fun a ha => ?_⟩
          rw [List.mem_cons] at ha
          rcases ha with rfl | ha
          · exact ⟨g3, lt_of_lt_of_le g4 a1.next⟩
          · exact a3 a ha

theorem mergeAll_grown {base fuel : Nat} {nested same : Bool} {ys : List Nat} {h h' : Heap} {x r : Nat}
    (hc : nested = true → ClosedFrom base h) (hx : base ≤ x ∧ x < h.next) (hy : ∀ y ∈ ys, base ≤ y ∧ y < h.next)
    (he : mergeAllH fuel nested same h x ys = some (h', r)) : Grown base h h' ∧ base ≤ r ∧ r < h'.next := by
  induction ys generalizing h x with
  | nil =>
    simp only [mergeAllH, Option.some.injEq, Prod.mk.injEq] at he
    obtain ⟨rfl, rfl⟩ := he
    exact ⟨Grown.refl _ _, hx⟩
  | cons y ys ih =>
    rw [mergeAllH] at he
    cases h1 : mergeTwoH fuel nested same h x y with
    | none => rw [h1] at he; cases he
    | some s =>
      obtain ⟨h2, x2⟩ := s
      rw [h1] at he
      simp only at he
      have hyy := hy y (by simp)
      have hstep : Grown base h h2 ∧ (nested = true → ClosedFrom base h2) ∧ base ≤ x2 ∧ x2 < h2.next := by
        unfold mergeTwoH at h1
        split at h1
        · simp only [Option.some.injEq, Prod.mk.injEq] at h1
          obtain ⟨rfl, rfl⟩ := h1
          exact ⟨Grown.refl _ _, hc, hyy⟩
        · split at h1
          · simp only [Option.some.injEq, Prod.mk.injEq] at h1
            obtain ⟨rfl, rfl⟩ := h1
            exact ⟨Grown.refl _ _, hc, hyy⟩
          · cases h3 : updateH fuel nested same h x y with
            | none => rw [h3] at h1; cases h1
            | some h4 =>
              rw [h3] at h1
              simp only [Option.some.injEq, Prod.mk.injEq] at h1
              obtain ⟨rfl, rfl⟩ := h1
              cases nested with
              | true =>
                obtain ⟨g1, g2⟩ := update_good base fuel true same h x y h4 (hc rfl) hx.1 hx.2 hyy.1 hyy.2 h3
                exact ⟨g1, fun _ => g2, hx.1, lt_of_lt_of_le hx.2 g1.next⟩
              | false =>
                have g1 := update_flat_grown hx.1 h3
                exact ⟨g1, (fun hf => by cases hf), hx.1, lt_of_lt_of_le hx.2 g1.next⟩
      obtain ⟨g1, g2, g3⟩ := hstep
      obtain ⟨r1, r2⟩ := ih g2 g3 (fun z hz => ⟨(hy z (List.mem_cons_of_mem _ hz)).1,
        lt_of_lt_of_le (hy z (List.mem_cons_of_mem _ hz)).2 g1.next⟩) he
      exact ⟨g1.trans r1, r2⟩

/-- `merge_dicts` leaves every dictionary that existed before as it was, in particular its arguments and their children,
and returns a new dictionary. -/
theorem C51_arguments_unchanged {fuel : Nat} {nested same : Bool} {h h' : Heap} {dicts : List (Option Nat)} {r : Nat}
    (he : mergeDictsH fuel nested same h dicts = some (h', r)) :
    (∀ a, a < h.next → h'.node a = h.node a) ∧ h.next ≤ r ∧ r < h'.next := by
  unfold mergeDictsH at he
  cases h1 : convertArgsH fuel nested h dicts with
  | none => rw [h1] at he; cases he
  | some s =>
    obtain ⟨h2, as⟩ := s
    rw [h1] at he
    cases as with
    | nil => cases he
    | cons x rest =>
      simp only at he
      have hc : ClosedFrom h.next h := fun a ha hlt => absurd hlt (by omega)
      obtain ⟨a1, a2, a3⟩ := convertArgs_good (base := h.next) (le_refl _) (fun _ => hc) h1
      obtain ⟨r1, r2, r3⟩ := mergeAll_grown a2 (a3 x (by simp)) (fun y hy => a3 y (List.mem_cons_of_mem _ hy)) he
      exact ⟨(a1.trans r1).same, r2, r3⟩

/-- `update_dict` itself does modify its first argument, and with nesting also the children. -/
theorem C51_update_in_place : ∃ h : Heap, ∃ h', updateH 5 true false h 0 1 = some h' ∧ h'.node 2 ≠ h.node 2 :=
  ⟨⟨4, fun a => if a = 0 then ⟨.plain, [("a", .ref 2)]⟩ else if a = 1 then ⟨.plain, [("a", .ref 3)]⟩
      else if a = 2 then ⟨.plain, [("b", .atom 1)]⟩ else ⟨.plain, [("b", .atom 2)]⟩⟩, _, rfl, by decide +kernel⟩

/-! ## The hypotheses can be met -/

/-- `{"a": {"b": 1}}` and `{"a": {"b": 2, "c": 3}}`. -/
def wHeap : Heap :=
  ⟨4, fun a => if a = 0 then ⟨.plain, [("a", .ref 2)]⟩ else if a = 1 then ⟨.plain, [("a", .ref 3)]⟩
      else if a = 2 then ⟨.plain, [("b", .atom 1)]⟩ else ⟨.plain, [("b", .atom 2), ("c", .atom 3)]⟩⟩

example : ((mergeDictsH 5 true false wHeap [some 0, none, some 1]).map fun x => (x.2, x.1.node x.2,
    (List.range 4).map x.1.node)) =
    some (5, ⟨.plain, [("a", .ref 4)]⟩, (List.range 4).map wHeap.node) := by decide +kernel

example : ((mergeDictsH 5 true false wHeap [some 0, none, some 1]).map fun x => x.1.node 4) =
    some ⟨.plain, [("b", .atom 2), ("c", .atom 3)]⟩ := by decide +kernel

end Vbt
