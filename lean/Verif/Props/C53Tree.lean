import Verif.Model.ParamCombs
import Verif.Props.C53

/-!
# C53  Combinations of parameters from a tree of operations
-/

namespace Vbt

/-- **C53** (trees).  Arguments that are trees are evaluated first, and the function gets their results in order. -/
theorem C53_tree {A : Type} (f : List A → Except Err A) (args : List (OpTree A)) :
    (∀ vs, args.map OpTree.run = vs.map .ok → (OpTree.node f args).run = f vs) ∧
    ((∃ t ∈ args, ∃ e, t.run = .error e) → ∃ e, (OpTree.node f args).run = .error e) := by
  have key : ∀ (args : List (OpTree A)) (vs : List A), OpTree.runAll args = .ok vs ↔ args.map OpTree.run = vs.map .ok := by
    intro args
    induction args with
    | nil => intro vs; cases vs <;> simp [OpTree.runAll]
    | cons t ts ih =>
      intro vs
      unfold OpTree.runAll
      cases vs with
      | nil => cases t.run <;> cases OpTree.runAll ts <;> simp
      | cons v vs =>
        simp only [List.map_cons, List.cons.injEq, ← ih vs]
        cases t.run <;> cases OpTree.runAll ts <;> simp
  refine ⟨fun vs h => ?_, ?_⟩
  · unfold OpTree.run
    rw [(key args vs).mpr h]
  · rintro ⟨t, ht, e, he⟩
    unfold OpTree.run
    cases hr : OpTree.runAll args with
    | error e' => exact ⟨e', rfl⟩
    | ok vs =>
      have h1 : t.run ∈ vs.map (Except.ok (ε := Err)) := by
        rw [← (key args vs).mp hr]
        exact List.mem_map_of_mem ht
      obtain ⟨v, _, hv⟩ := List.mem_map.mp h1
      rw [he] at hv
      cases hv

/-- **C53** (combinations).  If the function at the root gives tuples nested alike, at least one, all lists of parameters have
one entry per tuple, and the entries at position `i` are the innermost values of tuple `i` from left to right. -/
theorem C53_combinations {fuel : Nat} {f : List (List PVal) → Except Err (List PVal)} {args : List (OpTree (List PVal))}
    {xs : PVals} {rest : List PVal} (hrun : (OpTree.node f args).run = .ok (.tup xs :: rest))
    (h : ∀ y ∈ PVal.tup xs :: rest, (PVal.tup xs).SameShape y ∧ y.depth ≤ fuel) :
    ∃ params, createParamCombs fuel (.node f args) = .ok params ∧ (∀ p ∈ params, p.length = rest.length + 1) ∧
      ∀ (i : Nat) (t : PVal), (PVal.tup xs :: rest)[i]? = some t →
        params.map (fun p => p[i]?) = t.leaves.map fun x => some (.leaf x) := by
  obtain ⟨cols, h1, h2⟩ := C53_flatten h
  refine ⟨cols, ?_, h2⟩
  simp only [createParamCombs, hrun, h1]

/-- Without a combination there are no lists at all, not one empty list per parameter; and a tree without a function is
rejected. -/
theorem C53_no_combination (fuel : Nat) (f : List (List PVal) → Except Err (List PVal)) (args : List (OpTree (List PVal)))
    (hrun : (OpTree.node f args).run = .ok []) :
    createParamCombs (fuel + 1) (.node f args) = .ok [] ∧ ∀ a, ∃ e, createParamCombs fuel (.arg a) = .error e := by
  refine ⟨?_, fun a => ⟨_, rfl⟩⟩
  simp only [createParamCombs, hrun]
  rfl

/-- What `itertools.combinations` chooses: the sublists of the length, each position choice once. -/
theorem C53_itertools_combinations {α : Type} (k : Nat) (l : List α) :
    (∀ t, t ∈ iterCombs k l ↔ List.Sublist t l ∧ t.length = k) ∧ (iterCombs k l).length = l.length.choose k := by
  induction l generalizing k with
  | nil =>
    cases k with
    | zero =>
      refine ⟨fun t => ?_, rfl⟩
      simp [iterCombs]
    | succ k =>
      refine ⟨fun t => ?_, rfl⟩
      simp only [iterCombs, List.not_mem_nil, false_iff, not_and, List.sublist_nil]
      rintro rfl
      simp
  | cons a l ih =>
    cases k with
    | zero =>
      refine ⟨fun t => ?_, by simp [iterCombs]⟩
      simp only [iterCombs, List.mem_singleton, List.length_eq_zero_iff]
      exact ⟨fun h => ⟨h ▸ List.nil_sublist _, h⟩, fun h => h.2⟩
    | succ k =>
      obtain ⟨i1, i2⟩ := ih k
      obtain ⟨j1, j2⟩ := ih (k + 1)
      constructor
      · intro t
        simp only [iterCombs, List.mem_append, List.mem_map, i1, j1]
        constructor
        · rintro (⟨u, ⟨hu, hl⟩, rfl⟩ | ⟨hu, hl⟩)
          · exact ⟨hu.cons₂ a, by simp [hl]⟩
          · exact ⟨hu.cons a, hl⟩
        · rintro ⟨hu, hl⟩
          cases hu with
          | cons _ h => exact Or.inr ⟨h, hl⟩
          | cons_cons _ h => exact Or.inl ⟨_, ⟨h, by simpa using hl⟩, rfl⟩
      · simp only [iterCombs, List.length_append, List.length_map, i2, j2, List.length_cons, Nat.choose_succ_succ]

/-! ## Instances -/

/-- The example of the documentation, with three instead of four values. -/
example : createParamCombs 9 (.node productOp [.node (combsOp 2) [.arg [.leaf 0, .leaf 1, .leaf 2]], .arg [.leaf 4, .leaf 5]]) =
    .ok [[.leaf 0, .leaf 0, .leaf 0, .leaf 0, .leaf 1, .leaf 1], [.leaf 1, .leaf 1, .leaf 2, .leaf 2, .leaf 2, .leaf 2],
      [.leaf 4, .leaf 5, .leaf 4, .leaf 5, .leaf 4, .leaf 5]] := by
  decide +kernel

example : (OpTree.node (combsOp 2) [.arg [.leaf 0, .leaf 1, .leaf 2]]).run =
    .ok [.tup (mkTuple [.leaf 0, .leaf 1]), .tup (mkTuple [.leaf 0, .leaf 2]), .tup (mkTuple [.leaf 1, .leaf 2])] := by decide +kernel

example : (OpTree.node (combsOp 2) [.arg [.leaf 0]]).run = .ok [] := by decide +kernel

end Vbt
