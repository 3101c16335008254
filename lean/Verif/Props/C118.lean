import Mathlib.Data.List.Basic
import Mathlib.Tactic.Common
import Verif.Model.DeepEqual

/-!
# C118: what equality of configs and configured objects means

`is_deep_equal` decides whether two configs, and so two portfolios, indicators or records objects, are equal.  It looks only at
what the first argument has.
-/

namespace Vbt

variable {K A S : Type} [DecidableEq K]

/-- A step into a list or dictionary. -/
inductive TreeStep (K : Type) where
  | idx (i : Nat)
  | key (k : K)

/-- The value at the end of a path, if there is one. -/
def PyTree.at? : PyTree K A S → List (TreeStep K) → Option (PyTree K A S)
  | x, [] => some x
  | .seq _ n f, .idx i :: p => if i < n then (f i).at? p else none
  | .dict ks f, .key k :: p => if k ∈ ks then (f k).at? p else none
  | _, _ :: _ => none

/-- Two values agree but for what is in them: both are lists, both tuples, both dictionaries, or they compare equal. -/
inductive NodesAgree (ops : LeafOps A S) (exact : Bool) : PyTree K A S → PyTree K A S → Prop
  | exact (a b) (h : ops.exact a b = true) : NodesAgree ops exact (.array a) (.array b)
  | close (a b) (he : exact = false) (h : ops.close a b = true) : NodesAgree ops exact (.array a) (.array b)
  | seq (t n f m g) : NodesAgree ops exact (.seq t n f) (.seq t m g)
  | dict (ks f ks' g) : NodesAgree ops exact (.dict ks f) (.dict ks' g)
  | leaf (s s') (h : ops.leaf s s' = true) : NodesAgree ops exact (.leaf s) (.leaf s')

omit [DecidableEq K] in
/-- Everything reaches itself. -/
theorem at_nil [DecidableEq K] (x : PyTree K A S) : x.at? [] = some x := by cases x <;> rfl

/-- **C118, what is compared.**  `is_deep_equal(a, b)` holds exactly if wherever `a` has a value, `b` has one that agrees with it;
arrays inside lists and dictionaries agree if they are close, whatever `check_exact` says.  What only `b` has is not looked at. -/
theorem C118_covers (ops : LeafOps A S) (exact : Bool) (a b : PyTree K A S) :
    deepEqual ops exact a b = true ↔
      ∀ p x, a.at? p = some x → ∃ y, b.at? p = some y ∧ NodesAgree ops (exact && p.isEmpty) x y := by
  induction a generalizing b exact with
  | array a =>
    constructor
    · intro h p x hx
      cases b with
      | array b =>
        cases p with
        | nil =>
          rw [at_nil] at hx; cases hx
          refine ⟨_, at_nil _, ?_⟩
          simp only [deepEqual, Bool.or_eq_true, Bool.and_eq_true, Bool.not_eq_true'] at h
          rcases h with h | ⟨h1, h2⟩
          · exact .exact _ _ h
          · exact .close _ _ (by simp [h1]) h2
        | cons s p => simp [PyTree.at?] at hx
      | _ => simp [deepEqual] at h
    · intro h
      obtain ⟨y, hy, hag⟩ := h [] _ (at_nil _)
      rw [at_nil] at hy; cases hy
      cases hag with
      | exact => rename_i hh; simp [deepEqual, hh]
      | close =>
        rename_i he hh
        have : exact = false := by simpa using he
        simp [deepEqual, hh, this]
  | leaf s =>
    constructor
    · intro h p x hx
      cases b with
      | leaf b =>
        cases p with
        | nil =>
          rw [at_nil] at hx; cases hx
          exact ⟨_, at_nil _, .leaf _ _ (by simpa [deepEqual] using h)⟩
        | cons s p => simp [PyTree.at?] at hx
      | _ => simp [deepEqual] at h
    · intro h
      obtain ⟨y, hy, hag⟩ := h [] _ (at_nil _)
      rw [at_nil] at hy; cases hy
      cases hag with
      | leaf => rename_i hh; simp [deepEqual, hh]
  | seq t n f ih =>
    constructor
    · intro h p x hx
      cases b with
      | seq t' m g =>
        simp only [deepEqual, Bool.and_eq_true, beq_iff_eq, List.all_eq_true, List.mem_range, decide_eq_true_eq] at h
        obtain ⟨rfl, h⟩ := h
        cases p with
        | nil =>
          rw [at_nil] at hx; cases hx
          exact ⟨_, at_nil _, .seq _ _ _ _ _⟩
        | cons s p =>
          cases s with
          | key k => simp [PyTree.at?] at hx
          | idx i =>
            by_cases hi : i < n
            · simp only [PyTree.at?, hi, if_true] at hx
              obtain ⟨h1, h2⟩ := h i hi
              obtain ⟨y, hy, hag⟩ := (ih i false (g i)).mp h2 p x hx
              exact ⟨y, by simp only [PyTree.at?, h1, if_true]; exact hy, by simpa using hag⟩
            · simp [PyTree.at?, hi] at hx
      | _ => simp [deepEqual] at h
    · intro h
      obtain ⟨y, hy, hag⟩ := h [] _ (at_nil _)
      rw [at_nil] at hy; cases hy
      cases hag with
      | seq _ _ _ m g =>
        simp only [deepEqual, Bool.and_eq_true, beq_iff_eq, List.all_eq_true, List.mem_range, decide_eq_true_eq, true_and]
        intro i hi
        have key : ∀ p x, (f i).at? p = some x →
            i < m ∧ ∃ y, (g i).at? p = some y ∧ NodesAgree ops (false && p.isEmpty) x y := by
          intro p x hx
          obtain ⟨y, hy, hag⟩ := h (.idx i :: p) x (by simp only [PyTree.at?, hi, if_true]; exact hx)
          by_cases hm : i < m
          · simp only [PyTree.at?, hm, if_true] at hy
            exact ⟨hm, y, hy, by simpa using hag⟩
          · simp [PyTree.at?, hm] at hy
        exact ⟨(key [] _ (at_nil _)).1, (ih i false (g i)).mpr fun p x hx => (key p x hx).2⟩
  | dict ks f ih =>
    constructor
    · intro h p x hx
      cases b with
      | dict ks' g =>
        simp only [deepEqual, Bool.and_eq_true, List.all_eq_true, decide_eq_true_eq] at h
        cases p with
        | nil =>
          rw [at_nil] at hx; cases hx
          exact ⟨_, at_nil _, .dict _ _ _ _⟩
        | cons s p =>
          cases s with
          | idx i => simp [PyTree.at?] at hx
          | key k =>
            by_cases hi : k ∈ ks
            · simp only [PyTree.at?, hi, if_true] at hx
              obtain ⟨h1, h2⟩ := h k hi
              obtain ⟨y, hy, hag⟩ := (ih k false (g k)).mp h2 p x hx
              exact ⟨y, by simp only [PyTree.at?, h1, if_true]; exact hy, by simpa using hag⟩
            · simp [PyTree.at?, hi] at hx
      | _ => simp [deepEqual] at h
    · intro h
      obtain ⟨y, hy, hag⟩ := h [] _ (at_nil _)
      rw [at_nil] at hy; cases hy
      cases hag with
      | dict _ _ ks' g =>
        simp only [deepEqual, Bool.and_eq_true, List.all_eq_true, decide_eq_true_eq]
        intro k hk
        have key : ∀ p x, (f k).at? p = some x →
            k ∈ ks' ∧ ∃ y, (g k).at? p = some y ∧ NodesAgree ops (false && p.isEmpty) x y := by
          intro p x hx
          obtain ⟨y, hy, hag⟩ := h (.key k :: p) x (by simp only [PyTree.at?, hk, if_true]; exact hx)
          by_cases hm : k ∈ ks'
          · simp only [PyTree.at?, hm, if_true] at hy
            exact ⟨hm, y, hy, by simpa using hag⟩
          · simp [PyTree.at?, hm] at hy
        exact ⟨(key [] _ (at_nil _)).1, (ih k false (g k)).mpr fun p x hx => (key p x hx).2⟩

/-- **C118, both directions.**  Two values compare equal in both orders exactly if they have values at the same paths and these
agree in both orders: only then are lists equally long and dictionaries equal in their keys. -/
theorem C118_both (ops : LeafOps A S) (exact : Bool) (a b : PyTree K A S) :
    (deepEqual ops exact a b = true ∧ deepEqual ops exact b a = true) ↔
      ∀ p, ((a.at? p).isSome = (b.at? p).isSome) ∧ ∀ x y, a.at? p = some x → b.at? p = some y →
        NodesAgree ops (exact && p.isEmpty) x y ∧ NodesAgree ops (exact && p.isEmpty) y x := by
  rw [C118_covers, C118_covers]
  constructor
  · rintro ⟨h1, h2⟩ p
    refine ⟨?_, fun x y hx hy => ?_⟩
    · cases hx : a.at? p with
      | none =>
        cases hy : b.at? p with
        | none => rfl
        | some y => obtain ⟨x, hx', _⟩ := h2 p y hy; rw [hx] at hx'; cases hx'
      | some x => obtain ⟨y, hy, _⟩ := h1 p x hx; rw [hy]; rfl
    · obtain ⟨y', hy', h3⟩ := h1 p x hx
      obtain ⟨x', hx', h4⟩ := h2 p y hy
      rw [hy] at hy'; cases hy'
      rw [hx] at hx'; cases hx'
      exact ⟨h3, h4⟩
  · intro h
    constructor
    · intro p x hx
      obtain ⟨h1, h2⟩ := h p
      rw [hx, Option.isSome_some] at h1
      obtain ⟨y, hy⟩ := Option.isSome_iff_exists.mp h1.symm
      exact ⟨y, hy, (h2 x y hx hy).1⟩
    · intro p y hy
      obtain ⟨h1, h2⟩ := h p
      rw [hy, Option.isSome_some] at h1
      obtain ⟨x, hx⟩ := Option.isSome_iff_exists.mp h1
      exact ⟨x, hx, (h2 x y hx hy).2⟩

/-- **C118, reflexive.**  A value equals itself if its arrays and other leaves do. -/
theorem C118_refl (ops : LeafOps A S) (ha : ∀ a, ops.exact a a = true) (hs : ∀ s, ops.leaf s s = true) (exact : Bool)
    (a : PyTree K A S) : deepEqual ops exact a a = true := by
  rw [C118_covers]
  intro p x hx
  refine ⟨x, hx, ?_⟩
  cases x with
  | array a => exact .exact _ _ (ha a)
  | seq t n f => exact .seq _ _ _ _ _
  | dict ks f => exact .dict _ _ _ _
  | leaf s => exact .leaf _ _ (hs s)

/-! ## Findings -/

/-- **C118, finding.**  A list equals every list it is the beginning of, but a longer list does not equal a shorter one. -/
theorem C118_longer (ops : LeafOps A S) (ha : ∀ a, ops.exact a a = true) (hs : ∀ s, ops.leaf s s = true) (exact t : Bool)
    (n m : Nat) (hnm : n < m) (f : Nat → PyTree K A S) :
    deepEqual ops exact (.seq t n f) (.seq t m f) = true ∧ deepEqual ops exact (.seq t m f) (.seq t n f) = false := by
  constructor
  · simp only [deepEqual, Bool.and_eq_true, beq_iff_eq, List.all_eq_true, List.mem_range, decide_eq_true_eq, true_and]
    intro i hi
    exact ⟨by omega, C118_refl ops ha hs _ _⟩
  · rw [Bool.eq_false_iff]
    intro h
    simp only [deepEqual, Bool.and_eq_true, beq_iff_eq, List.all_eq_true, List.mem_range, decide_eq_true_eq, true_and] at h
    exact absurd (h n hnm).1 (by omega)

/-- **C118, finding.**  A config equals every config with more keys and the same values, but not the other way round. -/
theorem C118_config (ops : LeafOps A S) (ha : ∀ a, ops.exact a a = true) (hs : ∀ s, ops.leaf s s = true) (ks ks' : List K)
    (hsub : ks ⊆ ks') (k : K) (hk : k ∈ ks') (hk' : k ∉ ks) (f : K → PyTree K A S) :
    configEqual ops ks f ks' f = true ∧ configEqual ops ks' f ks f = false := by
  unfold configEqual
  constructor
  · simp only [deepEqual, Bool.and_eq_true, List.all_eq_true, decide_eq_true_eq]
    intro x hx
    exact ⟨hsub hx, C118_refl ops ha hs _ _⟩
  · rw [Bool.eq_false_iff]
    intro h
    simp only [deepEqual, Bool.and_eq_true, List.all_eq_true, decide_eq_true_eq] at h
    exact hk' (h k hk).1

/-- **C118, finding.**  With `check_exact` arrays that are only close differ, but lists and dictionaries of them are equal. -/
theorem C118_nested_exact (ops : LeafOps A S) (a b : A) (h1 : ops.exact a b = false) (h2 : ops.close a b = true) (t : Bool) (k : K) :
    deepEqual ops true (.array a : PyTree K A S) (.array b) = false ∧
      deepEqual ops true (.seq t 1 fun _ => (.array a : PyTree K A S)) (.seq t 1 fun _ => .array b) = true ∧
      deepEqual ops true (.dict [k] fun _ => (.array a : PyTree K A S)) (.dict [k] fun _ => .array b) = true := by
  simp [deepEqual, h1, h2]

/-! ## Configured objects -/

/-- **C118, configured objects.**  Two objects are equal exactly if they have the same type and writeable attributes, and every
value anywhere in the attributes and the config of the first is met by one that agrees with it in the second. -/
theorem C118_configured (ops : LeafOps A S) (x y : ConfObj K A S) : confEqual ops x y = true ↔
    x.type = y.type ∧ (∀ a, a ∈ x.attrs ↔ a ∈ y.attrs) ∧
      (∀ a ∈ x.attrs, ∀ p v, (x.attr a).at? p = some v → ∃ w, (y.attr a).at? p = some w ∧ NodesAgree ops false v w) ∧
      (∀ k ∈ x.keys, k ∈ y.keys ∧ ∀ p v, (x.config k).at? p = some v → ∃ w, (y.config k).at? p = some w ∧ NodesAgree ops false v w) := by
  have hcov : ∀ a b : PyTree K A S, deepEqual ops false a b = true ↔
      ∀ p v, a.at? p = some v → ∃ w, b.at? p = some w ∧ NodesAgree ops false v w := by
    intro a b; simpa using C118_covers ops false a b
  unfold confEqual
  by_cases h1 : x.type = y.type
  · by_cases h2 : x.attrs ⊆ y.attrs ∧ y.attrs ⊆ x.attrs
    · have h2' : ∀ a, a ∈ x.attrs ↔ a ∈ y.attrs := fun a => ⟨fun h => h2.1 h, fun h => h2.2 h⟩
      by_cases h3 : (x.attrs.all fun a => deepEqual ops false (x.attr a) (y.attr a)) = true
      · simp only [h1, h2, h3, ne_eq, not_true_eq_false, and_self, if_false]
        simp only [List.all_eq_true, hcov] at h3
        unfold configEqual
        simp only [deepEqual, List.all_eq_true, Bool.and_eq_true, decide_eq_true_eq, hcov]
        exact ⟨fun h => ⟨trivial, h2', h3, h⟩, fun h => h.2.2.2⟩
      · have h3' : ¬ ∀ a ∈ x.attrs, ∀ p v, (x.attr a).at? p = some v → ∃ w, (y.attr a).at? p = some w ∧ NodesAgree ops false v w := by
          intro h
          apply h3
          simp only [List.all_eq_true, hcov]
          exact h
        simp only [h1, h2, h3, ne_eq, not_true_eq_false, and_self, if_false]
        exact ⟨fun h => (by cases h), fun h => absurd h.2.2.1 h3'⟩
    · have h2' : ¬ ∀ a, a ∈ x.attrs ↔ a ∈ y.attrs := fun h => h2 ⟨fun a ha => (h a).mp ha, fun a ha => (h a).mpr ha⟩
      simp only [h1, h2, ne_eq, not_true_eq_false, if_false, not_false_eq_true, if_true]
      exact ⟨fun h => (by cases h), fun h => absurd h.2.1 h2'⟩
  · simp only [h1, ne_eq, not_false_eq_true, if_true]
    exact ⟨fun h => (by cases h), fun h => h.1.elim⟩

/-! ## The hypotheses can be met -/

/-- Arrays are numbers that are close within one; other objects compare as they are. -/
def sampleOps : LeafOps Nat Nat := ⟨fun a b => a == b, fun a b => decide (a ≤ b + 1 ∧ b ≤ a + 1), fun a b => a == b⟩

/-- `[0, 1, …, n - 1]`. -/
def sampleList (n : Nat) : PyTree String Nat Nat := .seq false n .leaf

example : deepEqual sampleOps false (sampleList 2) (sampleList 3) = true ∧ deepEqual sampleOps false (sampleList 3) (sampleList 2) = false :=
  C118_longer sampleOps (by simp [sampleOps]) (by simp [sampleOps]) false false 2 3 (by decide) _

example : configEqual sampleOps ["a"] (fun _ => sampleList 1) ["a", "b"] (fun _ => sampleList 1) = true ∧
    configEqual sampleOps ["a", "b"] (fun _ => sampleList 1) ["a"] (fun _ => sampleList 1) = false :=
  C118_config sampleOps (by simp [sampleOps]) (by simp [sampleOps]) ["a"] ["a", "b"] (by simp) "b" (by simp) (by simp) _

example : deepEqual sampleOps true (.seq true 1 fun _ => (.array 3 : PyTree String Nat Nat)) (.seq true 1 fun _ => .array 4) = true :=
  (C118_nested_exact sampleOps 3 4 (by decide) (by decide) true "k").2.1

/-- An object with one attribute and the config `{"n": n}`. -/
def sampleObj (n : Nat) : ConfObj String Nat Nat := ⟨0, ["x"], fun _ => .leaf 7, ["n"], fun _ => .leaf n⟩

example : confEqual sampleOps (sampleObj 1) (sampleObj 1) = true ∧ confEqual sampleOps (sampleObj 1) (sampleObj 2) = false := by decide

end Vbt
