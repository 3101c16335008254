import Verif.Lemmas.CallSeq

/-!
# C24  Call sequences are permutations within groups
-/

namespace Vbt

/-- `row` splits into one block per group, the block of a group with `n` columns being related to `0..n-1`
by `R`. -/
def RowOf (R : List Int → List Int → Prop) (lens : List Nat) (row : List Int) : Prop :=
  ∃ blocks : List (List Int), row = blocks.flatten ∧
    List.Forall₂ (fun b n => R b ((List.range n).map Int.ofNat)) blocks lens

theorem RowOf.asc (lens : List Nat) : RowOf (· = ·) lens (ascRow lens) := by
  refine ⟨lens.map fun n => (List.range n).map Int.ofNat, ?_, ?_⟩
  · rfl
  · induction lens with
    | nil => exact .nil
    | cons l ls ih => exact .cons rfl ih

theorem RowOf.desc (lens : List Nat) : RowOf (fun b r => b = r.reverse) lens (descRow lens) := by
  refine ⟨lens.map fun n => ((List.range n).map Int.ofNat).reverse, ?_, ?_⟩
  · rfl
  · induction lens with
    | nil => exact .nil
    | cons l ls ih => exact .cons rfl ih

theorem RowOf.shuffled (draw : Nat → Nat → Nat) (lens : List Nat) (g : Nat) :
    RowOf List.Perm lens (shuffleRow draw g (lens.map Int.ofNat) (ascRow lens)) := by
  induction lens generalizing g with
  | nil => exact ⟨[], rfl, .nil⟩
  | cons l ls ih =>
    obtain ⟨bs, h1, h2⟩ := ih (g + 1)
    have e : ascRow (l :: ls) = (List.range l).map Int.ofNat ++ ascRow ls := by simp [ascRow]
    simp only [List.map_cons, shuffleRow, e]
    have hl : (Int.ofNat l).toNat = ((List.range l).map Int.ofNat).length := by simp
    rw [hl, List.take_left, List.drop_left, h1]
    exact ⟨shuffle (draw g) ((List.range l).map Int.ofNat) :: bs, by simp, .cons (shuffle_perm _ _) h2⟩

/-- **C24** (default and auto): every row is 0,1,..,n-1 in every group. -/
theorem C24_default (rows : Nat) (lens : List Nat) (hpos : ∀ l ∈ lens, 0 < l) (draw) (ty : CallSeqType)
    (hty : ty = .default ∨ ty = .auto) :
    ∃ out, buildCallSeqNb rows lens.sum (lens.map Int.ofNat) ty draw = .ok out ∧ out.length = rows ∧
      ∀ row ∈ out, RowOf (· = ·) lens row := by
  have h := callSeqRowDefault_eq lens hpos
  refine ⟨List.replicate rows (ascRow lens), ?_, by simp, ?_⟩
  · unfold buildCallSeqNb
    have h' : callSeqRowDefault lens.sum (lens.map Int.ofNat) = .ok (ascRow lens) := h
    rcases hty with rfl | rfl <;> simp [h']
  · intro row hrow
    rw [List.eq_of_mem_replicate hrow]
    exact RowOf.asc lens

/-- **C24** (reversed): every row is n-1,..,1,0 in every group. -/
theorem C24_reversed (rows : Nat) (lens : List Nat) (hpos : ∀ l ∈ lens, 0 < l) (draw) :
    ∃ out, buildCallSeqNb rows lens.sum (lens.map Int.ofNat) .reversed draw = .ok out ∧ out.length = rows ∧
      ∀ row ∈ out, RowOf (fun b r => b = r.reverse) lens row := by
  have h : callSeqRowReversed lens.sum (lens.map Int.ofNat) = .ok (descRow lens) := callSeqRowReversed_eq lens hpos
  refine ⟨List.replicate rows (descRow lens), ?_, by simp, ?_⟩
  · simp [buildCallSeqNb, h]
  · intro row hrow
    rw [List.eq_of_mem_replicate hrow]
    exact RowOf.desc lens

/-- **C24** (random): every row is a permutation of 0..n-1 in every group, whatever the random numbers. -/
theorem C24_random (rows : Nat) (lens : List Nat) (hpos : ∀ l ∈ lens, 0 < l) (draw) :
    ∃ out, buildCallSeqNb rows lens.sum (lens.map Int.ofNat) .random draw = .ok out ∧ out.length = rows ∧
      ∀ row ∈ out, RowOf List.Perm lens row := by
  have h : callSeqRowDefault lens.sum (lens.map Int.ofNat) = .ok (ascRow lens) := callSeqRowDefault_eq lens hpos
  refine ⟨(List.replicate rows (ascRow lens)).mapIdx fun i r => shuffleRow (draw i) 0 (lens.map Int.ofNat) r, ?_,
    by simp, ?_⟩
  · simp [buildCallSeqNb, h]
  · intro row hrow
    rw [List.mem_mapIdx] at hrow
    obtain ⟨i, hi, rfl⟩ := hrow
    rw [List.getElem_replicate]
    exact RowOf.shuffled (draw i) lens 0

/-- **C24** (agreement): the two builders return the same array (or the same error) for all types, shapes and
group lengths, given the same random numbers. -/
theorem C24_builders_agree (rows cols : Nat) (lens : List Int) (ty : CallSeqType) (draw) :
    buildCallSeq rows cols lens ty draw = buildCallSeqNb rows cols lens ty draw := by
  unfold buildCallSeq buildCallSeqNb
  rw [callSeqRowDefaultPy_eq]
  cases ty <;> simp

/-- Non-vacuity: groups of 2, 1 and 3 columns. -/
example : buildCallSeqNb 1 6 ([2, 1, 3].map Int.ofNat) .reversed (fun _ _ _ => 0) = .ok [[1, 0, 0, 2, 1, 0]] ∧
    buildCallSeqNb 1 6 ([2, 1, 3].map Int.ofNat) .random (fun _ _ _ => 0) = .ok [[1, 0, 0, 1, 2, 0]] := by
  decide +kernel

end Vbt
