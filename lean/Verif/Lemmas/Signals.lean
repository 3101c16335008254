import Verif.Model.Signals
import Verif.Spec.Signals
import Mathlib.Data.List.Sort

/-! # Lists of signals -/

namespace Vbt

theorem mem_flatnonzero {n : Nat} {a : Nat → Bool} {i : Nat} : i ∈ flatnonzero n a ↔ i < n ∧ a i = true := by
  unfold flatnonzero
  simp [List.mem_filter]

theorem flatnonzero_sorted (n : Nat) (a : Nat → Bool) : (flatnonzero n a).Pairwise (· < ·) :=
  List.Pairwise.filter _ List.pairwise_lt_range

theorem setRows_true {a : Nat → Bool} {l : List Int} {j : Nat} :
    setRows a l j = true ↔ a j = true ∨ (j : Int) ∈ l := by
  unfold setRows
  simp

/-- What stands before and after an element of the list of signals. -/
theorem flatnonzero_split {n : Nat} {a : Nat → Bool} {l1 l2 : List Nat} {e : Nat}
    (h : flatnonzero n a = l1 ++ e :: l2) :
    (e < n ∧ a e = true) ∧ (∀ k, k ∈ l1 ↔ k < e ∧ a k = true) ∧ (∀ k, k ∈ l2 ↔ e < k ∧ k < n ∧ a k = true) ∧
      l2.Pairwise (· < ·) := by
  have hs := flatnonzero_sorted n a
  have hm : ∀ i, i ∈ l1 ++ e :: l2 ↔ i < n ∧ a i = true := fun i => h ▸ mem_flatnonzero
  rw [h, List.pairwise_append] at hs
  obtain ⟨-, h2, h3⟩ := hs
  rw [List.pairwise_cons] at h2
  have he : e < n ∧ a e = true := (hm e).mp (by simp)
  refine ⟨he, fun k => ⟨fun hk => ⟨h3 k hk e (by simp), ((hm k).mp (by simp [hk])).2⟩, fun hk => ?_⟩,
    fun k => ⟨fun hk => ⟨h2.1 k hk, (hm k).mp (by simp [hk])⟩, fun hk => ?_⟩, h2.2⟩
  · have := (hm k).mpr ⟨hk.1.trans he.1, hk.2⟩
    simp only [List.mem_append, List.mem_cons] at this
    rcases this with h | rfl | h
    · exact h
    · exact absurd hk.1 (lt_irrefl _)
    · exact absurd (h2.1 k h) (by omega)
  · have := (hm k).mpr hk.2
    simp only [List.mem_append, List.mem_cons] at this
    rcases this with h | rfl | h
    · exact absurd (h3 k h e (by simp)) (by omega)
    · exact absurd hk.1 (lt_irrefl _)
    · exact h

end Vbt
