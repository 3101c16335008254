import Verif.Lemmas.OrderNum3

/-! # Snapping lemmas and the balances after a fill -/

namespace Vbt
open F

theorem snap_cases (A : Arith) (x : F) : snap A x = x ∨ (snap A x = fin 0 ∧ isClose A x zero = true) := by
  unfold snap
  split
  · right; exact ⟨rfl, by assumption⟩
  · left; rfl

section exact
variable {r t : ℚ}

theorem Close.zero_small {x : ℚ} (hr : r < 1) (ht : 0 ≤ t) (h : Close r t x 0) : |x| ≤ t := by
  rcases h with h | h
  · rw [h]; simpa using ht
  · simp only [sub_zero, abs_zero] at h
    rw [max_eq_left (abs_nonneg x)] at h
    rcases le_max_iff.mp h with h | h
    · have : |x| = 0 := by nlinarith [abs_nonneg x]
      rw [this]; exact ht
    · exact h

theorem not_close_zero_pos {x : ℚ} (h0 : 0 ≤ x) (h : ¬ Close r t x 0) : 0 < x ∧ t < x := by
  unfold Close at h
  push Not at h
  simp only [sub_zero, abs_zero] at h
  have : 0 < x := lt_of_le_of_ne h0 (Ne.symm h.1)
  refine ⟨this, ?_⟩
  have h2 := h.2
  rw [abs_of_pos this] at h2
  exact lt_of_le_of_lt (le_max_right _ _) h2

/-- `add_nb` of a non-negative number and a spending that the limit allowed stays non-negative. -/
theorem addNb_spend_nonneg {c L q : ℚ} (hr : r ≤ 1) (hc : 0 ≤ c) (hL : L ≤ c)
    (h : q ≤ L ∨ Close r t q L) :
    ∃ v, addNb (Arith.exact r t) (fin c) (fin (-q)) = fin v ∧ 0 ≤ v := by
  rcases addNb_exact r t c (-q) with ⟨-, e⟩ | ⟨hs, e⟩
  · exact ⟨0, e, le_rfl⟩
  · refine ⟨_, e, ?_⟩
    by_contra hneg
    have hqc : c < q := by linarith [not_le.mp hneg]
    have hq0 : 0 < q := lt_of_le_of_lt hc hqc
    rcases h with h | h
    · linarith
    · apply hs
      unfold Snap
      have hsign : sign (fin c) ≠ sign (fin (-q)) := by
        rcases sign_fin_cases (-q) with ⟨h, e'⟩ | ⟨h, e'⟩ | ⟨h, e'⟩
        · rw [e']
          rcases sign_fin_cases c with ⟨h, e'⟩ | ⟨h, e'⟩ | ⟨h, e'⟩
          · linarith
          · rw [e']; simp
          · rw [e']; intro he; have := F.fin.inj he; norm_num at this
        · linarith
        · linarith
      rw [if_neg hsign]
      right
      rw [abs_neg, abs_of_nonneg hc, abs_of_pos hq0, abs_of_nonneg hc, abs_of_pos hq0,
        max_eq_right hqc.le, abs_sub_comm, abs_of_pos (by linarith)]
      rcases h with h | h
      · linarith
      · have h1 : q - L ≤ max (r * max q |L|) t := by
          rw [abs_of_pos hq0, abs_of_pos (by linarith)] at h; exact h
        rcases le_max_iff.mp h1 with h1 | h1
        · by_cases hLq : |L| ≤ q
          · rw [max_eq_left hLq] at h1
            exact le_trans (by linarith) (le_max_left _ _)
          · have hLq' := not_le.mp hLq
            rw [max_eq_right hLq'.le] at h1
            exfalso
            have hLneg : L < 0 := by
              by_contra hn
              rw [abs_of_nonneg (not_lt.mp hn)] at hLq'
              linarith
            rw [abs_of_neg hLneg] at h1
            nlinarith
        · exact le_trans (by linarith) (le_max_right _ _)

theorem addNb_sign_nonneg {a b : ℚ} (h : 0 ≤ a + b) :
    ∃ v, addNb (Arith.exact r t) (fin a) (fin b) = fin v ∧ 0 ≤ v := by
  rcases addNb_exact_cases r t a b with e | e
  · exact ⟨0, e, le_rfl⟩
  · exact ⟨_, e, h⟩

theorem addNb_sign_nonpos {a b : ℚ} (h : a + b ≤ 0) :
    ∃ v, addNb (Arith.exact r t) (fin a) (fin b) = fin v ∧ v ≤ 0 := by
  rcases addNb_exact_cases r t a b with e | e
  · exact ⟨0, e, le_rfl⟩
  · exact ⟨_, e, h⟩

theorem snap_fin (q : ℚ) : snap (Arith.exact r t) (fin q) = fin q ∨ snap (Arith.exact r t) (fin q) = fin 0 := by
  rcases snap_cases (Arith.exact r t) (fin q) with h | h
  · exact Or.inl h
  · exact Or.inr h.1

end exact
end Vbt
