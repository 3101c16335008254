import Verif.Spec.Requested
import Verif.Lemmas.Snap

namespace Vbt
open F

section
variable {r t : ℚ}

theorem size0_fin {o : Order} {a : ℚ} (h : o.size = fin a) :
    size0 (Arith.exact r t) o = fin (dirSign o * a) := by
  unfold size0 dirSign
  split
  · rw [h]; simp
  · rw [h]; simp

theorem resolvePercent_fin {A : Arith} {o : Order} {q : ℚ} :
    resolvePercent A o (fin q) SizeType.Amount = .size (fin q) nan := by
  unfold resolvePercent
  simp

/-- The size conversion computes the requested amount. -/
theorem Requested.resolve {s : ExecState} {o : Order} {vp v : F} {q : ℚ}
    (h : Requested o s.position vp v q) :
    resolveSize (Arith.exact r t) s o vp v = .size (fin q) nan := by
  unfold resolveSize
  simp only [← size0.eq_def]
  cases h with
  | amount hty hs =>
    rw [size0_fin hs, hty]
    simp [resolveValue, resolveTargetAmount, resolvePercent_fin]
  | value hty hs hw hw0 =>
    rw [size0_fin hs, hty]
    subst hw
    simp [resolveValue, resolveTargetAmount, resolvePercent_fin, div_exact _ _ _ _ hw0.ne', hw0]
  | targetAmount hty hs hP =>
    rw [size0_fin hs, hty]
    simp [resolveValue, resolveTargetAmount, hP, resolvePercent_fin]
  | targetValue hty hs hw hw0 hP =>
    rw [size0_fin hs, hty]
    subst hw
    simp [resolveValue, resolveTargetAmount, hP, resolvePercent_fin, div_exact _ _ _ _ hw0.ne', hw0]
  | targetPercent hty hs hw hw0 hV hV0 hP =>
    rw [size0_fin hs, hty]
    subst hw hV
    simp [resolveValue, resolveTargetAmount, hP, resolvePercent_fin, div_exact _ _ _ _ hw0.ne', not_le.mpr hw0, not_le.mpr hV0]

/-- A percentage is only produced by `Percent` orders, or is 1 (an infinite sale). -/
theorem resolve_percent_le {s : ExecState} {o : Order} {vp v size percent : F} {w : ℚ}
    (hle : o.sizeType = SizeType.Percent → ∀ a, o.size = fin a → |a| ≤ 1)
    (h : resolveSize (Arith.exact r t) s o vp v = .size size percent) (hw : percent = fin w) : w ≤ 1 := by
  obtain ⟨q, ty, h, hc⟩ := resolveSize_inv h
  rcases resolvePercent_inv h with ⟨h1, -⟩ | ⟨-, h2, h3⟩ | ⟨-, h2, -⟩
  · rw [h1] at hw; cases hw
  · subst h3
    have ho : o.sizeType = SizeType.Percent ∧ q = size0 (Arith.exact r t) o := by
      generalize hty : SizeType.Percent = ty at hc
      cases hc with
      | amount h => exact ⟨rfl, rfl⟩
      | value => cases hty
      | tAmount => cases hty
      | tValue => cases hty
      | tPercent => cases hty
    rw [ho.2] at h2
    rw [h2] at hw
    cases ha : o.size with
    | fin a =>
      rw [size0_fin ha] at hw
      simp only [abs_fin] at hw
      have := F.fin.inj hw
      rw [← this, abs_mul]
      have hd : |dirSign o| = 1 := by unfold dirSign; split <;> simp
      rw [hd, one_mul]; exact hle ho.1 a ha
    | nan => unfold size0 at hw; rw [ha] at hw; split at hw <;> simp [mul, F.abs] at hw
    | pinf =>
      unfold size0 at hw; rw [ha] at hw
      split at hw
      · simp [mul, F.abs] at hw
      · simp [F.abs] at hw
    | ninf =>
      unfold size0 at hw; rw [ha] at hw
      split at hw
      · simp [mul, F.abs] at hw
      · simp [F.abs] at hw
  · rw [h2] at hw; cases hw; exact le_rfl

end
end Vbt
