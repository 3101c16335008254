import Verif.Model.Math
import Mathlib.Tactic.Linarith
import Mathlib.Tactic.Ring
import Mathlib.Tactic.FieldSimp
import Mathlib.Tactic.NormNum
import Mathlib.Tactic.Positivity

/-! # Helper lemmas about `F` and exact arithmetic -/

namespace Vbt
open F

@[simp] theorem lt_fin (a b : ℚ) : lt (fin a) (fin b) = decide (a < b) := rfl
@[simp] theorem le_fin (a b : ℚ) : le (fin a) (fin b) = decide (a ≤ b) := rfl
@[simp] theorem gt_fin (a b : ℚ) : gt (fin a) (fin b) = decide (b < a) := rfl
@[simp] theorem ge_fin (a b : ℚ) : ge (fin a) (fin b) = decide (b ≤ a) := rfl
@[simp] theorem eqb_fin (a b : ℚ) : eqb (fin a) (fin b) = decide (a = b) := rfl
@[simp] theorem neg_fin (a : ℚ) : neg (fin a) = fin (-a) := rfl
@[simp] theorem abs_fin (a : ℚ) : F.abs (fin a) = fin |a| := rfl
@[simp] theorem isnan_fin (a : ℚ) : isnan (fin a) = false := rfl
@[simp] theorem isinf_fin (a : ℚ) : isinf (fin a) = false := rfl
@[simp] theorem isfinite_fin (a : ℚ) : isfinite (fin a) = true := rfl
@[simp] theorem isnan_nan : isnan nan = true := rfl
@[simp] theorem isnan_pinf : isnan pinf = false := rfl
@[simp] theorem isnan_ninf : isnan ninf = false := rfl
@[simp] theorem isinf_nan : isinf nan = false := rfl
@[simp] theorem isinf_pinf : isinf pinf = true := rfl
@[simp] theorem isinf_ninf : isinf ninf = true := rfl
@[simp] theorem isfinite_nan : isfinite nan = false := rfl
@[simp] theorem isfinite_pinf : isfinite pinf = false := rfl
@[simp] theorem isfinite_ninf : isfinite ninf = false := rfl
@[simp] theorem zero_def : F.zero = fin 0 := rfl
@[simp] theorem one_def : F.one = fin 1 := rfl

@[simp] theorem rnd_exact (r t q : ℚ) : (Arith.exact r t).rnd q = fin q := rfl
@[simp] theorem infMul_one : infMul 1 = pinf := by
  unfold infMul; rw [if_neg (by norm_num), if_pos (by norm_num)]
@[simp] theorem infMul_neg_one : infMul (-1) = ninf := by
  unfold infMul; rw [if_pos (by norm_num)]
@[simp] theorem infMul_zero : infMul 0 = nan := by
  unfold infMul; rw [if_neg (by norm_num), if_neg (by norm_num)]

theorem isfinite_iff {x : F} : x.isfinite = true ↔ ∃ q, x = fin q := by
  cases x <;> simp

theorem isnan_iff {x : F} : x.isnan = true ↔ x = nan := by
  cases x <;> simp

section exact
variable (r t : ℚ)

@[simp] theorem add_exact (a b : ℚ) : add (Arith.exact r t) (fin a) (fin b) = fin (a + b) := rfl
@[simp] theorem sub_exact (a b : ℚ) : sub (Arith.exact r t) (fin a) (fin b) = fin (a - b) := by
  simp [sub, sub_eq_add_neg]
@[simp] theorem mul_exact (a b : ℚ) : mul (Arith.exact r t) (fin a) (fin b) = fin (a * b) := rfl
theorem div_exact (a b : ℚ) (hb : b ≠ 0) : div (Arith.exact r t) (fin a) (fin b) = fin (a / b) := by
  simp [div, hb, Arith.exact]
theorem divE_exact (a b : ℚ) :
    divE (Arith.exact r t) (fin a) (fin b) = if b = 0 then .error .zeroDivision else .ok (fin (a / b)) := by
  by_cases hb : b = 0
  · simp [divE, hb]
  · simp [divE, hb, div_exact]
@[simp] theorem pmin_fin (a b : ℚ) : pmin (fin a) (fin b) = fin (min a b) := by
  by_cases h : b < a
  · simp [pmin, h, min_eq_right h.le]
  · simp [pmin, h, min_eq_left (not_lt.mp h)]
@[simp] theorem pmax_fin (a b : ℚ) : pmax (fin a) (fin b) = fin (max a b) := by
  by_cases h : a < b
  · simp [pmax, h, max_eq_right h.le]
  · simp [pmax, h, max_eq_left (not_lt.mp h)]
@[simp] theorem floordiv_exact (a b : ℚ) (hb : b ≠ 0) :
    floordiv (Arith.exact r t) (fin a) (fin b) = fin (⌊a / b⌋ : ℤ) := by
  simp [floordiv, hb, Arith.exact]

/-- The closeness test on finite values. -/
def Close (r t a b : ℚ) : Prop := a = b ∨ |a - b| ≤ max (r * max |a| |b|) t

theorem isClose_exact (a b : ℚ) :
    isClose (Arith.exact r t) (fin a) (fin b) = true ↔ Close r t a b := by
  by_cases h : a = b
  · simp [isClose, Close, h]
  · have e1 : (Arith.exact r t).rel = r := rfl
    have e2 : (Arith.exact r t).abs = t := rfl
    simp only [isClose, Close, h, isnan_fin, isinf_fin, eqb_fin, e1, e2, sub_exact, abs_fin,
      mul_exact, pmax_fin, le_fin]
    simp

/-- The condition under which `add_nb` snaps to zero. -/
def Snap (r t a b : ℚ) : Prop :=
  if sign (fin a) = sign (fin b) then Close r t (a + b) 0 else Close r t |a| |b|

theorem sign_fin_cases (a : ℚ) :
    (a < 0 ∧ sign (fin a) = fin (-1)) ∨ (a = 0 ∧ sign (fin a) = fin 0) ∨
      (0 < a ∧ sign (fin a) = fin 1) := by
  rcases lt_trichotomy a 0 with h | h | h
  · left; simp [sign, h]
  · right; left; simp [sign, h]
  · right; right; simp [sign, h, not_lt.mpr h.le]

theorem isAdditionZero_exact (a b : ℚ) :
    isAdditionZero (Arith.exact r t) (fin a) (fin b) = true ↔ Snap r t a b := by
  unfold isAdditionZero Snap
  by_cases h : sign (fin a) = sign (fin b)
  · have : eqb (sign (fin a)) (sign (fin b)) = true := by
      rw [h]; simp [sign]
    rw [this, if_pos h, ← isClose_exact r t]
    rfl
  · have : eqb (sign (fin a)) (sign (fin b)) = false := by
      simp only [sign, eqb_fin] at h ⊢
      simpa using h
    simp only [this, h, Bool.not_false, if_true, if_false, abs_fin]
    exact isClose_exact r t _ _

theorem addNb_exact (a b : ℚ) :
    (Snap r t a b ∧ addNb (Arith.exact r t) (fin a) (fin b) = fin 0) ∨
    (¬ Snap r t a b ∧ addNb (Arith.exact r t) (fin a) (fin b) = fin (a + b)) := by
  by_cases h : Snap r t a b
  · left; refine ⟨h, ?_⟩
    simp [addNb, (isAdditionZero_exact r t a b).mpr h]
  · right; refine ⟨h, ?_⟩
    have : isAdditionZero (Arith.exact r t) (fin a) (fin b) = false := by
      rw [← Bool.not_eq_true, isAdditionZero_exact]; exact h
    simp [addNb, this]

theorem addNb_exact_cases (a b : ℚ) :
    addNb (Arith.exact r t) (fin a) (fin b) = fin 0 ∨
    addNb (Arith.exact r t) (fin a) (fin b) = fin (a + b) := by
  rcases addNb_exact r t a b with h | h
  · exact Or.inl h.2
  · exact Or.inr h.2

/-- A snapped sum is small: relative to the larger addend, or absolutely. -/
theorem Snap.small {r t a b : ℚ} (hr0 : 0 ≤ r) (hr : r < 1) (h : Snap r t a b) :
    |a + b| ≤ max (r * max |a| |b|) t := by
  have hm : 0 ≤ max |a| |b| := le_trans (abs_nonneg a) (le_max_left _ _)
  have h0 : 0 ≤ max (r * max |a| |b|) t := le_trans (mul_nonneg hr0 hm) (le_max_left _ _)
  unfold Snap at h
  split at h
  · rcases h with h | h
    · rw [h]; simpa using h0
    · simp only [sub_zero, abs_zero] at h
      rw [max_eq_left (abs_nonneg (a + b))] at h
      rcases le_max_iff.mp h with h | h
      · have : |a + b| = 0 := by nlinarith [abs_nonneg (a + b)]
        rw [this]; exact h0
      · exact le_trans h (le_max_right _ _)
  · rename_i hs
    have key : |a + b| = |(|a| - |b|)| := by
      rcases sign_fin_cases a with ⟨ha, ea⟩ | ⟨ha, ea⟩ | ⟨ha, ea⟩ <;>
      rcases sign_fin_cases b with ⟨hb, eb⟩ | ⟨hb, eb⟩ | ⟨hb, eb⟩
      · exact absurd (ea.trans eb.symm) hs
      · subst hb; simp
      · rw [abs_of_neg ha, abs_of_pos hb, ← abs_neg (a + b)]; congr 1; ring
      · subst ha; simp
      · exact absurd (ea.trans eb.symm) hs
      · subst ha; simp
      · rw [abs_of_pos ha, abs_of_neg hb]; congr 1; ring
      · subst hb; simp
      · exact absurd (ea.trans eb.symm) hs
    rw [key]
    rcases h with h | h
    · rw [show |a| - |b| = 0 by rw [h, sub_self], abs_zero]; exact h0
    · simpa only [abs_abs] using h

/-- With zero tolerances `add_nb` is plain addition. -/
theorem addNb_zero_tol (a b : ℚ) : addNb (Arith.exact 0 0) (fin a) (fin b) = fin (a + b) := by
  rcases addNb_exact 0 0 a b with ⟨h, e⟩ | ⟨_, e⟩
  · have := Snap.small le_rfl (by norm_num) h
    simp only [zero_mul, max_self] at this
    have h0 : a + b = 0 := abs_eq_zero.mp (le_antisymm this (abs_nonneg _))
    rw [e, h0]
  · exact e

end exact

end Vbt
