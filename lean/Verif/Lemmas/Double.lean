import Verif.Model.Double
import Verif.Lemmas.FloatOrder
import Mathlib.Tactic.Ring
import Mathlib.Tactic.FieldSimp
import Mathlib.Tactic.Linarith
import Mathlib.Tactic.Positivity

/-! # Properties of binary64 rounding -/

namespace Vbt
open F

theorem roundEven_ge (q : ℚ) : ⌊q⌋ ≤ roundEven q := by
  unfold roundEven
  dsimp only
  split_ifs <;> omega

theorem roundEven_le (q : ℚ) : roundEven q ≤ ⌊q⌋ + 1 := by
  unfold roundEven
  dsimp only
  split_ifs <;> omega

theorem roundEven_int (n : ℤ) : roundEven n = n := by
  unfold roundEven
  simp

theorem roundEven_mono {x y : ℚ} (h : x ≤ y) : roundEven x ≤ roundEven y := by
  have hf : ⌊x⌋ ≤ ⌊y⌋ := Int.floor_le_floor h
  rcases lt_or_eq_of_le hf with hlt | heq
  · have h1 := roundEven_le x
    have h2 := roundEven_ge y
    omega
  · unfold roundEven
    dsimp only
    rw [← heq]
    have hd : x - ⌊x⌋ ≤ y - ⌊x⌋ := by linarith
    by_cases a : x - ⌊x⌋ < 1 / 2
    · rw [if_pos a]
      split_ifs <;> omega
    · rw [if_neg a, if_neg (show ¬ y - ⌊x⌋ < 1 / 2 by linarith)]
      by_cases b : 1 / 2 < x - ⌊x⌋
      · rw [if_pos b, if_pos (show 1 / 2 < y - ⌊x⌋ by linarith)]
      · rw [if_neg b]
        by_cases c : 1 / 2 < y - ⌊x⌋
        · rw [if_pos c]
          split_ifs <;> omega
        · rw [if_neg c]

theorem ulp_pos (e : ℤ) : 0 < ulp e := by unfold ulp; exact zpow_pos (by norm_num) _

theorem ulp_mul (e : ℤ) : (2 : ℚ) ^ (52 : ℤ) * ulp e = (2 : ℚ) ^ e := by
  unfold ulp
  rw [← zpow_add₀ (by norm_num)]
  congr 1
  ring

theorem ulp_mul_succ (e : ℤ) : (2 : ℚ) ^ (53 : ℤ) * ulp e = (2 : ℚ) ^ (e + 1) := by
  unfold ulp
  rw [← zpow_add₀ (by norm_num)]
  congr 1
  ring

/-- Every multiple of the spacing of a binade up to the end of the binade is represented. -/
theorem rndPos_grid {e m : ℤ} {v : ℚ} (he : -1022 ≤ e) (hv : v = m * ulp e) (h0 : 0 < v) (h1 : v ≤ (2 : ℚ) ^ (e + 1))
    (h2 : v < (2 : ℚ) ^ (1024 : ℤ)) : rndPos v = fin v := by
  have hk : ∃ k : ℤ, v / ulp (binade v) = k := by
    rcases lt_or_eq_of_le h1 with h1 | h1
    · have hlog : Int.log 2 v < e + 1 := by
        rw [← Int.lt_zpow_iff_log_lt (by norm_num) h0]
        exact_mod_cast h1
      have hb : binade v ≤ e := by unfold binade; omega
      obtain ⟨d, hd⟩ := Int.eq_ofNat_of_zero_le (show 0 ≤ e - binade v by omega)
      refine ⟨m * 2 ^ d, ?_⟩
      have hu : ulp e = 2 ^ d * ulp (binade v) := by
        unfold ulp
        rw [← zpow_natCast, ← zpow_add₀ (by norm_num)]
        congr 1
        have : (d : ℤ) = e - binade v := hd.symm
        omega
      rw [div_eq_iff (ulp_pos (binade v)).ne']
      push_cast
      rw [mul_assoc, ← hu]
      exact hv
    · have hlog : Int.log 2 v = e + 1 := by
        rw [h1]
        exact Int.log_zpow (R := ℚ) (b := 2) (by norm_num) (e + 1)
      have hb : binade v = e + 1 := by unfold binade; omega
      refine ⟨2 ^ 52, ?_⟩
      rw [hb, h1]
      have := ulp_mul (e + 1)
      rw [← this]
      have := (ulp_pos (e + 1)).ne'
      field_simp
      norm_num
  obtain ⟨k, hk⟩ := hk
  unfold rndPos
  dsimp only
  rw [hk, roundEven_int, ← hk, div_mul_cancel₀ _ (ulp_pos _).ne', if_neg (not_le.mpr h2)]

theorem binade_le {v : ℚ} (h : 0 < v) (hb : -1022 < binade v) : (2 : ℚ) ^ binade v ≤ v := by
  have : binade v = Int.log 2 v := by unfold binade at hb ⊢; omega
  rw [this]
  exact_mod_cast Int.zpow_log_le_self (R := ℚ) (b := 2) (by norm_num) h

theorem lt_binade (v : ℚ) : v < (2 : ℚ) ^ (binade v + 1) := by
  have h1 := Int.lt_zpow_succ_log_self (R := ℚ) (b := 2) (by norm_num) v
  refine lt_of_lt_of_le (by exact_mod_cast h1) ?_
  refine zpow_le_zpow_right₀ (by norm_num) ?_
  unfold binade
  omega

/-- The multiple of the spacing that a positive number is rounded to. -/
def mantissa (q : ℚ) : ℤ := roundEven (q / ulp (binade q))

theorem mantissa_nonneg {q : ℚ} (h : 0 < q) : 0 ≤ mantissa q := by
  unfold mantissa
  have : (0 : ℤ) = roundEven ((0 : ℤ) : ℚ) := (roundEven_int 0).symm
  rw [this]
  refine roundEven_mono ?_
  have := ulp_pos (binade q)
  push_cast
  positivity

theorem mantissa_le {q : ℚ} : (mantissa q : ℚ) * ulp (binade q) ≤ (2 : ℚ) ^ (binade q + 1) := by
  have h1 : mantissa q ≤ 2 ^ 53 := by
    unfold mantissa
    have : (2 ^ 53 : ℤ) = roundEven ((2 ^ 53 : ℤ) : ℚ) := (roundEven_int _).symm
    rw [this]
    refine roundEven_mono ?_
    rw [div_le_iff₀ (ulp_pos _)]
    have h2 := ulp_mul_succ (binade q)
    have h3 := (lt_binade q).le
    rw [← h2] at h3
    push_cast
    exact_mod_cast h3
  rw [← ulp_mul_succ]
  refine mul_le_mul_of_nonneg_right ?_ (ulp_pos _).le
  exact_mod_cast h1

theorem mantissa_ge {q : ℚ} (h : 0 < q) (hb : -1022 < binade q) : (2 : ℚ) ^ binade q ≤ (mantissa q : ℚ) * ulp (binade q) := by
  have h1 : 2 ^ 52 ≤ mantissa q := by
    unfold mantissa
    have : (2 ^ 52 : ℤ) = roundEven ((2 ^ 52 : ℤ) : ℚ) := (roundEven_int _).symm
    rw [this]
    refine roundEven_mono ?_
    rw [le_div_iff₀ (ulp_pos _)]
    have h2 := ulp_mul (binade q)
    have h3 := binade_le h hb
    rw [← h2] at h3
    push_cast
    exact_mod_cast h3
  rw [← ulp_mul]
  refine mul_le_mul_of_nonneg_right ?_ (ulp_pos _).le
  exact_mod_cast h1

theorem rndPos_eq (q : ℚ) :
    rndPos q = if (2 : ℚ) ^ (1024 : ℤ) ≤ mantissa q * ulp (binade q) then pinf else fin (mantissa q * ulp (binade q)) := rfl

theorem mantissa_mono {x y : ℚ} (h0 : 0 < x) (h : x ≤ y) :
    (mantissa x : ℚ) * ulp (binade x) ≤ mantissa y * ulp (binade y) := by
  have hb : binade x ≤ binade y := by
    unfold binade
    have := Int.log_mono_right (b := 2) h0 h
    omega
  rcases lt_or_eq_of_le hb with hlt | heq
  · refine le_trans mantissa_le (le_trans ?_ (mantissa_ge (lt_of_lt_of_le h0 h) ?_))
    · exact zpow_le_zpow_right₀ (by norm_num) (by omega)
    · have : -1022 ≤ binade x := by unfold binade; omega
      omega
  · rw [heq]
    refine mul_le_mul_of_nonneg_right ?_ (ulp_pos _).le
    have : mantissa x ≤ mantissa y := by
      unfold mantissa
      rw [heq]
      refine roundEven_mono ?_
      exact div_le_div_of_nonneg_right h (ulp_pos _).le
    exact_mod_cast this

theorem rndPos_mono {x y : ℚ} (h0 : 0 < x) (h : x ≤ y) : le (rndPos x) (rndPos y) = true := by
  rw [rndPos_eq, rndPos_eq]
  have hm := mantissa_mono h0 h
  by_cases h1 : (2 : ℚ) ^ (1024 : ℤ) ≤ mantissa x * ulp (binade x)
  · rw [if_pos h1, if_pos (le_trans h1 hm)]
    rfl
  · rw [if_neg h1]
    split
    · rfl
    · exact decide_eq_true hm

theorem rndPos_nonneg {x : ℚ} (h0 : 0 < x) : le (fin 0) (rndPos x) = true := by
  rw [rndPos_eq]
  split
  · rfl
  · refine decide_eq_true ?_
    have := mantissa_nonneg h0
    have := ulp_pos (binade x)
    have h3 : (0 : ℚ) ≤ mantissa x := by exact_mod_cast mantissa_nonneg h0
    positivity

theorem rndPos_idem {x y : ℚ} (h0 : 0 < x) (h : rndPos x = fin y) : y = 0 ∨ (0 < y ∧ rndPos y = fin y) := by
  rw [rndPos_eq] at h
  by_cases h1 : (2 : ℚ) ^ (1024 : ℤ) ≤ mantissa x * ulp (binade x)
  · rw [if_pos h1] at h; cases h
  · rw [if_neg h1] at h
    have hy : (mantissa x : ℚ) * ulp (binade x) = y := by injection h
    have hm : (0 : ℚ) ≤ mantissa x := by exact_mod_cast mantissa_nonneg h0
    have hn : 0 ≤ y := by
      rw [← hy]
      have := ulp_pos (binade x)
      positivity
    rcases lt_or_eq_of_le hn with hpos | heq
    · refine Or.inr ⟨hpos, ?_⟩
      refine rndPos_grid (e := binade x) (m := mantissa x) (by unfold binade; omega) hy.symm hpos ?_ ?_
      · rw [← hy]; exact mantissa_le
      · rw [← hy]; exact not_le.mp h1
    · exact Or.inl heq.symm

theorem rndDouble_zero : rndDouble 0 = fin 0 := by unfold rndDouble; rw [if_pos rfl]

theorem rndDouble_pos {q : ℚ} (h : 0 < q) : rndDouble q = rndPos q := by
  unfold rndDouble
  rw [if_neg h.ne', if_pos h]

theorem rndDouble_neg {q : ℚ} (h : q < 0) : rndDouble q = F.neg (rndPos (-q)) := by
  unfold rndDouble
  rw [if_neg h.ne, if_neg (by linarith)]

theorem neg_neg' (x : F) : F.neg (F.neg x) = x := by cases x <;> simp [F.neg]

theorem neg_le_neg' {x y : F} (h : le x y = true) : le (F.neg y) (F.neg x) = true := by
  cases x <;> cases y <;> simp_all [F.neg, le]

theorem rndDouble_sound_neg (x : ℚ) : rndDouble (-x) = F.neg (rndDouble x) := by
  rcases lt_trichotomy x 0 with h | rfl | h
  · rw [rndDouble_pos (by linarith), rndDouble_neg h, neg_neg']
  · rw [neg_zero, rndDouble_zero]; rfl
  · rw [rndDouble_neg (by linarith), rndDouble_pos h, neg_neg]

/-- Binary64 rounding is sound. -/
theorem double_sound : Arith.double.Sound where
  neg := rndDouble_sound_neg
  mono := by
    intro x y h
    show le (rndDouble x) (rndDouble y) = true
    rcases lt_trichotomy x 0 with hx | rfl | hx
    · have hxn : le (rndDouble x) (fin 0) = true := by
        rw [rndDouble_neg hx]
        exact neg_le_neg' (x := fin 0) (rndPos_nonneg (by linarith))
      rcases lt_trichotomy y 0 with hy | rfl | hy
      · rw [rndDouble_neg hx, rndDouble_neg hy]
        exact neg_le_neg' (rndPos_mono (by linarith) (by linarith))
      · rw [rndDouble_zero]; exact hxn
      · rw [rndDouble_pos hy]
        exact le_trans' hxn (rndPos_nonneg hy)
    · rw [rndDouble_zero]
      rcases lt_or_eq_of_le h with hy | rfl
      · rw [rndDouble_pos hy]; exact rndPos_nonneg hy
      · rw [rndDouble_zero]; rfl
    · rw [rndDouble_pos hx, rndDouble_pos (by linarith)]
      exact rndPos_mono hx h
  int := by
    have key : ∀ n : ℤ, 0 < n → n ≤ 2 ^ 53 → rndDouble n = fin n := by
      intro n h0 h1
      have h0' : (0 : ℚ) < n := by exact_mod_cast h0
      have h1' : (n : ℚ) ≤ 2 ^ 53 := by exact_mod_cast h1
      rw [rndDouble_pos h0']
      refine rndPos_grid (e := 52) (m := n) (by norm_num) ?_ h0' ?_ ?_
      · unfold ulp; norm_num
      · exact_mod_cast h1'
      · refine lt_of_le_of_lt h1' ?_
        exact_mod_cast (pow_lt_pow_right₀ (by norm_num) (by norm_num) : (2 : ℚ) ^ 53 < 2 ^ 1024)
    intro n hn
    show rndDouble n = fin n
    rcases lt_trichotomy n 0 with h | rfl | h
    · have h1 := key (-n) (by omega) (by rw [abs_of_neg h] at hn; exact hn)
      have h2 := rndDouble_sound_neg (-(n : ℚ))
      rw [neg_neg] at h2
      push_cast at h1
      rw [h2, h1]
      simp [F.neg]
    · exact_mod_cast rndDouble_zero
    · exact key n h (by rw [abs_of_pos h] at hn; exact hn)
  idem := by
    have key : ∀ x y : ℚ, 0 < x → rndPos x = fin y → rndDouble y = fin y := by
      intro x y h0 h
      rcases rndPos_idem h0 h with rfl | ⟨h1, h2⟩
      · exact rndDouble_zero
      · rw [rndDouble_pos h1]; exact h2
    intro x y h
    change rndDouble x = fin y at h
    show rndDouble y = fin y
    rcases lt_trichotomy x 0 with hx | rfl | hx
    · rw [rndDouble_neg hx] at h
      have h1 : rndPos (-x) = fin (-y) := by
        rw [← neg_neg' (rndPos (-x)), h]; rfl
      have h2 := key (-x) (-y) (by linarith) h1
      have h3 := rndDouble_sound_neg (-y)
      rw [neg_neg, h2] at h3
      rw [h3]
      simp [F.neg]
    · rw [rndDouble_zero] at h
      cases h
      exact rndDouble_zero
    · rw [rndDouble_pos hx] at h
      exact key x y hx h

/-- Exact arithmetic is sound. -/
theorem exact_sound (r t : ℚ) : (Arith.exact r t).Sound where
  mono := fun _ _ h => decide_eq_true h
  int := fun _ _ => rfl
  idem := fun _ _ _ => rfl
  neg := fun _ => rfl

/-- Non-vacuity: one third is rounded as in CPython (`Fraction(1/3)`). -/
example : rndDouble (1 / 3) = fin (6004799503160661 / 18014398509481984) := by decide +kernel

example : rndDouble (2 ^ 53 + 1) = fin (2 ^ 53) := by decide +kernel

end Vbt
