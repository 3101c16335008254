import Verif.Lemmas.Valid

/-! # Numeric content of filled orders in exact arithmetic -/

namespace Vbt
open F

theorem lt_asymm_F {a b : F} (h : lt a b = true) : lt b a = false := by
  cases a <;> cases b <;> simp_all [lt, le_of_lt]

theorem le_of_not_lt_F {a b : F} (h : lt b a = false) (ha : a ≠ nan) (hb : b ≠ nan) : le a b = true := by
  cases a <;> cases b <;> simp_all [lt, le]

theorem le_of_lt_F {a b : F} (h : lt a b = true) : le a b = true := by
  cases a <;> cases b <;> simp_all [lt, le, le_of_lt]

theorem le_trans_F {a b c : F} (h1 : le a b = true) (h2 : le b c = true) : le a c = true := by
  cases a <;> cases b <;> cases c <;> simp_all [le]
  exact le_trans h1 h2

theorem pmin_le_right {a b : F} (ha : a ≠ nan) (hb : b ≠ nan) : le (pmin a b) b = true := by
  unfold pmin
  split
  · cases b <;> simp_all [le]
  · rename_i h; exact le_of_not_lt_F (Bool.eq_false_iff.mpr h) ha hb

theorem pmin_le_left {a b : F} (ha : a ≠ nan) : le (pmin a b) a = true := by
  unfold pmin
  split
  · rename_i h; exact le_of_lt_F h
  · cases a <;> simp_all [le]

theorem pmin_ne_nan {a b : F} (ha : a ≠ nan) : pmin a b ≠ nan := by
  unfold pmin
  split
  · rename_i h; intro hb; subst hb; cases a <;> simp_all [lt]
  · exact ha

theorem isCloseOrLess_false {A a b} (h : isCloseOrLess A a b = false) :
    isClose A a b = false ∧ lt a b = false := by
  unfold isCloseOrLess at h
  cases hc : isClose A a b <;> simp_all

theorem isLess_false {A a b} (h : isLess A a b = false) :
    isClose A a b = true ∨ lt a b = false := by
  unfold isLess at h
  cases hc : isClose A a b <;> simp_all

/-- The cash limit never exceeds cash (any arithmetic). -/
theorem buyCashLimit_le {A s o p percent lim} (h : buyCashLimit A s o p percent = .ok lim)
    (hc : s.cash ≠ nan) : lim = nan ∨ le lim s.cash = true := by
  unfold buyCashLimit at h
  simp only at h
  split at h
  · cases h
  rename_i l hl
  clear hl
  cases h
  by_cases hn : l = nan
  · left
    subst hn
    have : pmin nan s.cash = nan := by unfold pmin; cases s.cash <;> simp [lt]
    rw [this]
    split
    · rfl
    · unfold pmin; cases percent <;> simp [mul, lt]
  · right
    have h1 := pmin_le_right hn hc
    split
    · exact h1
    · exact le_trans_F (pmin_le_left (pmin_ne_nan hn)) h1

section exact
variable {r t : ℚ}

/-- Numeric content of the size/fees/cash computation of a buy. -/
theorem buyFinal_num {o : Order} {adj lim : F} {p φ x : ℚ} {f : BuyFill}
    (hp : 0 < p) (hfees : o.fees = fin φ) (hφ : 0 < 1 + φ) (hfix : o.fixedFees = fin x)
    (hgran : o.gran = nan ∨ FinAnd o.gran (0 < ·)) (hlim : lim ≠ nan)
    (hadj : (adj = nan ∨ adj = pinf) ∧ lim ≠ pinf ∨ FinAnd adj (0 ≤ ·))
    (h : buyFinal (Arith.exact r t) o adj (fin p) lim = .ok (some f)) :
    ∃ sz fe rq : ℚ, f = ⟨fin sz, fin fe, fin rq⟩ ∧ fe = sz * p * φ + x ∧ rq = sz * p + fe ∧ 0 ≤ sz ∧
      (∀ a, adj = fin a → sz ≤ a) ∧
      (lim = pinf ∨ ∃ L, lim = fin L ∧ (rq ≤ L ∨ Close r t rq L)) ∧
      (adj = fin sz ∨ (∃ g k : ℚ, o.gran = fin g ∧ (∃ m : ℕ, k = m) ∧ sz = k * g) ∨
        (o.gran = nan ∧ lim = fin rq ∧ 0 < sz)) := by
  unfold buyFinal at h
  simp only [hfees, hfix] at h
  split at h
  · -- sufficient cash
    rename_i hs
    rcases hadj with ⟨ha, hl⟩ | ⟨a, rfl, ha⟩
    · exfalso
      rcases ha with rfl | rfl
      · simp [mul, add, isCloseOrLess, isClose, lt] at hs
      · have e1 : mul (Arith.exact r t) pinf (fin p) = pinf := by
          simp [mul, infMul, hp, not_lt.mpr hp.le]
        rw [e1] at hs
        rcases lt_trichotomy φ 0 with hφ' | hφ' | hφ'
        · simp [mul, infMul, hφ', add, isCloseOrLess, isClose, lt] at hs
        · simp [mul, infMul, hφ', add, isCloseOrLess, isClose, lt] at hs
        · simp only [mul, infMul, hφ', not_lt.mpr hφ'.le, add, isCloseOrLess, isClose, lt, if_true, if_false,
            isnan_pinf, isinf_pinf, Bool.true_or, Bool.false_or] at hs
          cases lim <;> simp_all [lt]
    · simp only [mul_exact, add_exact] at hs h
      cases h
      refine ⟨a, a * p * φ + x, a * p + (a * p * φ + x), rfl, rfl, rfl, ha, ?_, ?_, Or.inl rfl⟩
      · intro a' e; cases e; exact le_rfl
      · cases lim with
        | nan => exact absurd rfl hlim
        | pinf => left; rfl
        | ninf => simp [isCloseOrLess, isClose, lt] at hs
        | fin L =>
          right; refine ⟨L, rfl, ?_⟩
          unfold isCloseOrLess at hs
          split at hs
          · rename_i hc; exact Or.inr ((isClose_exact r t _ _).mp hc)
          · left; simp at hs; exact hs.le
  · -- insufficient cash
    rename_i hs
    have hfin : ∃ L, lim = fin L := by
      cases lim with
      | nan => exact absurd rfl hlim
      | fin L => exact ⟨L, rfl⟩
      | ninf =>
        exfalso
        have e : addNb (Arith.exact r t) ninf (neg (fin x)) = ninf := by
          have : isAdditionZero (Arith.exact r t) ninf (fin (-x)) = false := by
            unfold isAdditionZero; split
            · simp [isClose, F.abs]
            · simp [isClose, add]
          simp [addNb, this, add]
        simp only [e, one_def, add_exact, divE, eqb_fin, zero_def] at h
        have hne : ¬ (1 + φ = 0) := by linarith
        simp [hne, div, not_lt.mpr hφ.le, le] at h
      | pinf =>
        exfalso
        rcases hadj with ⟨_, hl⟩ | ⟨a, rfl, _⟩
        · exact hl rfl
        · apply hs; simp [isCloseOrLess, isClose, lt]
    obtain ⟨L, rfl⟩ := hfin
    have hne : ¬ (1 + φ = 0) := by linarith
    simp only [neg_fin, one_def, add_exact] at h
    rcases addNb_exact_cases r t L (-x) with e | e
    · simp [e, divE_exact, hne] at h
    · have hpne : p ≠ 0 := hp.ne'
      simp only [e, divE_exact, hne, if_false, zero_def, le_fin] at h
      split at h
      · cases h
      rename_i hpos
      simp only [decide_eq_true_eq, not_le] at hpos
      simp only [hpne, if_false] at h
      have hlt : ∀ a, adj = fin a → L < a * p + (a * p * φ + x) := by
        intro a ha
        subst ha
        simp only [mul_exact, add_exact, Bool.not_eq_true] at hs
        obtain ⟨hnc, hs⟩ := isCloseOrLess_false hs
        simp only [lt_fin, decide_eq_false_iff_not, not_lt] at hs
        rcases hs.lt_or_eq with h | h
        · exact h
        · exfalso
          rw [(isClose_exact r t _ _).mpr (Or.inl h.symm)] at hnc
          cases hnc
      have hmr : (L + -x) / (1 + φ) * (1 + φ) = L + -x := div_mul_cancel₀ _ hne
      have hma : (L + -x) / (1 + φ) / p * p = (L + -x) / (1 + φ) := div_mul_cancel₀ _ hpne
      have hmapos : 0 < (L + -x) / (1 + φ) / p := div_pos hpos hp
      have hle : ∀ a, adj = fin a → (L + -x) / (1 + φ) / p ≤ a := by
        intro a ha
        have h1 := hlt a ha
        rw [div_le_iff₀ hp, div_le_iff₀ hφ]
        nlinarith
      rcases hgran with hg | ⟨g, hg, hg0⟩
      · simp only [hg, isnan_nan, Bool.not_true, Bool.false_eq_true, if_false, sub_exact] at h
        cases h
        refine ⟨_, _, _, rfl, ?_, ?_, hmapos.le, hle, Or.inr ⟨L, rfl, Or.inl le_rfl⟩, ?_⟩
        · rw [hma]; linarith
        · rw [hma]; ring
        · exact Or.inr (Or.inr ⟨hg, rfl, hmapos⟩)
      · simp only [hg, isnan_fin, Bool.not_false, if_true, floordiv_exact _ _ _ _ hg0.ne', mul_exact,
          add_exact] at h
        cases h
        set m := (L + -x) / (1 + φ) / p with hm
        have hk0 : 0 ≤ ⌊m / g⌋ := Int.floor_nonneg.mpr (div_nonneg hmapos.le hg0.le)
        have hfl : (⌊m / g⌋ : ℚ) * g ≤ m := by
          have := Int.floor_le (m / g)
          rwa [le_div_iff₀ hg0] at this
        have hsz0 : (0 : ℚ) ≤ (⌊m / g⌋ : ℚ) * g := mul_nonneg (by exact_mod_cast hk0) hg0.le
        refine ⟨_, _, _, rfl, rfl, rfl, hsz0, fun a ha => le_trans hfl (hle a ha),
          Or.inr ⟨L, rfl, Or.inl ?_⟩, ?_⟩
        · have h1 : (⌊m / g⌋ : ℚ) * g * p ≤ (L + -x) / (1 + φ) := by
            rw [← hma]; exact mul_le_mul_of_nonneg_right hfl hp.le
          have h2 := mul_le_mul_of_nonneg_right h1 hφ.le
          rw [hmr] at h2
          nlinarith
        · right; left
          refine ⟨g, _, hg, ⟨⌊m / g⌋.toNat, ?_⟩, rfl⟩
          have : ((⌊m / g⌋.toNat : ℤ) : ℚ) = (⌊m / g⌋ : ℚ) := by rw [Int.toNat_of_nonneg hk0]
          exact_mod_cast this.symm

end exact
end Vbt
