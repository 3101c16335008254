import Mathlib.Algebra.Order.Field.Basic
import Mathlib.Algebra.Order.Ring.Rat
import Mathlib.Tactic.FieldSimp
import Mathlib.Tactic.Linarith
import Mathlib.Tactic.NormNum
import Mathlib.Tactic.Positivity
import Mathlib.Tactic.Ring
import Verif.Model.PnlMarkers

/-!
# C119: sizes, opacities and series of the markers of trades

`Trades.plot_pnl` draws each trade as a marker.  Its size and opacity grow with the absolute return, in proportion to it as long as
the range allows.
-/

namespace Vbt

/-! ## Extremes -/

theorem foldl_min_spec (l : List ℚ) (x : ℚ) : l.foldl min x ∈ x :: l ∧ ∀ y ∈ x :: l, l.foldl min x ≤ y := by
  induction l generalizing x with
  | nil => simp
  | cons a l ih =>
    obtain ⟨h1, h2⟩ := ih (min x a)
    rw [List.foldl_cons]
    constructor
    · rcases List.mem_cons.mp h1 with h | h
      · rcases min_choice x a with e | e
        · rw [h, e]; simp
        · rw [h, e]; simp
      · simp [h]
    · intro y hy
      rcases List.mem_cons.mp hy with rfl | hy
      · exact (h2 (min y a) (by simp)).trans (min_le_left _ _)
      · rcases List.mem_cons.mp hy with rfl | hy
        · exact (h2 (min x y) (by simp)).trans (min_le_right _ _)
        · exact h2 y (by simp [hy])

theorem foldl_max_spec (l : List ℚ) (x : ℚ) : l.foldl max x ∈ x :: l ∧ ∀ y ∈ x :: l, y ≤ l.foldl max x := by
  induction l generalizing x with
  | nil => simp
  | cons a l ih =>
    obtain ⟨h1, h2⟩ := ih (max x a)
    rw [List.foldl_cons]
    constructor
    · rcases List.mem_cons.mp h1 with h | h
      · rcases max_choice x a with e | e
        · rw [h, e]; simp
        · rw [h, e]; simp
      · simp [h]
    · intro y hy
      rcases List.mem_cons.mp hy with rfl | hy
      · exact (le_max_left _ _).trans (h2 (max y a) (by simp))
      · rcases List.mem_cons.mp hy with rfl | hy
        · exact (le_max_right _ _).trans (h2 (max x y) (by simp))
        · exact h2 y (by simp [hy])

theorem listMin_eq {a : List ℚ} {mn : ℚ} (h : mn ∈ a) (hl : ∀ x ∈ a, mn ≤ x) : listMin a = mn := by
  cases a with
  | nil => simp at h
  | cons x l =>
    obtain ⟨h1, h2⟩ := foldl_min_spec l x
    exact le_antisymm (h2 mn h) (hl _ h1)

theorem listMax_eq {a : List ℚ} {mx : ℚ} (h : mx ∈ a) (hl : ∀ x ∈ a, x ≤ mx) : listMax a = mx := by
  cases a with
  | nil => simp at h
  | cons x l =>
    obtain ⟨h1, h2⟩ := foldl_max_spec l x
    exact le_antisymm (hl _ h1) (h2 mx h)

/-! ## Scaling -/

/-- The extremes of the numbers, which are not negative. -/
structure Extremes (a : List ℚ) (mn mx : ℚ) : Prop where
  min_mem : mn ∈ a
  max_mem : mx ∈ a
  bounds : ∀ x ∈ a, mn ≤ x ∧ x ≤ mx
  nonneg : 0 ≤ mn

/-- **C119, sizes.**  Let the numbers reach from `mn ≥ 0` to `mx` and the range from `lo > 0` to `hi ≥ lo`.  If all are equal they
get `lo`; if the range is wide enough each gets `lo` times its ratio to the least; otherwise they are spread evenly over the
range. -/
theorem C119_sizes (a : List ℚ) (mn mx lo hi : ℚ) (h : Extremes a mn mx) (hlo : 0 < lo) :
    minRelRescale a lo hi = .ok (a.map fun x =>
      if mn = mx then lo
      else if 0 < mn ∧ mx * lo < hi * mn then lo * (x / mn)
      else lo + (hi - lo) * ((x - mn) / (mx - mn))) := by
  have ha : a ≠ [] := List.ne_nil_of_mem h.min_mem
  have e1 := listMin_eq h.min_mem fun x hx => (h.bounds x hx).1
  have e2 := listMax_eq h.max_mem fun x hx => (h.bounds x hx).2
  have hle : mn ≤ mx := (h.bounds mx h.max_mem).1
  unfold minRelRescale
  rw [e1, e2, if_neg ha]
  by_cases hm : mn = mx
  · rw [if_pos (by linarith)]
    simp [hm]
  · have hlt : mn < mx := lt_of_le_of_ne hle hm
    have hd : mx - mn ≠ 0 := by linarith
    rw [if_neg hd, if_neg hlo.ne']
    have hcond : (mn ≠ 0 ∧ mx / mn < hi / lo) ↔ (0 < mn ∧ mx * lo < hi * mn) := by
      constructor
      · rintro ⟨h1, h2⟩
        have hp : 0 < mn := lt_of_le_of_ne h.nonneg (Ne.symm h1)
        exact ⟨hp, (div_lt_div_iff₀ hp hlo).mp h2⟩
      · rintro ⟨h1, h2⟩
        exact ⟨h1.ne', (div_lt_div_iff₀ h1 hlo).mpr h2⟩
    by_cases hc : 0 < mn ∧ mx * lo < hi * mn
    · rw [if_pos (hcond.mpr hc)]
      have hn := hc.1.ne'
      congr 1
      apply List.map_congr_left
      intro x _
      rw [if_neg hm, if_pos hc]
      unfold renorm
      field_simp
      ring
    · rw [if_neg (fun e => hc (hcond.mp e))]
      congr 1
      apply List.map_congr_left
      intro x _
      rw [if_neg hm, if_neg hc]
      unfold renorm
      field_simp
      ring

/-- **C119, opacities.**  Likewise from the top: equal numbers get `hi`; if the range is wide enough each gets `hi` times its ratio
to the greatest; otherwise they are spread evenly over the range. -/
theorem C119_opacities (a : List ℚ) (mn mx lo hi : ℚ) (h : Extremes a mn mx) (hlo : 0 < lo) :
    maxRelRescale a lo hi = .ok (a.map fun x =>
      if mn = mx then hi
      else if 0 < mn ∧ mx * lo < hi * mn then hi * (x / mx)
      else lo + (hi - lo) * ((x - mn) / (mx - mn))) := by
  have ha : a ≠ [] := List.ne_nil_of_mem h.min_mem
  have e1 := listMin_eq h.min_mem fun x hx => (h.bounds x hx).1
  have e2 := listMax_eq h.max_mem fun x hx => (h.bounds x hx).2
  have hle : mn ≤ mx := (h.bounds mx h.max_mem).1
  unfold maxRelRescale
  rw [e1, e2, if_neg ha]
  by_cases hm : mn = mx
  · rw [if_pos (by linarith)]
    simp [hm]
  · have hlt : mn < mx := lt_of_le_of_ne hle hm
    have hd : mx - mn ≠ 0 := by linarith
    rw [if_neg hd, if_neg hlo.ne']
    have hcond : (mn ≠ 0 ∧ mx / mn < hi / lo) ↔ (0 < mn ∧ mx * lo < hi * mn) := by
      constructor
      · rintro ⟨h1, h2⟩
        have hp : 0 < mn := lt_of_le_of_ne h.nonneg (Ne.symm h1)
        exact ⟨hp, (div_lt_div_iff₀ hp hlo).mp h2⟩
      · rintro ⟨h1, h2⟩
        exact ⟨h1.ne', (div_lt_div_iff₀ h1 hlo).mpr h2⟩
    by_cases hc : 0 < mn ∧ mx * lo < hi * mn
    · rw [if_pos (hcond.mpr hc)]
      have hn := hc.1.ne'
      have hx0 : mx ≠ 0 := by linarith [hc.1]
      congr 1
      apply List.map_congr_left
      intro x _
      rw [if_neg hm, if_pos hc]
      unfold renorm
      field_simp
      ring
    · rw [if_neg (fun e => hc (hcond.mp e))]
      congr 1
      apply List.map_congr_left
      intro x _
      rw [if_neg hm, if_neg hc]
      unfold renorm
      field_simp
      ring

/-- **C119, range and order.**  Sizes and opacities stay in the range and are in the order of the numbers. -/
theorem C119_range (a : List ℚ) (mn mx lo hi : ℚ) (h : Extremes a mn mx) (hlo : 0 < lo) (hhi : lo ≤ hi) :
    (∃ f : ℚ → ℚ, minRelRescale a lo hi = .ok (a.map f) ∧ (∀ x ∈ a, lo ≤ f x ∧ f x ≤ hi) ∧ ∀ x y, x ≤ y → f x ≤ f y) ∧
    (∃ f : ℚ → ℚ, maxRelRescale a lo hi = .ok (a.map f) ∧ (∀ x ∈ a, lo ≤ f x ∧ f x ≤ hi) ∧ ∀ x y, x ≤ y → f x ≤ f y) := by
  have hle : mn ≤ mx := (h.bounds mx h.max_mem).1
  have hlin : ∀ x, mn ≠ mx → mn ≤ x → x ≤ mx → 0 ≤ (x - mn) / (mx - mn) ∧ (x - mn) / (mx - mn) ≤ 1 := by
    intro x hm h1 h2
    have hlt : mn < mx := lt_of_le_of_ne hle hm
    exact ⟨div_nonneg (by linarith) (by linarith), (div_le_one (by linarith)).mpr (by linarith)⟩
  have hmono : ∀ x y, mn ≠ mx → x ≤ y → (x - mn) / (mx - mn) ≤ (y - mn) / (mx - mn) := by
    intro x y hm hxy
    have hlt : mn < mx := lt_of_le_of_ne hle hm
    exact (div_le_div_iff_of_pos_right (by linarith)).mpr (by linarith)
  constructor
  · refine ⟨_, C119_sizes a mn mx lo hi h hlo, fun x hx => ?_, fun x y hxy => ?_⟩
    · obtain ⟨b1, b2⟩ := h.bounds x hx
      by_cases hm : mn = mx
      · simp only [hm, if_true]; exact ⟨le_refl _, hhi⟩
      · by_cases hc : 0 < mn ∧ mx * lo < hi * mn
        · simp only [hm, hc, if_false, and_self, if_true]
          obtain ⟨c1, c2⟩ := hc
          constructor
          · have : 1 ≤ x / mn := (one_le_div c1).mpr b1
            nlinarith
          · rw [← mul_div_assoc, div_le_iff₀ c1]
            nlinarith
        · rw [if_neg hm, if_neg hc]
          obtain ⟨l1, l2⟩ := hlin x hm b1 b2
          constructor <;> nlinarith
    · by_cases hm : mn = mx
      · simp [hm]
      · by_cases hc : 0 < mn ∧ mx * lo < hi * mn
        · simp only [hm, hc, if_false, and_self, if_true]
          have : x / mn ≤ y / mn := (div_le_div_iff_of_pos_right hc.1).mpr hxy
          nlinarith
        · rw [if_neg hm, if_neg hc, if_neg hm, if_neg hc]
          have := hmono x y hm hxy
          nlinarith
  · refine ⟨_, C119_opacities a mn mx lo hi h hlo, fun x hx => ?_, fun x y hxy => ?_⟩
    · obtain ⟨b1, b2⟩ := h.bounds x hx
      by_cases hm : mn = mx
      · simp only [hm, if_true]; exact ⟨hhi, le_refl _⟩
      · by_cases hc : 0 < mn ∧ mx * lo < hi * mn
        · simp only [hm, hc, if_false, and_self, if_true]
          obtain ⟨c1, c2⟩ := hc
          have hmx : 0 < mx := by linarith
          constructor
          · rw [← mul_div_assoc, le_div_iff₀ hmx]
            nlinarith
          · have : x / mx ≤ 1 := (div_le_one hmx).mpr b2
            nlinarith
        · rw [if_neg hm, if_neg hc]
          obtain ⟨l1, l2⟩ := hlin x hm b1 b2
          constructor <;> nlinarith
    · by_cases hm : mn = mx
      · simp [hm]
      · by_cases hc : 0 < mn ∧ mx * lo < hi * mn
        · simp only [hm, hc, if_false, and_self, if_true]
          have hmx : 0 < mx := by linarith [hc.1]
          have : x / mx ≤ y / mx := (div_le_div_iff_of_pos_right hmx).mpr hxy
          nlinarith
        · rw [if_neg hm, if_neg hc, if_neg hm, if_neg hc]
          have := hmono x y hm hxy
          nlinarith

/-- **C119, finding.**  A range that begins at zero raises as soon as two numbers differ, for sizes and for opacities. -/
theorem C119_zero_range (a : List ℚ) (x y hi : ℚ) (hx : x ∈ a) (hy : y ∈ a) (hxy : x ≠ y) :
    minRelRescale a 0 hi = .error .zeroDivision ∧ maxRelRescale a 0 hi = .error .zeroDivision := by
  have ha : a ≠ [] := List.ne_nil_of_mem hx
  have hd : listMax a - listMin a ≠ 0 := by
    cases a with
    | nil => exact absurd rfl ha
    | cons z l =>
      obtain ⟨_, m1⟩ := foldl_min_spec l z
      obtain ⟨_, m2⟩ := foldl_max_spec l z
      intro h
      apply hxy
      have a1 := m1 x hx
      have a2 := m2 x hx
      have b1 := m1 y hy
      have b2 := m2 y hy
      simp only [listMax, listMin] at h
      linarith
  unfold minRelRescale maxRelRescale
  constructor
  · rw [if_neg ha, if_neg hd, if_pos rfl]
  · rw [if_neg ha, if_neg hd, if_pos rfl]

/-! ## Series -/

/-- **C119, series.**  A trade is drawn at most once; it is not drawn exactly if its profit is zero or it is closed and its profit
missing.  Closed trades are drawn by the sign of their profit, open ones as open. -/
theorem C119_series (isOpen : Bool) (pnl : Option ℚ) :
    (∀ s s', pnlDrawn isOpen pnl s = true → pnlDrawn isOpen pnl s' = true → s = s') ∧
    ((∀ s, pnlDrawn isOpen pnl s = false) ↔ pnl = some 0 ∨ (isOpen = false ∧ pnl = none)) ∧
    (pnlDrawn isOpen pnl .closedProfit = true ↔ isOpen = false ∧ ∃ q, pnl = some q ∧ 0 < q) ∧
    (pnlDrawn isOpen pnl .closedLoss = true ↔ isOpen = false ∧ ∃ q, pnl = some q ∧ q < 0) ∧
    (pnlDrawn isOpen pnl .open_ = true ↔ isOpen = true ∧ pnl ≠ some 0) := by
  have h1 : pnlDrawn isOpen pnl .closedProfit = true ↔ isOpen = false ∧ ∃ q, pnl = some q ∧ 0 < q := by
    cases pnl <;> simp [pnlDrawn]
  have h2 : pnlDrawn isOpen pnl .closedLoss = true ↔ isOpen = false ∧ ∃ q, pnl = some q ∧ q < 0 := by
    cases pnl <;> simp [pnlDrawn]
  have h3 : pnlDrawn isOpen pnl .open_ = true ↔ isOpen = true ∧ pnl ≠ some 0 := by
    cases pnl <;> simp [pnlDrawn]
  refine ⟨?_, ?_, h1, h2, h3⟩
  · intro s s' hs hs'
    cases s <;> cases s' <;> first | rfl | skip
    · obtain ⟨_, q, e, p⟩ := h1.mp hs
      obtain ⟨_, q', e', p'⟩ := h2.mp hs'
      rw [e] at e'; cases e'; linarith
    · exact absurd ((h1.mp hs).1.symm.trans (h3.mp hs').1) (by decide)
    · obtain ⟨_, q, e, p⟩ := h2.mp hs
      obtain ⟨_, q', e', p'⟩ := h1.mp hs'
      rw [e] at e'; cases e'; linarith
    · exact absurd ((h2.mp hs).1.symm.trans (h3.mp hs').1) (by decide)
    · exact absurd ((h3.mp hs).1.symm.trans (h1.mp hs').1) (by decide)
    · exact absurd ((h3.mp hs).1.symm.trans (h2.mp hs').1) (by decide)
  · constructor
    · intro h
      have n1 := h .closedProfit
      have n2 := h .closedLoss
      have n3 := h .open_
      rw [← Bool.not_eq_true] at n1 n2 n3
      rw [h1] at n1
      rw [h2] at n2
      rw [h3] at n3
      cases pnl with
      | none =>
        cases isOpen
        · exact Or.inr ⟨rfl, rfl⟩
        · exact absurd ⟨rfl, by simp⟩ n3
      | some q =>
        by_cases hq : q = 0
        · rw [hq]; exact Or.inl rfl
        · cases isOpen
          · rcases lt_or_gt_of_ne hq with hl | hl
            · exact absurd ⟨rfl, q, rfl, hl⟩ n2
            · exact absurd ⟨rfl, q, rfl, hl⟩ n1
          · exact absurd ⟨rfl, by simpa using hq⟩ n3
    · rintro (rfl | ⟨rfl, rfl⟩) s
      · cases s <;> simp [pnlDrawn]
      · cases s <;> simp [pnlDrawn]

/-! ## The hypotheses can be met -/

example : Extremes [2, 3, 4] 2 4 := ⟨by simp, by simp, by intro x hx; simp at hx; rcases hx with rfl | rfl | rfl <;> norm_num, by norm_num⟩

/-- Twice the return, twice the size. -/
example : minRelRescale [2, 3, 4] 7 21 = .ok [7, 21 / 2, 14] := by
  rw [C119_sizes [2, 3, 4] 2 4 7 21
    ⟨by simp, by simp, by intro x hx; simp at hx; rcases hx with rfl | rfl | rfl <;> norm_num, by norm_num⟩ (by norm_num)]
  norm_num

/-- The range is too narrow for the ratio. -/
example : maxRelRescale [1, 3, 5] (3 / 4) (9 / 10) = .ok [3 / 4, 33 / 40, 9 / 10] := by
  rw [C119_opacities [1, 3, 5] 1 5 (3 / 4) (9 / 10)
    ⟨by simp, by simp, by intro x hx; simp at hx; rcases hx with rfl | rfl | rfl <;> norm_num, by norm_num⟩ (by norm_num)]
  norm_num

example : minRelRescale [1, 2] 0 5 = .error .zeroDivision := (C119_zero_range [1, 2] 1 2 5 (by simp) (by simp) (by norm_num)).1

example : pnlDrawn false (some (-3)) .closedLoss = true := ((C119_series false (some (-3))).2.2.2.1).mpr ⟨rfl, -3, rfl, by norm_num⟩

end Vbt
