import Verif.Spec.Order
import Verif.Lemmas.Order

namespace Vbt
open F

theorem ite_none_inv {c : Prop} [Decidable c] {a : String} {x : Option String}
    (h : (if c then some a else x) = none) : ¬ c ∧ x = none := by
  by_cases hc : c
  · rw [if_pos hc] at h; cases h
  · rw [if_neg hc] at h; exact ⟨hc, h⟩

theorem checkOrder_none {s o} (h : checkOrder s o = none) : Valid s o := by
  unfold checkOrder at h
  obtain ⟨h1, h⟩ := ite_none_inv h
  obtain ⟨h2, h⟩ := ite_none_inv h
  obtain ⟨h3, h⟩ := ite_none_inv h
  obtain ⟨h4, h⟩ := ite_none_inv h
  obtain ⟨h5, h⟩ := ite_none_inv h
  obtain ⟨h6, h⟩ := ite_none_inv h
  obtain ⟨h7, h⟩ := ite_none_inv h
  obtain ⟨h8, h⟩ := ite_none_inv h
  obtain ⟨h9, h⟩ := ite_none_inv h
  obtain ⟨h10, h⟩ := ite_none_inv h
  obtain ⟨h11, h⟩ := ite_none_inv h
  obtain ⟨h12, h⟩ := ite_none_inv h
  obtain ⟨h13, h⟩ := ite_none_inv h
  obtain ⟨h14, h⟩ := ite_none_inv h
  obtain ⟨h15, h⟩ := ite_none_inv h
  obtain ⟨h16, h⟩ := ite_none_inv h
  clear h
  obtain ⟨cash, position, debt, free⟩ := s
  obtain ⟨size, price, ty, dir, fees, fixed, slip, mn, mx, gran, rp, lc, ap, rr, lg⟩ := o
  simp only at *
  constructor
  · clear * - h1; cases cash <;> simp_all [lt, FinAnd]
  · clear * - h2; cases position <;> simp_all [FinAnd]
  · clear * - h3; cases debt <;> simp_all [lt, FinAnd]
  · clear * - h4; cases free <;> simp_all
  · clear * - h5; cases price <;> simp_all [FinAnd]
  · clear * - h6; simp only; omega
  · clear * - h7; simp only; omega
  · clear * - h8 h2; intro hd; cases position <;> simp_all [FinAnd]
  · clear * - h9 h2; intro hd; cases position <;> simp_all [FinAnd]
  · clear * - h10; cases fees <;> simp_all [FinAnd]
  · clear * - h11; cases fixed <;> simp_all [FinAnd]
  · clear * - h12; cases slip <;> simp_all [FinAnd]
  · clear * - h13; cases mn <;> simp_all [FinAnd]
  · clear * - h14; cases mx <;> simp_all [FinAnd, le]
  · clear * - h15; cases gran <;> simp_all [FinAnd, le]
  · clear * - h16; cases rp <;> simp_all [FinAnd]

theorem Valid.check {s o} (h : Valid s o) : checkOrder s o = none := by
  obtain ⟨cash, position, debt, free⟩ := s
  obtain ⟨size, price, ty, dir, fees, fixed, slip, mn, mx, gran, rp, lc, ap, rr, lg⟩ := o
  obtain ⟨h1, ⟨p, h2, -⟩, ⟨d, h3, h3'⟩, h4, ⟨pr, h5, h5'⟩, h6, h7, h8, h9, ⟨fe, h10, -⟩, ⟨fx, h11, -⟩,
    ⟨sl, h12, h12'⟩, ⟨mi, h13, h13'⟩, h14, h15, ⟨r, h16, h16', h16''⟩⟩ := h
  simp only at *
  subst h2 h3 h5 h10 h11 h12 h13 h16
  have c1 : (cash.isnan || lt cash zero) = false := by
    rcases h1 with rfl | ⟨c, rfl, hc⟩
    · rfl
    · simp [hc]
  have c4 : free.isnan = false := by cases free <;> simp_all
  have c8 : ¬(dir = Direction.LongOnly ∧ lt (fin p) zero = true) := by
    rintro ⟨hd, hl⟩
    obtain ⟨q, hq, hq'⟩ := h8 hd
    cases hq; simp at hl; linarith
  have c9 : ¬(dir = Direction.ShortOnly ∧ gt (fin p) zero = true) := by
    rintro ⟨hd, hl⟩
    obtain ⟨q, hq, hq'⟩ := h9 hd
    cases hq; simp at hl; linarith
  have c14 : (mx.isnan || le mx zero) = false := by
    rcases h14 with rfl | ⟨c, rfl, hc⟩
    · rfl
    · simp [hc]
  have c15 : (gran.isinf || le gran zero) = false := by
    rcases h15 with rfl | ⟨c, rfl, hc⟩
    · rfl
    · simp [hc]
  have c6 : ¬(ty < 0 ∨ ty ≥ 6) := by omega
  have c7 : ¬(dir < 0 ∨ dir ≥ 3) := by omega
  unfold checkOrder
  simp only [c1, c4, c8, c9, c14, c15, c6, c7]
  simp [not_lt.mpr h3', not_le.mpr h5', not_lt.mpr h12', not_lt.mpr h13', not_lt.mpr h16', not_lt.mpr h16'']

theorem checkOrder_none_iff {s o} : checkOrder s o = none ↔ Valid s o :=
  ⟨checkOrder_none, Valid.check⟩

theorem ite_some_inv {c : Prop} [Decidable c] {a m : String} {x : Option String}
    (h : (if c then some a else x) = some m) : m = a ∨ x = some m := by
  by_cases hc : c
  · rw [if_pos hc] at h; exact Or.inl (Option.some.inj h).symm
  · rw [if_neg hc] at h; exact Or.inr h

theorem checkOrder_some {s o m} (h : checkOrder s o = some m) : m ∈ validationMessages := by
  unfold checkOrder at h
  iterate 16
    rcases ite_some_inv h with rfl | h
    · simp only [validationMessages, List.mem_cons, true_or, or_true]
  cases h

end Vbt
