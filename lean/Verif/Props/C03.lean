import Verif.Props.C02

/-!
# C03  An order that is not filled changes nothing

Every arithmetic (`A` arbitrary); the exact version states the tolerance.
-/

namespace Vbt
open F

/-- **C03**.  Ignored or rejected: every balance is unchanged or, being close to zero, reported as zero;
no order record is added; valuation price and value are unchanged; the result carries NaN and side -1. -/
theorem C03_not_filled {A : Arith} {i col group st upd o u b res st' b'}
    (h : processOrder A i col group st upd o u b = .ok (res, st', b'))
    (hn : res.status ≠ OrderStatus.Filled) :
    (st'.cash = st.cash ∨ st'.cash = fin 0 ∧ isClose A st.cash (fin 0) = true) ∧
    (st'.position = st.position ∨ st'.position = fin 0 ∧ isClose A st.position (fin 0) = true) ∧
    (st'.debt = st.debt ∨ st'.debt = fin 0 ∧ isClose A st.debt (fin 0) = true) ∧
    (st'.freeCash = st.freeCash ∨ st'.freeCash = fin 0 ∧ isClose A st.freeCash (fin 0) = true) ∧
    b'.orders = b.orders ∧ st'.oidx = st.oidx ∧ st'.valPrice = st.valPrice ∧ st'.value = st.value ∧
    res.size = nan ∧ res.price = nan ∧ res.fees = nan ∧ res.side = -1 ∧
    (res.status = OrderStatus.Ignored ∨ res.status = OrderStatus.Rejected) := by
  obtain ⟨es, hex, -, e1, e2, e3, e4, hrec, -⟩ := processOrder_inv h
  rcases hrec with ⟨hf, -⟩ | ⟨-, ho, hb, hvp, hv⟩
  · exact absurd hf hn
  cases executeOrder_cases hex with
  | notFilled hs hr =>
    obtain ⟨a, i', ha, rfl⟩ := hr
    rw [e1, e2, e3, e4, hs]
    exact ⟨snap_cases A _, snap_cases A _, snap_cases A _, snap_cases A _, hb, ho, hvp, hv,
      rfl, rfl, rfl, rfl, ha⟩
  | bought size percent lim f _ _ hchk hres hpos _ hf =>
    obtain ⟨hr', -⟩ := buyCommit_inv hf.hcommit
    exact absurd (by rw [hr']) hn
  | sold size percent limit percent' _ _ hchk _ _ _ hf =>
    obtain ⟨hr', -⟩ := sellCommit_inv hf.hcommit hf.hcover
    exact absurd (by rw [hr']) hn

/-- **C03** in exact arithmetic: only balances within the absolute tolerance are reported as zero. -/
theorem C03_exact {r t : ℚ} (hr : r < 1) (ht : 0 ≤ t) {i col group st upd o u b res st' b'}
    (h : processOrder (Arith.exact r t) i col group st upd o u b = .ok (res, st', b'))
    (hn : res.status ≠ OrderStatus.Filled) :
    Reads t st.cash st'.cash ∧ Reads t st.position st'.position ∧ Reads t st.debt st'.debt ∧
      Reads t st.freeCash st'.freeCash := by
  have key : ∀ x y : F, (y = x ∨ y = fin 0 ∧ isClose (Arith.exact r t) x (fin 0) = true) → Reads t x y := by
    rintro x y (h | ⟨h, hc⟩)
    · exact Or.inl h
    · refine Or.inr ⟨h, ?_⟩
      cases x with
      | fin q => exact ⟨q, rfl, Close.zero_small hr ht ((isClose_exact r t q 0).mp hc)⟩
      | nan => simp [isClose] at hc
      | pinf => simp [isClose] at hc
      | ninf => simp [isClose] at hc
  obtain ⟨h1, h2, h3, h4, -⟩ := C03_not_filled h hn
  exact ⟨key _ _ h1, key _ _ h2, key _ _ h3, key _ _ h4⟩

/-- Non-vacuity: a buy above `max_size` without partial fills is rejected. -/
example : ∃ res st' b', processOrder Arith.std 0 0 0 (wSt 100 3 0 100) true
      { size := fin 7, price := fin 10, maxSize := fin 5, allowPartial := false } (fin 0) wBuf
        = .ok (res, st', b') ∧ res.status = OrderStatus.Rejected ∧
        res.statusInfo = Info.MaxSizeExceeded := by
  obtain ⟨⟨r1, s1, b1⟩, h1, hf1⟩ := okAnd_iff (x := processOrder Arith.std 0 0 0 (wSt 100 3 0 100) true
      { size := fin 7, price := fin 10, maxSize := fin 5, allowPartial := false } (fin 0) wBuf)
    (f := fun x => decide (x.1.status = OrderStatus.Rejected ∧ x.1.statusInfo = Info.MaxSizeExceeded))
    (by decide +kernel)
  exact ⟨r1, s1, b1, h1, (of_decide_eq_true hf1).1, (of_decide_eq_true hf1).2⟩

end Vbt
