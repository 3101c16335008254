import Verif.Props.C02

/-!
# C05  Fill price and fees follow the cost model
-/

namespace Vbt
open F

/-- **C05**.  Every filled order with a finite size: the price is `price*(1±slippage)` and the fees are
`size*fill_price*fees + fixed_fees`. -/
theorem C05_cost_model {r t : ℚ} {i col group st upd o u b res st' b'} {s : ℚ}
    (h : processOrder (Arith.exact r t) i col group st upd o u b = .ok (res, st', b'))
    (hfill : res.status = OrderStatus.Filled) (hs : res.size = fin s) :
    ∃ price slippage fees fixedFees p : ℚ, o.price = fin price ∧ o.slippage = fin slippage ∧
      o.fees = fin fees ∧ o.fixedFees = fin fixedFees ∧ res.price = fin p ∧
      ((res.side = OrderSide.Buy ∧ p = price * (1 + slippage)) ∨
       (res.side = OrderSide.Sell ∧ p = price * (1 - slippage))) ∧
      res.fees = fin (s * p * fees + fixedFees) := by
  obtain ⟨es, hex, -⟩ := processOrder_inv h
  cases executeOrder_cases hex with
  | notFilled _ hn => exact absurd hfill (notFilled_status hn)
  | bought size percent lim f _ _ hchk hres hpos _ hf =>
    have hv := checkOrder_none hchk
    obtain ⟨hr', -⟩ := buyCommit_inv hf.hcommit
    rw [hr'] at hs
    simp only at hs
    obtain ⟨p0, hp0, hp0'⟩ := hv.price
    obtain ⟨σ, hσ, hσ'⟩ := hv.slippage
    obtain ⟨φ, hfees, -⟩ := hv.fees
    obtain ⟨x, hfix, -⟩ := hv.fixedFees
    have hprice : buyPrice (Arith.exact r t) o = fin (p0 * (1 + σ)) := by simp [buyPrice, hp0, hσ]
    have hp : 0 < p0 * (1 + σ) := mul_pos hp0' (by linarith)
    have hfin := hf.hfinal
    rw [hprice] at hfin
    obtain ⟨hfe, -⟩ := buyFinal_conserve hp.ne' hfees hfix hv.gran hfin hs
    exact ⟨p0, σ, φ, x, _, hp0, hσ, hfees, hfix, by rw [hr']; exact hprice,
      Or.inl ⟨by rw [hr'], rfl⟩, by rw [hr']; exact hfe⟩
  | sold size percent limit percent' _ _ hchk _ _ _ hf =>
    have hv := checkOrder_none hchk
    obtain ⟨hres, -⟩ := sellCommit_inv hf.hcommit hf.hcover
    rw [hres] at hs
    simp only at hs
    obtain ⟨p0, hp0, hp0'⟩ := hv.price
    obtain ⟨σ, hσ, hσ'⟩ := hv.slippage
    obtain ⟨φ, hfees, -⟩ := hv.fees
    obtain ⟨x, hfix, -⟩ := hv.fixedFees
    have hprice : sellPrice (Arith.exact r t) o = fin (p0 * (1 - σ)) := by simp [sellPrice, hp0, hσ]
    exact ⟨p0, σ, φ, x, _, hp0, hσ, hfees, hfix, by rw [hres]; exact hprice,
      Or.inr ⟨by rw [hres], rfl⟩, by rw [hres]; simp [hs, hprice, hfees, hfix]⟩

/-- **C05** (price, every arithmetic): no finiteness needed, the price is the rounded product. -/
theorem C05_price {A : Arith} {i col group st upd o u b res st' b'}
    (h : processOrder A i col group st upd o u b = .ok (res, st', b'))
    (hfill : res.status = OrderStatus.Filled) :
    (res.side = OrderSide.Buy ∧ res.price = mul A o.price (add A (fin 1) o.slippage)) ∨
    (res.side = OrderSide.Sell ∧ res.price = mul A o.price (sub A (fin 1) o.slippage)) := by
  obtain ⟨es, hex, -⟩ := processOrder_inv h
  cases executeOrder_cases hex with
  | notFilled _ hn => exact absurd hfill (notFilled_status hn)
  | bought size percent lim f _ _ hchk hres hpos _ hf =>
    obtain ⟨hr', -⟩ := buyCommit_inv hf.hcommit
    exact Or.inl ⟨by rw [hr'], by rw [hr']; rfl⟩
  | sold size percent limit percent' _ _ hchk _ _ _ hf =>
    obtain ⟨hr', -⟩ := sellCommit_inv hf.hcommit hf.hcover
    exact Or.inr ⟨by rw [hr'], by rw [hr']; rfl⟩

/-- Non-vacuity: a cash-limited buy with fees and slippage (the size is not the requested one). -/
example : ∃ res st' b', processOrder Arith.std 0 0 0 (wSt 100 0 0 100) true
      { size := fin 70, price := fin 10, fees := fin (1/100), fixedFees := fin 2, slippage := fin (1/50) }
      (fin 0) wBuf = .ok (res, st', b') ∧ res.status = OrderStatus.Filled ∧
        res.size = fin (98 / (101/100) / (102/10)) := by
  obtain ⟨⟨r1, s1, b1⟩, h1, hf1⟩ := okAnd_iff (x := processOrder Arith.std 0 0 0 (wSt 100 0 0 100) true
      { size := fin 70, price := fin 10, fees := fin (1/100), fixedFees := fin 2, slippage := fin (1/50) }
      (fin 0) wBuf)
    (f := fun x => decide (x.1.status = OrderStatus.Filled ∧ x.1.size = fin (98 / (101/100) / (102/10))))
    (by decide +kernel)
  exact ⟨r1, s1, b1, h1, (of_decide_eq_true hf1).1, (of_decide_eq_true hf1).2⟩

end Vbt
