import Verif.Props.C01
import Verif.Lemmas.Witness
import Verif.Spec.Fill

/-!
# C02  A fill moves exactly what the order record says  (and C05: fill price and fees)

Exact arithmetic, any tolerances `0 ≤ rel < 1`, `0 ≤ abs`.  No assumption on the order: whatever was
filled with a finite size.  (A fill of size NaN is possible, see `C01_counterexample_nan`.)
-/

namespace Vbt
open F

section
variable {r t : ℚ}

theorem addNb_moves (hr0 : 0 ≤ r) (hr : r < 1) (a b : ℚ) :
    ∃ c, addNb (Arith.exact r t) (fin a) (fin b) = fin c ∧ Moves r t a b c := by
  rcases addNb_exact r t a b with ⟨hs, e⟩ | ⟨-, e⟩
  · exact ⟨0, e, Or.inr ⟨rfl, hs.small hr0 hr⟩⟩
  · exact ⟨_, e, Or.inl rfl⟩

theorem snap_reads (hr : r < 1) (ht : 0 ≤ t) (x : F) : Reads t x (snap (Arith.exact r t) x) := by
  rcases snap_cases (Arith.exact r t) x with h | ⟨h, hc⟩
  · exact Or.inl h
  · right
    refine ⟨h, ?_⟩
    cases x with
    | fin q => exact ⟨q, rfl, Close.zero_small hr ht ((isClose_exact r t q 0).mp hc)⟩
    | nan => simp [isClose] at hc
    | pinf => simp [isClose] at hc
    | ninf => simp [isClose] at hc

/-- The arithmetic of a buy whose size came out finite (no assumption on the fees). -/
theorem buyFinal_conserve {o : Order} {adj lim : F} {p φ x sz : ℚ} {f : BuyFill}
    (hp : p ≠ 0) (hfees : o.fees = fin φ) (hfix : o.fixedFees = fin x)
    (hgran : o.gran = nan ∨ FinAnd o.gran (0 < ·))
    (h : buyFinal (Arith.exact r t) o adj (fin p) lim = .ok (some f)) (hs : f.size = fin sz) :
    f.fees = fin (sz * p * φ + x) ∧ f.req = fin (sz * p + (sz * p * φ + x)) := by
  unfold buyFinal at h
  simp only [hfees, hfix] at h
  split at h
  · cases h; simp only at hs; subst hs; simp
  · by_cases hφ : 1 + φ = 0
    · simp only [one_def, add_exact, hφ, divE_zero_right] at h; cases h
    simp only [one_def, add_exact, divE_ne_zero _ _ hφ, divE_ne_zero _ _ hp, neg_fin] at h
    split at h
    · cases h
    rename_i hpos
    split at h
    · cases h
      simp only at hs
      simp only [hs]; simp
    · rename_i hg
      cases h
      simp only at hs ⊢
      cases lim with
      | nan => simp [addNb, isAdditionZero, isClose, add, F.sign, eqb, F.abs, div] at hs
      | pinf =>
        rw [addNb_pinf] at hs
        by_cases h1 : 1 + φ < 0 <;> by_cases h2 : p < 0 <;> simp [div, h1, h2] at hs
      | ninf =>
        rw [addNb_ninf] at hs
        by_cases h1 : 1 + φ < 0 <;> by_cases h2 : p < 0 <;> simp [div, h1, h2] at hs
      | fin L =>
        rcases addNb_exact_cases r t L (-x) with e | e
        · exfalso; apply hpos; rw [e]; simp [div_exact _ _ _ _ hφ]
        · rw [e, div_exact _ _ _ _ hφ, div_exact _ _ _ _ hp] at hs
          rw [e, div_exact _ _ _ _ hφ, sub_exact]
          have hsz : sz = (L + -x) / (1 + φ) / p := (F.fin.inj hs).symm
          have h1 : sz * p = (L + -x) / (1 + φ) := by rw [hsz]; exact div_mul_cancel₀ _ hp
          have h2 : (L + -x) / (1 + φ) * (1 + φ) = L + -x := div_mul_cancel₀ _ hφ
          refine ⟨?_, ?_⟩
          · congr 1; rw [h1]; linarith
          · congr 1; rw [h1]; linarith


/-- **C02** (buy).  A filled buy of size `s` at price `p` with fees `f` lowers cash by `s*p + f` and raises
the position by `s`.  `c`, `P` are the balances as read (zero when within `abs` of zero). -/
theorem C02_buy (hr0 : 0 ≤ r) (hr : r < 1) (ht : 0 ≤ t) {i col group st upd o u b res st' b'} {s : ℚ}
    (h : processOrder (Arith.exact r t) i col group st upd o u b = .ok (res, st', b'))
    (hfill : res.status = OrderStatus.Filled) (hside : res.side = OrderSide.Buy) (hs : res.size = fin s)
    {c : ℚ} (hc : st.cash = fin c) :
    ∃ p f P c0 P0 c' P', res.price = fin p ∧ res.fees = fin f ∧ st.position = fin P ∧
      Reads t (fin c) (fin c0) ∧ Reads t (fin P) (fin P0) ∧
      st'.cash = fin c' ∧ st'.position = fin P' ∧
      Moves r t c0 (-(s * p + f)) c' ∧ Moves r t P0 s P' := by
  obtain ⟨es, hex, -, e1, e2, -⟩ := processOrder_inv h
  cases executeOrder_cases hex with
  | notFilled _ hn => exact absurd hfill (notFilled_status hn)
  | sold size percent limit percent' _ _ _ _ _ _ hf =>
    obtain ⟨hres, -⟩ := sellCommit_inv hf.hcommit hf.hcover
    rw [hres] at hside; cases hside
  | bought size percent lim f _ _ hchk hres hpos _ hf =>
    have hv := checkOrder_none hchk
    obtain ⟨hr', hcash, hposi, -⟩ := buyCommit_inv hf.hcommit
    rw [hr'] at hs
    simp only at hs
    obtain ⟨p0, hp0, hp0'⟩ := hv.price
    obtain ⟨σ, hσ, hσ'⟩ := hv.slippage
    obtain ⟨φ, hfees, -⟩ := hv.fees
    obtain ⟨x, hfix, -⟩ := hv.fixedFees
    obtain ⟨P0, hP0, -⟩ := hv.position
    have hprice : buyPrice (Arith.exact r t) o = fin (p0 * (1 + σ)) := by simp [buyPrice, hp0, hσ]
    have hp : 0 < p0 * (1 + σ) := mul_pos hp0' (by linarith)
    have hfin := hf.hfinal
    rw [hprice] at hfin
    obtain ⟨hfe, hrq⟩ := buyFinal_conserve hp.ne' hfees hfix hv.gran hfin hs
    have hrc : Reads t (fin c) (snapExec (Arith.exact r t) st).cash := by
      have := snap_reads hr ht st.cash; rw [hc] at this; exact hc ▸ this
    have hc0 : ∃ c0, (snapExec (Arith.exact r t) st).cash = fin c0 := by
      rcases hrc with h | ⟨h, -⟩ <;> exact ⟨_, h⟩
    obtain ⟨c0, hc0⟩ := hc0
    have hrp : Reads t st.position (fin P0) := by
      have := snap_reads hr ht st.position
      rw [← hP0]; exact this
    have hP : ∃ P, st.position = fin P := by
      rcases hrp with h | ⟨-, q, hq, -⟩
      · exact ⟨P0, h.symm⟩
      · exact ⟨q, hq⟩
    obtain ⟨P, hP⟩ := hP
    obtain ⟨c', hc', hm⟩ := addNb_moves (t := t) hr0 hr c0 (-(s * (p0 * (1 + σ)) + (s * (p0 * (1 + σ)) * φ + x)))
    obtain ⟨P', hP', hm'⟩ := addNb_moves (t := t) hr0 hr P0 s
    refine ⟨p0 * (1 + σ), s * (p0 * (1 + σ)) * φ + x, P, c0, P0, c', P', ?_, ?_, hP, hc0 ▸ hrc, hP ▸ hrp,
      ?_, ?_, hm, hm'⟩
    · rw [hr']; exact hprice
    · rw [hr']; exact hfe
    · rw [e1, hcash, hc0, hrq, neg_fin, hc']
    · rw [e2, hposi, hP0, hs, hP']

/-- **C02** (sell).  A filled sell of size `s` at price `p` with fees `f` raises cash by `s*p - f` (itself
reported as zero when negligible) and lowers the position by `s`. -/
theorem C02_sell (hr0 : 0 ≤ r) (hr : r < 1) (ht : 0 ≤ t) {i col group st upd o u b res st' b'} {s : ℚ}
    (h : processOrder (Arith.exact r t) i col group st upd o u b = .ok (res, st', b'))
    (hfill : res.status = OrderStatus.Filled) (hside : res.side = OrderSide.Sell) (hs : res.size = fin s)
    {c : ℚ} (hc : st.cash = fin c) :
    ∃ p f P c0 P0 v c' P', res.price = fin p ∧ res.fees = fin f ∧ st.position = fin P ∧
      Reads t (fin c) (fin c0) ∧ Reads t (fin P) (fin P0) ∧
      st'.cash = fin c' ∧ st'.position = fin P' ∧
      Moves r t (s * p) (-f) v ∧ 0 ≤ v ∧ c' = c0 + v ∧ Moves r t P0 (-s) P' := by
  obtain ⟨es, hex, -, e1, e2, -⟩ := processOrder_inv h
  cases executeOrder_cases hex with
  | notFilled _ hn => exact absurd hfill (notFilled_status hn)
  | bought size percent lim f _ _ hchk hres hpos _ hf =>
    obtain ⟨hr', -⟩ := buyCommit_inv hf.hcommit
    rw [hr'] at hside; cases hside
  | sold size percent limit percent' _ _ hchk _ _ _ hf =>
    have hv := checkOrder_none hchk
    obtain ⟨hres, hcash, hposi, -⟩ := sellCommit_inv hf.hcommit hf.hcover
    rw [hres] at hs
    simp only at hs
    obtain ⟨p0, hp0, hp0'⟩ := hv.price
    obtain ⟨σ, hσ, hσ'⟩ := hv.slippage
    obtain ⟨φ, hfees, -⟩ := hv.fees
    obtain ⟨x, hfix, -⟩ := hv.fixedFees
    obtain ⟨P0, hP0, -⟩ := hv.position
    have hprice : sellPrice (Arith.exact r t) o = fin (p0 * (1 - σ)) := by simp [sellPrice, hp0, hσ]
    have hrc : Reads t (fin c) (snapExec (Arith.exact r t) st).cash := by
      have := snap_reads hr ht st.cash; rw [hc] at this; exact hc ▸ this
    have hc0 : ∃ c0, (snapExec (Arith.exact r t) st).cash = fin c0 := by
      rcases hrc with h | ⟨h, -⟩ <;> exact ⟨_, h⟩
    obtain ⟨c0, hc0⟩ := hc0
    have hrp : Reads t st.position (fin P0) := by
      have := snap_reads hr ht st.position
      rw [← hP0]; exact this
    have hP : ∃ P, st.position = fin P := by
      rcases hrp with h | ⟨-, q, hq, -⟩
      · exact ⟨P0, h.symm⟩
      · exact ⟨q, hq⟩
    obtain ⟨P, hP⟩ := hP
    have hcov := hf.hcover
    rw [hs, hprice, hfees, hfix] at hcov hcash
    simp only [mul_exact, add_exact, neg_fin] at hcov hcash
    obtain ⟨v, hv', hm⟩ := addNb_moves (t := t) hr0 hr (s * (p0 * (1 - σ))) (-(s * (p0 * (1 - σ)) * φ + x))
    rw [hv'] at hcov hcash
    obtain ⟨P', hP', hm'⟩ := addNb_moves (t := t) hr0 hr P0 (-s)
    refine ⟨p0 * (1 - σ), s * (p0 * (1 - σ)) * φ + x, P, c0, P0, v, c0 + v, P', ?_, ?_, hP, hc0 ▸ hrc, hP ▸ hrp,
      ?_, ?_, hm, by simpa using hcov, rfl, hm'⟩
    · rw [hres]; exact hprice
    · rw [hres]; simp [hs, hprice, hfees, hfix]
    · rw [e1, hcash, hc0]; rfl
    · rw [e2, hposi, hP0, hs, neg_fin, hP']

/-- With zero tolerances the balances move exactly. -/
theorem Moves.zero_tol {a d c : ℚ} (h : Moves 0 0 a d c) : c = a + d := by
  rcases h with h | ⟨h, h'⟩
  · exact h
  · simp only [zero_mul, max_self] at h'
    have := abs_eq_zero.mp (le_antisymm h' (abs_nonneg _))
    rw [h, this]

theorem Reads.zero_tol {a c : ℚ} (h : Reads 0 (fin a) (fin c)) : c = a := by
  rcases h with h | ⟨h, q, hq, h'⟩
  · exact F.fin.inj h
  · cases hq; cases h
    exact (abs_eq_zero.mp (le_antisymm h' (abs_nonneg _))).symm

/-- **C02** without tolerances: the plain equations. -/
theorem C02_exact {i col group st upd o u b res st' b'} {s c : ℚ}
    (h : processOrder (Arith.exact 0 0) i col group st upd o u b = .ok (res, st', b'))
    (hfill : res.status = OrderStatus.Filled) (hs : res.size = fin s) (hc : st.cash = fin c) :
    ∃ p f P, res.price = fin p ∧ res.fees = fin f ∧ st.position = fin P ∧
      ((res.side = OrderSide.Buy ∧ st'.cash = fin (c - (s * p + f)) ∧ st'.position = fin (P + s)) ∨
       (res.side = OrderSide.Sell ∧ st'.cash = fin (c + (s * p - f)) ∧ st'.position = fin (P - s))) := by
  obtain ⟨es, hex, -⟩ := processOrder_inv h
  cases executeOrder_cases hex with
  | notFilled _ hn => exact absurd hfill (notFilled_status hn)
  | bought size percent lim f _ _ hchk hres hpos _ hf =>
    obtain ⟨hr', -⟩ := buyCommit_inv hf.hcommit
    have hside : res.side = OrderSide.Buy := by rw [hr']
    obtain ⟨p, f, P, c0, P0, c', P', h1, h2, h3, h4, h5, h6, h7, h8, h9⟩ :=
      C02_buy le_rfl (by norm_num) le_rfl h hfill hside hs hc
    have := h4.zero_tol; have := h5.zero_tol; have := h8.zero_tol; have := h9.zero_tol
    subst_vars
    exact ⟨p, f, _, h1, h2, h3, Or.inl ⟨hside, by rw [h6, sub_eq_add_neg], h7⟩⟩
  | sold size percent limit percent' _ _ hchk _ _ _ hf =>
    obtain ⟨hr', -⟩ := sellCommit_inv hf.hcommit hf.hcover
    have hside : res.side = OrderSide.Sell := by rw [hr']
    obtain ⟨p, f, P, c0, P0, v, c', P', h1, h2, h3, h4, h5, h6, h7, h8, -, h10, h9⟩ :=
      C02_sell le_rfl (by norm_num) le_rfl h hfill hside hs hc
    have := h4.zero_tol; have := h5.zero_tol; have := h8.zero_tol; have := h9.zero_tol
    subst_vars
    exact ⟨p, f, _, h1, h2, h3, Or.inr ⟨hside, by rw [h6, sub_eq_add_neg], by rw [h7, sub_eq_add_neg]⟩⟩

/-- **C02** for an account with unlimited cash (`init_cash = inf`, used by the automatic modes): the position
moves by the filled size and cash stays infinite. -/
theorem C02_infinite_cash (hr0 : 0 ≤ r) (hr : r < 1) (ht : 0 ≤ t)
    {i col group st upd o u b res st' b'} {s : ℚ}
    (h : processOrder (Arith.exact r t) i col group st upd o u b = .ok (res, st', b'))
    (hfill : res.status = OrderStatus.Filled) (hs : res.size = fin s) (hc : st.cash = pinf) :
    ∃ P P0 P', st.position = fin P ∧ Reads t (fin P) (fin P0) ∧ st'.cash = pinf ∧ st'.position = fin P' ∧
      ((res.side = OrderSide.Buy ∧ Moves r t P0 s P') ∨ (res.side = OrderSide.Sell ∧ Moves r t P0 (-s) P')) := by
  obtain ⟨es, hex, -, e1, e2, -⟩ := processOrder_inv h
  have hcs : (snapExec (Arith.exact r t) st).cash = pinf := by
    show snap _ st.cash = pinf
    rw [hc]; simp [snap, isClose]
  have hpos : ∀ P0, (snapExec (Arith.exact r t) st).position = fin P0 →
      ∃ P, st.position = fin P ∧ Reads t (fin P) (fin P0) := by
    intro P0 hP0
    have hrp : Reads t st.position (fin P0) := by
      have := snap_reads hr ht st.position
      rw [← hP0]; exact this
    rcases hrp with h | ⟨h, q, hq, hq'⟩
    · exact ⟨P0, h.symm, Or.inl rfl⟩
    · exact ⟨q, hq, Or.inr ⟨h, q, rfl, hq'⟩⟩
  cases executeOrder_cases hex with
  | notFilled _ hn => exact absurd hfill (notFilled_status hn)
  | bought size percent lim f _ _ hchk hres hp _ hf =>
    have hv := checkOrder_none hchk
    obtain ⟨hr', hcash, hposi, -⟩ := buyCommit_inv hf.hcommit
    rw [hr'] at hs
    simp only at hs
    obtain ⟨p0, hp0, hp0'⟩ := hv.price
    obtain ⟨σ, hσ, hσ'⟩ := hv.slippage
    obtain ⟨φ, hfees, -⟩ := hv.fees
    obtain ⟨x, hfix, -⟩ := hv.fixedFees
    obtain ⟨P0, hP0, -⟩ := hv.position
    obtain ⟨P, hP, hR⟩ := hpos P0 hP0
    have hprice : buyPrice (Arith.exact r t) o = fin (p0 * (1 + σ)) := by simp [buyPrice, hp0, hσ]
    have hp : 0 < p0 * (1 + σ) := mul_pos hp0' (by linarith)
    have hfin := hf.hfinal
    rw [hprice] at hfin
    obtain ⟨hfe, hrq⟩ := buyFinal_conserve hp.ne' hfees hfix hv.gran hfin hs
    obtain ⟨P', hP', hm'⟩ := addNb_moves (t := t) hr0 hr P0 s
    refine ⟨P, P0, P', hP, hR, ?_, ?_, Or.inl ⟨by rw [hr'], hm'⟩⟩
    · rw [e1, hcash, hcs, hrq, neg_fin, addNb_pinf]
    · rw [e2, hposi, hP0, hs, hP']
  | sold size percent limit percent' _ _ hchk _ _ _ hf =>
    have hv := checkOrder_none hchk
    obtain ⟨hres, hcash, hposi, -⟩ := sellCommit_inv hf.hcommit hf.hcover
    rw [hres] at hs
    simp only at hs
    obtain ⟨p0, hp0, hp0'⟩ := hv.price
    obtain ⟨σ, hσ, hσ'⟩ := hv.slippage
    obtain ⟨φ, hfees, -⟩ := hv.fees
    obtain ⟨x, hfix, -⟩ := hv.fixedFees
    obtain ⟨P0, hP0, -⟩ := hv.position
    obtain ⟨P, hP, hR⟩ := hpos P0 hP0
    have hprice : sellPrice (Arith.exact r t) o = fin (p0 * (1 - σ)) := by simp [sellPrice, hp0, hσ]
    rw [hs, hprice, hfees, hfix] at hcash
    simp only [mul_exact, add_exact, neg_fin] at hcash
    obtain ⟨v, hv', hm⟩ := addNb_moves (t := t) hr0 hr (s * (p0 * (1 - σ))) (-(s * (p0 * (1 - σ)) * φ + x))
    rw [hv'] at hcash
    obtain ⟨P', hP', hm'⟩ := addNb_moves (t := t) hr0 hr P0 (-s)
    refine ⟨P, P0, P', hP, hR, ?_, ?_, Or.inr ⟨by rw [hres], hm'⟩⟩
    · rw [e1, hcash, hcs]; rfl
    · rw [e2, hposi, hP0, hs, neg_fin, hP']

end

/-! ## Non-vacuity -/

/-- Two fee-paying orders, a buy and then a sell into a short position, are filled with finite sizes. -/
example : ∃ r1 s1 b1 r2 s2 b2,
    processOrder Arith.std 0 0 0 (wSt 100 0 0 100) true
      { size := fin 7, price := fin 10, fees := fin (1/100), slippage := fin (1/50) } (fin 0) wBuf
        = .ok (r1, s1, b1) ∧ r1.status = OrderStatus.Filled ∧ r1.side = OrderSide.Buy ∧
        r1.size = fin 7 ∧
    processOrder Arith.std 1 0 0 s1 true
      { size := fin (-9), price := fin 12, fees := fin (1/100), fixedFees := fin 1 } (fin 0) b1
        = .ok (r2, s2, b2) ∧ r2.status = OrderStatus.Filled ∧ r2.side = OrderSide.Sell ∧
        r2.size = fin 9 := by
  obtain ⟨⟨r1, s1, b1⟩, h1, hf1⟩ := okAnd_iff (x := processOrder Arith.std 0 0 0 (wSt 100 0 0 100) true
      { size := fin 7, price := fin 10, fees := fin (1/100), slippage := fin (1/50) } (fin 0) wBuf)
    (f := fun x => okAnd (processOrder Arith.std 1 0 0 x.2.1 true
        { size := fin (-9), price := fin 12, fees := fin (1/100), fixedFees := fin 1 } (fin 0) x.2.2)
      fun y => decide (x.1.status = OrderStatus.Filled ∧ x.1.side = OrderSide.Buy ∧ x.1.size = fin 7 ∧
        y.1.status = OrderStatus.Filled ∧ y.1.side = OrderSide.Sell ∧ y.1.size = fin 9))
    (by decide +kernel)
  obtain ⟨⟨r2, s2, b2⟩, h2, hf2⟩ := okAnd_iff hf1
  have h := of_decide_eq_true hf2
  exact ⟨r1, s1, b1, r2, s2, b2, h1, h.1, h.2.1, h.2.2.1, h2, h.2.2.2⟩

end Vbt
