import Verif.Lemmas.Snap
import Verif.Lemmas.Witness

/-!
# C01  Cash never goes negative

Full claim: if cash is ≥ 0 before, it is ≥ 0 after every order, for every sequence of orders.
It is false of the code in two corners (both witnessed below):
* a proportional fee below -100 % with a fixed fee and a size granularity;
* an order whose size turns into NaN (`Percent` of 0): the fill makes the cash NaN.
Outside of these it holds in exact arithmetic with any tolerances (`rel ≤ 1`).
-/

namespace Vbt
open F

/-- One order: cash that is not negative stays not negative, for every order with `1 + fees > 0`. -/
theorem C01_never_negative_partial {r t : ℚ} (hr : r ≤ 1) {i col group st upd o u b res st' b'}
    (h : processOrder (Arith.exact r t) i col group st upd o u b = .ok (res, st', b'))
    (hfees : ∀ φ, o.fees = fin φ → 0 < 1 + φ)
    (hc : lt st.cash zero = false) : lt st'.cash zero = false := by
  obtain ⟨es, hex, -, e, -⟩ := processOrder_inv h
  rw [e]
  have hsnap : lt (snapExec (Arith.exact r t) st).cash zero = false := by
    show lt (snap _ st.cash) zero = false
    rcases snap_cases (Arith.exact r t) st.cash with h | h
    · rw [h]; exact hc
    · rw [h.1]; simp
  cases executeOrder_cases hex with
  | notFilled hs _ => rw [hs]; exact hsnap
  | bought size percent lim f _ _ hchk hres hpos _ hf =>
    have hv := checkOrder_none hchk
    obtain ⟨p, φ, x, sz, hn⟩ := buy_num hv hpos hfees hf
    obtain ⟨-, hcash, -⟩ := buyCommit_inv hf.hcommit
    rw [hcash, hn.fill]
    have hle := buyCashLimit_le hf.hlim (by rcases hv.cash with h | ⟨c, h, -⟩ <;> rw [h] <;> simp)
    rcases hv.cash with h | ⟨c, h, hc0⟩
    · rw [h]; simp only [neg_fin]; rw [addNb_pinf]; rfl
    · rw [h] at hle ⊢
      rcases hn.limit with hl | ⟨L, hl, hL⟩
      · rw [hl] at hle; simp [le] at hle
      · rw [hl] at hle
        simp only [le_fin, decide_eq_true_eq, reduceCtorEq, false_or] at hle
        obtain ⟨v, hv1, hv2⟩ := addNb_spend_nonneg hr hc0 hle hL
        simp only [neg_fin]
        rw [hv1]; simpa using hv2
  | sold size percent limit percent' _ _ hchk _ _ _ hf =>
    obtain ⟨-, hcash, -⟩ := sellCommit_inv hf.hcommit hf.hcover
    rw [hcash]
    have := hf.hcover
    generalize addNb (Arith.exact r t) _ _ = y at this ⊢
    revert this hsnap
    generalize (snapExec (Arith.exact r t) st).cash = c
    intro h1 h2
    cases c <;> cases y <;> simp_all [add, lt]
    linarith

/-- Every history of orders with `1 + fees > 0` leaves cash not negative. -/
theorem C01_history_never_negative_partial {r t : ℚ} (hr : r ≤ 1) {upd} (qs : List Request) :
    ∀ {st b st' b'}, processAll (Arith.exact r t) upd st b qs = .ok (st', b') →
      (∀ q ∈ qs, ∀ φ, q.order.fees = fin φ → 0 < 1 + φ) →
      lt st.cash zero = false → lt st'.cash zero = false := by
  induction qs with
  | nil => intro st b st' b' h _ hc; cases h; exact hc
  | cons q qs ih =>
    intro st b st' b' h hf hc
    unfold processAll at h
    split at h
    · cases h
    rename_i res st1 b1 h1
    exact ih h (fun q hq => hf q (List.mem_cons_of_mem _ hq))
      (C01_never_negative_partial hr h1 (hf q List.mem_cons_self) hc)

/-- One order: cash ≥ 0 stays ≥ 0 (in particular it stays a number). -/
theorem C01_cash_nonneg_partial {r t : ℚ} (hr : r ≤ 1) {i col group st upd o u b res st' b'}
    (h : processOrder (Arith.exact r t) i col group st upd o u b = .ok (res, st', b'))
    (hfees : ∀ φ, o.fees = fin φ → 0 < 1 + φ)
    (hsane : SaneSize o (snap (Arith.exact r t) st.value))
    (hc : le zero st.cash = true) : le zero st'.cash = true := by
  have hlt : lt st.cash zero = false := by
    revert hc; cases st.cash <;> simp [le, lt]
  have hneg := C01_never_negative_partial hr h hfees hlt
  suffices hn : st'.cash ≠ nan by
    revert hneg hn; cases st'.cash <;> simp [le, lt]
  obtain ⟨es, hex, -, e, -⟩ := processOrder_inv h
  rw [e]
  have hsn : (snapExec (Arith.exact r t) st).cash ≠ nan := by
    show snap _ st.cash ≠ nan
    rcases snap_cases (Arith.exact r t) st.cash with h | h
    · rw [h]; rintro h; rw [h] at hc; cases hc
    · rw [h.1]; simp
  cases executeOrder_cases hex with
  | notFilled hs _ => rw [hs]; exact hsn
  | bought size percent lim f _ _ hchk hres hpos _ hf =>
    have hv := checkOrder_none hchk
    obtain ⟨p, φ, x, sz, hn⟩ := buy_num hv hpos hfees hf
    obtain ⟨-, hcash, -⟩ := buyCommit_inv hf.hcommit
    rw [hcash, hn.fill]
    rcases hv.cash with h | ⟨c, h, hc0⟩
    · rw [h]; simp only [neg_fin]; rw [addNb_pinf]; simp
    · rw [h]; simp only [neg_fin]
      obtain ⟨v, hv⟩ := addNb_fin (r := r) (t := t) c (-(sz * p + (sz * p * φ + x)))
      rw [hv]; simp
  | sold size percent limit percent' hsz _ hchk hres hpos _ hf =>
    have hv := checkOrder_none hchk
    have ha := resolve_sell hv (by intro h; rw [h] at hsz; cases hsz) hsane hres hpos
    obtain ⟨p, φ, x, l, hn⟩ := sell_num hv ha hf
    obtain ⟨-, hcash, -⟩ := sellCommit_inv hf.hcommit hf.hcover
    rw [hcash, hn.lim, hn.price, hn.fees, hn.fixed]
    simp only [mul_exact, add_exact, neg_fin]
    obtain ⟨v, hv'⟩ := addNb_fin (r := r) (t := t) (l * p) (-(l * p * φ + x))
    rw [hv']
    rcases hv.cash with h | ⟨c, h, hc0⟩
    · rw [h]; simp [add]
    · rw [h]; simp

/-- The account is finite: used to state the history version. -/
structure Healthy (st : ProcState) : Prop where
  cash : FinAnd st.cash (0 ≤ ·)
  position : FinAnd st.position fun _ => True
  value : st.value ≠ pinf
  valPrice : st.valPrice ≠ pinf ∧ st.valPrice ≠ ninf

/-- The order is covered: fees above -100 % and, for `Percent`, a finite non-zero size. -/
structure Covered (o : Order) : Prop where
  fees : ∀ φ, o.fees = fin φ → 0 < 1 + φ
  percent : o.sizeType = SizeType.Percent → FinAnd o.size (· ≠ 0)

theorem C01_healthy_partial {r t : ℚ} (hr : r ≤ 1) {i col group st upd o u b res st' b'}
    (h : processOrder (Arith.exact r t) i col group st upd o u b = .ok (res, st', b'))
    (hcov : Covered o) (hh : Healthy st) : Healthy st' := by
  have hsv : snap (Arith.exact r t) st.value ≠ pinf := by
    rcases snap_cases (Arith.exact r t) st.value with h | h
    · rw [h]; exact hh.value
    · rw [h.1]; simp
  have hsane : SaneSize o (snap (Arith.exact r t) st.value) := ⟨hcov.percent, fun _ => Or.inl hsv⟩
  have hc0 : le zero st.cash = true := by
    obtain ⟨c, hc, h0⟩ := hh.cash; rw [hc]; simpa using h0
  have hcash := C01_cash_nonneg_partial hr h hcov.fees hsane hc0
  obtain ⟨c, hc, hcn⟩ := hh.cash
  obtain ⟨P, hP, -⟩ := hh.position
  obtain ⟨es, hex, -, e1, e2, -, -, hrec, -⟩ := processOrder_inv h
  -- the new balances are finite and a fill has a finite price
  have hfin : (∃ q, es.cash = fin q) ∧ (∃ q, es.position = fin q) ∧
      (res.status = OrderStatus.Filled → ∃ q, res.price = fin q) := by
    have hs1 : ∃ q, (snapExec (Arith.exact r t) st).cash = fin q := by
      show ∃ q, snap _ st.cash = fin q
      rw [hc]; rcases snap_fin (r := r) (t := t) c with h | h <;> exact ⟨_, h⟩
    have hs2 : ∃ q, (snapExec (Arith.exact r t) st).position = fin q := by
      show ∃ q, snap _ st.position = fin q
      rw [hP]; rcases snap_fin (r := r) (t := t) P with h | h <;> exact ⟨_, h⟩
    obtain ⟨c1, hc1⟩ := hs1
    obtain ⟨P1, hP1⟩ := hs2
    cases executeOrder_cases hex with
    | notFilled hs hr => rw [hs]; exact ⟨⟨c1, hc1⟩, ⟨P1, hP1⟩, fun h => absurd h (notFilled_status hr)⟩
    | bought size percent lim f _ _ hchk hres hpos _ hf =>
      have hv := checkOrder_none hchk
      obtain ⟨p, φ, x, sz, hn⟩ := buy_num hv hpos hcov.fees hf
      obtain ⟨hres', hcash', hpos', -⟩ := buyCommit_inv hf.hcommit
      rw [hcash', hpos', hn.fill, hc1, hP1]
      refine ⟨addNb_fin _ _, addNb_fin _ _, fun _ => ⟨p, ?_⟩⟩
      rw [hres', hn.price]
    | sold size percent limit percent' hsz _ hchk hres hpos _ hf =>
      have hv := checkOrder_none hchk
      have ha := resolve_sell hv (by intro h; rw [h] at hsz; cases hsz) hsane hres hpos
      obtain ⟨p, φ, x, l, hn⟩ := sell_num hv ha hf
      obtain ⟨hres', hcash', hpos', -⟩ := sellCommit_inv hf.hcommit hf.hcover
      rw [hcash', hpos', hn.lim, hn.price, hn.fees, hn.fixed, hc1, hP1]
      simp only [mul_exact, add_exact, neg_fin]
      refine ⟨?_, addNb_fin _ _, fun _ => ⟨p, ?_⟩⟩
      · obtain ⟨v, hv⟩ := addNb_fin (r := r) (t := t) (l * p) (-(l * p * φ + x))
        rw [hv]; exact ⟨_, rfl⟩
      · rw [hres', hn.price]
  obtain ⟨⟨c', hc'⟩, ⟨P', hP'⟩, hpr⟩ := hfin
  refine ⟨?_, ⟨P', by rw [e2, hP'], trivial⟩, ?_, ?_⟩
  · rw [e1, hc'] at hcash ⊢
    exact ⟨c', rfl, by simpa using hcash⟩
  · rcases hrec with ⟨hfl, -, -, -, hu, hnu⟩ | ⟨-, -, -, -, hv⟩
    · cases upd with
      | false => rw [(hnu rfl).2]; exact hh.value
      | true =>
        have := hu rfl
        have hv : st'.value = (updateValue (Arith.exact r t) st.cash es.cash st.position es.position
          st.valPrice res.price st.value).2 := by rw [← this]
        rw [hv, hc, hc', hP, hP']
        obtain ⟨p, hp⟩ := hpr hfl
        rw [hp]
        unfold updateValue
        simp only [sub_exact, mul_exact, zero_def]
        have hv1 := hh.value
        have hv2 := hh.valPrice
        have e3 : ∃ d, (if (!(fin P').eqb (fin 0)) = true then fin (P' * p) else fin 0) = fin d := by
          split <;> exact ⟨_, rfl⟩
        obtain ⟨d, hd⟩ := e3
        rw [hd]
        have e4 : (∃ d', (if (!(fin P).eqb (fin 0)) = true then mul (Arith.exact r t) (fin P) st.valPrice else fin 0)
            = fin d') ∨
            (if (!(fin P).eqb (fin 0)) = true then mul (Arith.exact r t) (fin P) st.valPrice else fin 0) = nan := by
          split
          · cases hvp : st.valPrice with
            | nan => right; rfl
            | fin q => left; exact ⟨_, rfl⟩
            | pinf => exact absurd hvp hv2.1
            | ninf => exact absurd hvp hv2.2
          · exact Or.inl ⟨_, rfl⟩
        rcases e4 with ⟨d', h⟩ | h
        · rw [h, sub_exact]
          cases hvv : st.value with
          | pinf => exact absurd hvv hv1
          | nan => simp [add]
          | ninf => simp [add]
          | fin q => simp
        · rw [h]; simp only [sub, neg, add]
          cases hvv : st.value <;> simp [add]
    · rw [hv]; exact hh.value
  · rcases hrec with ⟨hfl, -, -, -, hu, hnu⟩ | ⟨-, -, -, hv, -⟩
    · cases upd with
      | false => rw [(hnu rfl).1]; exact hh.valPrice
      | true =>
        have := hu rfl
        have hv : st'.valPrice = res.price := by
          have : st'.valPrice = (updateValue (Arith.exact r t) st.cash es.cash st.position es.position
            st.valPrice res.price st.value).1 := by rw [← this]
          rw [this]; rfl
        obtain ⟨p, hp⟩ := hpr hfl
        rw [hv, hp]; simp
    · rw [hv]; exact hh.valPrice

/-- Every history of covered orders from a finite account keeps cash a finite number ≥ 0. -/
theorem C01_history_partial {r t : ℚ} (hr : r ≤ 1) {upd} (qs : List Request) :
    ∀ {st b st' b'}, processAll (Arith.exact r t) upd st b qs = .ok (st', b') →
      (∀ q ∈ qs, Covered q.order) → Healthy st → ∃ c, st'.cash = fin c ∧ 0 ≤ c := by
  induction qs with
  | nil => intro st b st' b' h _ hh; cases h; exact hh.cash
  | cons q qs ih =>
    intro st b st' b' h hf hh
    unfold processAll at h
    split at h
    · cases h
    rename_i res st1 b1 h1
    exact ih h (fun q hq => hf q (List.mem_cons_of_mem _ hq))
      (C01_healthy_partial hr h1 (hf q List.mem_cons_self) hh)

/-! ## Why the full claim fails -/

def wBuf : Buffers := { orders := [], logs := [], maxOrders := 10, maxLogs := 10 }
def wSt (cash position debt free : ℚ) : ProcState :=
  { cash := fin cash, position := fin position, debt := fin debt, freeCash := fin free,
    valPrice := fin 1, value := fin cash, oidx := 0, lidx := 0 }

/-- With fees of -200 %, a fixed fee of 200 and granularity 30, an account of 100 ends at -10. -/
theorem C01_counterexample_fees : ∃ o res st' b',
    processOrder Arith.std 0 0 0 (wSt 100 0 0 100) true o (fin 0) wBuf = .ok (res, st', b') ∧
      st'.cash = fin (-10) := by
  obtain ⟨⟨res, st', b'⟩, h, hf⟩ := okAnd_iff (x := processOrder Arith.std 0 0 0 (wSt 100 0 0 100) true
    { size := fin 60, price := fin 1, fees := fin (-2), fixedFees := fin 200, gran := fin 30 } (fin 0) wBuf)
    (f := fun x => x.2.1.cash = fin (-10)) (by decide +kernel)
  exact ⟨_, res, st', b', h, by simpa using hf⟩

/-- A `Percent` order of 0 is filled and turns the cash into NaN. -/
theorem C01_counterexample_nan : ∃ o res st' b',
    processOrder Arith.std 0 0 0 (wSt 100 0 0 100) true o (fin 0) wBuf = .ok (res, st', b') ∧
      o.size = fin 0 ∧ o.sizeType = SizeType.Percent ∧ st'.cash = nan := by
  obtain ⟨⟨res, st', b'⟩, h, hf⟩ := okAnd_iff (x := processOrder Arith.std 0 0 0 (wSt 100 0 0 100) true
    { size := fin 0, price := fin 1, sizeType := SizeType.Percent } (fin 0) wBuf)
    (f := fun x => x.2.1.cash = nan) (by decide +kernel)
  exact ⟨_, res, st', b', h, rfl, rfl, by simpa using hf⟩

/-! ## Non-vacuity -/

/-- A history of a fee-paying granular buy and a 50 % short sale meets the hypotheses. -/
example : ∃ qs st' b', qs.length = 2 ∧ (∀ q ∈ qs, Covered q.order) ∧ Healthy (wSt 100 0 0 100) ∧
    processAll Arith.std true (wSt 100 0 0 100) wBuf qs = .ok (st', b') ∧ b'.orders.length = 2 := by
  obtain ⟨⟨st', b'⟩, h, hf⟩ := okAnd_iff (x := processAll Arith.std true (wSt 100 0 0 100) wBuf
    [⟨0, 0, 0, { size := fin 7, price := fin 10, fees := fin (1/100), fixedFees := fin 1, gran := fin 2 }, fin 0⟩,
     ⟨1, 0, 0, { size := fin (-1/2), price := fin 12, sizeType := SizeType.Percent, fees := fin (1/100) }, fin 0⟩])
    (f := fun x => x.2.orders.length = 2) (by decide +kernel)
  refine ⟨_, st', b', rfl, ?_, ?_, h, by simpa using hf⟩
  · intro q hq
    simp only [List.mem_cons, List.not_mem_nil, or_false] at hq
    rcases hq with rfl | rfl
    · exact ⟨fun φ h => by cases h; norm_num, fun h => by cases h⟩
    · exact ⟨fun φ h => by cases h; norm_num, fun _ => ⟨_, rfl, by norm_num⟩⟩
  · exact ⟨⟨100, rfl, by norm_num⟩, ⟨0, rfl, trivial⟩, by simp [wSt], by simp [wSt]⟩

end Vbt
