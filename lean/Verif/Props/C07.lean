import Verif.Props.C04

/-!
# C07  Debt and free cash bookkeeping is exact

For a column that does not share cash.  `Booked` is the claim; it is an invariant of every history of orders
(with the guards of C01 and `slippage ≤ 1`, so that fill prices are not negative).
* any tolerances: debt is never negative, and zero whenever the column is not short;
* zero tolerances: additionally `free_cash + 2*debt = cash` exactly.
-/

namespace Vbt
open F

/-- Debt is not negative, and zero unless short.  A position is either zero or above the tolerance. -/
structure DebtOk (t : ℚ) (st : ProcState) : Prop where
  ok : ∃ P D : ℚ, st.position = fin P ∧ st.debt = fin D ∧ 0 ≤ D ∧ (0 ≤ P → D = 0) ∧ (P = 0 ∨ t < |P|)

/-- The full bookkeeping identity. -/
def Booked (st : ProcState) : Prop :=
  ∃ c P D : ℚ, st.cash = fin c ∧ st.position = fin P ∧ st.debt = fin D ∧ st.freeCash = fin (c - 2 * D) ∧
    0 ≤ c ∧ 0 ≤ D ∧ (0 ≤ P → D = 0)

/-- Guards on the order: those of C01, and slippage at most 100 %. -/
structure Priced (o : Order) : Prop extends Covered o where
  slippage : ∀ σ, o.slippage = fin σ → σ ≤ 1

section
variable {r t : ℚ}

theorem addNb_gap (hr0 : 0 ≤ r) (ht : 0 ≤ t) (a b : ℚ) :
    ∃ c, addNb (Arith.exact r t) (fin a) (fin b) = fin c ∧
      ((c = 0 ∧ addNb (Arith.exact r t) (fin a) (fin b) = fin 0) ∨ (c = a + b ∧ t < |c|)) := by
  rcases addNb_exact r t a b with ⟨-, e⟩ | ⟨hs, e⟩
  · exact ⟨0, e, Or.inl ⟨rfl, e⟩⟩
  · refine ⟨a + b, e, Or.inr ⟨rfl, ?_⟩⟩
    unfold Snap at hs
    split at hs
    · unfold Close at hs
      push Not at hs
      have := hs.2
      rw [sub_zero] at this
      exact lt_of_le_of_lt (le_max_right _ _) this
    · rename_i hsg
      unfold Close at hs
      push Not at hs
      have h1 := lt_of_le_of_lt (le_max_right _ _) hs.2
      refine lt_of_lt_of_le h1 ?_
      have := abs_abs_sub_abs_le_abs_sub a (-b)
      rwa [abs_neg, sub_neg_eq_add] at this

theorem DebtOk.snap (hr : r < 1) (ht : 0 ≤ t) {st : ProcState} (h : DebtOk t st) :
    ∃ P D : ℚ, (snapExec (Arith.exact r t) st).position = fin P ∧
      (snapExec (Arith.exact r t) st).debt = fin D ∧ 0 ≤ D ∧ (0 ≤ P → D = 0) ∧ (P = 0 ∨ t < |P|) := by
  obtain ⟨P, D, hP, hD, hD0, hz, hg⟩ := h.ok
  have hp : (snapExec (Arith.exact r t) st).position = fin P := by
    show Vbt.snap _ st.position = _
    rw [hP]
    rcases snap_cases (Arith.exact r t) (fin P) with h | ⟨h, hc⟩
    · exact h
    · rw [h]
      have := Close.zero_small hr ht ((isClose_exact r t P 0).mp hc)
      rcases hg with h | h
      · rw [h]
      · exact absurd h (not_lt.mpr this)
  rcases snap_fin (r := r) (t := t) D with h | h
  · exact ⟨P, D, hp, by show Vbt.snap _ st.debt = _; rw [hD]; exact h, hD0, hz, hg⟩
  · exact ⟨P, 0, hp, by show Vbt.snap _ st.debt = _; rw [hD]; exact h, le_rfl, fun _ => rfl, hg⟩

/-- **C07** (sign part, one order, any tolerances). -/
theorem C07_debt_step_partial (hr0 : 0 ≤ r) (hr : r < 1) (ht : 0 ≤ t) {i col group st upd o u b res st' b'}
    (h : processOrder (Arith.exact r t) i col group st upd o u b = .ok (res, st', b'))
    (ho : Priced o) (hsane : SaneSize o (snap (Arith.exact r t) st.value)) (hd : DebtOk t st) :
    DebtOk t st' := by
  obtain ⟨es, hex, -, -, e2, e3, -⟩ := processOrder_inv h
  obtain ⟨P, D, hP, hD, hD0, hz, hg⟩ := hd.snap (r := r) hr ht
  cases executeOrder_cases hex with
  | notFilled hs _ =>
    exact ⟨P, D, by rw [e2, hs, hP], by rw [e3, hs, hD], hD0, hz, hg⟩
  | bought size percent lim f _ _ hchk hres hpos _ hf =>
    have hv := checkOrder_none hchk
    obtain ⟨p, φ, x, sz, hn⟩ := buy_num hv hpos ho.fees hf
    obtain ⟨-, -, hposi, hdebt⟩ := buyCommit_inv hf.hcommit
    rw [hn.fill, hP] at hposi
    rw [hn.fill, hP, hD] at hdebt
    simp only at hposi hdebt
    obtain ⟨P', hP', hc⟩ := addNb_gap (r := r) hr0 ht P sz
    rw [hP'] at hposi
    rw [hP'] at hdebt
    have hsz := hn.nonneg
    have hgap : P' = 0 ∨ t < |P'| := by rcases hc with ⟨h, -⟩ | ⟨-, h⟩ <;> [exact Or.inl h; exact Or.inr h]
    rcases hdebt with ⟨hneg, avg, havg, hdebt, -⟩ | ⟨hneg, hdebt, -⟩
    · have hPn : P < 0 := by simpa using hneg
      have hPne : |P| ≠ 0 := by simpa using hPn.ne
      rw [abs_fin, divE_ne_zero _ _ hPne, div_exact _ _ _ _ hPne] at havg
      cases havg
      simp only [zero_def, lt_fin, decide_eq_true_eq, abs_fin] at hdebt
      by_cases hn' : P' < 0
      · rw [if_pos hn', mul_exact, neg_fin] at hdebt
        have hP'e : P' = P + sz := by rcases hc with ⟨h, -⟩ | ⟨h, -⟩ <;> [linarith; exact h]
        have : sz * (D / |P|) ≤ D := by
          rw [mul_div_assoc', div_le_iff₀ (abs_pos.mpr hPn.ne), abs_of_neg hPn]
          nlinarith
        obtain ⟨v, hv1, hv2⟩ := addNb_sign_nonneg (r := r) (t := t) (a := D) (b := -(sz * (D / |P|)))
          (by linarith)
        exact ⟨P', v, by rw [e2, hposi], by rw [e3, hdebt, hv1], hv2, fun h => absurd hn' (not_lt.mpr h), hgap⟩
      · rw [if_neg hn', mul_exact, neg_fin, mul_div_cancel₀ _ hPne] at hdebt
        have : addNb (Arith.exact r t) (fin D) (fin (-D)) = fin 0 := by
          rcases addNb_exact_cases r t D (-D) with h | h
          · exact h
          · rw [h, add_neg_cancel]
        exact ⟨P', 0, by rw [e2, hposi], by rw [e3, hdebt, this], le_rfl, fun _ => rfl, hgap⟩
    · have hPn : 0 ≤ P := by simpa using hneg
      have := hz hPn
      exact ⟨P', D, by rw [e2, hposi], by rw [e3, hdebt], hD0, fun _ => this, hgap⟩
  | sold size percent limit percent' hsz _ hchk hres hpos _ hf =>
    have hv := checkOrder_none hchk
    have ha := resolve_sell hv (by intro h; rw [h] at hsz; cases hsz) hsane hres hpos
    obtain ⟨p, φ, x, l, hn⟩ := sell_num hv ha hf
    obtain ⟨-, -, hposi, hdebt⟩ := sellCommit_inv hf.hcommit hf.hcover
    rw [hn.lim, hP, neg_fin] at hposi
    rw [hn.lim, hn.price, hP, hD, neg_fin] at hdebt
    obtain ⟨P', hP', hc⟩ := addNb_gap (r := r) hr0 ht P (-l)
    rw [hP'] at hposi hdebt
    have hp0 : 0 ≤ p := by
      obtain ⟨p0, hp0, hp0'⟩ := hv.price
      obtain ⟨σ, hσ, hσ'⟩ := hv.slippage
      rw [hn.pval p0 σ hp0 hσ]
      have := ho.slippage σ hσ
      exact mul_nonneg hp0'.le (by linarith)
    have hgap : P' = 0 ∨ t < |P'| := by rcases hc with ⟨h, -⟩ | ⟨-, h⟩ <;> [exact Or.inl h; exact Or.inr h]
    have hl := hn.pos
    simp only [zero_def, lt_fin, decide_eq_true_eq, decide_eq_false_iff_not, abs_fin] at hdebt
    rcases hdebt with ⟨hneg, hdebt, -⟩ | ⟨hneg, hdebt, -⟩
    · have : ∃ k, 0 ≤ k ∧ es.debt = fin (D + k * p) := by
        by_cases hPn : P < 0
        · rw [if_pos hPn] at hdebt; exact ⟨l, hl.le, by rw [hdebt]; simp⟩
        · rw [if_neg hPn] at hdebt; exact ⟨|P'|, abs_nonneg _, by rw [hdebt]; simp⟩
      obtain ⟨k, hk, hke⟩ := this
      exact ⟨P', D + k * p, by rw [e2, hposi], by rw [e3, hke], by nlinarith [mul_nonneg hk hp0],
        fun h => absurd hneg (not_lt.mpr h), hgap⟩
    · refine ⟨P', D, by rw [e2, hposi], by rw [e3, hdebt], hD0, ?_, hgap⟩
      intro hP'0
      refine hz ?_
      by_contra hPn
      have hPn := not_le.mp hPn
      rcases hc with ⟨h0, he⟩ | ⟨h, -⟩
      · -- both addends negative: the sum cannot be snapped as it is larger than the position
        rcases hg with h | h
        · linarith
        · rcases addNb_exact r t P (-l) with ⟨hs, -⟩ | ⟨-, e⟩
          · have hsign : sign (fin P) = sign (fin (-l)) := by
              rcases sign_fin_cases P with ⟨h, e⟩ | ⟨h, e⟩ | ⟨h, e⟩ <;> [skip; linarith; linarith]
              rcases sign_fin_cases (-l) with ⟨h', e'⟩ | ⟨h', e'⟩ | ⟨h', e'⟩ <;> [skip; linarith; linarith]
              rw [e, e']
            unfold Snap at hs
            rw [if_pos hsign] at hs
            have := Close.zero_small hr ht hs
            rw [abs_of_neg (by linarith)] at this
            rw [abs_of_neg hPn] at h
            linarith
          · rw [e] at he; have := F.fin.inj he; linarith
      · linarith

/-- **C07** (sign part, histories, any tolerances): debt ≥ 0, and zero whenever the column is not short. -/
theorem C07_debt_history_partial (hr0 : 0 ≤ r) (hr : r < 1) (ht : 0 ≤ t) {upd} (qs : List Request) :
    ∀ {st b st' b'}, processAll (Arith.exact r t) upd st b qs = .ok (st', b') →
      (∀ q ∈ qs, Priced q.order) → Healthy st → DebtOk t st → DebtOk t st' := by
  induction qs with
  | nil => intro st b st' b' h _ _ hh; cases h; exact hh
  | cons q qs ih =>
    intro st b st' b' h hf hh hd
    unfold processAll at h
    split at h
    · cases h
    rename_i res st1 b1 h1
    have hq := hf q List.mem_cons_self
    have hsv : snap (Arith.exact r t) st.value ≠ pinf := by
      rcases snap_cases (Arith.exact r t) st.value with h | h
      · rw [h]; exact hh.value
      · rw [h.1]; simp
    exact ih h (fun q hq => hf q (List.mem_cons_of_mem _ hq)) (C01_healthy_partial hr.le h1 hq.toCovered hh)
      (C07_debt_step_partial hr0 hr ht h1 hq ⟨hq.percent, fun _ => Or.inl hsv⟩ hd)

end

theorem snap_zero_tol (q : ℚ) : snap (Arith.exact 0 0) (fin q) = fin q := by
  rcases snap_cases (Arith.exact 0 0) (fin q) with h | ⟨h, hc⟩
  · exact h
  · have := Close.zero_small (by norm_num) le_rfl ((isClose_exact 0 0 q 0).mp hc)
    rw [h, abs_eq_zero.mp (le_antisymm this (abs_nonneg _))]

/-- One order of a column sharing cash with other columns, zero tolerances: the debts of the other columns keep
`K` of the cash. -/
theorem booked_step_shared {K : ℚ} {i col group st upd o u b res st' b'}
    (h : processOrder (Arith.exact 0 0) i col group st upd o u b = .ok (res, st', b'))
    (ho : Priced o) (hsane : SaneSize o (snap (Arith.exact 0 0) st.value)) 
    (hd : ∃ c P D : ℚ, st.cash = fin c ∧ st.position = fin P ∧ st.debt = fin D ∧ st.freeCash = fin (c - 2 * D - K) ∧
      0 ≤ c ∧ 0 ≤ D ∧ (0 ≤ P → D = 0)) :
    ∃ c P D : ℚ, st'.cash = fin c ∧ st'.position = fin P ∧ st'.debt = fin D ∧ st'.freeCash = fin (c - 2 * D - K) ∧
      0 ≤ c ∧ 0 ≤ D ∧ (0 ≤ P → D = 0) := by
  obtain ⟨c, P, D, hc, hP, hD, hF, hc0, hD0, hz⟩ := hd
  have hdo : DebtOk 0 st := ⟨P, D, hP, hD, hD0, hz, by
    rcases eq_or_ne P 0 with h | h
    · exact Or.inl h
    · exact Or.inr (abs_pos.mpr h)⟩
  obtain ⟨P', D', hP', hD', hD0', hz', -⟩ :=
    (C07_debt_step_partial le_rfl (by norm_num) le_rfl h ho hsane hdo).ok
  have hcash' := C01_cash_nonneg_partial (by norm_num) h ho.fees hsane (by rw [hc]; simpa using hc0)
  obtain ⟨es, hex, -, e1, e2, e3, e4, -⟩ := processOrder_inv h
  have sc : (snapExec (Arith.exact 0 0) st).cash = fin c := by
    show snap _ st.cash = _; rw [hc, snap_zero_tol]
  have sP : (snapExec (Arith.exact 0 0) st).position = fin P := by
    show snap _ st.position = _; rw [hP, snap_zero_tol]
  have sD : (snapExec (Arith.exact 0 0) st).debt = fin D := by
    show snap _ st.debt = _; rw [hD, snap_zero_tol]
  have sF : (snapExec (Arith.exact 0 0) st).freeCash = fin (c - 2 * D - K) := by
    show snap _ st.freeCash = _; rw [hF, snap_zero_tol]
  suffices hs : ∃ c', es.cash = fin c' ∧ es.freeCash = fin (c' - 2 * D' - K) by
    obtain ⟨c', h1, h2⟩ := hs
    refine ⟨c', P', D', by rw [e1, h1], hP', hD', by rw [e4, h2], ?_, hD0', hz'⟩
    rw [e1, h1] at hcash'; simpa using hcash'
  rw [e3] at hD'
  cases executeOrder_cases hex with
  | notFilled hs _ =>
    rw [hs, sD] at hD'; cases hD'
    exact ⟨c, by rw [hs, sc], by rw [hs, sF]⟩
  | bought size percent lim f _ _ hchk hres hpos _ hf =>
    have hv := checkOrder_none hchk
    obtain ⟨p, φ, x, sz, hn⟩ := buy_num hv hpos ho.fees hf
    obtain ⟨-, hca, hposi, hdebt⟩ := buyCommit_inv hf.hcommit
    rw [hn.fill, sP, sD, sF] at hdebt
    rw [hn.fill, sc] at hca
    simp only [neg_fin, addNb_zero_tol] at hca hdebt
    refine ⟨_, hca, ?_⟩
    rcases hdebt with ⟨hneg, avg, havg, hdebt, hfree⟩ | ⟨hneg, hdebt, hfree⟩
    · have hPn : P < 0 := by simpa using hneg
      have hPne : |P| ≠ 0 := by simpa using hPn.ne
      rw [abs_fin, divE_ne_zero _ _ hPne, div_exact _ _ _ _ hPne] at havg
      cases havg
      have key : ∃ k, (if (fin (P + sz)).lt zero = true then fin sz else (fin P).abs) = fin k := by
        split <;> exact ⟨_, rfl⟩
      obtain ⟨k, hk⟩ := key
      rw [hk] at hdebt hfree
      simp only [two, mul_exact, add_exact, neg_fin, addNb_zero_tol] at hdebt hfree
      rw [hdebt] at hD'
      have := F.fin.inj hD'
      rw [hfree, ← this]; congr 1; ring
    · rw [hdebt] at hD'; cases hD'
      rw [hfree]; congr 1; ring
  | sold size percent limit percent' hsz _ hchk hres hpos _ hf =>
    have hv := checkOrder_none hchk
    have ha := resolve_sell hv (by intro h; rw [h] at hsz; cases hsz) hsane hres hpos
    obtain ⟨p, φ, x, l, hn⟩ := sell_num hv ha hf
    obtain ⟨-, hca, hposi, hdebt⟩ := sellCommit_inv hf.hcommit hf.hcover
    rw [hn.lim, hn.price, hn.fees, hn.fixed, sP, sD, sF] at hdebt
    rw [hn.lim, hn.price, hn.fees, hn.fixed, sc] at hca
    simp only [mul_exact, add_exact, neg_fin, addNb_zero_tol] at hca hdebt
    refine ⟨_, hca, ?_⟩
    rcases hdebt with ⟨hneg, hdebt, hfree⟩ | ⟨hneg, hdebt, hfree⟩
    · have key : ∃ k, (if (fin P).lt zero = true then fin l else (fin (P + -l)).abs) = fin k := by
        split <;> exact ⟨_, rfl⟩
      obtain ⟨k, hk⟩ := key
      rw [hk] at hdebt hfree
      simp only [mul_exact, add_exact, addNb_zero_tol] at hdebt hfree
      rw [hdebt] at hD'
      have := F.fin.inj hD'
      rw [hfree, ← this]; congr 1; ring
    · rw [hdebt] at hD'; cases hD'
      rw [hfree]; congr 1; ring

/-- **C07** (one order, zero tolerances): the full identity. -/
theorem C07_booked_step_partial {i col group st upd o u b res st' b'}
    (h : processOrder (Arith.exact 0 0) i col group st upd o u b = .ok (res, st', b'))
    (ho : Priced o) (hsane : SaneSize o (snap (Arith.exact 0 0) st.value)) (hd : Booked st) :
    Booked st' := by
  obtain ⟨c, P, D, h1, h2, h3, h4, h5⟩ := hd
  obtain ⟨c', P', D', g1, g2, g3, g4, g5⟩ := booked_step_shared (K := 0) h ho hsane
    ⟨c, P, D, h1, h2, h3, by rw [h4, sub_zero], h5⟩
  exact ⟨c', P', D', g1, g2, g3, by rw [g4, sub_zero], g5⟩

/-- **C07** (histories, zero tolerances). -/
theorem C07_booked_history_partial {upd} (qs : List Request) :
    ∀ {st b st' b'}, processAll (Arith.exact 0 0) upd st b qs = .ok (st', b') →
      (∀ q ∈ qs, Priced q.order) → Healthy st → Booked st → Booked st' := by
  induction qs with
  | nil => intro st b st' b' h _ _ hh; cases h; exact hh
  | cons q qs ih =>
    intro st b st' b' h hf hh hd
    unfold processAll at h
    split at h
    · cases h
    rename_i res st1 b1 h1
    have hq := hf q List.mem_cons_self
    have hsv : snap (Arith.exact 0 0) st.value ≠ pinf := by
      rcases snap_cases (Arith.exact 0 0) st.value with h | h
      · rw [h]; exact hh.value
      · rw [h.1]; simp
    exact ih h (fun q hq => hf q (List.mem_cons_of_mem _ hq)) (C01_healthy_partial (by norm_num) h1 hq.toCovered hh)
      (C07_booked_step_partial h1 hq ⟨hq.percent, fun _ => Or.inl hsv⟩ hd)

/-- Slippage above 100 % sells at a negative price and makes the debt negative. -/
theorem C07_counterexample : ∃ o res st' b' d,
    processOrder Arith.std 0 0 0 (wSt 100 0 0 100) true o (fin 0) wBuf = .ok (res, st', b') ∧
      res.status = OrderStatus.Filled ∧ st'.debt = fin d ∧ d < 0 := by
  obtain ⟨⟨res, st', b'⟩, h, hf⟩ := okAnd_iff (x := processOrder Arith.std 0 0 0 (wSt 100 0 0 100) true
    { size := fin (-1), price := fin 10, slippage := fin 2, fixedFees := fin (-10) } (fin 0) wBuf)
    (f := fun x => decide (x.1.status = OrderStatus.Filled ∧ x.2.1.debt = fin (-10)))
    (by decide +kernel)
  have hf := of_decide_eq_true hf
  exact ⟨_, res, st', b', -10, h, hf.1, hf.2, by norm_num⟩

/-- Non-vacuity: short, cover partially, reverse to long. -/
example : ∃ qs st' b', qs.length = 3 ∧ (∀ q ∈ qs, Priced q.order) ∧ Healthy (wSt 100 0 0 100) ∧
    Booked (wSt 100 0 0 100) ∧ DebtOk 0 (wSt 100 0 0 100) ∧
    processAll (Arith.exact 0 0) true (wSt 100 0 0 100) wBuf qs = .ok (st', b') ∧ b'.orders.length = 3 := by
  obtain ⟨⟨st', b'⟩, h, hf⟩ := okAnd_iff (x := processAll (Arith.exact 0 0) true (wSt 100 0 0 100) wBuf
    [⟨0, 0, 0, { size := fin (-6), price := fin 10, fees := fin (1/100) }, fin 0⟩,
     ⟨1, 0, 0, { size := fin 2, price := fin 12, fixedFees := fin 1 }, fin 0⟩,
     ⟨2, 0, 0, { size := fin 6, price := fin 9, slippage := fin (1/10) }, fin 0⟩])
    (f := fun x => x.2.orders.length = 3) (by decide +kernel)
  refine ⟨_, st', b', rfl, ?_, ?_, ?_, ?_, h, by simpa using hf⟩
  · intro q hq
    simp only [List.mem_cons, List.not_mem_nil, or_false] at hq
    rcases hq with rfl | rfl | rfl <;>
    exact ⟨⟨fun φ h => by cases h; norm_num, fun h => by cases h⟩, fun σ h => by cases h; norm_num⟩
  · exact ⟨⟨100, rfl, by norm_num⟩, ⟨0, rfl, trivial⟩, by simp [wSt], by simp [wSt]⟩
  · exact ⟨100, 0, 0, rfl, rfl, rfl, by simp [wSt], by norm_num, le_rfl, fun _ => rfl⟩
  · exact ⟨0, 0, rfl, rfl, le_rfl, fun _ => rfl, Or.inl rfl⟩

end Vbt
