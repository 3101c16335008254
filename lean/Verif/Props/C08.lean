import Verif.Props.C07

/-!
# C08  Locking cash protects free cash

Full claim: if every order is placed with `lock_cash`, free cash that starts non-negative never becomes
negative.  False of the code when a positive fixed fee is paid while a short position is partially covered
(`C08_counterexample`); proved for a column that does not share cash, for fixed fees ≤ 0 while a short
position is open (any fixed fee otherwise), in exact arithmetic with zero tolerances, with the guards of
C04 and C07.
-/

namespace Vbt
open F

/-- The cash limit of a locked buy, in numbers. -/
theorem buyCashLimit_locked {s : ExecState} {o : Order} {percent lim : F} {c P D Fr p φ x : ℚ}
    (hlock : o.lockCash = true) (hc : s.cash = fin c) (hP : s.position = fin P) (hD : s.debt = fin D)
    (hF : s.freeCash = fin Fr) (hfees : o.fees = fin φ) (hfix : o.fixedFees = fin x)
    (h : buyCashLimit (Arith.exact 0 0) s o (fin p) percent = .ok lim) :
    (0 ≤ P → le lim (fin Fr) = true) ∧
    (P < 0 → le lim (fin c) = true ∧
      (|P| * p * (1 + φ) + x ≤ Fr + 2 * D ∨
        (Fr + 2 * D < |P| * p * (1 + φ) + x ∧ p * (1 + φ) - 2 * (D / |P|) ≠ 0 ∧
          le lim (fin ((Fr - x) / (p * (1 + φ) - 2 * (D / |P|)) * p * (1 + φ) + x)) = true))) := by
  have tail : ∀ l : ℚ, (Except.ok (if percent.isnan then pmin (fin l) (fin c) else
      pmin (pmin (fin l) (fin c)) (mul (Arith.exact 0 0) percent (pmin (fin l) (fin c)))) : Except Err F) = .ok lim →
      le lim (fin l) = true ∧ le lim (fin c) = true := by
    intro l hl
    have h1 : le (pmin (fin l) (fin c)) (fin l) = true := pmin_le_left (by simp)
    have h2 : le (pmin (fin l) (fin c)) (fin c) = true := pmin_le_right (by simp) (by simp)
    have hl := Except.ok.inj hl
    split at hl
    · subst hl; exact ⟨h1, h2⟩
    · have h3 : le lim (pmin (fin l) (fin c)) = true := by
        subst hl; exact pmin_le_left (pmin_ne_nan (by simp))
      exact ⟨le_trans_F h3 h1, le_trans_F h3 h2⟩
  unfold buyCashLimit at h
  simp only [hlock, hc, hP, hD, hF, hfees, hfix, if_true, zero_def, one_def, ge_fin, abs_fin, two, mul_exact,
    add_exact, neg_fin, addNb_zero_tol, gt_fin, lt_fin, decide_eq_true_eq] at h
  by_cases hPn : 0 ≤ P
  · rw [if_pos hPn] at h
    exact ⟨fun _ => (tail _ h).1, fun hn => absurd hPn (not_le.mpr hn)⟩
  · rw [if_neg hPn] at h
    refine ⟨fun hn => absurd hn hPn, fun _ => ?_⟩
    by_cases h1 : 0 < Fr + 2 * D + -(|P| * p * (1 + φ) + x)
    · rw [if_pos h1] at h
      exact ⟨(tail _ h).2, Or.inl (by linarith)⟩
    · rw [if_neg h1] at h
      by_cases h2 : Fr + 2 * D + -(|P| * p * (1 + φ) + x) < 0
      · rw [if_pos h2] at h
        have hPne : |P| ≠ 0 := by
          have : P ≠ 0 := fun h => hPn h.ge
          simpa using this
        rw [divE_ne_zero _ _ hPne, div_exact _ _ _ _ hPne] at h
        simp only [sub_exact, mul_exact] at h
        by_cases h3 : p * (1 + φ) - 2 * (D / |P|) = 0
        · rw [h3, divE_zero_right] at h; cases h
        · rw [divE_ne_zero _ _ h3, div_exact _ _ _ _ h3] at h
          simp only [mul_exact, add_exact] at h
          exact ⟨(tail _ h).2, Or.inr ⟨by linarith, h3, (tail _ h).1⟩⟩
      · rw [if_neg h2] at h
        exact ⟨(tail _ h).2, Or.inl (by linarith)⟩

/-- The size limit of a locked sale that can go short, in numbers. -/
theorem sellLimit_locked {s : ExecState} {o : Order} {size percent limit percent' : F} {P Fr p φ x : ℚ}
    (hlock : o.lockCash = true) (hdir : o.direction ≠ Direction.LongOnly) (hP : s.position = fin P)
    (hF : s.freeCash = fin Fr) (hfees : o.fees = fin φ) (hfix : o.fixedFees = fin x)
    (hp : 0 ≤ p) (hφ : 0 < 1 + φ) (ha : SellArgs size percent)
    (h : sellLimit (Arith.exact 0 0) s o size (fin p) percent = .ok (.limit limit percent')) :
    percent' = nan ∧
    (le limit (fin (max P 0)) = true ∨
      ∃ m, le limit (fin (max P 0 + m)) = true ∧ m * (p * (1 + φ)) = Fr + max P 0 * p * (1 - φ) - x) := by
  have hd : ¬ (o.direction = 0) := hdir
  have tail : ∀ m : ℚ, (if (size.isinf && !percent.isnan) = true then
        (Except.ok (SellLimit.limit (pmin (mul (Arith.exact 0 0) percent (fin m)) (fin m)) nan) : Except Err SellLimit)
      else if (!percent.isnan) = true then
        .ok (.limit (pmin (mul (Arith.exact 0 0) percent size) (fin m)) nan)
      else .ok (.limit (pmin size (fin m)) percent)) = .ok (.limit limit percent') →
      percent' = nan ∧ le limit (fin m) = true := by
    intro m hm
    rcases ha.pct with hpc | ⟨⟨w, hw, -⟩, hs⟩
    · subst hpc
      simp only [isnan_nan, Bool.not_true, Bool.and_false, Bool.false_eq_true, if_false] at hm
      cases hm
      refine ⟨rfl, pmin_le_right ?_ (by simp)⟩
      rcases ha.sz with h | ⟨q, h, -⟩ <;> rw [h] <;> simp
    · subst hs hw
      simp only [isinf_pinf, isnan_fin, Bool.not_false, Bool.and_self, if_true] at hm
      cases hm
      exact ⟨rfl, pmin_le_right (by simp) (by simp)⟩
  unfold sellLimit at h
  simp only [hlock, hP, hF, hfees, hfix, Direction.LongOnly, if_neg hd, Bool.true_or, if_true, zero_def, one_def, pmax_fin,
    sub_exact, mul_exact, add_exact, neg_fin, addNb_zero_tol, le_fin, decide_eq_true_eq] at h
  by_cases h1 : Fr + max P 0 * p * (1 - φ) ≤ 0
  · rw [if_pos h1] at h
    by_cases h2 : P ≤ 0
    · rw [if_pos h2] at h; cases h
    · rw [if_neg h2] at h
      obtain ⟨e, hl⟩ := tail _ h
      exact ⟨e, Or.inl hl⟩
  · rw [if_neg h1] at h
    by_cases hp0 : p * (1 + φ) = 0
    · rw [hp0, divE_zero_right] at h; cases h
    · rw [divE_ne_zero _ _ hp0, div_exact _ _ _ _ hp0] at h
      simp only [addNb_zero_tol, le_fin, decide_eq_true_eq] at h
      split at h
      · cases h
      · cases h
      · rename_i m hm
        split at hm
        · cases hm
        · cases hm
          obtain ⟨e, hl⟩ := tail _ h
          refine ⟨e, Or.inr ⟨_, hl, ?_⟩⟩
          rw [div_mul_cancel₀ _ hp0]; ring

/-- The filled size of a sale is at most its limit when no percentage is left. -/
theorem sellLim_le {o : Order} {limit : F} {l m : ℚ} {s : ExecState} (hv : Valid s o)
    (h : sellLim (Arith.exact 0 0) o limit nan = fin l) (hm : le limit (fin m) = true)
    (h0 : le (fin 0) limit = true) : l ≤ m := by
  unfold sellLim sellLim2 sellLim1 at h
  simp only [isnan_nan, if_true] at h
  cases limit with
  | nan => cases hm
  | pinf => cases hm
  | ninf => cases h0
  | fin q =>
    simp only [le_fin, decide_eq_true_eq] at hm h0
    have key : ∀ y : ℚ, 0 ≤ y → y ≤ q → granulate (Arith.exact 0 0) o.gran (fin y) = fin l → l ≤ m := by
      intro y hy hyq hg
      obtain ⟨z, hz, -, hle, -⟩ := granulate_num (r := 0) (t := 0) hv.gran hy
      rw [hz] at hg; cases hg; linarith
    rcases hv.maxSize with hmx | ⟨M, hmx, hM⟩
    · rw [hmx] at h
      have : gt (fin q) pinf = false := rfl
      rw [this] at h
      exact key q h0 le_rfl h
    · rw [hmx] at h
      simp only [gt_fin, decide_eq_true_eq] at h
      split at h
      · rename_i hlt; exact key M hM.le hlt.le h
      · exact key q h0 le_rfl h

/-- The order is locked. -/
structure Locked (o : Order) : Prop extends Priced o where
  lock : o.lockCash = true
  pct : PercentLeOne o

/-- **C08** (one order). -/
theorem C08_free_cash_step_partial {i col group st upd o u b res st' b'}
    (h : processOrder (Arith.exact 0 0) i col group st upd o u b = .ok (res, st', b'))
    (ho : Locked o) (hfixed : lt st.position zero = true → ∀ x, o.fixedFees = fin x → x ≤ 0)
    (hsane : SaneSize o (snap (Arith.exact 0 0) st.value)) (hd : Booked st)
    (hfree : FinAnd st.freeCash (0 ≤ ·)) : FinAnd st'.freeCash (0 ≤ ·) := by
  obtain ⟨c, P, D, hc, hP, hD, hF, hc0, hD0, hz⟩ := hd
  obtain ⟨Fr, hFr, hFr0⟩ := hfree
  have hFe : Fr = c - 2 * D := by rw [hFr] at hF; exact F.fin.inj hF
  obtain ⟨es, hex, -, -, -, -, e4, -⟩ := processOrder_inv h
  have sc : (snapExec (Arith.exact 0 0) st).cash = fin c := by
    show snap _ st.cash = _; rw [hc, snap_zero_tol]
  have sP : (snapExec (Arith.exact 0 0) st).position = fin P := by
    show snap _ st.position = _; rw [hP, snap_zero_tol]
  have sD : (snapExec (Arith.exact 0 0) st).debt = fin D := by
    show snap _ st.debt = _; rw [hD, snap_zero_tol]
  have sF : (snapExec (Arith.exact 0 0) st).freeCash = fin Fr := by
    show snap _ st.freeCash = _; rw [hFr, snap_zero_tol]
  rw [e4]
  cases executeOrder_cases hex with
  | notFilled hs _ => exact ⟨Fr, by rw [hs, sF], hFr0⟩
  | bought size percent lim f _ _ hchk hres hpos _ hf =>
    have hv := checkOrder_none hchk
    obtain ⟨p, φ, x, sz, hn⟩ := buy_num hv hpos ho.fees hf
    have hφ := ho.fees φ hn.fees
    have hp := hn.ppos
    have hsz := hn.nonneg
    obtain ⟨-, -, -, hdebt⟩ := buyCommit_inv hf.hcommit
    rw [hn.fill, sP, sD, sF] at hdebt
    simp only [neg_fin, addNb_zero_tol] at hdebt
    have hl := hf.hlim
    rw [hn.price] at hl
    obtain ⟨hlong, hshort⟩ := buyCashLimit_locked ho.lock sc sP sD sF hn.fees hn.fixed hl
    -- the required cash is within any finite bound of the limit
    have hreq : ∀ m, le lim (fin m) = true → sz * p + (sz * p * φ + x) ≤ m := by
      intro m hm
      rcases hn.limit with h | ⟨L, h, hL⟩
      · rw [h] at hm; cases hm
      · rw [h] at hm
        simp only [le_fin, decide_eq_true_eq] at hm
        rcases hL with hL | hL | hL
        · linarith
        · linarith
        · simp only [zero_mul, max_self] at hL
          have := abs_eq_zero.mp (le_antisymm hL (abs_nonneg _))
          linarith
    rcases hdebt with ⟨hneg, avg, havg, -, hfree⟩ | ⟨hneg, -, hfree⟩
    · have hPn : P < 0 := by simpa using hneg
      have hPp : 0 < |P| := abs_pos.mpr hPn.ne
      have hx : x ≤ 0 := hfixed (by rw [hP]; simpa using hPn) x hn.fixed
      rw [abs_fin, divE_ne_zero _ _ hPp.ne', div_exact _ _ _ _ hPp.ne'] at havg
      cases havg
      obtain ⟨hle, hcover⟩ := hshort hPn
      have hrc := hreq c hle
      by_cases hP' : P + sz < 0
      · -- partially covered
        have hszP : sz < |P| := by rw [abs_of_neg hPn]; linarith
        simp only [zero_def, lt_fin, hP', decide_true, if_true, two, mul_exact, add_exact, addNb_zero_tol] at hfree
        refine ⟨_, hfree, ?_⟩
        -- linear in the size: free - x at size 0, the cover condition at size |P|
        have hlin : Fr + 2 * (sz * (D / |P|)) + -(sz * p + (sz * p * φ + x))
            = (Fr - x) - sz * (p * (1 + φ) - 2 * (D / |P|)) := by ring
        rw [hlin]
        rcases hcover with hcov | ⟨hcov, hs0, hm⟩
        · have h1 : |P| * (p * (1 + φ) - 2 * (D / |P|)) ≤ Fr - x := by
            have : |P| * (2 * (D / |P|)) = 2 * D := by field_simp
            nlinarith
          by_cases hsl : 0 ≤ p * (1 + φ) - 2 * (D / |P|)
          · nlinarith
          · have := not_le.mp hsl
            nlinarith
        · have h1 : Fr - x < |P| * (p * (1 + φ) - 2 * (D / |P|)) := by
            have : |P| * (2 * (D / |P|)) = 2 * D := by field_simp
            nlinarith
          have hsl : 0 < p * (1 + φ) - 2 * (D / |P|) := by
            by_contra hn'
            have := not_lt.mp hn'
            nlinarith
          have h2 := hreq _ hm
          have hpp : 0 < p * (1 + φ) := mul_pos hp hφ
          have h3 : sz * (p * (1 + φ)) ≤ (Fr - x) / (p * (1 + φ) - 2 * (D / |P|)) * (p * (1 + φ)) := by
            nlinarith
          have h4 := le_of_mul_le_mul_right h3 hpp
          rw [le_div_iff₀ hsl] at h4
          linarith
      · -- fully covered
        simp only [zero_def, lt_fin, hP', decide_false, Bool.false_eq_true, if_false, two, mul_exact, add_exact,
          addNb_zero_tol, abs_fin] at hfree
        refine ⟨_, hfree, ?_⟩
        rw [mul_div_cancel₀ _ hPp.ne']
        linarith
    · have hPn : 0 ≤ P := by simpa using hneg
      have := hreq Fr (hlong hPn)
      exact ⟨_, hfree, by linarith⟩
  | sold size percent limit percent' hsz _ hchk hres hpos _ hf =>
    have hv := checkOrder_none hchk
    have ha := resolve_sell hv (by intro h; rw [h] at hsz; cases hsz) hsane hres hpos
    obtain ⟨p, φ, x, l, hn⟩ := sell_num hv ha hf
    have hφ := ho.fees φ hn.fees
    have hl := hn.pos
    have hp0 : 0 ≤ p := by
      obtain ⟨p0, hp0, hp0'⟩ := hv.price
      obtain ⟨σ, hσ, hσ'⟩ := hv.slippage
      rw [hn.pval p0 σ hp0 hσ]
      have := ho.slippage σ hσ
      exact mul_nonneg hp0'.le (by linarith)
    have hcov := hf.hcover
    rw [hn.lim, hn.price, hn.fees, hn.fixed] at hcov
    simp only [mul_exact, add_exact, neg_fin, addNb_zero_tol, zero_def, lt_fin, decide_eq_false_iff_not, not_lt] at hcov
    obtain ⟨-, -, -, hdebt⟩ := sellCommit_inv hf.hcommit hf.hcover
    rw [hn.lim, hn.price, hn.fees, hn.fixed, sP, sD, sF] at hdebt
    simp only [mul_exact, add_exact, neg_fin, addNb_zero_tol, zero_def, lt_fin, abs_fin, decide_eq_true_eq,
      decide_eq_false_iff_not] at hdebt
    rcases hdebt with ⟨hneg, -, hfree⟩ | ⟨hneg, -, hfree⟩
    · -- ends short
      have hdir : o.direction ≠ Direction.LongOnly := by
        intro hd
        have := hn.lePos hd (fun w hw => resolve_percent_le ho.pct hres hw) P sP
        linarith
      have hlim := hf.hlim
      rw [hn.price] at hlim
      obtain ⟨rfl, hm⟩ := sellLimit_locked ho.lock hdir sP sF hn.fees hn.fixed hp0 hφ ha hlim
      obtain ⟨-, hl0, -⟩ := sellLimit_num hn.fees hn.fixed sP hv.freeCash (fun h => absurd h hdir) ha hlim
      have hl0 : le (fin 0) limit = true := by
        rcases hl0 with h | ⟨q, h, hq⟩
        · rw [h]; rfl
        · rw [h]; simpa using hq
      have hmax : max P 0 < l := by
        rcases max_cases P 0 with ⟨h, -⟩ | ⟨h, -⟩ <;> rw [h] <;> linarith
      rcases hm with hm | ⟨m, hm, hme⟩
      · have := sellLim_le hv hn.lim hm hl0
        linarith
      · have hlm := sellLim_le hv hn.lim hm hl0
        have hk : (if P < 0 then fin l else fin |P + -l|) = fin (l - max P 0) := by
          by_cases hPn : P < 0
          · rw [if_pos hPn, max_eq_right hPn.le, sub_zero]
          · rw [if_neg hPn, max_eq_left (not_lt.mp hPn), abs_of_neg hneg]; congr 1; ring
        rw [hk] at hfree
        simp only [mul_exact, addNb_zero_tol] at hfree
        refine ⟨_, hfree, ?_⟩
        have hpp : 0 ≤ p * (1 + φ) := mul_nonneg hp0 hφ.le
        have h1 : (l - max P 0) * (p * (1 + φ)) ≤ m * (p * (1 + φ)) :=
          mul_le_mul_of_nonneg_right (by linarith) hpp
        rw [hme] at h1
        nlinarith
    · exact ⟨_, hfree, by linarith⟩

/-- **C08** (histories). -/
theorem C08_free_cash_history_partial {upd} (qs : List Request) :
    ∀ {st b st' b'}, processAll (Arith.exact 0 0) upd st b qs = .ok (st', b') →
      (∀ q ∈ qs, Locked q.order ∧ ∀ x, q.order.fixedFees = fin x → x ≤ 0) → Healthy st → Booked st →
      FinAnd st.freeCash (0 ≤ ·) → FinAnd st'.freeCash (0 ≤ ·) := by
  induction qs with
  | nil => intro st b st' b' h _ _ _ hh; cases h; exact hh
  | cons q qs ih =>
    intro st b st' b' h hf hh hd hfr
    unfold processAll at h
    split at h
    · cases h
    rename_i res st1 b1 h1
    obtain ⟨hq, hx⟩ := hf q List.mem_cons_self
    have hsv : snap (Arith.exact 0 0) st.value ≠ pinf := by
      rcases snap_cases (Arith.exact 0 0) st.value with h | h
      · rw [h]; exact hh.value
      · rw [h.1]; simp
    have hsane : SaneSize q.order (snap (Arith.exact 0 0) st.value) := ⟨hq.percent, fun _ => Or.inl hsv⟩
    exact ih h (fun q hq => hf q (List.mem_cons_of_mem _ hq)) (C01_healthy_partial (by norm_num) h1 hq.toCovered hh)
      (C07_booked_step_partial h1 hq.toPriced hsane hd) (C08_free_cash_step_partial h1 hq (fun _ => hx) hsane hd hfr)

/-- Partially covering a short with a fixed fee of 1 makes free cash negative although cash is locked. -/
theorem C08_counterexample : ∃ o res st' b',
    processOrder (Arith.exact 0 0) 0 0 0 (wSt 20 (-1) 10 0) true o (fin 0) wBuf = .ok (res, st', b') ∧
      o.lockCash = true ∧ Booked (wSt 20 (-1) 10 0) ∧ st'.freeCash = fin (-1/4) := by
  obtain ⟨⟨res, st', b'⟩, h, hf⟩ := okAnd_iff (x := processOrder (Arith.exact 0 0) 0 0 0 (wSt 20 (-1) 10 0) true
    { size := fin (1/20), price := fin 5, fixedFees := fin 1, lockCash := true } (fin 0) wBuf)
    (f := fun x => decide (x.2.1.freeCash = fin (-1/4)))
    (by decide +kernel)
  refine ⟨_, res, st', b', h, rfl, ⟨20, -1, 10, rfl, rfl, rfl, ?_, by norm_num, by norm_num, fun h => ?_⟩,
    of_decide_eq_true hf⟩
  · norm_num [wSt]
  · norm_num at h

/-- Non-vacuity: a locked 80 % short, an unaffordable attempt to cover it entirely, a further partial cover. -/
example : ∃ qs st' b', qs.length = 3 ∧ (∀ q ∈ qs, Locked q.order ∧ ∀ x, q.order.fixedFees = fin x → x ≤ 0) ∧ Healthy (wSt 100 0 0 100) ∧
    Booked (wSt 100 0 0 100) ∧ FinAnd (wSt 100 0 0 100).freeCash (0 ≤ ·) ∧
    processAll (Arith.exact 0 0) true (wSt 100 0 0 100) wBuf qs = .ok (st', b') ∧ b'.orders.length = 3 := by
  obtain ⟨⟨st', b'⟩, h, hf⟩ := okAnd_iff (x := processAll (Arith.exact 0 0) true (wSt 100 0 0 100) wBuf
    [⟨0, 0, 0, { size := fin (-8/10), price := fin 10, sizeType := SizeType.Percent, lockCash := true }, fin 0⟩,
     ⟨1, 0, 0, { size := fin 100, price := fin 24, fees := fin (1/100), lockCash := true }, fin 0⟩,
     ⟨2, 0, 0, { size := fin 1, price := fin 15, lockCash := true }, fin 0⟩])
    (f := fun x => x.2.orders.length = 3) (by decide +kernel)
  refine ⟨_, st', b', rfl, ?_, ?_, ?_, ?_, h, by simpa using hf⟩
  · intro q hq
    simp only [List.mem_cons, List.not_mem_nil, or_false] at hq
    rcases hq with rfl | rfl | rfl
    · exact ⟨⟨⟨⟨fun φ h => by cases h; norm_num, fun _ => ⟨_, rfl, by norm_num⟩⟩, fun σ h => by cases h; norm_num⟩,
        rfl, fun _ a ha => by cases ha; norm_num [abs_le]⟩, fun x h => by cases h; norm_num⟩
    · exact ⟨⟨⟨⟨fun φ h => by cases h; norm_num, fun h => by cases h⟩, fun σ h => by cases h; norm_num⟩,
        rfl, fun h => by cases h⟩, fun x h => by cases h; norm_num⟩
    · exact ⟨⟨⟨⟨fun φ h => by cases h; norm_num, fun h => by cases h⟩, fun σ h => by cases h; norm_num⟩,
        rfl, fun h => by cases h⟩, fun x h => by cases h; norm_num⟩
  · exact ⟨⟨100, rfl, by norm_num⟩, ⟨0, rfl, trivial⟩, by simp [wSt], by simp [wSt]⟩
  · exact ⟨100, 0, 0, rfl, rfl, rfl, by simp [wSt], by norm_num, le_rfl, fun _ => rfl⟩
  · exact ⟨100, rfl, by norm_num⟩

end Vbt
