import Verif.Props.C02
import Verif.Lemmas.Requested

/-!
# C09  Target sizes reach their target

`Target` and `Requested` (Spec/Requested) give the documented meaning of the size types.
* a fully filled target order leaves the position at the target;
* an affordable order is filled in full;
* `Percent` uses the stated share of cash (buys), of the position (LongOnly sells) or of the sellable amount.
-/

namespace Vbt
open F

section
variable {r t : ℚ}

theorem Target.requested {o : Order} {vp v : F} {T P : ℚ} (h : Target o vp v T) :
    Requested o (fin P) vp v (T - P) := by
  cases h with
  | amount hty hs => exact .targetAmount hty hs rfl
  | value hty hs hw hw0 => exact .targetValue hty hs hw hw0 rfl
  | percent hty hs hw hw0 hV hV0 => exact .targetPercent hty hs hw hw0 hV hV0 rfl

/-- The side of a filled order is the sign of the requested amount. -/
theorem C09_side {i col group st upd o u b res st' b'} {q : ℚ}
    (h : processOrder (Arith.exact r t) i col group st upd o u b = .ok (res, st', b'))
    (hfill : res.status = OrderStatus.Filled)
    (hq : Requested o (snap (Arith.exact r t) st.position) (snap (Arith.exact r t) st.valPrice)
        (snap (Arith.exact r t) st.value) q) :
    (0 < q → res.side = OrderSide.Buy) ∧ (q ≤ 0 → res.side = OrderSide.Sell) := by
  obtain ⟨es, hex, -⟩ := processOrder_inv h
  have hr2 := hq.resolve (r := r) (t := t) (s := snapExec (Arith.exact r t) st)
  cases executeOrder_cases hex with
  | notFilled _ hn => exact absurd hfill (notFilled_status hn)
  | bought size percent lim f _ _ hchk hres hpos _ hf =>
    obtain ⟨hr', -⟩ := buyCommit_inv hf.hcommit
    cases hres.symm.trans hr2
    refine ⟨fun _ => by rw [hr'], fun h => ?_⟩
    simp at hpos; linarith
  | sold size percent limit percent' _ _ hchk hres hpos _ hf =>
    obtain ⟨hr', -⟩ := sellCommit_inv hf.hcommit hf.hcover
    cases hres.symm.trans hr2
    refine ⟨fun h => ?_, fun _ => by rw [hr']⟩
    simp at hpos; linarith

/-- **C09** (amounts).  A fully filled order moves the position by the requested amount. -/
theorem C09_requested (hr0 : 0 ≤ r) (hr : r < 1) (ht : 0 ≤ t) {i col group st upd o u b res st' b'} {q P0 c : ℚ}
    (h : processOrder (Arith.exact r t) i col group st upd o u b = .ok (res, st', b'))
    (hfill : res.status = OrderStatus.Filled) (hfull : res.size = fin |q|) (hc : st.cash = fin c)
    (hP0 : snap (Arith.exact r t) st.position = fin P0)
    (hq : Requested o (fin P0) (snap (Arith.exact r t) st.valPrice) (snap (Arith.exact r t) st.value) q) :
    ∃ P', st'.position = fin P' ∧ Moves r t P0 q P' := by
  obtain ⟨es, hex, -, -, e2, -⟩ := processOrder_inv h
  have hP0' : (snapExec (Arith.exact r t) st).position = fin P0 := hP0
  have hr2 := Requested.resolve (r := r) (t := t) (s := snapExec (Arith.exact r t) st) (hP0'.symm ▸ hq)
  cases executeOrder_cases hex with
  | notFilled _ hn => exact absurd hfill (notFilled_status hn)
  | bought size percent lim f _ _ hchk hres hpos _ hf =>
    obtain ⟨hr', -, hposi, -⟩ := buyCommit_inv hf.hcommit
    cases hres.symm.trans hr2
    have hq0 : 0 < q := by simpa using hpos
    rw [hr'] at hfull
    simp only [abs_of_pos hq0] at hfull
    obtain ⟨P', hP', hm⟩ := addNb_moves (t := t) hr0 hr P0 q
    exact ⟨P', by rw [e2, hposi, hP0', hfull, hP'], hm⟩
  | sold size percent limit percent' _ _ hchk hres hpos _ hf =>
    obtain ⟨hr', -, hposi, -⟩ := sellCommit_inv hf.hcommit hf.hcover
    cases hres.symm.trans hr2
    have hq0 : q ≤ 0 := by simpa using hpos
    rw [hr'] at hfull
    simp only [abs_of_nonpos hq0] at hfull
    obtain ⟨P', hP', hm⟩ := addNb_moves (t := t) hr0 hr P0 q
    exact ⟨P', by rw [e2, hposi, hP0', hfull, neg_fin, neg_neg, hP'], hm⟩

/-- **C09** (targets).  A fully filled target order leaves the position at the target: exactly, or zero when the
target is negligible. -/
theorem C09_target (hr0 : 0 ≤ r) (hr : r < 1) (ht : 0 ≤ t) {i col group st upd o u b res st' b'} {T P0 c : ℚ}
    (h : processOrder (Arith.exact r t) i col group st upd o u b = .ok (res, st', b'))
    (hfill : res.status = OrderStatus.Filled) (hfull : res.size = fin |T - P0|) (hc : st.cash = fin c)
    (hP0 : snap (Arith.exact r t) st.position = fin P0)
    (hT : Target o (snap (Arith.exact r t) st.valPrice) (snap (Arith.exact r t) st.value) T) :
    st'.position = fin T ∨
      (st'.position = fin 0 ∧ |T| ≤ max (r * max |P0| |T - P0|) t) := by
  obtain ⟨P', h1, h2⟩ := C09_requested hr0 hr ht h hfill hfull hc hP0 hT.requested
  rcases h2 with h2 | ⟨h2, h3⟩
  · left; rw [h1, h2]; congr 1; ring
  · right; rw [h1, h2]; refine ⟨rfl, ?_⟩
    rwa [show P0 + (T - P0) = T by ring] at h3

/-- The order asks for an amount that the account can pay and that no restriction cuts down. -/
structure Affordable (r t : ℚ) (s : ExecState) (o : Order) (u : F) (q c P : ℚ) : Prop where
  cash : s.cash = fin c
  position : s.position = fin P
  notClose : ¬ Close r t |q| 0
  gran : o.gran = nan
  lock : o.lockCash = false
  max : le (fin |q|) o.maxSize = true
  min : le o.minSize (fin |q|) = true
  reject : (gt o.rejectProb zero && lt u o.rejectProb) = false
  buy : 0 < q → ∀ price slip φ x, o.price = fin price → o.slippage = fin slip → o.fees = fin φ →
    o.fixedFees = fin x → 0 < c ∧
      q * (price * (1 + slip)) + (q * (price * (1 + slip)) * φ + x) ≤ c ∧
      (o.direction = Direction.ShortOnly → q ≤ -P)
  sell : q < 0 → ∀ price slip φ x, o.price = fin price → o.slippage = fin slip → o.fees = fin φ →
    o.fixedFees = fin x →
      0 ≤ -q * (price * (1 - slip)) - (-q * (price * (1 - slip)) * φ + x) ∧
      (o.direction = Direction.LongOnly → -q ≤ P)

theorem isClose_false_of_lt {a b : ℚ} (h : isCloseOrLess (Arith.exact r t) (fin a) (fin b) = false) : b < a := by
  have := isCloseOrLess_false h
  have h1 : ¬ a < b := by simpa using this.2
  rcases lt_or_eq_of_le (not_lt.mp h1) with h | h
  · exact h
  · subst h
    have : isClose (Arith.exact r t) (fin b) (fin b) = true := by
      rw [isClose_exact]; exact Or.inl rfl
    simp_all

theorem isCloseOrLess_of_le {a b : ℚ} (h : a ≤ b) : isCloseOrLess (Arith.exact r t) (fin a) (fin b) = true := by
  cases hc : isCloseOrLess (Arith.exact r t) (fin a) (fin b)
  · have := isClose_false_of_lt hc; linarith
  · rfl

theorem isLess_of_le {a b : F} (h : le b a = true) : isLess (Arith.exact r t) a b = false := by
  unfold isLess
  split
  · rfl
  · cases a <;> cases b <;> simp_all [le, lt]

/-- **C09** (completeness).  A valid, affordable order is filled with exactly the requested amount. -/
theorem C09_filled_in_full {st o u} {q c P : ℚ}
    (hsz : o.size ≠ nan) (hpr : o.price ≠ nan)
    (hv : Valid (snapExec (Arith.exact r t) st) o)
    (hq : Requested o (snap (Arith.exact r t) st.position) (snap (Arith.exact r t) st.valPrice)
        (snap (Arith.exact r t) st.value) q)
    (ha : Affordable r t (snapExec (Arith.exact r t) st) o u q c P) :
    ∃ es res, executeOrder (Arith.exact r t) st o u = .ok (es, res) ∧ res.status = OrderStatus.Filled ∧
      res.size = fin |q| := by
  obtain ⟨hcash, hpos, hncl, hgran, hlock, hmax, hmin, hrej, hbuy, hsell⟩ := ha
  have hr2 := hq.resolve (r := r) (t := t) (s := snapExec (Arith.exact r t) st)
  have h1 : o.size.isnan = false := by cases h : o.size <;> simp_all
  have h2 : o.price.isnan = false := by cases h : o.price <;> simp_all
  obtain ⟨p0, hp0, hp0'⟩ := hv.price
  obtain ⟨σ, hσ, hσ'⟩ := hv.slippage
  obtain ⟨φ, hfees, -⟩ := hv.fees
  obtain ⟨x, hfix, -⟩ := hv.fixedFees
  have hq0 : q ≠ 0 := by rintro rfl; exact hncl (Or.inl (by simp))
  have hmaxb : gt (fin |q|) o.maxSize = false := by
    revert hmax; cases o.maxSize <;> simp [le, gt, lt]
  have hclose : isClose (Arith.exact r t) (fin |q|) zero = false := by
    rw [← Bool.not_eq_true, zero_def, isClose_exact]; exact hncl
  have hminb := isLess_of_le (r := r) (t := t) hmin
  have hself : isLess (Arith.exact r t) (fin |q|) (fin |q|) = false := isLess_of_le (by simp)
  unfold executeOrder
  simp only [h1, h2, hv.check, hr2, Bool.false_eq_true, if_false]
  have rest : ∀ rr : ExecState × OrderResult, applyReject o u (snapExec (Arith.exact r t) st) rr = rr := by
    intro rr; simp only [applyReject, hrej, Bool.false_eq_true, if_false]
  by_cases hqp : 0 < q
  · have hab : |q| = q := abs_of_pos hqp
    rw [hab] at hmaxb hclose hminb hself ⊢
    obtain ⟨hc0, hcost, hdir⟩ := hbuy hqp p0 σ φ x hp0 hσ hfees hfix
    have hgt : gt (fin q) zero = true := by simpa using hqp
    rw [if_pos hgt]
    have hlim : buyCashLimit (Arith.exact r t) (snapExec (Arith.exact r t) st) o
        (mul (Arith.exact r t) o.price (add (Arith.exact r t) one o.slippage)) nan = .ok (fin c) := by
      unfold buyCashLimit
      simp [hlock, hcash]
    have hadj0 : (if o.direction = Direction.ShortOnly then
        pmin (snapExec (Arith.exact r t) st).position.neg (fin q) else fin q) = fin q := by
      split
      · rw [hpos, neg_fin, pmin_fin, min_eq_right (hdir (by assumption))]
      · rfl
    have hbody : ∃ es res, buyBody (Arith.exact r t) (snapExec (Arith.exact r t) st) o (fin q)
        (mul (Arith.exact r t) o.price (add (Arith.exact r t) one o.slippage)) (fin c) = .ok (es, res) ∧
        res.status = OrderStatus.Filled ∧ res.size = fin q := by
      unfold buyBody
      simp only [hadj0]
      have e1 : eqb (fin q) zero = false := by simpa using hq0
      have hf : buyFinal (Arith.exact r t) o (fin q)
          (mul (Arith.exact r t) o.price (add (Arith.exact r t) one o.slippage)) (fin c) =
          .ok (some ⟨fin q, fin (q * (p0 * (1 + σ)) * φ + x),
            fin (q * (p0 * (1 + σ)) + (q * (p0 * (1 + σ)) * φ + x))⟩) := by
        unfold buyFinal
        simp only [hp0, hσ, hfees, hfix, one_def, add_exact, mul_exact, isCloseOrLess_of_le hcost, if_true]
      have e2 : granulate (Arith.exact r t) o.gran (fin q) = fin q := by simp [granulate, hgran]
      simp only [e1, hmaxb, Bool.false_and, Bool.false_eq_true, if_false, e2, hf, hclose, hminb, hself,
        Bool.and_false]
      -- committing a buy succeeds
      unfold buyCommit
      simp only
      split
      · rename_i hneg
        rw [hpos] at hneg
        have hPn : P < 0 := by simpa using hneg
        obtain ⟨D, hD, -⟩ := hv.debt
        have : |P| ≠ 0 := by simpa using hPn.ne
        rw [hpos, hD, abs_fin, divE_ne_zero _ _ this]
        exact ⟨_, _, rfl, rfl, rfl⟩
      · exact ⟨_, _, rfl, rfl, rfl⟩
    obtain ⟨es, res, hb, hb1, hb2⟩ := hbody
    have hbuy' : Vbt.buy (Arith.exact r t) (snapExec (Arith.exact r t) st) o (fin q) nan = .ok (es, res) := by
      unfold Vbt.buy
      simp only [hlim]
      have e0 : eqb (fin c) zero = false := by simpa using hc0.ne'
      by_cases hd : o.direction = Direction.LongOnly ∨ o.direction = Direction.Both
      · rw [if_pos hd]
        simp only [e0, isinf_fin, Bool.false_and, Bool.false_eq_true, if_false]
        exact hb
      · rw [if_neg hd]
        have hs : o.direction = Direction.ShortOnly := by
          have := hv.direction
          simp only [Direction.LongOnly, Direction.ShortOnly, Direction.Both] at *
          omega
        have hP := hdir hs
        have e3 : eqb (snapExec (Arith.exact r t) st).position zero = false := by
          rw [hpos]; simp; linarith
        rw [e3]
        exact hb
    rw [hbuy']
    exact ⟨es, res, by simp only [rest], hb1, hb2⟩
  · have hqn : q < 0 := lt_of_le_of_ne (not_lt.mp hqp) hq0
    have hab : |q| = -q := abs_of_neg hqn
    rw [hab] at hmaxb hclose hminb hself ⊢
    obtain ⟨hcov, hdir⟩ := hsell hqn p0 σ φ x hp0 hσ hfees hfix
    have hgt : gt (fin q) zero = false := by simpa using hqn.le
    rw [hgt]
    simp only [Bool.false_eq_true, if_false, neg_fin]
    have hlim : sellLimit (Arith.exact r t) (snapExec (Arith.exact r t) st) o (fin (-q))
        (mul (Arith.exact r t) o.price (sub (Arith.exact r t) one o.slippage)) nan =
        .ok (.limit (fin (-q)) nan) := by
      unfold sellLimit
      split
      · rename_i hd
        rw [hpos, pmin_fin, min_eq_right (hdir hd)]
      · simp [hlock]
    have hs : ∃ es res, Vbt.sell (Arith.exact r t) (snapExec (Arith.exact r t) st) o (fin (-q)) nan = .ok (es, res) ∧
        res.status = OrderStatus.Filled ∧ res.size = fin (-q) := by
      unfold Vbt.sell
      simp only [hlim]
      unfold sellBody
      have e2 : granulate (Arith.exact r t) o.gran (fin (-q)) = fin (-q) := by simp [granulate, hgran]
      have e3 : ¬ (¬ (o.direction = Direction.ShortOnly ∨ o.direction = Direction.Both) ∧
          eqb (snapExec (Arith.exact r t) st).position zero = true) := by
        rintro ⟨hd, hz⟩
        have hl : o.direction = Direction.LongOnly := by
          have := hv.direction
          simp only [Direction.LongOnly, Direction.ShortOnly, Direction.Both] at *
          omega
        have := hdir hl
        rw [hpos] at hz
        simp at hz
        linarith
      simp only [isnan_nan, if_true, hmaxb, Bool.false_and, Bool.false_eq_true, if_false, isinf_fin, and_false,
        e3, e2, hclose, hminb, hself, Bool.and_false]
      unfold sellCommit
      simp only [hp0, hσ, hfees, hfix, one_def, add_exact, mul_exact, sub_exact, neg_fin]
      have e4 : lt (addNb (Arith.exact r t) (fin (-q * (p0 * (1 - σ))))
          (fin (-(-q * (p0 * (1 - σ)) * φ + x)))) zero = false := by
        obtain ⟨v, hv1, hv2⟩ := addNb_sign_nonneg (r := r) (t := t) (a := -q * (p0 * (1 - σ)))
          (b := -(-q * (p0 * (1 - σ)) * φ + x)) (by linarith)
        rw [hv1]; simpa using hv2
      simp only [e4, Bool.false_eq_true, if_false]
      split
      · exact ⟨_, _, rfl, rfl, rfl⟩
      · exact ⟨_, _, rfl, rfl, rfl⟩
    obtain ⟨es, res, hb, hb1, hb2⟩ := hs
    rw [hb]
    exact ⟨es, res, by simp only [rest], hb1, hb2⟩

/-- A percentage size resolves to an infinite size with that percentage. -/
theorem resolve_percent {s : ExecState} {o : Order} {vp v : F} {a : ℚ} (hty : o.sizeType = SizeType.Percent)
    (hs : o.size = fin a) :
    resolveSize (Arith.exact r t) s o vp v =
      .size (mul (Arith.exact r t) (F.sign (fin (dirSign o * a))) pinf) (fin |dirSign o * a|) := by
  unfold resolveSize
  simp only [← size0.eq_def]
  rw [size0_fin hs, hty]
  simp [resolveValue, resolveTargetAmount, resolvePercent]

/-- **C09** (`Percent`, buy).  A buy of the share `w ≤ 1` that nothing cuts down spends the share `w` of cash,
fees included. -/
theorem C09_percent_buy {i col group st upd o u b res st' b'} {w c : ℚ}
    (h : processOrder (Arith.exact r t) i col group st upd o u b = .ok (res, st', b'))
    (hfill : res.status = OrderStatus.Filled)
    (hty : o.sizeType = SizeType.Percent) (hw : o.size = fin w) (hw0 : 0 < w) (hw1 : w ≤ 1)
    (hdir : o.direction = Direction.LongOnly ∨ o.direction = Direction.Both)
    (hgran : o.gran = nan) (hlock : o.lockCash = false) (hmax : o.maxSize = pinf)
    (hfees : ∀ φ, o.fees = fin φ → 0 < 1 + φ)
    (hc : snap (Arith.exact r t) st.cash = fin c) :
    ∃ s p f, res.size = fin s ∧ res.price = fin p ∧ res.fees = fin f ∧ res.side = OrderSide.Buy ∧
      s * p + f = w * c := by
  obtain ⟨es, hex, -⟩ := processOrder_inv h
  have hc' : (snapExec (Arith.exact r t) st).cash = fin c := hc
  have hds : dirSign o = 1 := by
    unfold dirSign; rw [if_neg]; rcases hdir with h | h <;> rw [h] <;> decide
  have hrp := resolve_percent (r := r) (t := t) (s := snapExec (Arith.exact r t) st)
    (vp := snap (Arith.exact r t) st.valPrice) (v := snap (Arith.exact r t) st.value) hty hw
  have e1 : mul (Arith.exact r t) (F.sign (fin (dirSign o * w))) pinf = pinf := by
    rw [hds, one_mul]; simp [F.sign, hw0, not_lt.mpr hw0.le, mul]
  rw [e1, hds, one_mul, abs_of_pos hw0] at hrp
  cases executeOrder_cases hex with
  | notFilled _ hn => exact absurd hfill (notFilled_status hn)
  | sold size percent limit percent' _ _ hchk hres hpos _ hf =>
    cases hres.symm.trans hrp
    simp [gt, lt] at hpos
  | bought size percent lim f _ _ hchk hres hpos _ hf =>
    cases hres.symm.trans hrp
    have hv := checkOrder_none hchk
    obtain ⟨hr', -⟩ := buyCommit_inv hf.hcommit
    obtain ⟨p0, hp0, hp0'⟩ := hv.price
    obtain ⟨σ, hσ, hσ'⟩ := hv.slippage
    obtain ⟨φ, hφ, -⟩ := hv.fees
    obtain ⟨x, hfix, -⟩ := hv.fixedFees
    have hc0 : 0 ≤ c := by
      rcases hv.cash with h | ⟨c', h, h0⟩
      · rw [hc'] at h; cases h
      · rw [hc'] at h; cases h; exact h0
    have hlim : lim = fin (w * c) := by
      have := hf.hlim
      unfold buyCashLimit at this
      simp only [hlock, hc', Bool.false_eq_true, if_false, pmin_fin, min_self, isnan_fin, mul_exact,
        min_eq_right (show w * c ≤ c by nlinarith)] at this
      exact (Except.ok.inj this).symm
    have hadj : buyAdj (Arith.exact r t) (snapExec (Arith.exact r t) st) o pinf = pinf := by
      have : buyAdj0 (snapExec (Arith.exact r t) st) o pinf = pinf := by
        unfold buyAdj0; rw [if_neg]; rcases hdir with h | h <;> rw [h] <;> decide
      unfold buyAdj
      rw [this, hmax]; simp [granulate, hgran]
    have hprice : buyPrice (Arith.exact r t) o = fin (p0 * (1 + σ)) := by simp [buyPrice, hp0, hσ]
    have hp : 0 < p0 * (1 + σ) := mul_pos hp0' (by linarith)
    have hfin := hf.hfinal
    rw [hprice, hadj, hlim] at hfin
    obtain ⟨sz, fe, rq, hff, h1, h2, -, -, -, h3⟩ := buyFinal_num hp hφ (hfees φ hφ) hfix hv.gran
      (by simp) (Or.inl ⟨Or.inr rfl, by simp⟩) hfin
    rcases h3 with h3 | ⟨g, k, hg, -⟩ | ⟨-, h3, -⟩
    · cases h3
    · rw [hgran] at hg; cases hg
    · refine ⟨sz, p0 * (1 + σ), fe, by rw [hr', hff], by rw [hr', hprice], by rw [hr', hff], by rw [hr'], ?_⟩
      rw [← h2]; exact (F.fin.inj h3).symm

/-- **C09** (`Percent`, LongOnly sell).  Sells the share `w` of the position. -/
theorem C09_percent_sell_long {i col group st upd o u b res st' b'} {w P : ℚ}
    (h : processOrder (Arith.exact r t) i col group st upd o u b = .ok (res, st', b'))
    (hfill : res.status = OrderStatus.Filled)
    (hty : o.sizeType = SizeType.Percent) (hw : o.size = fin (-w)) (hw0 : 0 < w)
    (hdir : o.direction = Direction.LongOnly) (hgran : o.gran = nan) (hmax : o.maxSize = pinf)
    (hP : snap (Arith.exact r t) st.position = fin P) :
    res.side = OrderSide.Sell ∧ res.size = fin (w * P) := by
  obtain ⟨es, hex, -⟩ := processOrder_inv h
  have hP' : (snapExec (Arith.exact r t) st).position = fin P := hP
  have hds : dirSign o = 1 := by unfold dirSign; rw [if_neg]; rw [hdir]; decide
  have hrp := resolve_percent (r := r) (t := t) (s := snapExec (Arith.exact r t) st)
    (vp := snap (Arith.exact r t) st.valPrice) (v := snap (Arith.exact r t) st.value) hty hw
  have e1 : mul (Arith.exact r t) (F.sign (fin (dirSign o * -w))) pinf = ninf := by
    rw [hds, one_mul]; simp [F.sign, hw0, mul]
  rw [e1, hds, one_mul, abs_neg, abs_of_pos hw0] at hrp
  cases executeOrder_cases hex with
  | notFilled _ hn => exact absurd hfill (notFilled_status hn)
  | bought size percent lim f _ _ hchk hres hpos _ hf =>
    cases hres.symm.trans hrp
    simp [gt, lt] at hpos
  | sold size percent limit percent' _ _ hchk hres hpos _ hf =>
    cases hres.symm.trans hrp
    obtain ⟨hr', -⟩ := sellCommit_inv hf.hcommit hf.hcover
    have hlim := hf.hlim
    unfold sellLimit at hlim
    rw [if_pos hdir, hP'] at hlim
    have e2 : pmin (fin P) (neg ninf) = fin P := by simp [pmin, neg, lt]
    rw [e2] at hlim
    cases hlim
    refine ⟨by rw [hr'], ?_⟩
    rw [hr']
    simp only [sellLim, sellLim2, sellLim1, isnan_fin, Bool.false_eq_true, if_false, mul_exact, hmax, granulate, hgran,
      isnan_nan, if_true, gt, lt]

/-- **C09** (`Percent`, sell that may go short, cash not locked, zero tolerances).  Sells the share `w` of
the sellable amount: the long position plus what the free cash (with the proceeds of the long position) can
short; only the long position when no free cash is left. -/
theorem C09_percent_sell_short {i col group st upd o u b res st' b'} {w P Fr : ℚ}
    (h : processOrder (Arith.exact 0 0) i col group st upd o u b = .ok (res, st', b'))
    (hfill : res.status = OrderStatus.Filled)
    (hty : o.sizeType = SizeType.Percent) (hw : o.size = fin (-w * dirSign o)) (hw0 : 0 < w)
    (hdir : o.direction ≠ Direction.LongOnly) (hlock : o.lockCash = false)
    (hgran : o.gran = nan) (hmax : o.maxSize = pinf)
    (hP : snap (Arith.exact 0 0) st.position = fin P) (hF : snap (Arith.exact 0 0) st.freeCash = fin Fr) :
    ∃ s p φ x, res.side = OrderSide.Sell ∧ res.size = fin s ∧ res.price = fin p ∧ o.fees = fin φ ∧
      o.fixedFees = fin x ∧
      let total := Fr + max P 0 * p * (1 - φ)
      (total ≤ 0 ∧ 0 < P ∧ s = w * P) ∨
      (0 < total ∧ s = w * (max P 0 + (total - x) / (p * (1 + φ)))) := by
  obtain ⟨es, hex, -⟩ := processOrder_inv h
  have hP' : (snapExec (Arith.exact 0 0) st).position = fin P := hP
  have hF' : (snapExec (Arith.exact 0 0) st).freeCash = fin Fr := hF
  have hds : dirSign o * dirSign o = 1 := by unfold dirSign; split <;> norm_num
  have hdw : dirSign o * (-w * dirSign o) = -w := by
    rw [show dirSign o * (-w * dirSign o) = -w * (dirSign o * dirSign o) by ring, hds, mul_one]
  have hrp := resolve_percent (r := 0) (t := 0) (s := snapExec (Arith.exact 0 0) st)
    (vp := snap (Arith.exact 0 0) st.valPrice) (v := snap (Arith.exact 0 0) st.value) hty hw
  have e1 : mul (Arith.exact 0 0) (F.sign (fin (dirSign o * (-w * dirSign o)))) pinf = ninf := by
    rw [hdw]; simp [F.sign, hw0, mul]
  rw [e1, hdw, abs_neg, abs_of_pos hw0] at hrp
  cases executeOrder_cases hex with
  | notFilled _ hn => exact absurd hfill (notFilled_status hn)
  | bought size percent lim f _ _ hchk hres hpos _ hf =>
    cases hres.symm.trans hrp
    simp [gt, lt] at hpos
  | sold size percent limit percent' _ _ hchk hres hpos _ hf =>
    cases hres.symm.trans hrp
    have hv := checkOrder_none hchk
    obtain ⟨hr', -⟩ := sellCommit_inv hf.hcommit hf.hcover
    obtain ⟨p0, hp0, hp0'⟩ := hv.price
    obtain ⟨σ, hσ, hσ'⟩ := hv.slippage
    obtain ⟨φ, hφ, -⟩ := hv.fees
    obtain ⟨x, hfix, -⟩ := hv.fixedFees
    have hprice : sellPrice (Arith.exact 0 0) o = fin (p0 * (1 - σ)) := by simp [sellPrice, hp0, hσ]
    have key : ∀ m, limit = fin m → percent' = fin w → res.size = fin (w * m) := by
      rintro m rfl rfl
      rw [hr']
      simp only [sellLim, sellLim2, sellLim1, isnan_fin, Bool.false_eq_true, if_false, mul_exact, hmax, granulate, hgran,
        isnan_nan, if_true, gt, lt]
    have hd : ¬ (o.direction = 0) := hdir
    have hlim := hf.hlim
    rw [hprice] at hlim
    generalize p0 * (1 - σ) = p at *
    unfold sellLimit at hlim
    simp only [hlock, hP', hF', hφ, hfix, Direction.LongOnly, if_neg hd, neg, isinf_pinf, isnan_fin, Bool.not_false,
      Bool.and_self, Bool.false_or, if_true, zero_def, one_def, pmax_fin, Bool.false_eq_true, if_false,
      sub_exact, mul_exact, add_exact, addNb_zero_tol, le_fin, decide_eq_true_eq] at hlim
    have hsd : res.side = OrderSide.Sell := by rw [hr']
    have hpr : res.price = fin p := by rw [hr']; exact hprice
    by_cases h1 : Fr + max P 0 * p * (1 - φ) ≤ 0
    · rw [if_pos h1] at hlim
      by_cases h2 : P ≤ 0
      · rw [if_pos h2] at hlim; cases hlim
      · rw [if_neg h2] at hlim
        cases hlim
        have hP0 := not_le.mp h2
        exact ⟨w * P, p, φ, x, hsd, by rw [key _ rfl rfl, max_eq_left hP0.le], hpr, hφ, hfix,
          Or.inl ⟨h1, hP0, rfl⟩⟩
    · rw [if_neg h1] at hlim
      by_cases hp0 : p * (1 + φ) = 0
      · rw [hp0, divE_zero_right] at hlim; cases hlim
      · rw [divE_ne_zero _ _ hp0, div_exact _ _ _ _ hp0] at hlim
        simp only [addNb_zero_tol, le_fin, decide_eq_true_eq] at hlim
        split at hlim
        · cases hlim
        · cases hlim
        · rename_i m hm
          split at hm
          · cases hm
          · cases hm
            cases hlim
            exact ⟨_, p, φ, x, hsd, key _ rfl rfl, hpr, hφ, hfix, Or.inr ⟨not_le.mp h1, by
              rw [sub_eq_add_neg (Fr + _)]⟩⟩

end

/-! ## Non-vacuity -/

/-- A short-only `TargetPercent` order on an account worth 100 at valuation price 1: target -50. -/
example : ∃ o es res, Valid (snapExec Arith.std (wSt 100 (-3) 3 94)) o ∧
    Target o (snap Arith.std (wSt 100 (-3) 3 94).valPrice) (snap Arith.std (wSt 100 (-3) 3 94).value)
      (-1 * (1/2) * 100 / 1) ∧
    executeOrder Arith.std (wSt 100 (-3) 3 94) o (fin 0) = .ok (es, res) ∧
    res.status = OrderStatus.Filled ∧ res.size = fin |(-1 * (1/2) * 100 / 1) - (-3)| := by
  obtain ⟨⟨es, res⟩, h, hf⟩ := okAnd_iff (x := executeOrder Arith.std (wSt 100 (-3) 3 94)
      { size := fin (1/2), price := fin 1, sizeType := SizeType.TargetPercent, direction := Direction.ShortOnly } (fin 0))
    (f := fun x => decide (x.2.status = OrderStatus.Filled ∧ x.2.size = fin |(-1 * (1/2) * 100 / 1) - (-3)|))
    (by decide +kernel)
  have hf := of_decide_eq_true hf
  refine ⟨_, es, res, checkOrder_none (by decide +kernel), ?_, h, hf⟩
  exact Target.percent (w := 1) (V := 100) rfl rfl (by decide +kernel) (by norm_num) (by decide +kernel) (by norm_num)

/-- The affordable orders are not vacuous: buying 7 for 10 with fees from 100. -/
example : ∃ o, Valid (snapExec Arith.std (wSt 100 0 0 100)) o ∧
    Requested o (fin 0) (fin 1) (fin 100) (dirSign o * 7) ∧
    Affordable (1 / 1000000000) (1 / 1000000000000) (snapExec Arith.std (wSt 100 0 0 100)) o (fin 0)
      (dirSign o * 7) 100 0 := by
  refine ⟨{ size := fin 7, price := fin 10, fees := fin (1/100), fixedFees := fin 1 },
    checkOrder_none (by decide +kernel), .amount rfl rfl, ?_⟩
  refine ⟨by decide +kernel, by decide +kernel, ?_, rfl, rfl, rfl, by decide +kernel, by decide +kernel, ?_, ?_⟩
  · rw [← isClose_exact]; decide +kernel
  · rintro - price slip φ x h1 h2 h3 h4
    cases h1; cases h2; cases h3; cases h4
    norm_num [dirSign]
  · intro h; norm_num [dirSign] at h

/-- A 30 % buy is filled. -/
example : ∃ o res st' b', processOrder Arith.std 0 0 0 (wSt 100 0 0 100) true o (fin 0) wBuf
      = .ok (res, st', b') ∧ res.status = OrderStatus.Filled ∧ o.sizeType = SizeType.Percent ∧
      o.size = fin (3/10) ∧ o.gran = nan ∧ o.lockCash = false ∧ o.maxSize = pinf := by
  obtain ⟨⟨r1, s1, b1⟩, h1, hf1⟩ := okAnd_iff (x := processOrder Arith.std 0 0 0 (wSt 100 0 0 100) true
      { size := fin (3/10), price := fin 10, sizeType := SizeType.Percent, fees := fin (1/100) } (fin 0) wBuf)
    (f := fun x => decide (x.1.status = OrderStatus.Filled)) (by decide +kernel)
  exact ⟨_, r1, s1, b1, h1, of_decide_eq_true hf1, rfl, rfl, rfl, rfl, rfl⟩

/-- A 30 % sale of a LongOnly position, and one that goes short, are filled. -/
example : ∃ o o' res st' b' res' st'' b'',
    processOrder Arith.std 0 0 0 (wSt 100 5 0 100) true o (fin 0) wBuf = .ok (res, st', b') ∧
      res.status = OrderStatus.Filled ∧ o.direction = Direction.LongOnly ∧ o.size = fin (-(3/10)) ∧
    processOrder (Arith.exact 0 0) 0 0 0 (wSt 100 5 0 100) true o' (fin 0) wBuf = .ok (res', st'', b'') ∧
      res'.status = OrderStatus.Filled ∧ o'.direction = Direction.Both ∧
      o'.size = fin (-(3/10) * dirSign o') := by
  obtain ⟨⟨r1, s1, b1⟩, h1, hf1⟩ := okAnd_iff (x := processOrder Arith.std 0 0 0 (wSt 100 5 0 100) true
      { size := fin (-(3/10)), price := fin 10, sizeType := SizeType.Percent, direction := Direction.LongOnly } (fin 0) wBuf)
    (f := fun x => decide (x.1.status = OrderStatus.Filled)) (by decide +kernel)
  obtain ⟨⟨r2, s2, b2⟩, h2, hf2⟩ := okAnd_iff (x := processOrder (Arith.exact 0 0) 0 0 0 (wSt 100 5 0 100) true
      { size := fin (-(3/10)), price := fin 10, sizeType := SizeType.Percent, direction := Direction.Both } (fin 0) wBuf)
    (f := fun x => decide (x.1.status = OrderStatus.Filled)) (by decide +kernel)
  exact ⟨_, _, r1, s1, b1, r2, s2, b2, h1, of_decide_eq_true hf1, rfl, rfl, h2, of_decide_eq_true hf2, rfl,
    by norm_num [dirSign]⟩

end Vbt
