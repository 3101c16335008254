import Verif.Props.C09
import Verif.Props.C25
import Verif.Props.C05
import Verif.Props.C13

/-! # C70: the value by which orders are sorted is the value they trade

`approx_order_value_nb` is used to sort the orders of a group.  For every size type its result is compared with what the
order asks for (`Requested`, a specification of its own) or, for percentages, with what it trades. -/

namespace Vbt
open F

/-- The signed value of an order result: positive for buys, negative for sells. -/
def tradedValue (side : Int) (size price : ℚ) : ℚ := if side = OrderSide.Sell then -(size * price) else size * price

/-- Amounts, values and targets: the approximate value is the requested amount at the valuation price. -/
theorem C70_requested {r t : ℚ} {o : Order} {cash pos free vp v : F} {q w P : ℚ} (hq : Requested o pos vp v q)
    (hvp : vp = fin w) (hw : 0 < w) (hP : pos = fin P) :
    approxOrderValue (Arith.exact r t) o.size o.sizeType o.direction cash pos free vp v = fin (q * w) := by
  have hne : w ≠ 0 := hw.ne'
  subst hvp hP
  unfold approxOrderValue
  cases hq with
  | amount hty hs =>
    rw [hs, hty]
    unfold dirSign
    by_cases hd : o.direction = Direction.ShortOnly <;> simp [hd]
  | value hty hs hw' hw0 =>
    rw [hs, hty]
    cases hw'
    unfold dirSign
    by_cases hd : o.direction = Direction.ShortOnly <;> simp [hd, hne]
  | targetAmount hty hs hP =>
    rw [hs, hty]
    cases hP
    unfold dirSign
    by_cases hd : o.direction = Direction.ShortOnly <;> simp [hd] <;> ring
  | targetValue hty hs hw' hw0 hP =>
    rw [hs, hty]
    cases hw'; cases hP
    unfold dirSign
    by_cases hd : o.direction = Direction.ShortOnly <;> simp [hd] <;> field_simp
  | targetPercent hty hs hw' hw0 hV hV0 hP =>
    rw [hs, hty]
    cases hw'; cases hP; cases hV
    unfold dirSign
    by_cases hd : o.direction = Direction.ShortOnly <;> simp [hd] <;> field_simp

/-- In a row of a simulation from orders with cash sharing and automatic calls, starting from the default sequence: the
columns are called in ascending order of the values they ask for. -/
theorem C70_sorted {r t : ℚ} {inp : Inputs} {i fc len : Nat} {s : SimState} {q w P : Nat → ℚ} (hauto : inp.autoCallSeq = true)
    (hdef : ∀ k < len, inp.callSeq i (fc + k) = k)
    (hq : ∀ k < len, Requested (orderAt inp i (fc + k)) (s.position (fc + k)) (s.valPrice (fc + k)) s.value (q k))
    (hw : ∀ k < len, s.valPrice (fc + k) = fin (w k) ∧ 0 < w k) (hP : ∀ k < len, s.position (fc + k) = fin (P k)) :
    (rowCallSeq (Arith.exact r t) inp true i fc len s).Perm (List.range len) ∧
    (rowCallSeq (Arith.exact r t) inp true i fc len s).Pairwise (fun j k => q j * w j ≤ q k * w k) := by
  have hseq : (List.range len).map (fun k => inp.callSeq i (fc + k)) = List.range len := by
    conv => rhs; rw [← List.map_id (List.range len)]
    exact List.map_congr_left fun k hk => hdef k (List.mem_range.mp hk)
  have hvals : (List.range len).map (fun k =>
      approxOrderValue (Arith.exact r t) (inp.size i (fc + k)) (inp.sizeType i (fc + k)) (inp.direction i (fc + k))
        s.cash (s.position (fc + k)) s.free (s.valPrice (fc + k)) s.value) = (List.range len).map fun k => fin (q k * w k) := by
    refine List.map_congr_left fun k hk => ?_
    have hk := List.mem_range.mp hk
    exact C70_requested (o := orderAt inp i (fc + k)) (hq k hk) (hw k hk).1 (hw k hk).2 (hP k hk)
  unfold rowCallSeq
  simp only [hauto, Bool.and_self, if_true, hseq]
  rw [hvals]
  have h := C25_calls ((List.range len).map fun k => fin (q k * w k))
  rw [List.length_map, List.length_range] at h
  refine ⟨h.1, ?_⟩
  have h2 := h.2
  unfold Ascending at h2
  rw [List.pairwise_map] at h2
  refine List.Pairwise.imp_of_mem ?_ h2
  intro j k hj hk hjk
  have hj := List.mem_range.mp (h.1.mem_iff.mp hj)
  have hk := List.mem_range.mp (h.1.mem_iff.mp hk)
  simpa [List.getD, hj, hk, le] using hjk

section
variable {i col group : Nat} {st : ProcState} {upd : Bool} {o : Order} {u : F} {b b' : Buffers} {res : OrderResult}
  {st' : ProcState}

/-- With zero tolerances nothing is rounded to zero. -/
theorem snap_finite (q : ℚ) : snap (Arith.exact 0 0) (fin q) = fin q := by
  rcases snap_cases (Arith.exact 0 0) (fin q) with h | ⟨h, hc⟩
  · exact h
  · rw [zero_def, isClose_exact] at hc
    rw [h]
    rcases hc with hc | hc
    · rw [hc]
    · simp at hc
      rw [hc]

/-- An order without costs and limits, at the valuation price. -/
structure Ideal (st : ProcState) (o : Order) (p : ℚ) : Prop where
  price : o.price = fin p
  valPrice : st.valPrice = fin p
  fees : o.fees = fin 0
  fixedFees : o.fixedFees = fin 0
  slippage : o.slippage = fin 0
  gran : o.gran = nan
  lock : o.lockCash = false
  max : o.maxSize = pinf

/-- The value of a filled order without costs. -/
theorem Ideal.filled {p s : ℚ} (hi : Ideal st o p)
    (h : processOrder (Arith.exact 0 0) i col group st upd o u b = .ok (res, st', b'))
    (hfill : res.status = OrderStatus.Filled) (hs : res.size = fin s) :
    res.price = fin p ∧ res.fees = fin 0 := by
  obtain ⟨price, slip, fees, fixed, p', h1, h2, h3, h4, h5, h6, h7⟩ := C05_cost_model h hfill hs
  rw [hi.price] at h1
  rw [hi.slippage] at h2
  rw [hi.fees] at h3
  rw [hi.fixedFees] at h4
  cases h1; cases h2; cases h3; cases h4
  rw [h5, h7]
  rcases h6 with ⟨-, h6⟩ | ⟨-, h6⟩ <;> exact ⟨by rw [h6]; simp, by simp⟩

/-- A buy of a share of the cash. -/
theorem C70_percent_buy {p a c : ℚ} (hi : Ideal st o p)
    (h : processOrder (Arith.exact 0 0) i col group st upd o u b = .ok (res, st', b'))
    (hfill : res.status = OrderStatus.Filled) (hty : o.sizeType = SizeType.Percent) (ha : o.size = fin a)
    (ha0 : 0 < a) (ha1 : a ≤ 1) (hdir : o.direction = Direction.LongOnly ∨ o.direction = Direction.Both)
    (hc : st.cash = fin c) :
    ∃ s, res.size = fin s ∧ res.price = fin p ∧
      approxOrderValue (Arith.exact 0 0) o.size o.sizeType o.direction st.cash st.position st.freeCash st.valPrice st.value =
        fin (tradedValue res.side s p) := by
  obtain ⟨s, p', f, h1, h2, h3, h4, h5⟩ := C09_percent_buy h hfill hty ha ha0 ha1 hdir hi.gran hi.lock hi.max
    (by intro φ hφ; rw [hi.fees] at hφ; cases hφ; norm_num) (by rw [hc]; exact snap_finite c)
  obtain ⟨h6, h7⟩ := hi.filled h hfill h1
  rw [h2] at h6
  cases h6
  rw [h3] at h7
  cases h7
  refine ⟨s, h1, h2, ?_⟩
  have hd : o.direction ≠ Direction.ShortOnly := by rcases hdir with h | h <;> rw [h] <;> decide
  unfold approxOrderValue tradedValue
  rw [ha, hty, hc, h4]
  simp [hd, ha0.le]
  linarith

/-- A sale of a share of a long position. -/
theorem C70_percent_sell_long {p w P : ℚ} (hi : Ideal st o p)
    (h : processOrder (Arith.exact 0 0) i col group st upd o u b = .ok (res, st', b'))
    (hfill : res.status = OrderStatus.Filled) (hty : o.sizeType = SizeType.Percent) (ha : o.size = fin (-w))
    (hw0 : 0 < w) (hdir : o.direction = Direction.LongOnly) (hP : st.position = fin P) :
    ∃ s, res.size = fin s ∧ res.price = fin p ∧
      approxOrderValue (Arith.exact 0 0) o.size o.sizeType o.direction st.cash st.position st.freeCash st.valPrice st.value =
        fin (tradedValue res.side s p) := by
  obtain ⟨h1, h2⟩ := C09_percent_sell_long h hfill hty ha hw0 hdir hi.gran hi.max (by rw [hP]; exact snap_finite P)
  refine ⟨_, h2, (hi.filled h hfill h2).1, ?_⟩
  unfold approxOrderValue tradedValue
  rw [ha, hty, hP, hi.valPrice, h1, hdir]
  have : ¬ (0 ≤ -w) := by linarith
  simp [this]
  ring

/-- A sale that may go short: of a share of twice the long position and the free cash. -/
theorem C70_percent_sell_short {p w P Fr : ℚ} (hi : Ideal st o p)
    (h : processOrder (Arith.exact 0 0) i col group st upd o u b = .ok (res, st', b'))
    (hfill : res.status = OrderStatus.Filled) (hty : o.sizeType = SizeType.Percent)
    (ha : o.size = fin (-w * dirSign o)) (hw0 : 0 < w) (hdir : o.direction ≠ Direction.LongOnly)
    (hp : 0 < p) (hP : st.position = fin P) (hF : st.freeCash = fin Fr) (hF0 : 0 ≤ Fr) :
    ∃ s, res.size = fin s ∧ res.price = fin p ∧
      approxOrderValue (Arith.exact 0 0) o.size o.sizeType o.direction st.cash st.position st.freeCash st.valPrice st.value =
        fin (tradedValue res.side s p) := by
  obtain ⟨s, p', φ, x, h1, h2, h3, h4, h5, h6⟩ := C09_percent_sell_short h hfill hty ha hw0 hdir hi.lock hi.gran hi.max
    (by rw [hP]; exact snap_finite P) (by rw [hF]; exact snap_finite Fr)
  have h7 := (hi.filled h hfill h2).1
  rw [h3] at h7
  cases h7
  rw [hi.fees] at h4
  cases h4
  rw [hi.fixedFees] at h5
  cases h5
  refine ⟨s, h2, h3, ?_⟩
  have hm : max (P * p) 0 = max P 0 * p := by
    rw [max_mul_of_nonneg _ _ hp.le, zero_mul]
  have hs : s * p = w * (2 * (max P 0 * p) + Fr) := by
    simp only [sub_zero, mul_one, add_zero] at h6
    rcases h6 with ⟨h7, h8, -⟩ | ⟨-, h7⟩
    · have := mul_pos h8 hp
      rw [max_eq_left h8.le] at h7
      linarith
    · rw [h7]
      field_simp
      ring
  have hsz : (if o.direction = Direction.ShortOnly then neg o.size else o.size) = fin (-w) := by
    rw [ha]
    unfold dirSign
    split <;> simp
  unfold approxOrderValue tradedValue
  rw [hsz, hty, hP, hF, hi.valPrice, h1]
  have hn : ¬ (0 ≤ -w) := by linarith
  simp only [zero_def, ge, le_fin, hn, decide_false, Bool.false_eq_true, if_false, hdir, mul_exact, pmax_fin, two, add_exact,
    hm, max_eq_left hF0]
  simp
  linarith

end

/-! ## Non-vacuity -/

/-- A buy of half of the cash. -/
def wHalf : Order := { size := fin (1/2), price := fin 1, sizeType := SizeType.Percent }

/-- A sale of three quarters of what can be sold. -/
def wThird : Order := { size := fin (-(3/4)), price := fin 1, sizeType := SizeType.Percent }

example : Ideal (wSt 100 4 0 100) wHalf 1 := ⟨rfl, rfl, rfl, rfl, rfl, rfl, rfl, rfl⟩

example : okAnd (processOrder (Arith.exact 0 0) 0 0 0 (wSt 100 4 0 100) true wHalf (fin 0) wBuf)
    (fun x => x.1.status = OrderStatus.Filled && x.1.size = fin 50 &&
      approxOrderValue (Arith.exact 0 0) wHalf.size wHalf.sizeType wHalf.direction (fin 100) (fin 4) (fin 100) (fin 1) (fin 104)
        = fin 50) = true := by decide +kernel

example : okAnd (processOrder (Arith.exact 0 0) 0 0 0 (wSt 100 4 0 100) true wThird (fin 0) wBuf)
    (fun x => x.1.status = OrderStatus.Filled && x.1.size = fin 81 &&
      approxOrderValue (Arith.exact 0 0) wThird.size wThird.sizeType wThird.direction (fin 100) (fin 4) (fin 100) (fin 1) (fin 104)
        = fin (-81)) = true := by decide +kernel

example : okAnd (processOrder (Arith.exact 0 0) 0 0 0 (wSt 100 4 0 100) true { wThird with direction := Direction.LongOnly }
      (fin 0) wBuf)
    (fun x => x.1.status = OrderStatus.Filled && x.1.size = fin 3) = true := by decide +kernel

/-- Two columns with targets of 75% and 25% of a value of 100 held half in each: the second is called first. -/
example : ∃ (inp : Inputs) (s : SimState), inp.autoCallSeq = true ∧ (∀ k < 2, inp.callSeq 0 (0 + k) = k) ∧
    (∀ k < 2, Requested (orderAt inp 0 (0 + k)) (s.position (0 + k)) (s.valPrice (0 + k)) s.value
      (if k = 0 then 25 else -25)) ∧
    (∀ k < 2, s.valPrice (0 + k) = fin 1 ∧ (0 : ℚ) < 1) ∧ (∀ k < 2, s.position (0 + k) = fin 50) ∧
    rowCallSeq (Arith.exact 0 0) inp true 0 0 2 s = [1, 0] := by
  refine ⟨{ simpleInputs (fun _ c => if c = 0 then fin (3/4) else fin (1/4)) (fun _ _ => fin 1) (fun _ c => c) true true with
      sizeType := fun _ _ => SizeType.TargetPercent },
    { initState (initRecords 1 2 none 0) with position := fun _ => fin 50, valPrice := fun _ => fin 1, value := fin 100,
                                              cash := fin 0, free := fin 0 },
    rfl, fun k _ => Nat.zero_add k, ?_, fun _ _ => ⟨rfl, by norm_num⟩, fun _ _ => rfl, by decide +kernel⟩
  intro k hk
  have e : (if k = 0 then 25 else -25 : ℚ) =
      1 * (if k = 0 then 3/4 else 1/4) * 100 / 1 - 50 := by split <;> norm_num
  rw [e]
  have := Requested.targetPercent (o := orderAt { simpleInputs (fun _ c => if c = 0 then fin (3/4) else fin (1/4))
      (fun _ _ => fin 1) (fun _ c => c) true true with sizeType := fun _ _ => SizeType.TargetPercent } 0 (0 + k))
    (pos := fin 50) (vp := fin 1) (value := fin 100) (a := if k = 0 then 3/4 else 1/4) (w := 1) (V := 100) (P := 50) rfl
    (by
      change (if 0 + k = 0 then fin (3/4) else fin (1/4)) = _
      rw [Nat.zero_add]
      split <;> rfl) rfl (by norm_num) rfl (by norm_num) rfl
  exact this

end Vbt
