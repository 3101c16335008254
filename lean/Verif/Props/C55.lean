import Verif.Props.C21

/-!
# C55: position records track the open position

The record kept by `update_pos_record_nb` agrees after each order with the record that `get_positions_nb` computes from
the orders so far: size, average prices, fees, profit, return, direction and status.  As long as the position is open the
kept record has no exit row and as exit price the average of the exits so far (NaN without any), whereas the computed one
counts what is left as exited at the close; profit and return agree when the close is the price of the last order.
-/

namespace Vbt
open F

variable {r t : ℚ}

/-- The result of a filled order. -/
def Fill.result (q : Fill) : OrderResult :=
  { size := fin q.size, price := fin q.price, fees := fin q.fees,
    side := if q.buy then OrderSide.Buy else OrderSide.Sell, status := OrderStatus.Filled, statusInfo := -1 }

/-- The kept record over the orders of a column: the record and the position. -/
def keepRecord (A : Arith) (col : Nat) (t0 : TradeRec) (qs : List Fill) : Except Err (TradeRec × ℚ) :=
  loopE (fun s q =>
    match updatePosRecord A s.1 q.idx col (fin s.2) (fin (s.2 + q.change)) q.result with
    | .error e => .error e
    | .ok x => .ok (x, s.2 + q.change)) (t0, 0) qs

/-- The kept record of an open position. -/
def openRec (A : Arith) (col : Nat) (n : Int) (long : Bool) (evs : List Ev) (price : ℚ) : TradeRec :=
  { mkTrade A col n long true (entered evs) (firstIdx evs) (entryGross evs / entered evs) (entryFees evs) (-1)
      ((exitGross evs + left evs * price) / entered evs) (exitFees evs) with
    id := n, exitPrice := if exited evs = 0 then nan else fin (exitGross evs / exited evs) }

theorem exitGross_zero {evs : List Ev} (h : EvsOk evs) (h0 : exited evs = 0) : exitGross evs = 0 := by
  have : evs.filter (fun e => e.entry = false) = [] := by
    rw [List.filter_eq_nil_iff]
    intro e he hen
    have hmem : e ∈ evs.filter fun e => e.entry = false := List.mem_filter.mpr ⟨he, hen⟩
    have hpos := h.size e he
    have : e.size ≤ exited evs := by
      unfold exited total
      apply List.single_le_sum
      · intro x hx
        obtain ⟨y, hy, rfl⟩ := List.mem_map.mp hx
        exact (h.size y (List.mem_of_mem_filter hy)).le
      · exact List.mem_map_of_mem hmem
    linarith
  unfold exitGross total
  rw [this]; rfl

theorem openStats_eq {x : TradeRec} {col : Nat} {n : Int} {long : Bool} {evs : List Ev} {now price : ℚ} (hev : EvsOk evs)
    (hn : 0 ≤ n) (hnow : |now| = left evs)
    (hx : ∃ pnl ret, x = { openRec (Arith.exact r t) col n long evs price with pnl := pnl, ret := ret }) :
    updateOpenPosStats (Arith.exact r t) x (fin now) (fin price) = .ok (openRec (Arith.exact r t) col n long evs price) := by
  obtain ⟨pnl, ret, rfl⟩ := hx
  have hE := hev.entered_pos.ne'
  have hG := (entryGross_pos hev).ne'
  unfold updateOpenPosStats openRec mkTrade
  simp only
  rw [if_pos ⟨hn, rfl⟩]
  have hl : entered evs - left evs = exited evs := by unfold left; ring
  by_cases h0 : exited evs = 0
  · have hg := exitGross_zero hev h0
    have hX : (exitGross evs + left evs * price) / entered evs = price := by
      have : left evs = entered evs := by unfold left; rw [h0]; ring
      rw [hg, this]; field_simp; ring
    simp only [h0, if_true, isnan_nan, hX]
    rw [tradeStats_eq hE (div_ne_zero hG hE)]
  · simp only [h0, if_false, isnan_fin, Bool.false_eq_true, abs_fin, hnow, sub_exact, hl, mul_exact, add_exact]
    rw [divE_exact, if_neg hE, show exited evs * (exitGross evs / exited evs) = exitGross evs by field_simp]
    simp only
    rw [tradeStats_eq hE (div_ne_zero hG hE)]

/-- What the kept record is after the orders `qs`. -/
structure KeptRec (r t : ℚ) (col : Nat) (qs : List Fill) (x : TradeRec) : Prop where
  num : x.id = ((split qs).1.length : Int) + (if (split qs).2.isSome then 1 else 0) - 1
  closed : (split qs).2 = none → ∀ p, (split qs).1.getLast? = some p → x = posTrade (Arith.exact r t) col x.id p
  cur : ∀ long evs, (split qs).2 = some (long, evs) → ∃ q, qs.getLast? = some q ∧
    x = openRec (Arith.exact r t) col x.id long evs q.price

theorem sign_ne {a b : ℚ} (ha : a ≠ 0) (hb : b ≠ 0) : eqb (sign (fin a)) (sign (fin b)) = decide (0 < a * b) := by
  rcases lt_or_gt_of_ne ha with h1 | h1 <;> rcases lt_or_gt_of_ne hb with h2 | h2
  · simp [sign, h1, h2, mul_pos_of_neg_of_neg h1 h2]
  · have := mul_neg_of_neg_of_pos h1 h2
    simp only [sign, h1, h2, if_true, not_lt.mpr h2.le, if_false, eqb_fin, not_lt.mpr this.le, decide_false,
      decide_eq_false_iff_not]
    norm_num
  · have := mul_neg_of_pos_of_neg h1 h2
    simp only [sign, h1, h2, if_true, not_lt.mpr h1.le, if_false, eqb_fin, not_lt.mpr this.le, decide_false,
      decide_eq_false_iff_not]
    norm_num
  · simp [sign, h1, h2, not_lt.mpr h1.le, not_lt.mpr h2.le]

theorem kept_step {col : Nat} {qs : List Fill} {q : Fill} {x : TradeRec} (hoks : ∀ y ∈ qs, y.Ok) (hok : q.Ok)
    (h : KeptRec r t col qs x) :
    ∃ x', updatePosRecord (Arith.exact r t) x q.idx col (fin (held qs)) (fin (held qs + q.change)) q.result = .ok x' ∧
      KeptRec r t col (qs ++ [q]) x' := by
  obtain ⟨h1, -, -, -⟩ := split_held hoks
  obtain ⟨-, hcur⟩ := split_ok hoks
  have hs := hok.1
  have hnum := h.num
  have hside : (if q.result.side = OrderSide.Buy then TradeDirection.Long else TradeDirection.Short) = dirOf q.buy := by
    unfold Fill.result; cases q.buy <;> rfl
  unfold updatePosRecord
  rw [if_pos (by rfl)]
  rw [hside]
  cases hc : (split qs).2 with
  | none =>
    rw [hc] at h1 hnum
    simp only at h1
    have hch : q.change ≠ 0 := by unfold Fill.change; cases q.buy <;> simp [hs.ne']
    have hch' : |q.change| = q.size := by unfold Fill.change; cases q.buy <;> simp [abs_of_pos hs]
    have hsp : split (qs ++ [q]) = ((split qs).1, some (q.buy, [⟨true, q.idx, q.size, q.price, q.fees⟩])) := by
      rw [split_concat]; unfold splitStep; rw [hc]
    rw [h1, zero_add]
    simp only [zero_def, eqb_fin, decide_true, hch, decide_false, Bool.not_false, Bool.and_true, if_true]
    obtain ⟨z1, z2, z3, z4, z5, z6⟩ := sums_entry [] q.idx q.size q.price q.fees
    rw [List.nil_append] at z1 z2 z3 z4 z5 z6
    have hl : left [⟨true, (q.idx : Int), q.size, q.price, q.fees⟩] = q.size := by
      unfold left; rw [z1, z2]; simp [entered, exited, total]
    have hev : EvsOk [⟨true, (q.idx : Int), q.size, q.price, q.fees⟩] := EvsOk.single rfl hs hok.2
    have := openStats_eq (r := r) (t := t) (x := { x with
      id := x.id + 1, col := col, size := q.result.size, entryIdx := q.idx, entryPrice := q.result.price,
      entryFees := q.result.fees, exitIdx := -1, exitPrice := nan, exitFees := fin 0, direction := dirOf q.buy,
      status := TradeStatus.Open, parentId := x.id + 1 }) (col := col) (n := x.id + 1) (long := q.buy)
      (evs := [⟨true, q.idx, q.size, q.price, q.fees⟩]) (now := q.change) (price := q.price) hev
      (by rw [hnum]; simp) (by rw [hl, hch']) ⟨x.pnl, x.ret, by
        unfold openRec mkTrade Fill.result
        simp only
        rw [z1, z2, z3, z5, z6]
        have hne := hs.ne'
        simp [entered, exited, entryGross, entryFees, exitFees, total, firstIdx, statusOf, hne]⟩
    refine ⟨_, this, ?_⟩
    constructor
    · rw [hsp]; simp [openRec, hnum]
    · rw [hsp]; intro h; cases h
    · rw [hsp]; intro long evs he; cases he
      exact ⟨q, by simp, rfl⟩
  | some y =>
    obtain ⟨long, evs⟩ := y
    rw [hc] at h1 hnum
    simp only at h1
    simp only [Option.isSome_some, if_true] at hnum
    obtain ⟨hev, hleft⟩ := hcur _ hc
    simp only at hev hleft
    obtain ⟨ql, -, hx⟩ := h.cur long evs hc
    have hn0 : 0 ≤ x.id := by rw [hnum]; omega
    generalize hN : x.id = N at hx hnum hn0
    clear hN
    subst hx
    have hne : held qs ≠ 0 := by
      rw [h1]; cases long
      · simp only [Bool.false_eq_true, if_false, ne_eq, neg_eq_zero]; exact hleft.ne'
      · simp only [if_true]; exact hleft.ne'
    have habs : |held qs| = left evs := by
      rw [h1]; cases long
      · simp only [Bool.false_eq_true, if_false, abs_neg]; exact abs_of_pos hleft
      · simp only [if_true]; exact abs_of_pos hleft
    have hE := hev.entered_pos
    have hXn := hev.exited_nonneg
    have hl : entered evs - left evs = exited evs := by unfold left; ring
    by_cases hb : q.buy = long
    · -- increased
      have hsp : split (qs ++ [q]) = ((split qs).1, some (long, evs ++ [⟨true, q.idx, q.size, q.price, q.fees⟩])) := by
        rw [split_concat]; unfold splitStep; rw [hc]; simp only; rw [if_pos hb]
      have hnow : held qs + q.change = (if long then 1 else -1) * (left evs + q.size) := by
        rw [h1, Fill.change, hb]; cases long <;> simp; ring
      have hnow0 : held qs + q.change ≠ 0 := by
        rw [hnow]; cases long
        · simp only [Bool.false_eq_true, if_false]; intro h; linarith
        · simp only [if_true]; intro h; linarith
      have hnabs : |held qs + q.change| = left evs + q.size := by
        rw [hnow]; cases long
        · simp only [Bool.false_eq_true, if_false]
          rw [abs_mul, abs_neg, abs_one, one_mul, abs_of_pos (by linarith)]
        · simp only [if_true, one_mul]; exact abs_of_pos (by linarith)
      have hpr : 0 < held qs * (held qs + q.change) := by
        rw [hnow, h1]; cases long
        · simp only [Bool.false_eq_true, if_false]; nlinarith
        · simp only [if_true]; nlinarith
      simp only [zero_def, eqb_fin, hne, hnow0, decide_false, Bool.not_false, Bool.and_false, Bool.and_true,
        Bool.false_eq_true, if_false, sign_ne hne hnow0, hpr, decide_true, Bool.not_true, abs_fin, le_fin, habs, hnabs]
      rw [if_pos (by simp; linarith)]
      obtain ⟨z1, z2, z3, z4, z5, z6⟩ := sums_entry evs q.idx q.size q.price q.fees
      have hev' : EvsOk (evs ++ [⟨true, q.idx, q.size, q.price, q.fees⟩]) := hev.snoc hs (fun _ => hok.2) (fun h => by cases h)
      have hE' : entered evs + q.size ≠ 0 := by linarith
      have hgr : add (Arith.exact r t) (mul (Arith.exact r t) (openRec (Arith.exact r t) col N long evs ql.price).size
            (openRec (Arith.exact r t) col N long evs ql.price).entryPrice)
          (mul (Arith.exact r t) q.result.size q.result.price) = fin (entryGross evs + q.size * q.price) := by
        unfold openRec mkTrade Fill.result
        simp only [mul_exact, add_exact]
        congr 2
        field_simp
      have hsz : add (Arith.exact r t) (openRec (Arith.exact r t) col N long evs ql.price).size q.result.size =
          fin (entered evs + q.size) := rfl
      have hfe : add (Arith.exact r t) (openRec (Arith.exact r t) col N long evs ql.price).entryFees q.result.fees =
          fin (entryFees evs + q.fees) := rfl
      rw [hgr, hsz, hfe, divE_exact, if_neg hE']
      simp only
      have := openStats_eq (r := r) (t := t) (x := { openRec (Arith.exact r t) col N long evs ql.price with
          entryPrice := fin ((entryGross evs + q.size * q.price) / (entered evs + q.size)),
          entryFees := fin (entryFees evs + q.fees), size := fin (entered evs + q.size) })
        (col := col) (n := N) (long := long)
        (evs := evs ++ [⟨true, q.idx, q.size, q.price, q.fees⟩]) (now := held qs + q.change) (price := q.price) hev'
        hn0 (by rw [hnabs, left_snoc]; rfl) ⟨_, _, by
          unfold openRec mkTrade
          simp only
          rw [z1, z2, z3, z4, z5, z6, firstIdx_snoc hev]⟩
      refine ⟨_, this, ?_⟩
      constructor
      · rw [hsp]; simp [openRec, hnum]
      · rw [hsp]; intro h; cases h
      · rw [hsp]; intro long evs he; cases he
        exact ⟨q, by simp, rfl⟩
    · have hbl : q.buy = !long := by cases hq : q.buy <;> cases long <;> simp_all
      have hnow : held qs + q.change = (if long then 1 else -1) * (left evs - q.size) := by
        rw [h1, Fill.change, hbl]; cases long <;> simp <;> ring
      -- the average exit with another exit of `y`
      have hav : ∀ (y : ℚ) (total : F → F) (T : ℚ), 0 < y → total (fin (exited evs)) = fin T → T = exited evs + y →
          exitAverage (Arith.exact r t) (openRec (Arith.exact r t) col N long evs ql.price) (fin (held qs)) (fin y)
            (fin q.price) total = .ok (fin ((exitGross evs + y * q.price) / T)) := by
        intro y total T hy hT hT'
        have hT0 : T ≠ 0 := by rw [hT']; linarith
        unfold exitAverage openRec mkTrade
        simp only
        by_cases h0 : exited evs = 0
        · have hg := exitGross_zero hev h0
          simp only [h0, if_true, isnan_nan]
          have : T = y := by rw [hT', h0]; ring
          rw [hg, this]
          congr 2
          field_simp; ring
        · simp only [h0, if_false, isnan_fin, Bool.false_eq_true, abs_fin, habs, sub_exact, hl, mul_exact, add_exact]
          rw [hT, divE_exact, if_neg hT0, show exited evs * (exitGross evs / exited evs) = exitGross evs by field_simp]
      by_cases hlt : q.size < left evs
      · -- decreased
        have hsp : split (qs ++ [q]) = ((split qs).1, some (long, evs ++ [⟨false, q.idx, q.size, q.price, q.fees⟩])) := by
          rw [split_concat]; unfold splitStep; rw [hc]; simp only; rw [if_neg hb, if_pos hlt]
        have hnow0 : held qs + q.change ≠ 0 := by
          rw [hnow]; cases long
          · simp only [Bool.false_eq_true, if_false]; intro h; linarith
          · simp only [if_true]; intro h; linarith
        have hnabs : |held qs + q.change| = left evs - q.size := by
          rw [hnow]; cases long
          · simp only [Bool.false_eq_true, if_false]
            rw [abs_mul, abs_neg, abs_one, one_mul, abs_of_pos (by linarith)]
          · simp only [if_true, one_mul]; exact abs_of_pos (by linarith)
        have hpr : 0 < held qs * (held qs + q.change) := by
          rw [hnow, h1]; cases long
          · simp only [Bool.false_eq_true, if_false]; nlinarith
          · simp only [if_true]; nlinarith
        simp only [zero_def, eqb_fin, hne, hnow0, decide_false, Bool.not_false, Bool.and_false, Bool.and_true,
          Bool.false_eq_true, if_false, sign_ne hne hnow0, hpr, decide_true, Bool.not_true, abs_fin, le_fin, habs, hnabs]
        rw [if_neg (by simp; linarith)]
        obtain ⟨z1, z2, z3, z4, z5, z6⟩ := sums_exit evs q.idx q.size q.price q.fees
        have hev' : EvsOk (evs ++ [⟨false, q.idx, q.size, q.price, q.fees⟩]) :=
          hev.snoc hs (fun h => by cases h) (fun _ => hleft)
        have hA := hav q.size (fun z => add (Arith.exact r t) z q.result.size) (exited evs + q.size) hs rfl rfl
        rw [show q.result.size = fin q.size from rfl] at hA ⊢
        rw [show q.result.price = fin q.price from rfl, hA]
        have hX0 : exited evs + q.size ≠ 0 := by linarith
        have := openStats_eq (r := r) (t := t) (x := { openRec (Arith.exact r t) col N long evs ql.price with
            exitPrice := fin ((exitGross evs + q.size * q.price) / (exited evs + q.size)),
            exitFees := fin (exitFees evs + q.fees) })
          (col := col) (n := N) (long := long)
          (evs := evs ++ [⟨false, q.idx, q.size, q.price, q.fees⟩]) (now := held qs + q.change) (price := q.price) hev'
          hn0 (by rw [hnabs, left_snoc]; rfl) ⟨_, _, by
            unfold openRec mkTrade
            simp only
            rw [z1, z2, z3, z4, z5, z6, firstIdx_snoc hev, if_neg hX0]⟩
        refine ⟨_, this, ?_⟩
        constructor
        · rw [hsp]; simp [openRec, hnum]
        · rw [hsp]; intro h; cases h
        · rw [hsp]; intro long evs he; cases he
          exact ⟨q, by simp, rfl⟩
      · by_cases heq : q.size = left evs
        · -- closed
          have hsp : split (qs ++ [q]) =
              ((split qs).1 ++ [⟨long, evs ++ [⟨false, q.idx, q.size, q.price, q.fees⟩], false⟩], none) := by
            rw [split_concat]; unfold splitStep; rw [hc]; simp only
            rw [if_neg hb, if_neg hlt, if_pos heq]
          have hnow0 : held qs + q.change = 0 := by rw [hnow, heq]; ring
          simp only [zero_def, eqb_fin, hne, hnow0, decide_false, Bool.not_false, Bool.and_false, Bool.false_and,
            Bool.and_true, Bool.false_eq_true, if_false, decide_true, Bool.not_true, abs_fin, habs, if_true]
          obtain ⟨z1, z2, z3, z4, z5, z6⟩ := sums_exit evs q.idx q.size q.price q.fees
          have hA := hav (left evs) (fun _ => (openRec (Arith.exact r t) col N long evs ql.price).size) (entered evs) hleft rfl
            (by unfold left; ring)
          rw [show q.result.price = fin q.price from rfl, hA]
          simp only
          have hst := tradeStats_eq (r := r) (t := t) (size := entered evs) (ep := entryGross evs / entered evs)
            (ef := entryFees evs) (xp := (exitGross evs + left evs * q.price) / entered evs) (xf := exitFees evs + q.fees)
            (long := long) hE.ne' (div_ne_zero (entryGross_pos hev).ne' hE.ne')
          rw [show add (Arith.exact r t) (openRec (Arith.exact r t) col N long evs ql.price).exitFees q.result.fees =
              fin (exitFees evs + q.fees) from rfl,
            show (openRec (Arith.exact r t) col N long evs ql.price).size = fin (entered evs) from rfl,
            show (openRec (Arith.exact r t) col N long evs ql.price).entryPrice = fin (entryGross evs / entered evs) from rfl,
            show (openRec (Arith.exact r t) col N long evs ql.price).entryFees = fin (entryFees evs) from rfl,
            show (openRec (Arith.exact r t) col N long evs ql.price).direction = dirOf long from rfl, hst]
          simp only
          unfold updateOpenPosStats
          rw [if_neg (by simp [TradeStatus.Closed, TradeStatus.Open])]
          refine ⟨_, rfl, ?_⟩
          constructor
          · rw [hsp]; simp [openRec, hnum]
          · rw [hsp]
            intro _ p hp
            simp only [List.getLast?_append, List.getLast?_singleton, Option.some_or, Option.some.injEq] at hp
            subst hp
            unfold posTrade openRec mkTrade
            simp only
            rw [z1, z3, z4, z5, z6, firstIdx_snoc hev, lastIdx_snoc, heq]
            rfl
          · rw [hsp]; intro long evs he; cases he
        · -- reversed
          have hgt : left evs < q.size := lt_of_le_of_ne (not_lt.mp hlt) (Ne.symm heq)
          have hsp : split (qs ++ [q]) =
              ((split qs).1 ++ [⟨long, evs ++ [⟨false, q.idx, left evs, q.price, left evs / q.size * q.fees⟩], false⟩],
                some (!long, [⟨true, q.idx, q.size - left evs, q.price, (q.size - left evs) / q.size * q.fees⟩])) := by
            rw [split_concat]; unfold splitStep; rw [hc]; simp only
            rw [if_neg hb, if_neg hlt, if_neg heq]
          have hnow0 : held qs + q.change ≠ 0 := by
            rw [hnow]; cases long
            · simp only [Bool.false_eq_true, if_false]; intro h; linarith
            · simp only [if_true]; intro h; linarith
          have hnabs : |held qs + q.change| = q.size - left evs := by
            rw [hnow]; cases long
            · simp only [Bool.false_eq_true, if_false]
              rw [abs_mul, abs_neg, abs_one, one_mul, abs_of_neg (by linarith)]; ring
            · simp only [if_true, one_mul]; rw [abs_of_neg (by linarith)]; ring
          have hpr : ¬ 0 < held qs * (held qs + q.change) := by
            rw [hnow, h1]; cases long
            · simp only [Bool.false_eq_true, if_false]; nlinarith
            · simp only [if_true]; nlinarith
          have hdiff : |held qs + q.change - held qs| = q.size := by
            rw [add_sub_cancel_left]; unfold Fill.change; cases q.buy <;> simp [abs_of_pos hs]
          simp only [zero_def, eqb_fin, hne, hnow0, decide_false, Bool.not_false, Bool.and_false, Bool.and_true,
            Bool.false_eq_true, if_false, sign_ne hne hnow0, hpr, if_true, sub_exact, abs_fin, hnabs, hdiff]
          rw [divE_exact, if_neg hs.ne']
          simp only
          have h3 : 0 < q.size - left evs := by linarith
          have hev' : EvsOk [⟨true, (q.idx : Int), q.size - left evs, q.price, (q.size - left evs) / q.size * q.fees⟩] :=
            EvsOk.single rfl h3 hok.2
          obtain ⟨z1, z2, z3, z4, z5, z6⟩ := sums_entry [] q.idx (q.size - left evs) q.price
            ((q.size - left evs) / q.size * q.fees)
          rw [List.nil_append] at z1 z2 z3 z4 z5 z6
          have hl' : left [⟨true, (q.idx : Int), q.size - left evs, q.price, (q.size - left evs) / q.size * q.fees⟩] =
              q.size - left evs := by
            rw [left, z1, z2]; simp [entered, exited, total]
          have := openStats_eq (r := r) (t := t) (x := { openRec (Arith.exact r t) col N long evs ql.price with
            id := N + 1, size := fin (q.size - left evs), entryIdx := q.idx, entryPrice := fin q.price,
            entryFees := fin ((q.size - left evs) / q.size * q.fees), exitIdx := -1, exitPrice := nan, exitFees := fin 0,
            direction := dirOf q.buy, status := TradeStatus.Open, parentId := N + 1 })
            (col := col) (n := N + 1) (long := !long)
            (evs := [⟨true, q.idx, q.size - left evs, q.price, (q.size - left evs) / q.size * q.fees⟩])
            (now := held qs + q.change) (price := q.price) hev' (by omega) (by rw [hl', hnabs])
            ⟨(openRec (Arith.exact r t) col N long evs ql.price).pnl, (openRec (Arith.exact r t) col N long evs ql.price).ret, by
              unfold openRec mkTrade
              simp only
              rw [z1, z2, z3, z5, z6, hbl]
              have hne := h3.ne'
              generalize q.size - left evs = d at hne
              simp [entered, exited, entryGross, entryFees, exitFees, total, firstIdx, statusOf, hne]⟩
          refine ⟨_, this, ?_⟩
          constructor
          · rw [hsp]; simp [openRec, hnum]
          · rw [hsp]; intro h; cases h
          · rw [hsp]; intro long evs he; cases he
            exact ⟨q, by simp, rfl⟩

theorem keepRecord_snoc {A : Arith} {col : Nat} {t0 : TradeRec} {qs : List Fill} {q : Fill} {x x' : TradeRec} {h : ℚ}
    (h1 : keepRecord A col t0 qs = .ok (x, h))
    (h2 : updatePosRecord A x q.idx col (fin h) (fin (h + q.change)) q.result = .ok x') :
    keepRecord A col t0 (qs ++ [q]) = .ok (x', h + q.change) := by
  unfold keepRecord at h1 ⊢
  rw [loopE_append_eq h1]
  simp only [loopE, h2]

theorem keepRecord_kept {col : Nat} {t0 : TradeRec} (h0 : t0.id = -1) {qs : List Fill} (hoks : ∀ y ∈ qs, y.Ok) :
    ∃ x, keepRecord (Arith.exact r t) col t0 qs = .ok (x, held qs) ∧ KeptRec r t col qs x := by
  induction qs using List.reverseRecOn with
  | nil =>
    refine ⟨t0, rfl, ?_, ?_, ?_⟩
    · rw [h0]; rfl
    · intro _ p hp; simp [split] at hp
    · intro long evs h; simp [split] at h
  | append_singleton qs q ih =>
    obtain ⟨x, hx, hk⟩ := ih fun y hy => hoks y (List.mem_append_left _ hy)
    obtain ⟨x', hx', hk'⟩ := kept_step (fun y hy => hoks y (List.mem_append_left _ hy)) (hoks q (by simp)) hk
    refine ⟨x', ?_, hk'⟩
    rw [keepRecord_snoc hx hx', held_concat]

/-- A kept record says the same as a computed one; row and price of the exit only when the position is closed. -/
structure Agree (x p : TradeRec) : Prop where
  col : x.col = p.col
  size : x.size = p.size
  entry : x.entryIdx = p.entryIdx ∧ x.entryPrice = p.entryPrice ∧ x.entryFees = p.entryFees
  fees : x.exitFees = p.exitFees
  result : x.pnl = p.pnl ∧ x.ret = p.ret
  what : x.direction = p.direction ∧ x.status = p.status
  done : p.status = TradeStatus.Closed → x.exitIdx = p.exitIdx ∧ x.exitPrice = p.exitPrice

theorem open_agree {col : Nat} {n m : Int} {long : Bool} {evs : List Ev} {price : ℚ} (hev : EvsOk evs) (last : Int) :
    Agree (openRec (Arith.exact r t) col n long evs price)
      (posTrade (Arith.exact r t) col m ⟨long, evs ++ [⟨false, last, left evs, price, 0⟩], true⟩) := by
  obtain ⟨z1, z2, z3, z4, z5, z6⟩ := sums_exit evs last (left evs) price 0
  have hf : firstIdx (evs ++ [⟨false, last, left evs, price, 0⟩]) = firstIdx evs := firstIdx_snoc hev
  constructor <;> unfold openRec posTrade mkTrade <;> simp only [z1, z3, z4, z5, z6, hf, add_zero, and_self]
  intro h; simp [statusOf, TradeStatus.Open, TradeStatus.Closed] at h

theorem posTrade_agree (A : Arith) (col : Nat) (n m : Int) (p : Pos) : Agree (posTrade A col n p) (posTrade A col m p) := by
  constructor <;> unfold posTrade mkTrade <;> simp

theorem blocks_last (f : Int → Pos → TradeRec) (k : Int) (ps : List Pos) {x : TradeRec}
    (h : (blocks (fun n p => [f n p]) k ps).getLast? = some x) : ∃ p n, ps.getLast? = some p ∧ x = f n p := by
  induction ps using List.reverseRecOn with
  | nil => simp [blocks] at h
  | append_singleton ps p _ =>
    rw [blocks_append, blocks_single] at h
    simp only [List.getLast?_append, List.getLast?_singleton, Option.some_or, Option.some.injEq] at h
    exact ⟨p, _, by simp, h.symm⟩

/-- **C55**: after the orders of a column the kept record agrees with the last position record computed from these orders
(the close being the price of the last order), and its number is the number of positions before it. -/
theorem C55_record {orders : List OrderRec} {rows nCols : Nat} {lastClose : Nat → F} {qs : Nat → List Fill}
    {close : Nat → ℚ}
    (h : ∀ c < nCols, History r t (orders.filter fun o => o.col = c) (qs c) ∧ lastClose c = fin (close c))
    (hlast : ∀ c < nCols, ∀ q, (qs c).getLast? = some q → close c = q.price) (junk junk' : Nat → Nat) :
    ∃ et ps, getEntryTrades (Arith.exact r t) orders junk rows nCols lastClose = .ok et ∧
      getPositions (Arith.exact r t) et junk' nCols = .ok ps ∧
      ∀ c < nCols, ∀ t0 : TradeRec, t0.id = -1 →
        ∃ x, keepRecord (Arith.exact r t) c t0 (qs c) = .ok (x, held (qs c)) ∧
          x.id + 1 = (ps.filter fun p => p.col = c).length ∧
          (qs c ≠ [] → ∃ p, (ps.filter fun p => p.col = c).getLast? = some p ∧ Agree x p) := by
  obtain ⟨et, xt, h1, h2, h3, -⟩ := positions_of_history (rows := rows) h junk junk'
  refine ⟨et, _, h1, h3, ?_⟩
  intro c hc t0 h0
  obtain ⟨x, hx, hk⟩ := keepRecord_kept (r := r) (t := t) (col := c) h0 (h c hc).1.ok
  refine ⟨x, hx, ?_, ?_⟩
  · rw [flat_filter (by intro c k p x hx; rw [List.mem_singleton] at hx; subst hx; rfl) _ hc, blocks_singleton_length, hk.num,
      positionsOf]
    cases (split (qs c)).2 with
    | none => simp
    | some y => simp
  · intro hne
    rw [flat_filter (by intro c k p x hx; rw [List.mem_singleton] at hx; subst hx; rfl) _ hc]
    have hps : positionsOf (qs c) ((rows : Int) - 1) (close c) ≠ [] := by
      intro hnil
      have hp := (positionsOf_parts (h c hc).1.ok ((rows : Int) - 1) (close c)).1
      rw [hnil] at hp
      cases hq : qs c with
      | nil => exact hne hq
      | cons q l =>
        rw [hq, parts] at hp
        have hs := ((h c hc).1.ok q (by rw [hq]; simp)).1
        have : 0 < entersBy 0 q := by
          unfold entersBy; cases q.buy <;> simp [hs]
        rw [if_pos this] at hp
        simp at hp
    cases hg : (blocks (fun k p => [posTrade (Arith.exact r t) c k p]) (countPos (fun c => positionsOf (qs c) ((rows : Int) - 1)
        (close c)) c) (positionsOf (qs c) ((rows : Int) - 1) (close c))).getLast? with
    | none =>
      exfalso
      rw [List.getLast?_eq_none_iff] at hg
      have := blocks_singleton_length (fun k p => posTrade (Arith.exact r t) c k p) (countPos (fun c => positionsOf (qs c)
        ((rows : Int) - 1) (close c)) c) (positionsOf (qs c) ((rows : Int) - 1) (close c))
      rw [hg] at this
      exact hps (List.length_eq_zero_iff.mp this.symm)
    | some y =>
      refine ⟨y, rfl, ?_⟩
      obtain ⟨p, n, hp, rfl⟩ := blocks_last _ _ _ hg
      obtain ⟨-, hcur⟩ := split_ok (h c hc).1.ok
      unfold positionsOf at hp
      cases hsp : (split (qs c)).2 with
      | none =>
        rw [hsp] at hp
        rw [hk.closed hsp p hp]
        exact posTrade_agree _ _ _ _ _
      | some z =>
        obtain ⟨long, evs⟩ := z
        rw [hsp] at hp
        simp only [List.getLast?_append, List.getLast?_singleton, Option.some_or, Option.some.injEq] at hp
        subst hp
        obtain ⟨q, hq, e⟩ := hk.cur long evs hsp
        rw [e, hlast c hc q hq]
        exact open_agree (hcur _ hsp).1 _

/-- While the position is open the kept record has no exit row, and its exit price is the average price of the exits so
far, NaN if there were none. -/
theorem C55_open {col : Nat} {t0 : TradeRec} (h0 : t0.id = -1) {qs : List Fill} (hoks : ∀ y ∈ qs, y.Ok) (hh : held qs ≠ 0) :
    ∃ x long evs, keepRecord (Arith.exact r t) col t0 qs = .ok (x, held qs) ∧ (split qs).2 = some (long, evs) ∧
      x.status = TradeStatus.Open ∧ x.exitIdx = -1 ∧
      x.exitPrice = if exited evs = 0 then nan else fin (exitGross evs / exited evs) := by
  obtain ⟨x, hx, hk⟩ := keepRecord_kept (r := r) (t := t) (col := col) h0 hoks
  obtain ⟨h1, -, -, -⟩ := split_held hoks
  cases hsp : (split qs).2 with
  | none => rw [hsp] at h1; exact absurd h1 hh
  | some z =>
    obtain ⟨long, evs⟩ := z
    obtain ⟨q, -, e⟩ := hk.cur long evs hsp
    refine ⟨x, long, evs, hx, rfl, ?_⟩
    rw [e]
    exact ⟨rfl, rfl, rfl⟩

/-! ## Examples -/

/-- Hypotheses of the theorems above are met by the orders of `C21`, the last at price 8. -/
example : (∀ c < 1, History 0 0 (ordersC22.filter fun o => o.col = c) fillsC21 ∧ (fun _ : Nat => (fin 8 : F)) c = fin 8) ∧
    (∀ q, fillsC21.getLast? = some q → (8 : ℚ) = q.price) ∧ held fillsC21 ≠ 0 := by
  refine ⟨fun c hc => ⟨(fillsC21_history c hc).1, rfl⟩, ?_, by decide +kernel⟩
  intro q hq
  simp only [fillsC21, List.getLast?_cons_cons, List.getLast?_singleton, Option.some.injEq] at hq
  subst hq; rfl

end Vbt
