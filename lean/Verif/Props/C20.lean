import Verif.Props.C19
import Verif.Props.C21

/-!
# C20: trade, position and portfolio profit agree

For every column the sums of PnL of entry trades, exit trades and positions and the total profit are equal.  Tolerances
are zero: the code drops amounts below the tolerances, so the sums can differ by such amounts (and the views can disagree
about a position, `C22_tolerance_counterexample`).
-/

namespace Vbt
open F

/-- Sum of PnL of the trades of a column. -/
def pnlSum (c : Nat) (l : List TradeRec) : F := npSum (Arith.exact 0 0) ((l.filter fun x => x.col = c).map (·.pnl))

/-- Profit of a trade, as a number. -/
def pnlQ (size ep ef xp xf : ℚ) (long : Bool) : ℚ := (if long then size * xp - size * ep else size * ep - size * xp) - ef - xf

theorem pnlOf_zero (size ep ef xp xf : ℚ) (long : Bool) :
    pnlOf (Arith.exact 0 0) size ep ef xp xf long = fin (pnlQ size ep ef xp xf long) := by
  unfold pnlOf pnlQ
  rw [addNb_zero_tol]
  cases long
  · simp only [zero_def, eqb_fin, Bool.not_false, Bool.and_true, Bool.false_eq_true, if_false]
    by_cases h : size * xp + -(size * ep) = 0
    · have : size * ep = size * xp := by linarith
      simp [h, this]
    · simp [h]; ring
  · simp; ring

/-- Profit of what happened in a position. -/
def profitOf (long : Bool) (evs : List Ev) : ℚ :=
  (if long then exitGross evs - entryGross evs else entryGross evs - exitGross evs) - entryFees evs - exitFees evs

theorem posTrade_pnl {p : Pos} (h : PosOk p) (c : Nat) (n : Int) :
    (posTrade (Arith.exact 0 0) c n p).pnl = fin (profitOf p.long p.evs) := by
  unfold posTrade mkTrade
  simp only
  rw [pnlOf_zero]
  unfold pnlQ profitOf
  have := h.evs.entered_pos.ne'
  rw [mul_div_cancel₀ _ this, mul_div_cancel₀ _ this]

theorem sum_pnlQ (long : Bool) (g : List QTrade) :
    (g.map fun x => pnlQ x.size x.ep x.ef x.xp x.xf long).sum =
      (if long then (g.map fun x => x.size * x.xp).sum - (g.map fun x => x.size * x.ep).sum
       else (g.map fun x => x.size * x.ep).sum - (g.map fun x => x.size * x.xp).sum)
      - (g.map (·.ef)).sum - (g.map (·.xf)).sum := by
  induction g with
  | nil => simp
  | cons a g ih =>
    simp only [List.map_cons, List.sum_cons]
    rw [ih, pnlQ]
    cases long <;> simp only [Bool.false_eq_true, if_true, if_false] <;> ring

theorem block_pnl {long : Bool} {evs : List Ev} {g : List QTrade}
    (h2 : (g.map fun x => x.size * x.ep).sum = entryGross evs) (h3 : (g.map fun x => x.size * x.xp).sum = exitGross evs)
    (h4 : (g.map (·.ef)).sum = entryFees evs) (h5 : (g.map (·.xf)).sum = exitFees evs) (c : Nat) (k : Int) :
    ∃ l : List ℚ, (g.map (QTrade.mk' (Arith.exact 0 0) c k long)).map (·.pnl) = l.map fin ∧ l.sum = profitOf long evs := by
  refine ⟨g.map fun x => pnlQ x.size x.ep x.ef x.xp x.xf long, ?_, ?_⟩
  · rw [List.map_map, List.map_map]
    apply List.map_congr_left
    intro x _
    simp [QTrade.mk', mkTrade, pnlOf_zero]
  · rw [sum_pnlQ, h2, h3, h4, h5]; rfl

theorem blocks_pnl {f : Int → Pos → List TradeRec} (ps : List Pos)
    (hf : ∀ k, ∀ p ∈ ps, ∃ l : List ℚ, (f k p).map (·.pnl) = l.map fin ∧ l.sum = profitOf p.long p.evs) (k : Int) :
    ∃ l : List ℚ, (blocks f k ps).map (·.pnl) = l.map fin ∧ l.sum = (ps.map fun p => profitOf p.long p.evs).sum := by
  induction ps generalizing k with
  | nil => exact ⟨[], rfl, rfl⟩
  | cons p ps ih =>
    obtain ⟨l, h1, h2⟩ := hf k p List.mem_cons_self
    obtain ⟨m, h3, h4⟩ := ih (fun k q hq => hf k q (List.mem_cons_of_mem _ hq)) (k + 1)
    exact ⟨l ++ m, by simp [blocks, h1, h3], by simp [h2, h4]⟩

/-- Cash spent and received with an order. -/
def Fill.flow (q : Fill) : ℚ := -(q.change * q.price) - q.fees

theorem profitOf_snoc (long : Bool) (evs : List Ev) (e : Ev) :
    profitOf long (evs ++ [e]) = profitOf long evs +
      ((if long = e.entry then -(e.size * e.price) else e.size * e.price) - e.fees) := by
  obtain ⟨b, i, s, p, f⟩ := e
  cases b
  · obtain ⟨z1, z2, z3, z4, z5, z6⟩ := sums_exit evs i s p f
    unfold profitOf
    rw [z3, z4, z5, z6]
    cases long <;> simp <;> ring
  · obtain ⟨z1, z2, z3, z4, z5, z6⟩ := sums_entry evs i s p f
    unfold profitOf
    rw [z3, z4, z5, z6]
    cases long <;> simp <;> ring

theorem profitOf_nil (long : Bool) : profitOf long [] = 0 := by
  cases long <;> simp [profitOf, exitGross, entryGross, entryFees, exitFees, total]

theorem profitOf_single (long : Bool) (e : Ev) :
    profitOf long [e] = (if long = e.entry then -(e.size * e.price) else e.size * e.price) - e.fees := by
  have := profitOf_snoc long [] e
  rwa [List.nil_append, profitOf_nil, zero_add] at this

/-- Profit of the positions so far. -/
def splitProfit (s : List Pos × Option (Bool × List Ev)) : ℚ :=
  (s.1.map fun p => profitOf p.long p.evs).sum +
    (match s.2 with
     | none => 0
     | some (long, evs) => profitOf long evs)

theorem split_profit {qs : List Fill} (h : ∀ q ∈ qs, q.Ok) : splitProfit (split qs) = (qs.map Fill.flow).sum := by
  induction qs using List.reverseRecOn with
  | nil => simp [splitProfit, split]
  | append_singleton qs q ih =>
    have ih := ih fun x hx => h x (List.mem_append_left _ hx)
    have hs := (h q (by simp)).1.ne'
    rw [List.map_append, List.sum_append, ← ih, split_concat]
    unfold splitStep splitProfit
    simp only [List.map_cons, List.map_nil, List.sum_cons, List.sum_nil, add_zero]
    cases hc : (split qs).2 with
    | none =>
      simp only
      rw [profitOf_single]
      unfold Fill.flow Fill.change
      cases q.buy <;> simp
    | some x =>
      obtain ⟨long, evs⟩ := x
      simp only
      by_cases hb : q.buy = long
      · rw [if_pos hb]
        simp only
        rw [profitOf_snoc]
        unfold Fill.flow Fill.change
        rw [hb]
        cases long <;> simp <;> ring
      · have hbl : q.buy = !long := by cases hq : q.buy <;> cases long <;> simp_all
        rw [if_neg hb]
        split_ifs
        · simp only
          rw [profitOf_snoc]
          unfold Fill.flow Fill.change
          rw [hbl]
          cases long <;> simp <;> ring
        · simp only [List.map_append, List.map_cons, List.map_nil, List.sum_append, List.sum_cons, List.sum_nil]
          rw [profitOf_snoc]
          unfold Fill.flow Fill.change
          rw [hbl]
          cases long <;> simp <;> ring
        · simp only [List.map_append, List.map_cons, List.map_nil, List.sum_append, List.sum_cons, List.sum_nil]
          rw [profitOf_snoc, profitOf_single]
          unfold Fill.flow Fill.change
          rw [hbl]
          have hfee : left evs / q.size * q.fees + (q.size - left evs) / q.size * q.fees = q.fees := by
            field_simp; ring
          cases long <;> simp <;> linarith

theorem positionsOf_profit {qs : List Fill} (h : ∀ q ∈ qs, q.Ok) (last : Int) (close : ℚ) :
    ((positionsOf qs last close).map fun p => profitOf p.long p.evs).sum = (qs.map Fill.flow).sum + held qs * close := by
  obtain ⟨h1, -⟩ := split_held h
  rw [← split_profit h]
  unfold positionsOf splitProfit
  cases hc : (split qs).2 with
  | none =>
    rw [hc] at h1
    simp only at h1
    rw [h1]; simp
  | some x =>
    obtain ⟨long, evs⟩ := x
    rw [hc] at h1
    simp only at h1
    rw [h1]
    simp only [List.map_append, List.map_cons, List.map_nil, List.sum_append, List.sum_cons, List.sum_nil]
    rw [profitOf_snoc]
    cases long <;> simp <;> ring

theorem orders_flow {os : List OrderRec} {qs : List Fill} (h : List.Forall₂ Fill.Is qs os) :
    (os.map fun o => (orderFlow (Arith.exact 0 0) o).toQ).sum = (qs.map Fill.flow).sum ∧
    (os.map fun o => (signedSize o).toQ).sum = held qs ∧ ∀ o ∈ os, Proper o := by
  induction h with
  | nil => simp [held]
  | @cons q o qs os hq hqs ih =>
    obtain ⟨h1, h2, h3⟩ := ih
    obtain ⟨q1, q2, q3, q4, q5, q6⟩ := hq
    refine ⟨?_, ?_, ?_⟩
    · simp only [List.map_cons, List.sum_cons, h1]
      congr 1
      unfold orderFlow signedSize Fill.flow Fill.change
      rw [q3, q4, q5, q6]
      cases q.buy <;> simp [F.toQ, OrderSide.Buy, OrderSide.Sell]
    · simp only [List.map_cons, List.sum_cons, h2, held]
      congr 1
      unfold signedSize Fill.change
      rw [q3, q6]
      cases q.buy <;> simp [F.toQ, OrderSide.Buy, OrderSide.Sell]
    · intro x hx
      rcases List.mem_cons.mp hx with rfl | hx
      · refine ⟨⟨_, _, _, q3, q4, q5⟩, ?_⟩
        rw [q6]; cases q.buy <;> simp
      · exact h3 x hx

/-- **C20**.  The sums of PnL of all views and the total profit are equal. -/
theorem C20_profit_partial {orders : List OrderRec} {rows nCols : Nat} {lastClose : Nat → F}
    (hg : ∀ o ∈ orders, o.col < nCols → Good o) (hid : ∀ c < nCols, IdsUp (orders.filter fun o => o.col = c))
    (hclose : ∀ c < nCols, ∃ p, lastClose c = fin p) (junk junk' : Nat → Nat) :
    ∃ et xt ps, getEntryTrades (Arith.exact 0 0) orders junk rows nCols lastClose = .ok et ∧
      getExitTrades (Arith.exact 0 0) orders junk rows nCols lastClose = .ok xt ∧
      getPositions (Arith.exact 0 0) et junk' nCols = .ok ps ∧ getPositions (Arith.exact 0 0) xt junk' nCols = .ok ps ∧
      ∀ c < nCols, ∃ q : ℚ, pnlSum c et = fin q ∧ pnlSum c xt = fin q ∧ pnlSum c ps = fin q ∧
        totalProfit (Arith.exact 0 0) orders junk (lastClose c) c = .ok (fin q) := by
  have hh : ∀ c, ∃ qs : List Fill, ∃ p : ℚ, c < nCols → History 0 0 (orders.filter fun o => o.col = c) qs ∧ lastClose c = fin p := by
    intro c
    by_cases hc : c < nCols
    · obtain ⟨qs, hq⟩ := history_zero (os := orders.filter fun o => o.col = c)
        (fun o ho => hg o (List.mem_of_mem_filter ho) (by have := (List.mem_filter.mp ho).2; simp at this; omega)) (hid c hc)
      obtain ⟨p, hp⟩ := hclose c hc
      exact ⟨qs, p, fun _ => ⟨hq, hp⟩⟩
    · exact ⟨[], 0, fun h => absurd h hc⟩
  choose qs p hqp using hh
  obtain ⟨et, xt, h1, h2, h3, h4⟩ := positions_of_history (rows := rows) (fun c hc => hqp c hc) junk junk'
  refine ⟨et, xt, _, h1, h2, h3, h4, ?_⟩
  intro c hc
  rw [getEntryTrades_eq fun c hc => hqp c hc] at h1
  rw [getExitTrades_eq fun c hc => hqp c hc] at h2
  cases h1
  cases h2
  obtain ⟨hist, hcl⟩ := hqp c hc
  have hok := positionsOf_ok hist.ok ((rows : Int) - 1) (p c)
  have hend := positionsOf_ends (qs c) ((rows : Int) - 1) (p c)
  refine ⟨((qs c).map Fill.flow).sum + held (qs c) * p c, ?_, ?_, ?_, ?_⟩
  · unfold pnlSum
    rw [filter_numbered_map _ (fun _ _ => rfl), flat_filter (fun c k p x hx => (entryBlock_col _ c k p x hx).1) _ hc]
    obtain ⟨l, e1, e2⟩ := blocks_pnl (f := entryBlock (Arith.exact 0 0) c) (positionsOf (qs c) ((rows : Int) - 1) (p c))
      (fun k q hq => by
        obtain ⟨s1, s2, s3, s4, s5⟩ := entriesQ_sums (hok q hq).evs
        rw [entryBlock_Q]
        exact block_pnl s2 s3 s4 s5 c k)
      (countPos (fun c => positionsOf (qs c) ((rows : Int) - 1) (p c)) c)
    rw [e1, ← positionsOf_profit hist.ok ((rows : Int) - 1) (p c), ← e2]
    have := npSum_map_fin (r := 0) (t := 0) l fun x => x
    simpa using this
  · unfold pnlSum
    rw [filter_numbered_map _ (fun _ _ => rfl), flat_filter (fun c k p x hx => (exitBlock_col _ c k p x hx).1) _ hc]
    obtain ⟨l, e1, e2⟩ := blocks_pnl (f := exitBlock (Arith.exact 0 0) c) (positionsOf (qs c) ((rows : Int) - 1) (p c))
      (fun k q hq => by
        obtain ⟨s1, s2, s3, s4, s5⟩ := exitsQ_pos (hok q hq) (hend q hq)
        unfold exitBlock
        rw [exitsFrom_Q]
        exact block_pnl s2 s3 s4 s5 c k)
      (countPos (fun c => positionsOf (qs c) ((rows : Int) - 1) (p c)) c)
    rw [e1, ← positionsOf_profit hist.ok ((rows : Int) - 1) (p c), ← e2]
    have := npSum_map_fin (r := 0) (t := 0) l fun x => x
    simpa using this
  · unfold pnlSum
    rw [flat_filter (by intro c k p x hx; rw [List.mem_singleton] at hx; subst hx; rfl) _ hc]
    obtain ⟨l, e1, e2⟩ := blocks_pnl (f := fun n q => [posTrade (Arith.exact 0 0) c n q])
      (positionsOf (qs c) ((rows : Int) - 1) (p c))
      (fun k q hq => ⟨[profitOf q.long q.evs], by simp [posTrade_pnl (hok q hq)], by simp⟩)
      (countPos (fun c => positionsOf (qs c) ((rows : Int) - 1) (p c)) c)
    rw [e1, ← positionsOf_profit hist.ok ((rows : Int) - 1) (p c), ← e2]
    have := npSum_map_fin (r := 0) (t := 0) l fun x => x
    simpa using this
  · obtain ⟨f1, f2, f3⟩ := orders_flow hist.is
    rw [hcl, totalProfit_eq (fun o ho hoc => f3 o (List.mem_filter.mpr ⟨ho, by simpa using hoc⟩)) (hid c hc), f1, f2]

/-! Hypotheses: see the example for `C22_same_positions_partial`, the same orders. -/

/-- Buy 10 at 5 (fee 1), sell 4 at 6 (fee 2), sell 9 at 7 (fee 3), buy 1 at 8, close 9: -51 + 22 + 60 - 8 - 2 * 9 = 5. -/
example : ∃ q, totalProfit (Arith.exact 0 0) ordersC22 (fun _ => 0) (fin 9) 0 = .ok (fin q) ∧ q = 5 := by
  obtain ⟨a, h, e⟩ := okAnd_iff (x := totalProfit (Arith.exact 0 0) ordersC22 (fun _ => 0) (fin 9) 0)
    (f := fun a => decide (a = fin 5)) (by decide +kernel)
  exact ⟨5, by rw [h, of_decide_eq_true e], rfl⟩

/-- With the tolerances of the code the sums can differ: the entry view closes the position of `ordersC22b`, the exit view
values the last 0.0001 at the close. -/
theorem C20_tolerance_counterexample : ∃ et xt : List TradeRec,
    getEntryTrades Arith.std ordersC22b (fun _ => 0) 4 1 (fun _ => fin 2) = .ok et ∧
    getExitTrades Arith.std ordersC22b (fun _ => 0) 4 1 (fun _ => fin 2) = .ok xt ∧
    npSum Arith.std (et.map (·.pnl)) ≠ npSum Arith.std (xt.map (·.pnl)) := by
  obtain ⟨et, h1, e1⟩ := okAnd_iff (x := getEntryTrades Arith.std ordersC22b (fun _ => 0) 4 1 (fun _ => fin 2))
    (f := fun et => okAnd (getExitTrades Arith.std ordersC22b (fun _ => 0) 4 1 (fun _ => fin 2)) fun xt =>
      decide (npSum Arith.std (et.map (·.pnl)) ≠ npSum Arith.std (xt.map (·.pnl)))) (by decide +kernel)
  obtain ⟨xt, h2, e2⟩ := okAnd_iff e1
  exact ⟨et, xt, h1, h2, of_decide_eq_true e2⟩

end Vbt
