import Verif.Lemmas.RustTrades
import Verif.Lemmas.TradeDivisions
import Verif.Lemmas.Double
import Verif.Lemmas.Witness
import Verif.Props.C84

/-!
# C90  Trades and positions of the Rust engine
-/

namespace Vbt
open F

variable {A : Arith} {r t : ℚ}

theorem sameTrades_of {a b : Except Err (List TradeRec)} (h : Rs.TradeOut (fun a b => a = b) a b) (hz : a ≠ .error .zeroDivision) :
    SameTrades a b := by
  rcases h with e | h | ⟨x, y, e, e', rfl⟩
  · exact absurd e hz
  · exact .inr h
  · exact .inl ⟨x, e, e'⟩

theorem rep_exact (x : F) : F.Rep (Arith.exact r t) x := fun _ _ => rfl

/-! ## In any arithmetic -/

/-- **C90** (entry trades).  Unless the Numba engine divides by zero, both engines return the same entry trades or both raise
`ValueError`, whatever the rounding. -/
theorem C90_entry (hA : A.Sound) {orders : List OrderRec} (ho : ∀ o ∈ orders, F.Rep A o.size) (junk : Nat → Nat) (rows nCols : Nat)
    (lastClose : Nat → F) (hz : getEntryTrades A orders junk rows nCols lastClose ≠ .error .zeroDivision) :
    SameTrades (getEntryTrades A orders junk rows nCols lastClose) (Rs.getEntryTrades A orders junk rows nCols lastClose) :=
  sameTrades_of (Rs.getEntryTrades_out hA ho junk rows nCols lastClose) hz

/-- **C90** (exit trades). -/
theorem C90_exit (hA : A.Sound) (orders : List OrderRec) (junk : Nat → Nat) (rows nCols : Nat) (lastClose : Nat → F)
    (hz : getExitTrades A orders junk rows nCols lastClose ≠ .error .zeroDivision) :
    SameTrades (getExitTrades A orders junk rows nCols lastClose) (Rs.getExitTrades A orders junk rows nCols lastClose) :=
  sameTrades_of (Rs.getExitTrades_out hA orders junk rows nCols lastClose) hz

/-- **C90** (positions).  The same of positions, of trades listed by column. -/
theorem C90_positions (hA : A.Sound) {trades : List TradeRec} (hs : ByColumn trades) (hpar : ∀ t ∈ trades, 0 ≤ t.parentId)
    (junk : Nat → Nat) (nCols : Nat) (hz : getPositions A trades junk nCols ≠ .error .zeroDivision) :
    SameTrades (getPositions A trades junk nCols) (Rs.getPositions A trades junk nCols) :=
  sameTrades_of (Rs.getPositions_out hA hs hpar junk nCols) hz

/-- **C90** (order of trades).  The trades either engine returns meet these conditions, so the positions of a portfolio are the
same. -/
theorem C90_chain (hA : A.Sound) {orders : List OrderRec} {junk : Nat → Nat} {rows nCols : Nat} {lastClose : Nat → F}
    {ts : List TradeRec} (h : Rs.getEntryTrades A orders junk rows nCols lastClose = .ok ts ∨
      Rs.getExitTrades A orders junk rows nCols lastClose = .ok ts) :
    ByColumn ts ∧ (∀ t ∈ ts, t.col < nCols ∧ 0 ≤ t.parentId) ∧
      ∀ junk', getPositions A ts junk' nCols ≠ .error .zeroDivision →
        SameTrades (getPositions A ts junk' nCols) (Rs.getPositions A ts junk' nCols) := by
  have hl : ByColumn ts ∧ ∀ t ∈ ts, t.col < nCols ∧ 0 ≤ t.parentId := by
    rcases h with h | h
    · exact Rs.getEntryTrades_listed h
    · exact Rs.getExitTrades_listed h
  exact ⟨hl.1, hl.2, fun junk' hz => C90_positions hA hl.1 (fun t ht => (hl.2 t ht).2) junk' nCols hz⟩

/-- **C90** (streaks). -/
theorem C90_streaks (pnl : List F) : Rs.winningStreak pnl = winningStreak pnl ∧ Rs.losingStreak pnl = losingStreak pnl := by
  unfold Rs.winningStreak Rs.losingStreak winningStreak losingStreak
  exact ⟨by rw [Rs.streak_fold]; rfl, by rw [Rs.streak_fold]; rfl⟩

example : Rs.winningStreak [fin 1, fin 2, fin (-1), nan, fin 3] = [1, 2, 0, 0, 1] := by decide +kernel

/-! ## Doubles -/

/-- **C90** (doubles).  All of it, in IEEE arithmetic. -/
theorem C90_double {orders : List OrderRec} (ho : ∀ o ∈ orders, F.Rep Arith.double o.size) (junk : Nat → Nat) (rows nCols : Nat)
    (lastClose : Nat → F) :
    (getEntryTrades Arith.double orders junk rows nCols lastClose ≠ .error .zeroDivision →
      SameTrades (getEntryTrades Arith.double orders junk rows nCols lastClose)
        (Rs.getEntryTrades Arith.double orders junk rows nCols lastClose)) ∧
    (getExitTrades Arith.double orders junk rows nCols lastClose ≠ .error .zeroDivision →
      SameTrades (getExitTrades Arith.double orders junk rows nCols lastClose)
        (Rs.getExitTrades Arith.double orders junk rows nCols lastClose)) :=
  ⟨C90_entry double_sound ho junk rows nCols lastClose, C90_exit double_sound orders junk rows nCols lastClose⟩

/-- Bought twice, sold beyond the position; then bought in another column. -/
def wFilled : List OrderRec :=
  [⟨0, 0, 0, fin 1, fin 10, fin 1, OrderSide.Buy⟩, ⟨1, 0, 1, fin 2, fin 11, fin 1, OrderSide.Buy⟩,
   ⟨2, 0, 2, fin 5, fin 12, fin 1, OrderSide.Sell⟩, ⟨0, 1, 1, fin 3, fin 7, zero, OrderSide.Buy⟩]

theorem wFilled_rep : ∀ o ∈ wFilled, F.Rep Arith.double o.size := by
  exact fun o ho => rep_of_repb ((by decide +kernel : ∀ o ∈ wFilled, repb Arith.double o.size = true) o ho)

theorem wFilled_runs : okAnd (getEntryTrades Arith.double wFilled (fun _ => 0) 4 2 (fun _ => fin 9))
      (fun ts => decide (ts.map (fun x => (x.col, x.entryIdx, x.exitIdx, x.size, x.status, x.parentId)) =
        [(0, 0, 2, fin 1, 1, 0), (0, 1, 2, fin 2, 1, 0), (0, 2, 3, fin 2, 0, 1), (1, 1, 3, fin 3, 0, 2)])) = true ∧
    okAnd (getExitTrades Arith.double wFilled (fun _ => 0) 4 2 (fun _ => fin 9))
      (fun ts => decide (ts.map (fun x => (x.col, x.entryIdx, x.exitIdx, x.size, x.status, x.parentId)) =
        [(0, 0, 2, fin 3, 1, 0), (0, 2, 3, fin 2, 0, 1), (1, 1, 3, fin 3, 0, 2)])) = true := by
  decide +kernel

/-- The hypotheses hold of it, and the Rust engine returns its trades. -/
example : (∃ ts, Rs.getEntryTrades Arith.double wFilled (fun _ => 0) 4 2 (fun _ => fin 9) = .ok ts ∧ ts.length = 4) ∧
    ∃ ts, Rs.getExitTrades Arith.double wFilled (fun _ => 0) 4 2 (fun _ => fin 9) = .ok ts ∧ ts.length = 3 := by
  obtain ⟨a, ea, ha⟩ := okAnd_iff wFilled_runs.1
  obtain ⟨b, eb, hb⟩ := okAnd_iff wFilled_runs.2
  have h := C90_double wFilled_rep (fun _ => 0) 4 2 (fun _ => fin 9)
  rw [ea, eb] at h
  refine ⟨⟨a, ?_, ?_⟩, ⟨b, ?_, ?_⟩⟩
  · rcases h.1 (fun e => (by cases e)) with ⟨ts, e, e'⟩ | ⟨m, n, e, -⟩
    · injection e with e; rw [e]; exact e'
    · cases e
  · have := congrArg List.length (of_decide_eq_true ha); simpa using this
  · rcases h.2 (fun e => (by cases e)) with ⟨ts, e, e'⟩ | ⟨m, n, e, -⟩
    · injection e with e; rw [e]; exact e'
    · cases e
  · have := congrArg List.length (of_decide_eq_true hb); simpa using this

/-! ## Without rounding nothing is divided by zero -/

/-- **C90** (no division by zero).  Without rounding, filled orders never make either function divide by zero, and every trade has
a positive size and entry price. -/
theorem C90_exact_trades (hr : 0 ≤ r) {orders : List OrderRec} (ho : ∀ o ∈ orders, PositiveOrder o) (junk : Nat → Nat)
    (rows nCols : Nat) (lastClose : Nat → F) :
    (SameTrades (getEntryTrades (Arith.exact r t) orders junk rows nCols lastClose)
        (Rs.getEntryTrades (Arith.exact r t) orders junk rows nCols lastClose) ∧
      ∀ ts, getEntryTrades (Arith.exact r t) orders junk rows nCols lastClose = .ok ts → ∀ x ∈ ts, PositiveTrade x) ∧
    (SameTrades (getExitTrades (Arith.exact r t) orders junk rows nCols lastClose)
        (Rs.getExitTrades (Arith.exact r t) orders junk rows nCols lastClose) ∧
      ∀ ts, getExitTrades (Arith.exact r t) orders junk rows nCols lastClose = .ok ts → ∀ x ∈ ts, PositiveTrade x) := by
  have h1 := getEntryTrades_fine (t := t) hr ho junk rows nCols lastClose
  have h2 := getExitTrades_fine (r := r) (t := t) ho junk rows nCols lastClose
  exact ⟨⟨C90_entry (exact_sound r t) (fun _ _ => rep_exact _) junk rows nCols lastClose h1.1, h1.2⟩,
    ⟨C90_exit (exact_sound r t) orders junk rows nCols lastClose h2.1, h2.2⟩⟩

/-- **C90** (portfolio).  Without rounding, from filled orders both engines arrive at the same positions, by way of entry trades
as by way of exit trades. -/
theorem C90_exact_positions (hr : 0 ≤ r) {orders : List OrderRec} (ho : ∀ o ∈ orders, PositiveOrder o) (junk : Nat → Nat)
    (rows nCols : Nat) (lastClose : Nat → F) {ts : List TradeRec}
    (h : getEntryTrades (Arith.exact r t) orders junk rows nCols lastClose = .ok ts ∨
      getExitTrades (Arith.exact r t) orders junk rows nCols lastClose = .ok ts) (junk' : Nat → Nat) :
    SameTrades (getPositions (Arith.exact r t) ts junk' nCols) (Rs.getPositions (Arith.exact r t) ts junk' nCols) := by
  obtain ⟨⟨h1, p1⟩, h2, p2⟩ := C90_exact_trades (t := t) hr ho junk rows nCols lastClose
  have same : ∀ {a b : Except Err (List TradeRec)}, SameTrades a b → a = .ok ts → b = .ok ts := by
    rintro a b (⟨x, rfl, rfl⟩ | ⟨m, n, rfl, -⟩) e
    · exact e
    · cases e
  have hpos : ∀ x ∈ ts, PositiveTrade x := by
    rcases h with h | h
    · exact p1 ts h
    · exact p2 ts h
  refine (C90_chain (exact_sound r t) (h.imp (same h1) (same h2))).2.2 junk' (getPositions_fine hpos junk' nCols).1

theorem wFilled_positive : ∀ o ∈ wFilled, PositiveOrder o := by
  intro o ho
  unfold wFilled at ho
  simp only [List.mem_cons, List.not_mem_nil, or_false] at ho
  rcases ho with rfl | rfl | rfl | rfl
  · exact ⟨.inl rfl, ⟨1, by norm_num, rfl⟩, ⟨10, by norm_num, rfl⟩⟩
  · exact ⟨.inl rfl, ⟨2, by norm_num, rfl⟩, ⟨11, by norm_num, rfl⟩⟩
  · exact ⟨.inr rfl, ⟨5, by norm_num, rfl⟩, ⟨12, by norm_num, rfl⟩⟩
  · exact ⟨.inl rfl, ⟨3, by norm_num, rfl⟩, ⟨7, by norm_num, rfl⟩⟩

/-- The three positions, of four entry trades. -/
example : okAnd (getEntryTrades Arith.std wFilled (fun _ => 0) 4 2 (fun _ => fin 9)) (fun ts =>
    okAnd (getPositions Arith.std ts (fun _ => 0) 2) fun ps =>
      decide (ps.map (fun x => (x.col, x.size, x.entryPrice, x.pnl)) =
        [(0, fin 3, fin (32 / 3), fin (7 / 5)), (0, fin 2, fin 12, fin (28 / 5)), (1, fin 3, fin 7, fin 6)])) = true := by
  decide +kernel

example (ts : List TradeRec) (h : getEntryTrades Arith.std wFilled (fun _ => 0) 4 2 (fun _ => fin 9) = .ok ts) :
    SameTrades (getPositions Arith.std ts (fun _ => 0) 2) (Rs.getPositions Arith.std ts (fun _ => 0) 2) := by
  unfold Arith.std at h ⊢
  exact C90_exact_positions (by norm_num) wFilled_positive _ _ _ _ (.inl h) _

/-! ## Where the engines differ -/

/-- A purchase whose size times price is less than any positive double. -/
def wTiny : List OrderRec := [⟨0, 0, 0, fin (1 / 2 ^ 30), fin (1 / 2 ^ 1074), zero, OrderSide.Buy⟩]

/-- **C90** (difference).  Where the product of size and price underflows, the Numba engine raises `ZeroDivisionError` and the
Rust engine returns the trade with a return that is not a number or infinite: the hypothesis on divisions cannot be dropped. -/
theorem C90_differs : (∀ o ∈ wTiny, F.Rep Arith.double o.size) ∧
    getEntryTrades Arith.double wTiny (fun _ => 0) 2 1 (fun _ => fin 1) = .error .zeroDivision ∧
    getExitTrades Arith.double wTiny (fun _ => 0) 2 1 (fun _ => fin 1) = .error .zeroDivision ∧
    (∃ ts, Rs.getEntryTrades Arith.double wTiny (fun _ => 0) 2 1 (fun _ => fin 1) = .ok ts ∧ ts.map (·.ret) = [pinf]) ∧
    ∃ ts, Rs.getExitTrades Arith.double wTiny (fun _ => 0) 2 1 (fun _ => fin 1) = .ok ts ∧ ts.map (·.ret) = [pinf] := by
  refine ⟨?_, raised_iff.mp (by decide +kernel), raised_iff.mp (by decide +kernel), ?_, ?_⟩
  · exact fun o ho => rep_of_repb ((by decide +kernel : ∀ o ∈ wTiny, repb Arith.double o.size = true) o ho)
  · obtain ⟨ts, e, h⟩ := okAnd_iff (by decide +kernel : okAnd (Rs.getEntryTrades Arith.double wTiny (fun _ => 0) 2 1
      (fun _ => fin 1)) (fun ts => decide (ts.map (·.ret) = [pinf])) = true)
    exact ⟨ts, e, of_decide_eq_true h⟩
  · obtain ⟨ts, e, h⟩ := okAnd_iff (by decide +kernel : okAnd (Rs.getExitTrades Arith.double wTiny (fun _ => 0) 2 1
      (fun _ => fin 1)) (fun ts => decide (ts.map (·.ret) = [pinf])) = true)
    exact ⟨ts, e, of_decide_eq_true h⟩

/-- Trades of two columns, not listed by column: the first and the last one make up a position. -/
def wMixed : List TradeRec :=
  [⟨0, 0, fin 1, 0, fin 10, zero, 1, fin 11, zero, fin 1, fin (1 / 10), 0, 1, 0⟩,
   ⟨1, 1, fin 4, 0, fin 10, zero, 1, fin 11, zero, fin 4, fin (1 / 10), 0, 1, 1⟩,
   ⟨2, 0, fin 1, 0, fin 10, zero, 2, fin 12, zero, fin 2, fin (1 / 5), 0, 1, 0⟩]

/-- **C90** (difference).  Of trades not listed by column the Numba engine also sums the trades of other columns in between, the
Rust engine does not: the hypothesis on the order cannot be dropped. -/
theorem C90_positions_differs : (∀ x ∈ wMixed, PositiveTrade x ∧ 0 ≤ x.parentId) ∧ ¬ ByColumn wMixed ∧
    (∃ ps, getPositions Arith.std wMixed (fun _ => 0) 2 = .ok ps ∧ ps.map (·.size) = [fin 6, fin 4]) ∧
    ∃ ps, Rs.getPositions Arith.std wMixed (fun _ => 0) 2 = .ok ps ∧ ps.map (·.size) = [fin 2, fin 4] := by
  refine ⟨?_, by unfold ByColumn; decide, ?_, ?_⟩
  · intro x hx
    unfold wMixed at hx
    simp only [List.mem_cons, List.not_mem_nil, or_false] at hx
    rcases hx with rfl | rfl | rfl
    · exact ⟨⟨⟨1, by norm_num, rfl⟩, ⟨10, by norm_num, rfl⟩⟩, by norm_num⟩
    · exact ⟨⟨⟨4, by norm_num, rfl⟩, ⟨10, by norm_num, rfl⟩⟩, by norm_num⟩
    · exact ⟨⟨⟨1, by norm_num, rfl⟩, ⟨10, by norm_num, rfl⟩⟩, by norm_num⟩
  · obtain ⟨ps, e, h⟩ := okAnd_iff (by decide +kernel : okAnd (getPositions Arith.std wMixed (fun _ => 0) 2)
      (fun ps => decide (ps.map (·.size) = [fin 6, fin 4])) = true)
    exact ⟨ps, e, of_decide_eq_true h⟩
  · obtain ⟨ps, e, h⟩ := okAnd_iff (by decide +kernel : okAnd (Rs.getPositions Arith.std wMixed (fun _ => 0) 2)
      (fun ps => decide (ps.map (·.size) = [fin 2, fin 4])) = true)
    exact ⟨ps, e, of_decide_eq_true h⟩

end Vbt
