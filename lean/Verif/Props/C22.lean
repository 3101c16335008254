import Verif.Lemmas.PositionColumns
import Verif.Lemmas.Recon

/-!
# C22: positions do not depend on the trade view

Aggregating entry trades into positions and aggregating exit trades into positions produce the same records, for all
orders with positive size and price.

The two functions compare different numbers to see whether a position is closed: the entry view compares all that was
exited with all that was entered, the exit view compares the size of the order with what is left.  With the tolerances
of the code the views can therefore disagree about a position (`C22_tolerance_counterexample`).  The theorems hold
without tolerances, and with any tolerances as long as no comparison is decided by them (`Clear`).
-/

namespace Vbt
open F

/-- A record of an order that was filled: finite numbers, positive size and price. -/
def Good (o : OrderRec) : Prop := ∃ q : Fill, q.Is o ∧ q.Ok

theorem good_fills {os : List OrderRec} (h : ∀ o ∈ os, Good o) : ∃ qs : List Fill, List.Forall₂ Fill.Is qs os ∧ ∀ q ∈ qs, q.Ok := by
  induction os with
  | nil => exact ⟨[], .nil, by simp⟩
  | cons o os ih =>
    obtain ⟨qs, h1, h2⟩ := ih fun x hx => h x (List.mem_cons_of_mem _ hx)
    obtain ⟨q, hq, hok⟩ := h o List.mem_cons_self
    refine ⟨q :: qs, .cons hq h1, ?_⟩
    intro x hx
    rcases List.mem_cons.mp hx with rfl | hx
    · exact hok
    · exact h2 x hx

theorem fills_ids {os : List OrderRec} {qs : List Fill} (h : List.Forall₂ Fill.Is qs os) (hid : IdsUp os) :
    qs.Pairwise fun a b => a.id ≤ b.id := by
  induction h with
  | nil => exact .nil
  | @cons q o qs os hq hqs ih =>
    obtain ⟨h1, h2⟩ := List.pairwise_cons.mp hid
    refine List.pairwise_cons.mpr ⟨?_, ih h2⟩
    intro b hb
    obtain ⟨i, hi, rfl⟩ := List.getElem_of_mem hb
    have hlen := hqs.length_eq
    have hi' : i < os.length := by omega
    have := (List.forall₂_iff_get.mp hqs).2 i hi hi'
    simp only [List.get_eq_getElem] at this
    have h3 := h1 os[i] (List.getElem_mem hi')
    rw [hq.1, this.1] at h3
    exact h3

theorem history_zero {os : List OrderRec} (h : ∀ o ∈ os, Good o) (hid : IdsUp os) : ∃ qs, History 0 0 os qs := by
  obtain ⟨qs, h1, h2⟩ := good_fills h
  exact ⟨qs, h1, h2, fills_ids h1 hid, Clear.zero qs⟩

theorem positions_of_history {r t : ℚ} {orders : List OrderRec} {rows nCols : Nat} {lastClose : Nat → F}
    {qs : Nat → List Fill} {close : Nat → ℚ}
    (h : ∀ c < nCols, History r t (orders.filter fun o => o.col = c) (qs c) ∧ lastClose c = fin (close c))
    (junk junk' : Nat → Nat) :
    ∃ et xt, getEntryTrades (Arith.exact r t) orders junk rows nCols lastClose = .ok et ∧
      getExitTrades (Arith.exact r t) orders junk rows nCols lastClose = .ok xt ∧
      getPositions (Arith.exact r t) et junk' nCols = .ok
        (flat (fun c n p => [posTrade (Arith.exact r t) c n p]) (fun c => positionsOf (qs c) ((rows : Int) - 1) (close c)) nCols) ∧
      getPositions (Arith.exact r t) xt junk' nCols = .ok
        (flat (fun c n p => [posTrade (Arith.exact r t) c n p]) (fun c => positionsOf (qs c) ((rows : Int) - 1) (close c)) nCols) := by
  refine ⟨_, _, getEntryTrades_eq h, getExitTrades_eq h, ?_, ?_⟩
  · exact getPositions_eq (fun c k p x hx => (entryBlock_col _ c k p x hx).1)
      (fun c hc p hp => entryBlock_makes (positionsOf_ok (h c hc).1.ok _ _ p hp) (positionsOf_ends _ _ _ p hp) c) junk'
  · exact getPositions_eq (fun c k p x hx => (exitBlock_col _ c k p x hx).1)
      (fun c hc p hp => exitBlock_makes (positionsOf_ok (h c hc).1.ok _ _ p hp) (positionsOf_ends _ _ _ p hp) c) junk'

/-- **C22** (no tolerances).  Missing: comparisons decided by a tolerance, where the claim is false. -/
theorem C22_same_positions_partial {orders : List OrderRec} {rows nCols : Nat} {lastClose : Nat → F}
    (hg : ∀ o ∈ orders, o.col < nCols → Good o) (hid : ∀ c < nCols, IdsUp (orders.filter fun o => o.col = c))
    (hclose : ∀ c < nCols, ∃ p, lastClose c = fin p) (junk junk' : Nat → Nat) :
    ∃ et xt ps, getEntryTrades (Arith.exact 0 0) orders junk rows nCols lastClose = .ok et ∧
      getExitTrades (Arith.exact 0 0) orders junk rows nCols lastClose = .ok xt ∧
      getPositions (Arith.exact 0 0) et junk' nCols = .ok ps ∧ getPositions (Arith.exact 0 0) xt junk' nCols = .ok ps := by
  have hh : ∀ c, ∃ qs : List Fill, ∃ p : ℚ, c < nCols → History 0 0 (orders.filter fun o => o.col = c) qs ∧ lastClose c = fin p := by
    intro c
    by_cases hc : c < nCols
    · obtain ⟨qs, hq⟩ := history_zero (os := orders.filter fun o => o.col = c)
        (fun o ho => hg o (List.mem_of_mem_filter ho) (by have := (List.mem_filter.mp ho).2; simp at this; omega)) (hid c hc)
      obtain ⟨p, hp⟩ := hclose c hc
      exact ⟨qs, p, fun _ => ⟨hq, hp⟩⟩
    · exact ⟨[], 0, fun h => absurd h hc⟩
  choose qs p hqp using hh
  obtain ⟨et, xt, h1, h2, h3, h4⟩ := positions_of_history (fun c hc => hqp c hc) junk junk'
  exact ⟨et, xt, _, h1, h2, h3, h4⟩

/-- **C22** with tolerances, when no comparison of sizes is decided by them. -/
theorem C22_clear_partial {r t : ℚ} {orders : List OrderRec} {rows nCols : Nat} {lastClose : Nat → F}
    (h : ∀ c < nCols, ∃ qs : List Fill, List.Forall₂ Fill.Is qs (orders.filter fun o => o.col = c) ∧ (∀ q ∈ qs, q.Ok) ∧ Clear r t qs)
    (hid : ∀ c < nCols, IdsUp (orders.filter fun o => o.col = c))
    (hclose : ∀ c < nCols, ∃ p, lastClose c = fin p) (junk junk' : Nat → Nat) :
    ∃ et xt ps, getEntryTrades (Arith.exact r t) orders junk rows nCols lastClose = .ok et ∧
      getExitTrades (Arith.exact r t) orders junk rows nCols lastClose = .ok xt ∧
      getPositions (Arith.exact r t) et junk' nCols = .ok ps ∧ getPositions (Arith.exact r t) xt junk' nCols = .ok ps := by
  have hh : ∀ c, ∃ qs : List Fill, ∃ p : ℚ, c < nCols → History r t (orders.filter fun o => o.col = c) qs ∧ lastClose c = fin p := by
    intro c
    by_cases hc : c < nCols
    · obtain ⟨qs, h1, h2, h3⟩ := h c hc
      obtain ⟨p, hp⟩ := hclose c hc
      exact ⟨qs, p, fun _ => ⟨⟨h1, h2, fills_ids h1 (hid c hc), h3⟩, hp⟩⟩
    · exact ⟨[], 0, fun h => absurd h hc⟩
  choose qs p hqp using hh
  obtain ⟨et, xt, h1, h2, h3, h4⟩ := positions_of_history (fun c hc => hqp c hc) junk junk'
  exact ⟨et, xt, _, h1, h2, h3, h4⟩

/-! ## Examples -/

/-- Buy 10, sell 4, sell 9 (reversal), buy 1. -/
def ordersC22 : List OrderRec :=
  [{ id := 0, col := 0, idx := 0, size := fin 10, price := fin 5, fees := fin 1, side := OrderSide.Buy },
   { id := 1, col := 0, idx := 1, size := fin 4, price := fin 6, fees := fin 2, side := OrderSide.Sell },
   { id := 2, col := 0, idx := 2, size := fin 9, price := fin 7, fees := fin 3, side := OrderSide.Sell },
   { id := 3, col := 0, idx := 3, size := fin 1, price := fin 8, fees := fin 0, side := OrderSide.Buy }]

theorem ordersC22_good : ∀ o ∈ ordersC22, Good o := by
  intro o ho
  simp only [ordersC22, List.mem_cons, List.not_mem_nil, or_false] at ho
  rcases ho with rfl | rfl | rfl | rfl
  · exact ⟨⟨0, 0, true, 10, 5, 1⟩, ⟨rfl, rfl, rfl, rfl, rfl, rfl⟩, by norm_num [Fill.Ok]⟩
  · exact ⟨⟨1, 1, false, 4, 6, 2⟩, ⟨rfl, rfl, rfl, rfl, rfl, rfl⟩, by norm_num [Fill.Ok]⟩
  · exact ⟨⟨2, 2, false, 9, 7, 3⟩, ⟨rfl, rfl, rfl, rfl, rfl, rfl⟩, by norm_num [Fill.Ok]⟩
  · exact ⟨⟨3, 3, true, 1, 8, 0⟩, ⟨rfl, rfl, rfl, rfl, rfl, rfl⟩, by norm_num [Fill.Ok]⟩

example : (∀ o ∈ ordersC22, o.col < 1 → Good o) ∧ (∀ c < 1, IdsUp (ordersC22.filter fun o => o.col = c)) ∧
    (∀ c < 1, ∃ p, (fun _ : Nat => fin 9) c = fin p) :=
  ⟨fun o ho _ => ordersC22_good o ho, fun c hc => by
    have : c = 0 := by omega
    subst this
    unfold IdsUp
    decide, fun _ _ => ⟨9, rfl⟩⟩

/-- Buy 1000000, sell 999999, sell 0.9999: nothing or 0.0001 is left, depending on the view. -/
def ordersC22b : List OrderRec :=
  [{ id := 0, col := 0, idx := 0, size := fin 1000000, price := fin 1, fees := fin 0, side := OrderSide.Buy },
   { id := 1, col := 0, idx := 1, size := fin 999999, price := fin 1, fees := fin 0, side := OrderSide.Sell },
   { id := 2, col := 0, idx := 2, size := fin (9999 / 10000), price := fin 1, fees := fin 0, side := OrderSide.Sell }]

/-- With the tolerances of the code the positions of the two views differ: closed in the entry view, open in the exit
view. -/
theorem C22_tolerance_counterexample : ∃ et xt ps ps' : List TradeRec,
    getEntryTrades Arith.std ordersC22b (fun _ => 0) 4 1 (fun _ => fin 1) = .ok et ∧
    getExitTrades Arith.std ordersC22b (fun _ => 0) 4 1 (fun _ => fin 1) = .ok xt ∧
    getPositions Arith.std et (fun _ => 0) 1 = .ok ps ∧ getPositions Arith.std xt (fun _ => 0) 1 = .ok ps' ∧
    ps.map (·.status) = [TradeStatus.Closed] ∧ ps'.map (·.status) = [TradeStatus.Open] := by
  obtain ⟨et, h1, e1⟩ := okAnd_iff (x := getEntryTrades Arith.std ordersC22b (fun _ => 0) 4 1 (fun _ => fin 1))
    (f := fun et => okAnd (getPositions Arith.std et (fun _ => 0) 1) fun ps => decide (ps.map (·.status) = [TradeStatus.Closed]))
    (by decide +kernel)
  obtain ⟨xt, h2, e2⟩ := okAnd_iff (x := getExitTrades Arith.std ordersC22b (fun _ => 0) 4 1 (fun _ => fin 1))
    (f := fun et => okAnd (getPositions Arith.std et (fun _ => 0) 1) fun ps => decide (ps.map (·.status) = [TradeStatus.Open]))
    (by decide +kernel)
  obtain ⟨ps, h3, e3⟩ := okAnd_iff e1
  obtain ⟨ps', h4, e4⟩ := okAnd_iff e2
  exact ⟨et, xt, ps, ps', h1, h2, h3, h4, of_decide_eq_true e3, of_decide_eq_true e4⟩

end Vbt
