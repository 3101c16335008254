import Verif.Props.C18

/-!
# C19  Total profit equals final value minus initial cash

`total_profit_nb` takes a shortcut: it never looks at rows.  Against the cash and assets series of the same records,
zero tolerances.  The order history is arbitrary (not necessarily a simulated one): finite fields, rows inside of the
shape, ids ascending per column (all three functions raise otherwise, `C19_ids`).
-/

namespace Vbt
open F

/-- The fields of an order record are numbers and its side is one of the two. -/
def Proper (o : OrderRec) : Prop :=
  (∃ s p f : ℚ, o.size = fin s ∧ o.price = fin p ∧ o.fees = fin f) ∧ (o.side = OrderSide.Buy ∨ o.side = OrderSide.Sell)

theorem Proper.visible {o : OrderRec} (h : Proper o) : Visible 0 0 o := by
  obtain ⟨⟨s, p, f, h1, h2, h3⟩, -⟩ := h
  refine ⟨s, p, f, h1, h2, h3, ?_, ?_⟩
  · by_cases h : s = 0
    · exact Or.inl h
    · exact Or.inr (abs_pos.mpr h)
  · by_cases h : -(moved o.side s) * p - f = 0
    · exact Or.inl h
    · right; rw [zero_mul, max_self]; exact abs_pos.mpr h

theorem totalProfitStep_eq {s : ProfitState} {o : OrderRec} {a c : ℚ} (h : Proper o) (hid : s.lastId ≤ o.id)
    (ha : s.assets = fin a) (hc : s.cash = fin c) :
    totalProfitStep (Arith.exact 0 0) s o =
      .ok (ProfitState.mk o.id (fin (a + (signedSize o).toQ)) (fin (c + (orderFlow (Arith.exact 0 0) o).toQ))) := by
  obtain ⟨⟨s, p, f, h1, h2, h3⟩, hside⟩ := h
  unfold totalProfitStep
  rw [if_neg (by omega)]
  rcases hside with hb | hb
  · rw [if_pos hb]
    simp only [signedSize, orderFlow, hb, h1, h2, h3, ha, hc, mul_exact, add_exact, neg_fin, addNb_zero_tol]
    rw [if_neg (by decide)]
    simp only [neg_fin, mul_exact, sub_exact, F.toQ]
    congr 3; ring
  · rw [if_neg (by rw [hb]; decide)]
    simp only [signedSize, orderFlow, hb, h1, h2, h3, ha, hc, mul_exact, add_exact, sub_exact, neg_fin, addNb_zero_tol,
      if_true, neg_neg, F.toQ]

theorem totalProfit_loop {l : List OrderRec} {s : ProfitState} {a c : ℚ} (h : ∀ o ∈ l, Proper o) (hid : IdsUp l)
    (hs : ∀ o ∈ l, s.lastId ≤ o.id) (ha : s.assets = fin a) (hc : s.cash = fin c) :
    ∃ s', loopE (totalProfitStep (Arith.exact 0 0)) s l = .ok s' ∧
      s'.assets = fin (a + (l.map fun o => (signedSize o).toQ).sum) ∧
      s'.cash = fin (c + (l.map fun o => (orderFlow (Arith.exact 0 0) o).toQ).sum) := by
  induction l generalizing s a c with
  | nil => exact ⟨s, rfl, by simpa using ha, by simpa using hc⟩
  | cons o l ih =>
    obtain ⟨h1, h2⟩ := List.pairwise_cons.mp hid
    obtain ⟨s', e, e1, e2⟩ := ih (s := ProfitState.mk o.id (fin (a + (signedSize o).toQ))
        (fin (c + (orderFlow (Arith.exact 0 0) o).toQ))) (fun x hx => h x (List.mem_cons_of_mem _ hx)) h2
      (fun x hx => by simpa using h1 x hx) rfl rfl
    refine ⟨s', ?_, ?_, ?_⟩
    · rw [loopE, totalProfitStep_eq (h o List.mem_cons_self) (hs o List.mem_cons_self) ha hc]; exact e
    · rw [e1, List.map_cons, List.sum_cons, add_assoc]
    · rw [e2, List.map_cons, List.sum_cons, add_assoc]

/-- Total profit in terms of the records. -/
theorem totalProfit_eq {orders : List OrderRec} {junk : Nat → Nat} {col : Nat} {p : ℚ}
    (hv : ∀ o ∈ orders, o.col = col → Proper o) (hid : IdsUp (orders.filter fun o => o.col = col)) :
    totalProfit (Arith.exact 0 0) orders junk (fin p) col = .ok (fin
      (((orders.filter fun o => o.col = col).map fun o => (orderFlow (Arith.exact 0 0) o).toQ).sum +
       ((orders.filter fun o => o.col = col).map fun o => (signedSize o).toQ).sum * p)) := by
  obtain ⟨s', e, e1, e2⟩ := totalProfit_loop (s := { lastId := -1, assets := zero, cash := zero }) (a := 0) (c := 0)
    (l := orders.filter fun o => o.col = col)
    (fun o ho => hv o (List.mem_of_mem_filter ho) (of_decide_eq_true (List.mem_filter.mp ho).2)) hid
    (fun o _ => by show (-1 : Int) ≤ _; omega) rfl rfl
  unfold totalProfit
  simp only [columnRecords_eq, e, e1, e2]
  by_cases hl : orders.filter (fun o => decide (o.col = col)) = []
  · rw [hl]; simp
  · rw [if_neg (by simpa using hl)]; simp

/-- **C19**.  Total profit of a column is final cash plus final position times the last close minus initial cash. -/
theorem C19_total_profit {orders : List OrderRec} {junk : Nat → Nat} {col rows : Nat} {init p : ℚ}
    (hv : ∀ o ∈ orders, o.col = col → Proper o) (hid : IdsUp (orders.filter fun o => o.col = col))
    (hrows : ∀ o ∈ orders, o.col = col → o.idx ≤ rows) :
    ∃ (cf af : Nat → F) (profit cash pos : ℚ),
      cashFlow (Arith.exact 0 0) false orders junk col = .ok cf ∧
      assetFlow (Arith.exact 0 0) Direction.Both orders junk col = .ok af ∧
      cashAt (Arith.exact 0 0) (fin init) cf rows = fin cash ∧
      assetsAt (Arith.exact 0 0) af rows = fin pos ∧
      totalProfit (Arith.exact 0 0) orders junk (fin p) col = .ok (fin profit) ∧
      profit = cash + pos * p - init ∧
      finalValue (Arith.exact 0 0) (fin profit) (fin init) = fin (cash + pos * p) := by
  obtain ⟨cf, ec, hcf⟩ := cashFlow_total (A := Arith.exact 0 0) (junk := junk) hid
  obtain ⟨af, ea, haf⟩ := assetFlow_both (A := Arith.exact 0 0) (junk := junk) hid
  have hvis : ∀ o ∈ orders.filter (fun o => decide (o.col = col)), Visible 0 0 o := fun o ho =>
    (hv o (List.mem_of_mem_filter ho) (of_decide_eq_true (List.mem_filter.mp ho).2)).visible
  have hq : ∀ o ∈ orders.filter (fun o => decide (o.col = col)), ∃ q, orderFlow (Arith.exact 0 0) o = fin q := by
    intro o ho; obtain ⟨_, q, _, h, _⟩ := (hvis o ho).flows; exact ⟨q, h⟩
  have hd : ∀ o ∈ orders.filter (fun o => decide (o.col = col)), ∃ q, signedSize o = fin q := by
    intro o ho; obtain ⟨q, _, h, _⟩ := (hvis o ho).flows; exact ⟨q, h⟩
  have hcf' : ∀ j, cf j = fin (((orders.filter fun o => o.col = col).filter fun o => o.idx = j).map
      fun o => (orderFlow (Arith.exact 0 0) o).toQ).sum := by
    intro j
    rw [hcf j, ledger_sum (fun o ho => hq o (List.mem_of_mem_filter ho)), zero_add]
  have haf' : ∀ j, af j = fin (((orders.filter fun o => o.col = col).filter fun o => o.idx = j).map
      fun o => (signedSize o).toQ).sum := by
    intro j
    rw [haf j, ledger_sum (fun o ho => hd o (List.mem_of_mem_filter ho)), zero_add]
  have hall : ((orders.filter fun o => o.col = col).filter fun o => o.idx ≤ rows) =
      orders.filter fun o => o.col = col := by
    rw [List.filter_eq_self]
    intro o ho
    simpa using hrows o (List.mem_of_mem_filter ho) (of_decide_eq_true (List.mem_filter.mp ho).2)
  have h1 : cashAt (Arith.exact 0 0) (fin init) cf rows = fin (init +
      ((orders.filter fun o => o.col = col).map fun o => (orderFlow (Arith.exact 0 0) o).toQ).sum) := by
    rw [cashAt_sum (fun j => ⟨_, hcf' j⟩)]
    simp only [hcf', F.toQ]
    rw [sum_rows, hall]
  have h2 : assetsAt (Arith.exact 0 0) af rows = fin (
      ((orders.filter fun o => o.col = col).map fun o => (signedSize o).toQ).sum) := by
    rw [assetsAt_eq, cashAt_sum (fun j => ⟨_, haf' j⟩)]
    simp only [haf', F.toQ]
    rw [sum_rows, hall, zero_add]
  refine ⟨cf, af, _, _, _, ec, ea, h1, h2, totalProfit_eq hv hid, by ring, ?_⟩
  rw [finalValue, add_exact]
  congr 1; ring

/-- Without orders the profit is zero, whatever the close (every arithmetic). -/
theorem C19_no_orders {A : Arith} {orders : List OrderRec} {junk : Nat → Nat} {col : Nat} {close : F}
    (h : ∀ o ∈ orders, o.col ≠ col) : totalProfit A orders junk close col = .ok zero := by
  have : orders.filter (fun o => decide (o.col = col)) = [] := by
    rw [List.filter_eq_nil_iff]
    intro o ho
    simpa using h o ho
  simp [totalProfit, columnRecords_eq, this]

/-- A record out of id order stops the loop of any of the functions over the records of a column. -/
theorem ids_loop {σ : Type} {step : σ → OrderRec → Except Err σ} {lastId : σ → Int} {e : Err}
    (herr : ∀ s o, (o.id : Int) < lastId s → step s o = .error e)
    (hok : ∀ s o s', step s o = .ok s' → lastId s' = o.id) {l : List OrderRec} (h : ¬ IdsUp l) (s s' : σ) :
    loopE step s l ≠ .ok s' := by
  intro hl
  apply h
  have key : ∀ (l : List OrderRec) (s s' : σ), loopE step s l = .ok s' →
      IdsUp l ∧ ∀ o ∈ l, lastId s ≤ o.id := by
    intro l
    induction l with
    | nil => intro s s' _; exact ⟨List.Pairwise.nil, by simp⟩
    | cons o l ih =>
      intro s s' hl
      obtain ⟨s1, h1, h2⟩ := loopE_cons_ok hl
      obtain ⟨g1, g2⟩ := ih s1 s' h2
      rw [hok s o s1 h1] at g2
      have h3 : lastId s ≤ o.id := by
        by_contra hc
        rw [herr s o (by omega)] at h1
        cases h1
      refine ⟨List.pairwise_cons.mpr ⟨fun x hx => by exact_mod_cast g2 x hx, g1⟩, fun x hx => ?_⟩
      rcases List.mem_cons.mp hx with rfl | hx
      · exact h3
      · exact h3.trans (g2 x hx)
  exact (key l s s' hl).1

/-- All three functions refuse records whose ids do not ascend within the column (every arithmetic). -/
theorem C19_ids {A : Arith} {orders : List OrderRec} {junk : Nat → Nat} {col : Nat} {close : F} {direction : Int}
    {free : Bool} (h : ¬ IdsUp (orders.filter fun o => o.col = col)) :
    (∀ v, totalProfit A orders junk close col ≠ .ok v) ∧ (∀ f, assetFlow A direction orders junk col ≠ .ok f) ∧
    (∀ f, cashFlow A free orders junk col ≠ .ok f) := by
  refine ⟨fun v hv => ?_, fun v hv => ?_, fun v hv => ?_⟩
  · unfold totalProfit at hv
    simp only [columnRecords_eq] at hv
    split at hv
    · cases hv
    · rename_i s hs
      refine ids_loop (e := .valueError "id must come in ascending order per column") (step := totalProfitStep A) (lastId := ProfitState.lastId) (fun s o ho => ?_)
        (fun s o s' ho => ?_) h _ s hs
      · unfold totalProfitStep; rw [if_pos ho]
      · unfold totalProfitStep at ho
        split at ho
        · cases ho
        · split at ho <;> cases ho <;> rfl
  · unfold assetFlow at hv
    simp only [columnRecords_eq] at hv
    split at hv
    · cases hv
    · rename_i s hs
      refine ids_loop (e := .valueError "id must come in ascending order per column") (step := assetFlowStep A direction) (lastId := FlowState.lastId) (fun s o ho => ?_)
        (fun s o s' ho => ?_) h _ s hs
      · unfold assetFlowStep; rw [if_pos ho]
      · unfold assetFlowStep at ho
        split at ho
        · cases ho
        · cases ho; rfl
  · unfold cashFlow at hv
    simp only [columnRecords_eq] at hv
    split at hv
    · cases hv
    · rename_i s hs
      refine ids_loop (e := .valueError "id must come in ascending order per column") (step := cashFlowStep A free) (lastId := FlowState.lastId) (fun s o ho => ?_)
        (fun s o s' ho => ?_) h _ s hs
      · unfold cashFlowStep; rw [if_pos ho]
      · unfold cashFlowStep at ho
        split at ho
        · cases ho
        · simp only at ho
          split at ho
          · split at ho <;> cases ho; rfl
          · cases ho; rfl

/-- Grouped total profit is the sum over the columns of the group. -/
theorem C19_grouped {r t : ℚ} {profit : Nat → F} {q : Nat → ℚ} {fc len : Nat} (h : ∀ c, profit c = fin (q c)) :
    totalProfitGrouped (Arith.exact r t) profit fc len = fin (((List.range len).map fun k => q (fc + k)).sum) := by
  rw [totalProfitGrouped, npSum_fin (fun k _ => ⟨_, h _⟩)]
  simp only [h, F.toQ]

theorem Simulated.profit {σ : Type} {S : Simulator σ} {rows cols lens initCash s00 sf grp s} {junk : Nat → Nat} {x p : ℚ}
    (h : Simulated S 0 0 (rows + 1) cols lens initCash s00 sf) (hone : ∀ l ∈ lens, l = 1)
    (hs : S.AfterRow (rows + 1) lens s00 grp rows s)
    (hcash : ∀ g ∈ layout lens, ∃ q, initCash.getD g.1 nan = fin q)
    (hv : ∀ o ∈ (S.proj sf).buf.orders, Proper o) (hx : initCash.getD grp.1 nan = fin x) :
    ∃ c P : ℚ, (S.proj s).cash = fin c ∧ (S.proj s).position grp.2.1 = fin P ∧
      totalProfit (Arith.exact 0 0) (S.proj sf).buf.orders junk (fin p) grp.2.1 = .ok (fin (c + P * p - x)) := by
  have hng := not_grouped hone
  have hw := h.wf
  obtain ⟨pre, post, s0, hlay, -⟩ := id hs
  obtain ⟨l1, l2, hl, -, h1, h2, -⟩ := layoutFrom_parts hlay
  have hlen : grp.2.2 = 1 := hone _ (by rw [hl]; simp)
  have hfin : ∀ o ∈ (S.proj sf).buf.orders, Visible 0 0 o := fun o ho => (hv o ho).visible
  have hsettled : ∀ y ∈ layout lens, Settled 0 (initCash.getD y.1 nan) ∧
      (((0:ℚ) = 0 ∧ (0:ℚ) = 0) ∨ lt (initCash.getD y.1 nan) zero = false) := by
    intro y hy
    obtain ⟨q, hq⟩ := hcash y hy
    refine ⟨⟨q, hq, ?_⟩, Or.inl ⟨rfl, rfl⟩⟩
    by_cases h0 : q = 0
    · exact Or.inl h0
    · exact Or.inr (abs_pos.mpr h0)
  obtain ⟨cf, ec, hcf⟩ := h.cash (junk := junk) le_rfl (by norm_num) le_rfl hone hs hsettled hfin
  obtain ⟨af, ea, haf⟩ := h.assets (junk := junk) (c := grp.2.1) le_rfl (by norm_num) le_rfl hs hsettled hfin le_rfl (by omega)
  have hinit : initCashCol initCash lens (isGrouped lens) grp.2.1 = fin x := by
    rw [← hx, initCashCol, hng]
    have : ∀ l : List Nat, (∀ x ∈ l, x = 1) → l.length = l.sum := by
      intro l
      induction l with
      | nil => intro _; rfl
      | cons x l ih =>
        intro hx
        rw [List.length_cons, List.sum_cons, ih (fun y hy => hx y (List.mem_cons_of_mem _ hy)), hx x List.mem_cons_self]
        omega
    have := this l1 (fun y hy => hone y (by rw [hl]; exact List.mem_append_left _ hy))
    rw [h1, h2, this]; rfl
  rw [hinit] at hcf
  obtain ⟨cf', af', profit, cash, pos, e1, e2, e3, e4, e5, e6, -⟩ := C19_total_profit (orders := (S.proj sf).buf.orders)
    (junk := junk) (col := grp.2.1) (rows := rows) (init := x) (p := p) (fun o ho _ => hv o ho)
    ((IdsUp.of_range hw.orderIds).filter _) (fun o ho _ => by have := (hw.orderIn o ho).1; omega)
  rw [ec] at e1; cases e1
  rw [ea] at e2; cases e2
  refine ⟨cash, pos, hcf.symm.trans e3, haf.symm.trans e4, ?_⟩
  rw [e5, e6]

/-- **C19** for a simulated column (no cash sharing): total profit against the balances at the end of the run. -/
theorem C19_simulated {inp rows cols lens initCash mo ml sf grp s} {junk : Nat → Nat} {x p : ℚ}
    (h : simulateFromOrders (Arith.exact 0 0) inp (rows + 1) cols lens initCash mo ml = .ok sf)
    (hone : ∀ l ∈ lens, l = 1)
    (hs : AfterRow (Arith.exact 0 0) inp (rows + 1) lens (fun g => initCash.getD g nan)
      (initRecords (rows + 1) cols mo ml) grp rows s)
    (hcash : ∀ g ∈ layout lens, ∃ q, initCash.getD g.1 nan = fin q)
    (hv : ∀ o ∈ sf.buf.orders, Proper o) (hx : initCash.getD grp.1 nan = fin x) :
    ∃ c P : ℚ, s.cash = fin c ∧ s.position grp.2.1 = fin P ∧
      totalProfit (Arith.exact 0 0) sf.buf.orders junk (fin p) grp.2.1 = .ok (fin (c + P * p - x)) :=
  (ordersSim_simulated h (fun hg => by rw [not_grouped hone] at hg; cases hg) (fun _ _ => Or.inl ⟨rfl, rfl⟩)).profit hone hs
    hcash hv hx

/-- **C19** (from signals).  The same for both simulators from signals. -/
theorem C19_signals {inp cell rows cols lens initCash mo ml sf grp s} {junk : Nat → Nat} {x p : ℚ}
    (h : simulateSig (Arith.exact 0 0) inp cell (rows + 1) cols lens initCash mo ml = .ok sf)
    (hone : ∀ l ∈ lens, l = 1)
    (hs : SigAfterRow (Arith.exact 0 0) inp cell (rows + 1) lens (fun g => initCash.getD g nan)
      (initRecords (rows + 1) cols mo ml) grp rows s)
    (hcash : ∀ g ∈ layout lens, ∃ q, initCash.getD g.1 nan = fin q)
    (hv : ∀ o ∈ sf.sim.buf.orders, Proper o) (hx : initCash.getD grp.1 nan = fin x) :
    ∃ c P : ℚ, s.sim.cash = fin c ∧ s.sim.position grp.2.1 = fin P ∧
      totalProfit (Arith.exact 0 0) sf.sim.buf.orders junk (fin p) grp.2.1 = .ok (fin (c + P * p - x)) :=
  (sigSim_simulated h (fun hg => by rw [not_grouped hone] at hg; cases hg) (Or.inl ⟨rfl, rfl⟩)).profit hone hs hcash hv hx

/-- Non-vacuity: buy 3 at 10 (fees 1), sell 5 at 12 (fees 2) in column 1, close 11: profit is 5. -/
example : ∃ orders : List OrderRec, (∀ o ∈ orders, o.col = 1 → Proper o) ∧ (IdsUp (orders.filter fun o => o.col = 1)) ∧
    (∀ o ∈ orders, o.col = 1 → o.idx ≤ 4) ∧
    totalProfit (Arith.exact 0 0) orders (fun _ => 7) (fin 11) 1 = .ok (fin 5) := by
  refine ⟨[⟨0, 1, 0, fin 3, fin 10, fin 1, OrderSide.Buy⟩, ⟨1, 0, 2, nan, fin 1, fin 0, OrderSide.Buy⟩,
    ⟨2, 1, 3, fin 5, fin 12, fin 2, OrderSide.Sell⟩], ?_, ?_, ?_, by decide +kernel⟩
  · intro o ho hc
    simp only [List.mem_cons, List.not_mem_nil, or_false] at ho
    rcases ho with rfl | rfl | rfl
    · exact ⟨⟨3, 10, 1, rfl, rfl, rfl⟩, Or.inl rfl⟩
    · cases hc
    · exact ⟨⟨5, 12, 2, rfl, rfl, rfl⟩, Or.inr rfl⟩
  · unfold IdsUp; decide
  · decide

end Vbt
