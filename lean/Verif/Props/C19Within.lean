import Verif.Props.C18Within
import Verif.Props.C19

/-!
# C19 with tolerances

`total_profit_nb` and the series accumulate the same movements with `add_nb` but in different groupings, so with
tolerances they may differ by what `add_nb` swallows; the difference is bounded, and it does occur.
-/

namespace Vbt
open F

section
variable {r t : ℚ}

theorem Proper.numbers {o : OrderRec} (h : Proper o) : Numbers o := h.1

theorem totalProfitStep_ledger {s : ProfitState} {o : OrderRec} (h : Proper o) (hid : s.lastId ≤ o.id) :
    totalProfitStep (Arith.exact r t) s o =
      .ok (ProfitState.mk o.id (addNb (Arith.exact r t) s.assets (signedSize o))
        (addNb (Arith.exact r t) s.cash (orderFlow (Arith.exact r t) o))) := by
  obtain ⟨⟨z, p, f, h1, h2, h3⟩, hside⟩ := h
  unfold totalProfitStep
  rw [if_neg (by omega)]
  rcases hside with hb | hb
  · rw [if_pos hb]
    simp only [signedSize, orderFlow, hb, h1, h2, h3, mul_exact, add_exact, neg_fin]
    rw [if_neg (by decide)]
    simp only [neg_fin, mul_exact, sub_exact]
    congr 4; ring
  · rw [if_neg (by rw [hb]; decide)]
    simp only [signedSize, orderFlow, hb, h1, h2, h3, mul_exact, sub_exact, neg_fin, if_true, neg_neg]

theorem totalProfit_ledger {l : List OrderRec} {s : ProfitState} (h : ∀ o ∈ l, Proper o) (hid : IdsUp l)
    (hs : ∀ o ∈ l, s.lastId ≤ o.id) :
    ∃ s', loopE (totalProfitStep (Arith.exact r t)) s l = .ok s' ∧
      s'.assets = ledger (Arith.exact r t) s.assets (l.map signedSize) ∧
      s'.cash = ledger (Arith.exact r t) s.cash (l.map (orderFlow (Arith.exact r t))) := by
  induction l generalizing s with
  | nil => exact ⟨s, rfl, rfl, rfl⟩
  | cons o l ih =>
    obtain ⟨h1, h2⟩ := List.pairwise_cons.mp hid
    obtain ⟨s', e, e1, e2⟩ := ih (s := ProfitState.mk o.id (addNb (Arith.exact r t) s.assets (signedSize o))
        (addNb (Arith.exact r t) s.cash (orderFlow (Arith.exact r t) o)))
      (fun x hx => h x (List.mem_cons_of_mem _ hx)) h2 (fun x hx => by simpa using h1 x hx)
    refine ⟨s', ?_, ?_, ?_⟩
    · rw [loopE, totalProfitStep_ledger (h o List.mem_cons_self) (hs o List.mem_cons_self)]; exact e
    · rw [e1]; rfl
    · rw [e2]; rfl

/-- Total profit against the records of the column. -/
theorem C19_records_within (hr0 : 0 ≤ r) (hr : r < 1) (ht : 0 ≤ t) {orders : List OrderRec} {junk : Nat → Nat} {col : Nat}
    {p : ℚ} (hv : ∀ o ∈ orders, o.col = col → Proper o) (hid : IdsUp (orders.filter fun o => o.col = col)) :
    ∃ profit, totalProfit (Arith.exact r t) orders junk (fin p) col = .ok (fin profit) ∧
      |profit - (bookedCash (orders.filter fun o => o.col = col) + bookedPos (orders.filter fun o => o.col = col) * p)| ≤
        lost r t (cashVolume (orders.filter fun o => o.col = col)) (orders.filter fun o => o.col = col).length +
        lost r t (assetVolume (orders.filter fun o => o.col = col)) (orders.filter fun o => o.col = col).length * |p| := by
  have hn : ∀ o ∈ orders.filter (fun o => decide (o.col = col)), Proper o := fun o ho =>
    hv o (List.mem_of_mem_filter ho) (of_decide_eq_true (List.mem_filter.mp ho).2)
  obtain ⟨s', e, e1, e2⟩ := totalProfit_ledger (r := r) (t := t) (s := { lastId := -1, assets := zero, cash := zero })
    hn hid (fun o _ => by show (-1 : Int) ≤ _; omega)
  obtain ⟨a, ha, hab, -⟩ := flow_drift hr0 hr ht (l := orders.filter fun o => o.col = col) (g := signedSize)
    (fun o ho => (hn o ho).numbers.pos_flow)
  obtain ⟨c, hc, hcb, -⟩ := flow_drift hr0 hr ht (l := orders.filter fun o => o.col = col)
    (g := orderFlow (Arith.exact r t)) (fun o ho => (hn o ho).numbers.cash_flow)
  have key : totalProfit (Arith.exact r t) orders junk (fin p) col = .ok (fin (c + a * p)) := by
    unfold totalProfit
    simp only [columnRecords_eq, e, e1, e2]
    by_cases hl : orders.filter (fun o => decide (o.col = col)) = []
    · rw [hl] at ha hc
      simp only [List.map_nil, ledger, List.foldl_nil] at ha hc
      rw [← F.fin.inj ha, ← F.fin.inj hc, if_pos (by rw [hl]; rfl)]
      simp
    · rw [if_neg (by simpa using hl)]
      rw [show ledger (Arith.exact r t) zero _ = _ from ha, show ledger (Arith.exact r t) zero _ = _ from hc]
      simp
  refine ⟨_, key, ?_⟩
  have e3 : c + a * p - (bookedCash (orders.filter fun o => o.col = col) +
      bookedPos (orders.filter fun o => o.col = col) * p) =
      (c - bookedCash (orders.filter fun o => o.col = col)) + (a - bookedPos (orders.filter fun o => o.col = col)) * p := by
    ring
  rw [e3]
  refine (abs_add_le _ _).trans (add_le_add hcb ?_)
  rw [abs_mul]
  exact mul_le_mul_of_nonneg_right hab (abs_nonneg p)

/-- **C19** for all tolerances: total profit against the last row of the cash and assets series. -/
theorem C19_series_within (hr0 : 0 ≤ r) (hr : r < 1) (ht : 0 ≤ t) {orders : List OrderRec} {junk : Nat → Nat}
    {col rows : Nat} {init p : ℚ}
    (hv : ∀ o ∈ orders, o.col = col → Proper o) (hid : IdsUp (orders.filter fun o => o.col = col))
    (hrows : ∀ o ∈ orders, o.col = col → o.idx ≤ rows) :
    ∃ (cf af : Nat → F) (profit cash pos : ℚ),
      cashFlow (Arith.exact r t) false orders junk col = .ok cf ∧
      assetFlow (Arith.exact r t) Direction.Both orders junk col = .ok af ∧
      cashAt (Arith.exact r t) (fin init) cf rows = fin cash ∧
      assetsAt (Arith.exact r t) af rows = fin pos ∧
      totalProfit (Arith.exact r t) orders junk (fin p) col = .ok (fin profit) ∧
      |profit - (cash + pos * p - init)| ≤
        lost r t (3 * cashVolume (orders.filter fun o => o.col = col))
          (2 * (orders.filter fun o => o.col = col).length + rows + 1) +
        lost r t (3 * assetVolume (orders.filter fun o => o.col = col))
          (2 * (orders.filter fun o => o.col = col).length + rows + 1) * |p| := by
  have hall : ((orders.filter fun o => o.col = col).filter fun o => o.idx ≤ rows) =
      orders.filter fun o => o.col = col := by
    rw [List.filter_eq_self]
    intro o ho
    simpa using hrows o (List.mem_of_mem_filter ho) (of_decide_eq_true (List.mem_filter.mp ho).2)
  obtain ⟨profit, hp, hb⟩ := C19_records_within hr0 hr ht (junk := junk) (p := p) hv hid
  obtain ⟨cf, c, ecf, ec, hcb⟩ := cash_drift hr0 hr ht (junk := junk) (fun o ho h => (hv o ho h).numbers) hid init rows
  obtain ⟨af, a, eaf, ea, hab⟩ := assets_drift hr0 hr ht (junk := junk) (fun o ho h => (hv o ho h).numbers) hid rows
  rw [hall] at hcb hab
  refine ⟨cf, af, profit, c, a, ecf, eaf, ec, ea, hp, ?_⟩
  generalize orders.filter (fun o => decide (o.col = col)) = L at hb hcb hab
  have e3 : profit - (c + a * p - init) = (profit - (bookedCash L + bookedPos L * p)) -
      ((c - (init + bookedCash L)) + (a - bookedPos L) * p) := by ring
  rw [e3]
  refine (abs_sub _ _).trans ?_
  have h1 := (abs_add_le (c - (init + bookedCash L)) ((a - bookedPos L) * p))
  rw [abs_mul] at h1
  have h2 := mul_le_mul_of_nonneg_right hab (abs_nonneg p)
  have e4 : lost r t (3 * cashVolume L) (2 * L.length + rows + 1) =
      lost r t (cashVolume L) L.length + lost r t (2 * cashVolume L) (L.length + (rows + 1)) := by
    rw [lost_add]; congr 1; ring; omega
  have e5 : lost r t (3 * assetVolume L) (2 * L.length + rows + 1) =
      lost r t (assetVolume L) L.length + lost r t (2 * assetVolume L) (L.length + (rows + 1)) := by
    rw [lost_add]; congr 1; ring; omega
  rw [e4, e5, add_mul]
  linarith

/-- Total profit against the balances of the run that wrote the records. -/
theorem Finished.profit (hr0 : 0 ≤ r) (hr : r < 1) (ht : 0 ≤ t) {σ : Type} {S : Simulator σ}
    {rows cols lens initCash s00 sf grp s} {junk : Nat → Nat} {x p : ℚ}
    (h : Finished S r t (rows + 1) cols lens initCash s00 sf) (hone : ∀ l ∈ lens, l = 1)
    (hs : S.AfterRow (rows + 1) lens s00 grp rows s)
    (hcash : ∀ g ∈ layout lens, ∃ q, initCash.getD g.1 nan = fin q) (hx : initCash.getD grp.1 nan = fin x)
    (hv : ∀ o ∈ (S.proj sf).buf.orders, Proper o) :
    ∃ c P profit : ℚ, (S.proj s).cash = fin c ∧ (S.proj s).position grp.2.1 = fin P ∧
      totalProfit (Arith.exact r t) (S.proj sf).buf.orders junk (fin p) grp.2.1 = .ok (fin profit) ∧
      |profit - (c + P * p - x)| ≤
        lost r t (2 * cashVolume ((S.proj sf).buf.orders.filter fun o => o.col = grp.2.1))
          (3 * ((S.proj sf).buf.orders.filter fun o => o.col = grp.2.1).length + 1) +
        lost r t (2 * assetVolume ((S.proj sf).buf.orders.filter fun o => o.col = grp.2.1))
          (3 * ((S.proj sf).buf.orders.filter fun o => o.col = grp.2.1).length + 1) * |p| := by
  have hlen : grp.2.2 = 1 := by
    obtain ⟨pre, post, s0, hlay, -⟩ := hs
    obtain ⟨l1, l2, hl, -⟩ := layoutFrom_parts hlay
    exact hone _ (by rw [hl]; simp)
  have hall : ∀ l : List OrderRec, (∀ o ∈ l, o ∈ (S.proj sf).buf.orders) → l.filter (fun o => o.idx ≤ rows) = l := by
    intro l hl
    rw [List.filter_eq_self]
    intro o ho
    have := (h.wf.orderIn o (hl o ho)).1
    simp; omega
  obtain ⟨⟨c, hc, hcb⟩, hpos⟩ := h.balances hr0 hr ht hs hcash hx (fun o ho => (hv o ho).numbers)
  obtain ⟨P, hP, hPb⟩ := hpos grp.2.1 le_rfl (by omega)
  obtain ⟨profit, hp, hb⟩ := C19_records_within hr0 hr ht (junk := junk) (p := p) (col := grp.2.1)
    (fun o ho _ => hv o ho) ((IdsUp.of_range h.wf.orderIds).filter _)
  have e1 : colUpTo (S.proj sf).buf.orders grp.2.1 rows = (S.proj sf).buf.orders.filter fun o => o.col = grp.2.1 :=
    hall _ fun o ho => List.mem_of_mem_filter ho
  have e2 : groupUpTo (S.proj sf).buf.orders grp rows = (S.proj sf).buf.orders.filter fun o => o.col = grp.2.1 := by
    refine (hall _ fun o ho => List.mem_of_mem_filter ho).trans ?_
    apply List.filter_congr
    intro o _
    rw [hlen]
    by_cases hc : o.col = grp.2.1
    · simp [hc]
    · have : ¬ (grp.2.1 ≤ o.col ∧ o.col < grp.2.1 + 1) := by omega
      simp only [hc, this, decide_false]
  rw [e1] at hPb
  rw [e2] at hcb
  refine ⟨c, P, profit, hc, hP, hp, ?_⟩
  generalize (S.proj sf).buf.orders.filter (fun o => decide (o.col = grp.2.1)) = L at hb hcb hPb
  have e3 : profit - (c + P * p - x) = (profit - (bookedCash L + bookedPos L * p)) -
      ((c - (x + bookedCash L)) + (P - bookedPos L) * p) := by ring
  rw [e3]
  refine (abs_sub _ _).trans ?_
  have h1 := (abs_add_le (c - (x + bookedCash L)) ((P - bookedPos L) * p))
  rw [abs_mul] at h1
  have h2 := mul_le_mul_of_nonneg_right hPb (abs_nonneg p)
  have e4 : lost r t (2 * cashVolume L) (3 * L.length + 1) =
      lost r t (cashVolume L) L.length + lost r t (cashVolume L) (2 * L.length + 1) := by
    rw [lost_add]; congr 1; ring; omega
  have e5 : lost r t (2 * assetVolume L) (3 * L.length + 1) =
      lost r t (assetVolume L) L.length + lost r t (assetVolume L) (2 * L.length + 1) := by
    rw [lost_add]; congr 1; ring; omega
  rw [e4, e5, add_mul]
  linarith

/-- **C19** for a simulated column (no cash sharing), all tolerances. -/
theorem C19_simulated_within (hr0 : 0 ≤ r) (hr : r < 1) (ht : 0 ≤ t)
    {inp rows cols lens initCash mo ml sf grp s} {junk : Nat → Nat} {x p : ℚ}
    (h : simulateFromOrders (Arith.exact r t) inp (rows + 1) cols lens initCash mo ml = .ok sf)
    (hone : ∀ l ∈ lens, l = 1)
    (hs : AfterRow (Arith.exact r t) inp (rows + 1) lens (fun g => initCash.getD g nan)
      (initRecords (rows + 1) cols mo ml) grp rows s)
    (hcash : ∀ g ∈ layout lens, ∃ q, initCash.getD g.1 nan = fin q) (hx : initCash.getD grp.1 nan = fin x)
    (hv : ∀ o ∈ sf.buf.orders, Proper o) :
    ∃ c P profit : ℚ, s.cash = fin c ∧ s.position grp.2.1 = fin P ∧
      totalProfit (Arith.exact r t) sf.buf.orders junk (fin p) grp.2.1 = .ok (fin profit) ∧
      |profit - (c + P * p - x)| ≤
        lost r t (2 * cashVolume (sf.buf.orders.filter fun o => o.col = grp.2.1))
          (3 * (sf.buf.orders.filter fun o => o.col = grp.2.1).length + 1) +
        lost r t (2 * assetVolume (sf.buf.orders.filter fun o => o.col = grp.2.1))
          (3 * (sf.buf.orders.filter fun o => o.col = grp.2.1).length + 1) * |p| :=
  (ordersSim_finished h (fun hg => by rw [not_grouped hone] at hg; cases hg)).profit hr0 hr ht hone hs hcash hx hv

/-- **C19** (from signals), all tolerances. -/
theorem C19_signals_within (hr0 : 0 ≤ r) (hr : r < 1) (ht : 0 ≤ t)
    {inp cell rows cols lens initCash mo ml sf grp s} {junk : Nat → Nat} {x p : ℚ}
    (h : simulateSig (Arith.exact r t) inp cell (rows + 1) cols lens initCash mo ml = .ok sf)
    (hone : ∀ l ∈ lens, l = 1)
    (hs : SigAfterRow (Arith.exact r t) inp cell (rows + 1) lens (fun g => initCash.getD g nan)
      (initRecords (rows + 1) cols mo ml) grp rows s)
    (hcash : ∀ g ∈ layout lens, ∃ q, initCash.getD g.1 nan = fin q) (hx : initCash.getD grp.1 nan = fin x)
    (hv : ∀ o ∈ sf.sim.buf.orders, Proper o) :
    ∃ c P profit : ℚ, s.sim.cash = fin c ∧ s.sim.position grp.2.1 = fin P ∧
      totalProfit (Arith.exact r t) sf.sim.buf.orders junk (fin p) grp.2.1 = .ok (fin profit) ∧
      |profit - (c + P * p - x)| ≤
        lost r t (2 * cashVolume (sf.sim.buf.orders.filter fun o => o.col = grp.2.1))
          (3 * (sf.sim.buf.orders.filter fun o => o.col = grp.2.1).length + 1) +
        lost r t (2 * assetVolume (sf.sim.buf.orders.filter fun o => o.col = grp.2.1))
          (3 * (sf.sim.buf.orders.filter fun o => o.col = grp.2.1).length + 1) * |p| :=
  (sigSim_finished h (fun hg => by rw [not_grouped hone] at hg; cases hg)).profit hr0 hr ht hone hs hcash hx hv

/-- The cash series of any finite flows, all tolerances. -/
theorem C54_cash_within (hr0 : 0 ≤ r) (hr : r < 1) (ht : 0 ≤ t) {init : ℚ} {flow : Nat → F} {q : Nat → ℚ}
    (hf : ∀ j, flow j = fin (q j)) (i : Nat) :
    ∃ c, cashAt (Arith.exact r t) (fin init) flow i = fin c ∧
      |c - (init + ((List.range (i + 1)).map q).sum)| ≤ lost r t ((List.range (i + 1)).map fun j => |q j|).sum (i + 1) := by
  obtain ⟨c, e, b⟩ := cashAt_drift hr0 hr ht (flow := flow) (fun j => ⟨_, hf j⟩) init i
  refine ⟨c, e, ?_⟩
  simpa only [hf, F.val] using b

end

/-- With the tolerances of the code total profit need not be exactly final value minus initial cash: a buy for
99.99999995 out of 100 leaves no cash in the series (the rest of 5e-8 is swallowed), while total profit, which starts
from zero, books the full amount. -/
theorem C19_counterexample_tolerance : ∃ (orders : List OrderRec) (cf af : Nat → F) (cash pos profit : ℚ),
    (∀ o ∈ orders, Proper o) ∧ IdsUp (orders.filter fun o => o.col = 0) ∧
    cashFlow Arith.std false orders (fun _ => 0) 0 = .ok cf ∧
    assetFlow Arith.std Direction.Both orders (fun _ => 0) 0 = .ok af ∧
    cashAt Arith.std (fin 100) cf 0 = fin cash ∧ assetsAt Arith.std af 0 = fin pos ∧
    totalProfit Arith.std orders (fun _ => 0) (fin 1) 0 = .ok (fin profit) ∧
    profit = 5 / 100000000 ∧ cash + pos * 1 - 100 = 0 := by
  let orders := [OrderRec.mk 0 0 0 (fin 100) (fin (9999999995 / 10000000000)) (fin 0) OrderSide.Buy]
  obtain ⟨cf, h1, h1'⟩ := okAnd_iff (x := cashFlow Arith.std false orders (fun _ => 0) 0)
    (f := fun cf => decide (cashAt Arith.std (fin 100) cf 0 = fin 0)) (by decide +kernel)
  obtain ⟨af, h2, h2'⟩ := okAnd_iff (x := assetFlow Arith.std Direction.Both orders (fun _ => 0) 0)
    (f := fun af => decide (assetsAt Arith.std af 0 = fin 100)) (by decide +kernel)
  obtain ⟨v, h3, h3'⟩ := okAnd_iff (x := totalProfit Arith.std orders (fun _ => 0) (fin 1) 0)
    (f := fun v => decide (v = fin (5 / 100000000))) (by decide +kernel)
  refine ⟨orders, cf, af, 0, 100, 5 / 100000000, ?_, ?_, h1, h2, of_decide_eq_true h1', of_decide_eq_true h2',
    by rw [h3, of_decide_eq_true h3'], rfl, by norm_num⟩
  · intro o ho
    rw [List.mem_singleton.mp ho]
    exact ⟨⟨_, _, _, rfl, rfl, rfl⟩, Or.inl rfl⟩
  · unfold IdsUp; decide

/-- Non-vacuity of the simulated case with the real tolerances: buy and flip to short, the final state is reached and
all records are proper. -/
example : ∃ inp sf s, simulateFromOrders Arith.std inp 2 1 [1] [fin 100] none 0 = .ok sf ∧
    AfterRow Arith.std inp 2 [1] (fun g => [fin 100].getD g nan) (initRecords 2 1 none 0) (0, 0, 1) 1 s ∧
    (∀ o ∈ sf.buf.orders, Proper o) ∧ s.position 0 = fin (-4) ∧
    totalProfit Arith.std sf.buf.orders (fun _ => 0) (fin 11) 0 = .ok (fin (3 - 107 / 100)) := by
  let inp := { simpleInputs (fun i _ => if i = 0 then fin 3 else fin (-7))
    (fun i _ => fin (10 + i)) (fun _ _ => 0) false true with log := fun _ _ => false }
  obtain ⟨sf, h, hsf⟩ := okAnd_iff (x := simulateFromOrders Arith.std inp 2 1 [1] [fin 100] none 0)
    (f := fun s => okAnd (totalProfit Arith.std s.buf.orders (fun _ => 0) (fin 11) 0) fun v =>
      decide (s.buf.orders.map (fun o => (o.size, o.price, o.fees, o.side)) =
      [(fin 3, fin 10, fin (3/10), OrderSide.Buy), (fin 7, fin 11, fin (77/100), OrderSide.Sell)] ∧
        v = fin (3 - 107 / 100))) (by decide +kernel)
  obtain ⟨v, hv, hsf⟩ := okAnd_iff hsf
  obtain ⟨hrec, hval⟩ := of_decide_eq_true hsf
  obtain ⟨s, h1, hs1⟩ := okAnd_iff (x := loopE (simRow Arith.std inp false 0 0 1)
      { initState (initRecords 2 1 none 0) with cash := fin 100, free := fin 100 } (List.range 2))
    (f := fun s => decide (s.position 0 = fin (-4))) (by decide +kernel)
  refine ⟨inp, sf, s, h, ⟨[], [], _, rfl, rfl, by decide, h1⟩, ?_, of_decide_eq_true hs1, by rw [hv, hval]⟩
  intro o ho
  have hm : (o.size, o.price, o.fees, o.side) ∈ sf.buf.orders.map (fun o => (o.size, o.price, o.fees, o.side)) :=
    List.mem_map_of_mem ho
  rw [hrec] at hm
  simp only [List.mem_cons, List.not_mem_nil, or_false, Prod.mk.injEq] at hm
  rcases hm with ⟨a, b, c, d⟩ | ⟨a, b, c, d⟩
  · exact ⟨⟨_, _, _, a, b, c⟩, Or.inl d⟩
  · exact ⟨⟨_, _, _, a, b, c⟩, Or.inr d⟩

/-- Non-vacuity of the series bound: flows 1, -1 + 1e-13: the rest after the second row is swallowed. -/
example : cashAt Arith.std (fin 0) (fun j => if j = 0 then fin 1 else fin (-1 + 1 / 10000000000000)) 1 = fin 0 := by
  decide +kernel

end Vbt
