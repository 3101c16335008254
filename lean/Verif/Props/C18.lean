import Verif.Lemmas.Simulated
import Verif.Lemmas.SigSim
import Verif.Lemmas.SigWitness

/-!
# C18  Portfolio reconstruction agrees with the simulation

`assets` and `cash` recomputed from the order records of a finished run, against the position and the cash of the run
after each row.  For any tolerances the guard is `Visible`: `add_nb` swallows movements below the tolerances, and then
the two computations, which group the additions differently, may differ by the amount swallowed.  With zero tolerances
`Visible` only asks for finite records, and no guard on fees is needed.
-/

namespace Vbt
open F

/-- `s` is the state of a run from order arrays after row `i` of the group `grp`. -/
def AfterRow (A : Arith) (inp : Inputs) (rows : Nat) (lens : List Nat) (initCash : Nat → F) (b : Buffers)
    (grp : Nat × Nat × Nat) (i : Nat) (s : SimState) : Prop :=
  ∃ pre post s0, layout lens = pre ++ grp :: post ∧
    loopE (simGroup A inp (isGrouped lens) initCash rows) (initState b) pre = .ok s0 ∧ i < rows ∧
    loopE (simRow A inp (isGrouped lens) grp.1 grp.2.1 grp.2.2)
      { s0 with cash := initCash grp.1, free := initCash grp.1 } (List.range (i + 1)) = .ok s

/-- `s` is the state of a run from signals after row `i` of the group `grp`. -/
def SigAfterRow (A : Arith) (inp : SigInputs) (cell : CellFn) (rows : Nat) (lens : List Nat) (initCash : Nat → F)
    (b : Buffers) (grp : Nat × Nat × Nat) (i : Nat) (s : SigState) : Prop :=
  ∃ pre post s0, layout lens = pre ++ grp :: post ∧
    loopE (sigGroup A inp cell (isGrouped lens) initCash rows) { sim := initState b, stops := fun _ => Stops.none } pre =
      .ok s0 ∧ i < rows ∧
    loopE (sigRow A inp cell (isGrouped lens) grp.1 grp.2.1 grp.2.2)
      { s0 with sim := { s0.sim with cash := initCash grp.1, free := initCash grp.1 } } (List.range (i + 1)) = .ok s

/-- `simulate_from_orders_nb` as a column-major simulator. -/
def ordersSim (A : Arith) (inp : Inputs) (lens : List Nat) (initCash : Nat → F) : Simulator SimState :=
  { proj := id, start := fun s x => { s with cash := initCash x.1, free := initCash x.1 },
    row := fun x => simRow A inp (isGrouped lens) x.1 x.2.1 x.2.2 }

theorem simRow_path {A inp sharing g lo len s i s'} {G : Order → Prop} (hG : ∀ i c, G (orderAt inp i c))
    (h : simRow A inp sharing g lo len s i = .ok s') : RowPath A G lo (lo + len) i s s' := by
  unfold simRow at h
  simp only at h
  have h0 : RowPath A G lo (lo + len) i s { s with
      valPrice := rowValPrice inp i lo len s.valPrice,
      value := if sharing then groupValue A s.cash s.position (rowValPrice inp i lo len s.valPrice) lo len
        else s.value } := .tweak (.refl s) rfl rfl rfl rfl rfl rfl rfl
  refine loopE_inv (P := fun a => RowPath A G lo (lo + len) i s a) ?_ h0 h
  intro a slot a' hmem ha hc
  obtain ⟨hlt, hc⟩ := callSlot_inv hc
  obtain ⟨h1, h2⟩ := slotCol_mem (lo := lo) hmem hlt
  exact .call ha h1 h2 (hG _ _) hc

theorem ordersSim_ok {A inp lens initCash} {G : Order → Prop} (hG : ∀ i c, G (orderAt inp i c)) :
    (ordersSim A inp lens initCash).Ok A G initCash :=
  ⟨fun _ _ => ⟨rfl, rfl, rfl, rfl, rfl⟩, fun _ _ _ _ h => simRow_path hG h⟩

theorem ordersSim_simulated {r t : ℚ} {inp rows cols lens initCash mo ml sf}
    (h : simulateFromOrders (Arith.exact r t) inp rows cols lens initCash mo ml = .ok sf)
    (hseq : isGrouped lens = true → ∀ x ∈ layout lens, ∀ i < rows, CallSeqOk inp i x.2.1 x.2.2)
    (hfees : ∀ i c, FeesOk r t (orderAt inp i c)) :
    Simulated (ordersSim (Arith.exact r t) inp lens (fun g => initCash.getD g nan)) r t rows cols lens initCash
      (initState (initRecords rows cols mo ml)) sf :=
  ⟨ordersSim_ok hfees, rfl, fun _ => rfl, (simulateFromOrders_inv h).2.2.2, (C13_from_orders h hseq).1⟩

theorem sigSim_simulated {r t : ℚ} {inp cell rows cols lens initCash mo ml sf}
    (h : simulateSig (Arith.exact r t) inp cell rows cols lens initCash mo ml = .ok sf)
    (hseq : isGrouped lens = true → ∀ x ∈ layout lens, ∀ i < rows, SigSeqOk inp i x.2.1 x.2.2)
    (hfees : (r = 0 ∧ t = 0) ∨ ∀ i c φ, inp.fees i c = fin φ → 0 < 1 + φ) :
    Simulated (sigSimulator (Arith.exact r t) inp cell (isGrouped lens) (fun g => initCash.getD g nan)) r t rows cols lens
      initCash { sim := initState (initRecords rows cols mo ml), stops := fun _ => Stops.none } sf :=
  ⟨sigSimulator_ok (fun i c _ => hfees.imp id (fun h => h i c)), rfl, fun _ => rfl, (simulateSig_inv h).2.2.2,
    (C13_from_signals h hseq).1⟩

theorem not_grouped {lens : List Nat} (hone : ∀ l ∈ lens, l = 1) : isGrouped lens = false := by
  rw [isGrouped, List.any_eq_false]
  intro l hl
  rw [hone l hl]; decide

section
variable {r t : ℚ}

/-- **C18** (assets).  The position recomputed from the records is, in every row and column, the position held after
that row. -/
theorem C18_assets_partial (hr0 : 0 ≤ r) (hr : r < 1) (ht : 0 ≤ t) {inp rows cols lens initCash mo ml sf grp i s junk}
    (h : simulateFromOrders (Arith.exact r t) inp rows cols lens initCash mo ml = .ok sf)
    (hseq : isGrouped lens = true → ∀ x ∈ layout lens, ∀ i < rows, CallSeqOk inp i x.2.1 x.2.2)
    (hs : AfterRow (Arith.exact r t) inp rows lens (fun g => initCash.getD g nan) (initRecords rows cols mo ml) grp i s)
    (hfees : ∀ i c, FeesOk r t (orderAt inp i c))
    (hcash : ∀ x ∈ layout lens, Settled t (initCash.getD x.1 nan) ∧
      ((r = 0 ∧ t = 0) ∨ lt (initCash.getD x.1 nan) zero = false))
    (hv : ∀ o ∈ sf.buf.orders, Visible r t o) {c : Nat} (h1 : grp.2.1 ≤ c) (h2 : c < grp.2.1 + grp.2.2) :
    ∃ flow, assetFlow (Arith.exact r t) Direction.Both sf.buf.orders junk c = .ok flow ∧
      assetsAt (Arith.exact r t) flow i = s.position c :=
  (ordersSim_simulated h hseq hfees).assets hr0 hr ht hs hcash hv h1 h2

/-- **C18** (cash, without cash sharing).  The cash of a column recomputed from the records is, in every row, the cash
held after that row. -/
theorem C18_cash_partial (hr0 : 0 ≤ r) (hr : r < 1) (ht : 0 ≤ t) {inp rows cols lens initCash mo ml sf grp i s junk}
    (h : simulateFromOrders (Arith.exact r t) inp rows cols lens initCash mo ml = .ok sf)
    (hone : ∀ l ∈ lens, l = 1)
    (hs : AfterRow (Arith.exact r t) inp rows lens (fun g => initCash.getD g nan) (initRecords rows cols mo ml) grp i s)
    (hfees : ∀ i c, FeesOk r t (orderAt inp i c))
    (hcash : ∀ x ∈ layout lens, Settled t (initCash.getD x.1 nan) ∧
      ((r = 0 ∧ t = 0) ∨ lt (initCash.getD x.1 nan) zero = false))
    (hv : ∀ o ∈ sf.buf.orders, Visible r t o) :
    ∃ flow, cashFlow (Arith.exact r t) false sf.buf.orders junk grp.2.1 = .ok flow ∧
      cashAt (Arith.exact r t) (initCashCol initCash lens (isGrouped lens) grp.2.1) flow i = s.cash :=
  (ordersSim_simulated h (fun hg => by rw [not_grouped hone] at hg; cases hg) hfees).cash hr0 hr ht hone hs hcash hv

/-- **C18** (assets, from signals).  The same for both simulators from signals, with any hooks. -/
theorem C18_assets_signals_partial (hr0 : 0 ≤ r) (hr : r < 1) (ht : 0 ≤ t)
    {inp cell rows cols lens initCash mo ml sf grp i s junk}
    (h : simulateSig (Arith.exact r t) inp cell rows cols lens initCash mo ml = .ok sf)
    (hseq : isGrouped lens = true → ∀ x ∈ layout lens, ∀ i < rows, SigSeqOk inp i x.2.1 x.2.2)
    (hs : SigAfterRow (Arith.exact r t) inp cell rows lens (fun g => initCash.getD g nan) (initRecords rows cols mo ml)
      grp i s)
    (hfees : (r = 0 ∧ t = 0) ∨ ∀ i c φ, inp.fees i c = fin φ → 0 < 1 + φ)
    (hcash : ∀ x ∈ layout lens, Settled t (initCash.getD x.1 nan) ∧
      ((r = 0 ∧ t = 0) ∨ lt (initCash.getD x.1 nan) zero = false))
    (hv : ∀ o ∈ sf.sim.buf.orders, Visible r t o) {c : Nat} (h1 : grp.2.1 ≤ c) (h2 : c < grp.2.1 + grp.2.2) :
    ∃ flow, assetFlow (Arith.exact r t) Direction.Both sf.sim.buf.orders junk c = .ok flow ∧
      assetsAt (Arith.exact r t) flow i = s.sim.position c :=
  (sigSim_simulated h hseq hfees).assets hr0 hr ht hs hcash hv h1 h2

/-- **C18** (cash, without cash sharing, from signals). -/
theorem C18_cash_signals_partial (hr0 : 0 ≤ r) (hr : r < 1) (ht : 0 ≤ t)
    {inp cell rows cols lens initCash mo ml sf grp i s junk}
    (h : simulateSig (Arith.exact r t) inp cell rows cols lens initCash mo ml = .ok sf)
    (hone : ∀ l ∈ lens, l = 1)
    (hs : SigAfterRow (Arith.exact r t) inp cell rows lens (fun g => initCash.getD g nan) (initRecords rows cols mo ml)
      grp i s)
    (hfees : (r = 0 ∧ t = 0) ∨ ∀ i c φ, inp.fees i c = fin φ → 0 < 1 + φ)
    (hcash : ∀ x ∈ layout lens, Settled t (initCash.getD x.1 nan) ∧
      ((r = 0 ∧ t = 0) ∨ lt (initCash.getD x.1 nan) zero = false))
    (hv : ∀ o ∈ sf.sim.buf.orders, Visible r t o) :
    ∃ flow, cashFlow (Arith.exact r t) false sf.sim.buf.orders junk grp.2.1 = .ok flow ∧
      cashAt (Arith.exact r t) (initCashCol initCash lens (isGrouped lens) grp.2.1) flow i = s.sim.cash :=
  (sigSim_simulated h (fun hg => by rw [not_grouped hone] at hg; cases hg) hfees).cash hr0 hr ht hone hs hcash hv

end

/-- **C18** (cash of a group, zero tolerances).  The cash of a group of columns sharing cash, recomputed from the
grouped cash flow, is in every row the cash held after that row. -/
theorem C18_cash_grouped_partial {inp rows cols lens initCash mo ml sf grp i s} {junk : Nat → Nat}
    (h : simulateFromOrders (Arith.exact 0 0) inp rows cols lens initCash mo ml = .ok sf)
    (hseq : isGrouped lens = true → ∀ x ∈ layout lens, ∀ i < rows, CallSeqOk inp i x.2.1 x.2.2)
    (hs : AfterRow (Arith.exact 0 0) inp rows lens (fun g => initCash.getD g nan) (initRecords rows cols mo ml) grp i s)
    (hcash : ∀ x ∈ layout lens, ∃ q, initCash.getD x.1 nan = fin q)
    (hv : ∀ o ∈ sf.buf.orders, ∃ s p f : ℚ, o.size = fin s ∧ o.price = fin p ∧ o.fees = fin f) :
    ∃ flow : Nat → Nat → F,
      (∀ c, ∃ f, cashFlow (Arith.exact 0 0) false sf.buf.orders junk c = .ok f ∧ ∀ j, flow j c = f j) ∧
      cashAt (Arith.exact 0 0) (initCash.getD grp.1 nan)
        (fun j => sumGrouped (Arith.exact 0 0) flow grp.2.1 grp.2.2 j) i = s.cash :=
  (ordersSim_simulated h hseq (fun _ _ => Or.inl ⟨rfl, rfl⟩)).cashGrouped hs hcash hv

/-- **C18** (cash of a group, zero tolerances, from signals). -/
theorem C18_cash_grouped_signals_partial {inp cell rows cols lens initCash mo ml sf grp i s} {junk : Nat → Nat}
    (h : simulateSig (Arith.exact 0 0) inp cell rows cols lens initCash mo ml = .ok sf)
    (hseq : isGrouped lens = true → ∀ x ∈ layout lens, ∀ i < rows, SigSeqOk inp i x.2.1 x.2.2)
    (hs : SigAfterRow (Arith.exact 0 0) inp cell rows lens (fun g => initCash.getD g nan) (initRecords rows cols mo ml)
      grp i s)
    (hcash : ∀ x ∈ layout lens, ∃ q, initCash.getD x.1 nan = fin q)
    (hv : ∀ o ∈ sf.sim.buf.orders, ∃ s p f : ℚ, o.size = fin s ∧ o.price = fin p ∧ o.fees = fin f) :
    ∃ flow : Nat → Nat → F,
      (∀ c, ∃ f, cashFlow (Arith.exact 0 0) false sf.sim.buf.orders junk c = .ok f ∧ ∀ j, flow j c = f j) ∧
      cashAt (Arith.exact 0 0) (initCash.getD grp.1 nan)
        (fun j => sumGrouped (Arith.exact 0 0) flow grp.2.1 grp.2.2 j) i = s.sim.cash :=
  (sigSim_simulated h hseq (Or.inl ⟨rfl, rfl⟩)).cashGrouped hs hcash hv

/-- Why the guard: with the real tolerances a cash-limited buy of 5e-13 after a buy of 1 changes the position but is
swallowed by the asset flow. -/
theorem C18_counterexample_tolerance : ∃ inp sf flow,
    simulateFromOrders Arith.std inp 2 1 [1] [fin (3/2)] none 0 = .ok sf ∧
    assetFlow Arith.std Direction.Both sf.buf.orders (fun _ => 0) 0 = .ok flow ∧
    sf.position 0 = fin (1 + 5 / 10000000000000) ∧ assetsAt Arith.std flow 1 = fin 1 := by
  let inp := { simpleInputs (fun i _ => if i = 0 then fin 1 else pinf)
    (fun i _ => if i = 0 then fin 1 else fin 1000000000000) (fun _ _ => 0) false true with
      log := fun _ _ => false, fees := fun _ _ => fin 0 }
  obtain ⟨sf, h, hsf⟩ := okAnd_iff (x := simulateFromOrders Arith.std inp 2 1 [1] [fin (3/2)] none 0)
    (f := fun s => okAnd (assetFlow Arith.std Direction.Both s.buf.orders (fun _ => 0) 0) fun flow =>
      decide (s.position 0 = fin (1 + 5 / 10000000000000) ∧ assetsAt Arith.std flow 1 = fin 1)) (by decide +kernel)
  obtain ⟨flow, h1, hf⟩ := okAnd_iff hsf
  exact ⟨inp, sf, flow, h, h1, of_decide_eq_true hf⟩

/-- Non-vacuity: with the real tolerances two columns without cash sharing; the first goes long and then flips to
short, the second trades once.  All records are visible and the state after row 0 is reached. -/
example : ∃ inp sf s, simulateFromOrders Arith.std inp 2 2 [1, 1] [fin 100, fin 50] none 0 = .ok sf ∧
    AfterRow Arith.std inp 2 [1, 1] (fun g => [fin 100, fin 50].getD g nan) (initRecords 2 2 none 0) (0, 0, 1) 0 s ∧
    (∀ o ∈ sf.buf.orders, Visible (1 / 1000000000) (1 / 1000000000000) o) ∧ sf.buf.orders.length = 3 ∧
    s.position 0 = fin 3 ∧ sf.position 0 = fin (-4) ∧ s.cash = fin (100 - 3 * 10 * (101 / 100)) := by
  let inp := { simpleInputs (fun i c => if c = 1 ∧ i = 0 then fin 0 else if i = 0 then fin 3 else fin (-7))
    (fun i _ => fin (10 + i)) (fun _ _ => 0) false true with log := fun _ _ => false }
  obtain ⟨sf, h, hsf⟩ := okAnd_iff (x := simulateFromOrders Arith.std inp 2 2 [1, 1] [fin 100, fin 50] none 0)
    (f := fun s => decide (s.buf.orders.map (fun o => (o.size, o.price, o.fees, o.side)) =
      [(fin 3, fin 10, fin (3/10), OrderSide.Buy), (fin 7, fin 11, fin (77/100), OrderSide.Sell),
       (fin 7, fin 11, fin (77/100), OrderSide.Sell)] ∧ s.position 0 = fin (-4)))
    (by decide +kernel)
  obtain ⟨s, h1, hs1⟩ := okAnd_iff (x := loopE (simRow Arith.std inp false 0 0 1)
      { initState (initRecords 2 2 none 0) with cash := fin 100, free := fin 100 } (List.range 1))
    (f := fun s => decide (s.position 0 = fin 3 ∧ s.cash = fin (100 - 3 * 10 * (101 / 100)))) (by decide +kernel)
  obtain ⟨hrec, hpos⟩ := of_decide_eq_true hsf
  obtain ⟨hp1, hc1⟩ := of_decide_eq_true hs1
  refine ⟨inp, sf, s, h, ⟨[], [(1, 1, 1)], _, rfl, rfl, by decide, h1⟩, ?_, ?_, hp1, hpos, hc1⟩
  · intro o ho
    have hm : (o.size, o.price, o.fees, o.side) ∈ sf.buf.orders.map (fun o => (o.size, o.price, o.fees, o.side)) :=
      List.mem_map_of_mem ho
    rw [hrec] at hm
    simp only [List.mem_cons, List.not_mem_nil, or_false, Prod.mk.injEq] at hm
    rcases hm with ⟨a, b, c, d⟩ | ⟨a, b, c, d⟩ | ⟨a, b, c, d⟩
    · refine ⟨3, 10, 3/10, a, b, c, Or.inr (by norm_num), Or.inr ?_⟩
      rw [d]; norm_num [moved, OrderSide.Buy, OrderSide.Sell]
    all_goals
      refine ⟨7, 11, 77/100, a, b, c, Or.inr (by norm_num), Or.inr ?_⟩
      rw [d]; norm_num [moved, OrderSide.Buy, OrderSide.Sell]
  · have := congrArg List.length hrec
    simpa using this

/-- Non-vacuity from signals: enter in row 0, stopped out in row 2; the state after row 1 is reached. -/
example : ∃ sf s, simulateSig Arith.std wSig (arrayCell Arith.std wSig wArr) 4 1 [1] [fin 100] none 0 = .ok sf ∧
    SigAfterRow Arith.std wSig (arrayCell Arith.std wSig wArr) 4 [1] (fun g => [fin 100].getD g nan)
      (initRecords 4 1 none 0) (0, 0, 1) 1 s ∧
    (∀ i c φ, wSig.fees i c = fin φ → 0 < 1 + φ) ∧
    (∀ o ∈ sf.sim.buf.orders, Visible (1 / 1000000000) (1 / 1000000000000) o) ∧
    s.sim.position 0 = fin 2 ∧ s.sim.cash = fin 80 ∧ sf.sim.position 0 = fin 0 := by
  obtain ⟨sf, h, hsf⟩ := okAnd_iff
    (x := simulateSig Arith.std wSig (arrayCell Arith.std wSig wArr) 4 1 [1] [fin 100] none 0)
    (f := fun s => decide (s.sim.buf.orders.map (fun o => (o.size, o.price, o.fees, o.side)) =
      [(fin 2, fin 10, fin 0, OrderSide.Buy), (fin 2, fin 9, fin 0, OrderSide.Sell)] ∧ s.sim.position 0 = fin 0))
    (by decide +kernel)
  obtain ⟨s, h1, hs1⟩ := okAnd_iff (x := loopE (sigRow Arith.std wSig (arrayCell Arith.std wSig wArr) false 0 0 1)
      { sim := { initState (initRecords 4 1 none 0) with cash := fin 100, free := fin 100 }, stops := fun _ => Stops.none }
      (List.range 2))
    (f := fun s => decide (s.sim.position 0 = fin 2 ∧ s.sim.cash = fin 80)) (by decide +kernel)
  obtain ⟨hrec, hpos⟩ := of_decide_eq_true hsf
  obtain ⟨hp1, hc1⟩ := of_decide_eq_true hs1
  refine ⟨sf, s, h, ⟨[], [], _, rfl, rfl, by decide, h1⟩, ?_, ?_, hp1, hc1, hpos⟩
  · intro i c φ hφ
    have : φ = 0 := by cases hφ; rfl
    rw [this]; norm_num
  · intro o ho
    have hm : (o.size, o.price, o.fees, o.side) ∈ sf.sim.buf.orders.map (fun o => (o.size, o.price, o.fees, o.side)) :=
      List.mem_map_of_mem ho
    rw [hrec] at hm
    simp only [List.mem_cons, List.not_mem_nil, or_false, Prod.mk.injEq] at hm
    rcases hm with ⟨a, b, c, d⟩ | ⟨a, b, c, d⟩
    · refine ⟨2, 10, 0, a, b, c, Or.inr (by norm_num), Or.inr ?_⟩
      rw [d]; norm_num [moved, OrderSide.Buy, OrderSide.Sell]
    · refine ⟨2, 9, 0, a, b, c, Or.inr (by norm_num), Or.inr ?_⟩
      rw [d]; norm_num [moved, OrderSide.Buy, OrderSide.Sell]

end Vbt
