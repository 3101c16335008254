import Verif.Lemmas.FreeCash
import Verif.Props.C18

/-!
# C71  Debt and free cash are those of a margin account

The specification is `Account` (Spec/Account): proceeds of shares sold short are debt, as much again is locked, buying
back releases debt at the average price.  After each row of a simulation the position, the debt and the free cash are
those of the account of the order records so far, and `cash(free=True)` recomputed from the records gives the same free
cash.  All with zero tolerances.  A record of size zero (see C06) is left out by the reconstruction even if it paid
fees, so sizes are assumed to be positive.
-/

namespace Vbt
open F

section
variable {σ : Type} {S : Simulator σ}

theorem filter_and_comm (l : List OrderRec) (p q : OrderRec → Bool) :
    (l.filter fun o => p o && q o) = (l.filter p).filter q := by
  rw [List.filter_filter]
  apply List.filter_congr
  intro o _
  exact Bool.and_comm _ _

/-- Any column-major simulator: the balances after row `i` are those of the accounts of the final records up to row
`i`. -/
theorem Simulated.accounts {rows cols lens initCash s00 sf grp i s} {q : ℚ}
    (h : Simulated S 0 0 rows cols lens initCash s00 sf) (hdebt : ∀ c, (S.proj s00).debt c = zero)
    (hs : S.AfterRow rows lens s00 grp i s)
    (hcash : ∀ x ∈ layout lens, ∃ q, initCash.getD x.1 nan = fin q) (hq : initCash.getD grp.1 nan = fin q)
    (hv : ∀ o ∈ (S.proj sf).buf.orders, Sized o) :
    (∀ c, grp.2.1 ≤ c → c < grp.2.1 + grp.2.2 →
      (S.proj s).position c = fin (accountOf (((S.proj sf).buf.orders.filter fun o => o.col = c).filter
        fun o => o.idx ≤ i)).position ∧
      (S.proj s).debt c = fin (accountOf (((S.proj sf).buf.orders.filter fun o => o.col = c).filter
        fun o => o.idx ≤ i)).debt) ∧
    (S.proj s).free = fin (q + ((List.range grp.2.2).map fun k => (accountOf
      (((S.proj sf).buf.orders.filter fun o => o.col = grp.2.1 + k).filter fun o => o.idx ≤ i)).flow).sum) := by
  have hacc := h.ok.afterRow_accounted hcash hq h.buf h.pos hdebt hs h.run hv
  have hat : ∀ c, grp.2.1 ≤ c → c < grp.2.1 + grp.2.2 → colOrders (S.proj s) c =
      ((S.proj sf).buf.orders.filter fun o => o.col = c).filter fun o => o.idx ≤ i := by
    intro c h1 h2
    have := (h.ok.orders_at h.buf hs h.run).1 (fun o => decide (o.col = c)) (fun o ho => by
      have := of_decide_eq_true ho; omega)
    rw [filter_and_comm] at this
    exact this.symm
  refine ⟨fun c h1 h2 => ?_, ?_⟩
  · rw [← hat c h1 h2]; exact hacc.col c
  · rw [hacc.free]
    congr 3
    refine List.map_congr_left fun k hk => ?_
    have := List.mem_range.mp hk
    rw [hat _ (by omega) (by omega)]

theorem sum_swap (f : Nat → Nat → ℚ) (n m : Nat) :
    ((List.range n).map fun j => ((List.range m).map fun k => f j k).sum).sum =
      ((List.range m).map fun k => ((List.range n).map fun j => f j k).sum).sum := by
  induction n with
  | zero => simp
  | succ n ih =>
    simp only [List.range_succ, List.map_append, List.sum_append, List.map_cons, List.map_nil, List.sum_cons,
      List.sum_nil, add_zero, ih]
    rw [List.sum_map_add]

/-- Free cash changes by the cash paid or received less twice the change of debt. -/
theorem account_flow (l : List OrderRec) (hl : ∀ o ∈ l, Sized o) (a : Account) :
    (accountFrom a l).flow + 2 * (accountFrom a l).debt =
      a.flow + 2 * a.debt + (l.map fun o => (orderFlow (Arith.exact 0 0) o).toQ).sum := by
  induction l generalizing a with
  | nil => simp [accountFrom]
  | cons o l ih =>
    obtain ⟨s, p, f, h1, h2, h3, -⟩ := hl o List.mem_cons_self
    have := ih (fun x hx => hl x (List.mem_cons_of_mem _ hx)) (a.book o.side o.size.val o.price.val o.fees.val)
    rw [accountFrom, List.foldl_cons, ← accountFrom, this, List.map_cons, List.sum_cons]
    have hb : (a.book o.side o.size.val o.price.val o.fees.val).flow +
        2 * (a.book o.side o.size.val o.price.val o.fees.val).debt =
        a.flow + 2 * a.debt + (orderFlow (Arith.exact 0 0) o).toQ := by
      unfold Account.book orderFlow signedSize
      by_cases hsd : o.side = OrderSide.Sell
      · rw [if_pos hsd, if_pos hsd]
        simp only [h1, h2, h3, F.val, neg_fin, mul_exact, sub_exact, F.toQ]
        ring
      · rw [if_neg hsd, if_neg hsd]
        simp only [h1, h2, h3, F.val, neg_fin, mul_exact, sub_exact, F.toQ]
        ring
    rw [hb]; ring

/-- Any column-major simulator: free cash of a group, recomputed from the free cash flows of its columns. -/
theorem Simulated.freeCash {rows cols lens initCash s00 sf grp i s} {junk : Nat → Nat}
    (h : Simulated S 0 0 rows cols lens initCash s00 sf) (hdebt : ∀ c, (S.proj s00).debt c = zero)
    (hs : S.AfterRow rows lens s00 grp i s)
    (hcash : ∀ x ∈ layout lens, ∃ q, initCash.getD x.1 nan = fin q)
    (hv : ∀ o ∈ (S.proj sf).buf.orders, Sized o) :
    ∃ flow : Nat → Nat → F,
      (∀ c, ∃ f, cashFlow (Arith.exact 0 0) true (S.proj sf).buf.orders junk c = .ok f ∧ ∀ j, flow j c = f j) ∧
      cashAt (Arith.exact 0 0) (initCash.getD grp.1 nan)
        (fun j => sumGrouped (Arith.exact 0 0) flow grp.2.1 grp.2.2 j) i = (S.proj s).free ∧
      (grp.2.2 = 1 → cashAt (Arith.exact 0 0) (initCash.getD grp.1 nan) (fun j => flow j grp.2.1) i =
        (S.proj s).free) := by
  have hgm : grp ∈ layout lens := by
    obtain ⟨pre, post, s0, hlay, -⟩ := hs
    rw [hlay]; simp
  obtain ⟨q, hq⟩ := hcash grp hgm
  have hw := h.wf
  have hup : ∀ c, RowsUp ((S.proj sf).buf.orders.filter fun o => o.col = c) := by
    intro c
    have := hw.orderRows.filter (fun o => decide (o.col = c))
    refine List.Pairwise.imp_of_mem ?_ this
    intro a b ha hb hab
    exact hab ((of_decide_eq_true (List.mem_filter.mp ha).2).trans (of_decide_eq_true (List.mem_filter.mp hb).2).symm)
  choose f e hfin hf using fun c => freeFlow_account (orders := (S.proj sf).buf.orders) (junk := junk) (c := c)
    ((IdsUp.of_range hw.orderIds).filter _) (hup c) hv
  refine ⟨fun j c => f c j, fun c => ⟨f c, e c, fun _ => rfl⟩, ?_, fun h1 => ?_⟩
  · have hsg : ∀ j, sumGrouped (Arith.exact 0 0) (fun j c => f c j) grp.2.1 grp.2.2 j =
        fin (((List.range grp.2.2).map fun k => (f (grp.2.1 + k) j).toQ).sum) := by
      intro j
      rw [sumGrouped, npSum_fin (fun k _ => hfin _ j)]
    rw [(h.accounts hdebt hs hcash hq hv).2, hq, cashAt_sum (fun j => ⟨_, hsg j⟩)]
    simp only [hsg, F.toQ]
    rw [sum_swap]
    congr 3
    exact List.map_congr_left fun k _ => hf (grp.2.1 + k) i
  · rw [(h.accounts hdebt hs hcash hq hv).2, hq, cashAt_sum (fun j => hfin _ j), h1]
    congr 2
    simp only [List.range_one, List.map_cons, List.map_nil, List.sum_cons, List.sum_nil, add_zero]
    exact hf grp.2.1 i

theorem sum_map_sub_two {α : Type} (l : List α) (f g : α → ℚ) :
    (l.map fun k => f k - 2 * g k).sum = (l.map f).sum - 2 * (l.map g).sum := by
  induction l with
  | nil => simp
  | cons a l ih => simp only [List.map_cons, List.sum_cons, ih]; ring

/-- Any column-major simulator: free cash is cash less twice the debts of the group. -/
theorem Simulated.freeIsCash {rows cols lens initCash s00 sf grp i s}
    (h : Simulated S 0 0 rows cols lens initCash s00 sf) (hdebt : ∀ c, (S.proj s00).debt c = zero)
    (hs : S.AfterRow rows lens s00 grp i s)
    (hcash : ∀ x ∈ layout lens, ∃ q, initCash.getD x.1 nan = fin q)
    (hv : ∀ o ∈ (S.proj sf).buf.orders, Sized o) :
    ∃ (cash : ℚ) (debt : Nat → ℚ), (S.proj s).cash = fin cash ∧
      (∀ c, grp.2.1 ≤ c → c < grp.2.1 + grp.2.2 → (S.proj s).debt c = fin (debt c)) ∧
      (S.proj s).free = fin (cash - 2 * ((List.range grp.2.2).map fun k => debt (grp.2.1 + k)).sum) := by
  have hgm : grp ∈ layout lens := by
    obtain ⟨pre, post, s0, hlay, -⟩ := hs
    rw [hlay]; simp
  obtain ⟨q, hq⟩ := hcash grp hgm
  have hvis : ∀ o ∈ (S.proj sf).buf.orders, Visible 0 0 o := by
    intro o ho
    obtain ⟨s, p, f, h1, h2, h3, h4⟩ := hv o ho
    refine ⟨s, p, f, h1, h2, h3, Or.inr (abs_pos.mpr h4.ne'), ?_⟩
    by_cases h : -(moved o.side s) * p - f = 0
    · exact Or.inl h
    · right; rw [zero_mul, max_self]; exact abs_pos.mpr h
  have hfl : ∀ o ∈ (S.proj sf).buf.orders, ∃ q, orderFlow (Arith.exact 0 0) o = fin q := by
    intro o ho
    obtain ⟨d, q, -, h2, -⟩ := (hvis o ho).flows
    exact ⟨q, h2⟩
  have hc := (h.ledgers le_rfl (by norm_num) le_rfl hs
    (fun y hy => ⟨by
      obtain ⟨q, hq⟩ := hcash y hy
      refine ⟨q, hq, ?_⟩
      by_cases h0 : q = 0
      · exact Or.inl h0
      · exact Or.inr (abs_pos.mpr h0), Or.inl ⟨rfl, rfl⟩⟩) hvis).2
  rw [hq, ledger_sum (fun o ho => hfl o (List.mem_of_mem_filter (List.mem_of_mem_filter ho))), ← sum_columns] at hc
  obtain ⟨ha, hf⟩ := h.accounts hdebt hs hcash hq hv
  refine ⟨_, fun c => (accountOf (((S.proj sf).buf.orders.filter fun o => o.col = c).filter fun o => o.idx ≤ i)).debt,
    hc, fun c h1 h2 => (ha c h1 h2).2, ?_⟩
  rw [hf]
  congr 1
  rw [add_sub_assoc]
  congr 1
  have hk : ∀ k, (accountOf (((S.proj sf).buf.orders.filter fun o => o.col = grp.2.1 + k).filter
      fun o => o.idx ≤ i)).flow =
      ((((S.proj sf).buf.orders.filter fun o => o.col = grp.2.1 + k).filter fun o => o.idx ≤ i).map
        fun o => (orderFlow (Arith.exact 0 0) o).toQ).sum -
      2 * (accountOf (((S.proj sf).buf.orders.filter fun o => o.col = grp.2.1 + k).filter fun o => o.idx ≤ i)).debt := by
    intro k
    have := account_flow (((S.proj sf).buf.orders.filter fun o => o.col = grp.2.1 + k).filter fun o => o.idx ≤ i)
      (fun o ho => hv o (List.mem_of_mem_filter (List.mem_of_mem_filter ho))) ⟨0, 0, 0⟩
    unfold accountOf
    simp only at this
    linarith
  simp only [hk]
  exact sum_map_sub_two _ _ _

end

/-- **C71** (accounts, from orders, zero tolerances). -/
theorem C71_accounts_partial {inp rows cols lens initCash mo ml sf grp i s} {q : ℚ}
    (h : simulateFromOrders (Arith.exact 0 0) inp rows cols lens initCash mo ml = .ok sf)
    (hseq : isGrouped lens = true → ∀ x ∈ layout lens, ∀ i < rows, CallSeqOk inp i x.2.1 x.2.2)
    (hs : AfterRow (Arith.exact 0 0) inp rows lens (fun g => initCash.getD g nan) (initRecords rows cols mo ml) grp i s)
    (hcash : ∀ x ∈ layout lens, ∃ q, initCash.getD x.1 nan = fin q) (hq : initCash.getD grp.1 nan = fin q)
    (hv : ∀ o ∈ sf.buf.orders, Sized o) :
    (∀ c, grp.2.1 ≤ c → c < grp.2.1 + grp.2.2 →
      s.position c = fin (accountOf ((sf.buf.orders.filter fun o => o.col = c).filter fun o => o.idx ≤ i)).position ∧
      s.debt c = fin (accountOf ((sf.buf.orders.filter fun o => o.col = c).filter fun o => o.idx ≤ i)).debt) ∧
    s.free = fin (q + ((List.range grp.2.2).map fun k => (accountOf
      ((sf.buf.orders.filter fun o => o.col = grp.2.1 + k).filter fun o => o.idx ≤ i)).flow).sum) :=
  (ordersSim_simulated h hseq (fun _ _ => Or.inl ⟨rfl, rfl⟩)).accounts (fun _ => rfl) hs hcash hq hv

/-- **C71** (free cash recomputed from the records, from orders, zero tolerances), with and without cash sharing. -/
theorem C71_free_cash_partial {inp rows cols lens initCash mo ml sf grp i s} {junk : Nat → Nat}
    (h : simulateFromOrders (Arith.exact 0 0) inp rows cols lens initCash mo ml = .ok sf)
    (hseq : isGrouped lens = true → ∀ x ∈ layout lens, ∀ i < rows, CallSeqOk inp i x.2.1 x.2.2)
    (hs : AfterRow (Arith.exact 0 0) inp rows lens (fun g => initCash.getD g nan) (initRecords rows cols mo ml) grp i s)
    (hcash : ∀ x ∈ layout lens, ∃ q, initCash.getD x.1 nan = fin q) (hv : ∀ o ∈ sf.buf.orders, Sized o) :
    ∃ flow : Nat → Nat → F,
      (∀ c, ∃ f, cashFlow (Arith.exact 0 0) true sf.buf.orders junk c = .ok f ∧ ∀ j, flow j c = f j) ∧
      cashAt (Arith.exact 0 0) (initCash.getD grp.1 nan)
        (fun j => sumGrouped (Arith.exact 0 0) flow grp.2.1 grp.2.2 j) i = s.free ∧
      (grp.2.2 = 1 → cashAt (Arith.exact 0 0) (initCash.getD grp.1 nan) (fun j => flow j grp.2.1) i = s.free) :=
  (ordersSim_simulated h hseq (fun _ _ => Or.inl ⟨rfl, rfl⟩)).freeCash (fun _ => rfl) hs hcash hv

/-- **C71** (accounts, from signals, zero tolerances), with any stops and hooks. -/
theorem C71_accounts_signals_partial {inp cell rows cols lens initCash mo ml sf grp i s} {q : ℚ}
    (h : simulateSig (Arith.exact 0 0) inp cell rows cols lens initCash mo ml = .ok sf)
    (hseq : isGrouped lens = true → ∀ x ∈ layout lens, ∀ i < rows, SigSeqOk inp i x.2.1 x.2.2)
    (hs : SigAfterRow (Arith.exact 0 0) inp cell rows lens (fun g => initCash.getD g nan) (initRecords rows cols mo ml)
      grp i s)
    (hcash : ∀ x ∈ layout lens, ∃ q, initCash.getD x.1 nan = fin q) (hq : initCash.getD grp.1 nan = fin q)
    (hv : ∀ o ∈ sf.sim.buf.orders, Sized o) :
    (∀ c, grp.2.1 ≤ c → c < grp.2.1 + grp.2.2 →
      s.sim.position c =
        fin (accountOf ((sf.sim.buf.orders.filter fun o => o.col = c).filter fun o => o.idx ≤ i)).position ∧
      s.sim.debt c = fin (accountOf ((sf.sim.buf.orders.filter fun o => o.col = c).filter fun o => o.idx ≤ i)).debt) ∧
    s.sim.free = fin (q + ((List.range grp.2.2).map fun k => (accountOf
      ((sf.sim.buf.orders.filter fun o => o.col = grp.2.1 + k).filter fun o => o.idx ≤ i)).flow).sum) :=
  (sigSim_simulated h hseq (Or.inl ⟨rfl, rfl⟩)).accounts (fun _ => rfl) hs hcash hq hv

/-- **C71** (free cash recomputed from the records, from signals, zero tolerances). -/
theorem C71_free_cash_signals_partial {inp cell rows cols lens initCash mo ml sf grp i s} {junk : Nat → Nat}
    (h : simulateSig (Arith.exact 0 0) inp cell rows cols lens initCash mo ml = .ok sf)
    (hseq : isGrouped lens = true → ∀ x ∈ layout lens, ∀ i < rows, SigSeqOk inp i x.2.1 x.2.2)
    (hs : SigAfterRow (Arith.exact 0 0) inp cell rows lens (fun g => initCash.getD g nan) (initRecords rows cols mo ml)
      grp i s)
    (hcash : ∀ x ∈ layout lens, ∃ q, initCash.getD x.1 nan = fin q) (hv : ∀ o ∈ sf.sim.buf.orders, Sized o) :
    ∃ flow : Nat → Nat → F,
      (∀ c, ∃ f, cashFlow (Arith.exact 0 0) true sf.sim.buf.orders junk c = .ok f ∧ ∀ j, flow j c = f j) ∧
      cashAt (Arith.exact 0 0) (initCash.getD grp.1 nan)
        (fun j => sumGrouped (Arith.exact 0 0) flow grp.2.1 grp.2.2 j) i = s.sim.free ∧
      (grp.2.2 = 1 → cashAt (Arith.exact 0 0) (initCash.getD grp.1 nan) (fun j => flow j grp.2.1) i = s.sim.free) :=
  (sigSim_simulated h hseq (Or.inl ⟨rfl, rfl⟩)).freeCash (fun _ => rfl) hs hcash hv

/-- **C71** (free cash and debt, zero tolerances): at the end of every row free cash is cash less twice the debts of the
group, the shares owed and as much again as collateral. -/
theorem C71_collateral_partial {inp rows cols lens initCash mo ml sf grp i s}
    (h : simulateFromOrders (Arith.exact 0 0) inp rows cols lens initCash mo ml = .ok sf)
    (hseq : isGrouped lens = true → ∀ x ∈ layout lens, ∀ i < rows, CallSeqOk inp i x.2.1 x.2.2)
    (hs : AfterRow (Arith.exact 0 0) inp rows lens (fun g => initCash.getD g nan) (initRecords rows cols mo ml) grp i s)
    (hcash : ∀ x ∈ layout lens, ∃ q, initCash.getD x.1 nan = fin q) (hv : ∀ o ∈ sf.buf.orders, Sized o) :
    ∃ (cash : ℚ) (debt : Nat → ℚ), s.cash = fin cash ∧
      (∀ c, grp.2.1 ≤ c → c < grp.2.1 + grp.2.2 → s.debt c = fin (debt c)) ∧
      s.free = fin (cash - 2 * ((List.range grp.2.2).map fun k => debt (grp.2.1 + k)).sum) :=
  (ordersSim_simulated h hseq (fun _ _ => Or.inl ⟨rfl, rfl⟩)).freeIsCash (fun _ => rfl) hs hcash hv

/-- **C71** (free cash and debt, from signals, zero tolerances). -/
theorem C71_collateral_signals_partial {inp cell rows cols lens initCash mo ml sf grp i s}
    (h : simulateSig (Arith.exact 0 0) inp cell rows cols lens initCash mo ml = .ok sf)
    (hseq : isGrouped lens = true → ∀ x ∈ layout lens, ∀ i < rows, SigSeqOk inp i x.2.1 x.2.2)
    (hs : SigAfterRow (Arith.exact 0 0) inp cell rows lens (fun g => initCash.getD g nan) (initRecords rows cols mo ml)
      grp i s)
    (hcash : ∀ x ∈ layout lens, ∃ q, initCash.getD x.1 nan = fin q) (hv : ∀ o ∈ sf.sim.buf.orders, Sized o) :
    ∃ (cash : ℚ) (debt : Nat → ℚ), s.sim.cash = fin cash ∧
      (∀ c, grp.2.1 ≤ c → c < grp.2.1 + grp.2.2 → s.sim.debt c = fin (debt c)) ∧
      s.sim.free = fin (cash - 2 * ((List.range grp.2.2).map fun k => debt (grp.2.1 + k)).sum) :=
  (sigSim_simulated h hseq (Or.inl ⟨rfl, rfl⟩)).freeIsCash (fun _ => rfl) hs hcash hv

/-- What the account says: starting flat, selling short, covering at another price and closing changes free cash by the
profit. -/
theorem C71_round_trip {s p p' f f' : ℚ} (hs : 0 < s) :
    ((Account.mk 0 0 0).book OrderSide.Sell s p f).flow = -(s * p) - f ∧
    (((Account.mk 0 0 0).book OrderSide.Sell s p f).book OrderSide.Buy s p' f').flow = s * p - s * p' - f - f' ∧
    (((Account.mk 0 0 0).book OrderSide.Sell s p f).book OrderSide.Buy s p' f').debt = 0 := by
  have h1 : soldShort 0 s = s := by unfold soldShort; rw [max_self, min_eq_right hs.le, sub_zero]
  have h2 : boughtBack (-s) s = s := by unfold boughtBack; rw [neg_neg, max_eq_left hs.le, min_self]
  have hne : s ≠ 0 := hs.ne'
  refine ⟨?_, ?_, ?_⟩
  · simp only [Account.book, if_true, h1]; ring
  · rw [Account.book, if_neg (by decide)]
    simp only [Account.book, if_true, zero_sub, h1, h2, neg_neg]
    field_simp; ring
  · rw [Account.book, if_neg (by decide)]
    simp only [Account.book, if_true, zero_sub, h1, h2, neg_neg]
    field_simp; ring

/-- Without positive sizes it fails: an order that buys nothing and pays a fixed fee (C06) reduces free cash in the
simulation, but not in the reconstruction. -/
theorem C71_counterexample : ∃ inp sf flow,
    simulateFromOrders (Arith.exact 0 0) inp 1 1 [1] [fin 10] none 0 = .ok sf ∧
    cashFlow (Arith.exact 0 0) true sf.buf.orders (fun _ => 0) 0 = .ok flow ∧
    sf.free = fin 9 ∧ cashAt (Arith.exact 0 0) (fin 10) flow 0 = fin 10 := by
  let inp := { simpleInputs (fun _ _ => fin 100) (fun _ _ => fin 10) (fun _ _ => 0) false true with
    log := fun _ _ => false, fees := fun _ _ => fin 0, fixedFees := fun _ _ => fin 1, gran := fun _ _ => fin 1 }
  obtain ⟨sf, h, hsf⟩ := okAnd_iff (x := simulateFromOrders (Arith.exact 0 0) inp 1 1 [1] [fin 10] none 0)
    (f := fun s => okAnd (cashFlow (Arith.exact 0 0) true s.buf.orders (fun _ => 0) 0) fun flow =>
      decide (s.free = fin 9 ∧ cashAt (Arith.exact 0 0) (fin 10) flow 0 = fin 10)) (by decide +kernel)
  obtain ⟨flow, h1, hf⟩ := okAnd_iff hsf
  exact ⟨inp, sf, flow, h, h1, of_decide_eq_true hf⟩

/-- Non-vacuity: two columns sharing cash; the first is sold short, partly covered and then reversed to long, the second
is bought.  All records are sized, the state after row 1 is reached, with debt. -/
example : ∃ inp sf s, simulateFromOrders (Arith.exact 0 0) inp 3 2 [2] [fin 100] none 0 = .ok sf ∧
    (∀ x ∈ layout [2], ∀ i < 3, CallSeqOk inp i x.2.1 x.2.2) ∧
    AfterRow (Arith.exact 0 0) inp 3 [2] (fun g => [fin 100].getD g nan) (initRecords 3 2 none 0) (0, 0, 2) 1 s ∧
    (∀ o ∈ sf.buf.orders, Sized o) ∧ sf.buf.orders.length = 4 ∧
    s.position 0 = fin (-2) ∧ s.debt 0 = fin 20 ∧ sf.position 0 = fin 1 ∧ s.free = fin (6849 / 100) := by
  let inp := { simpleInputs (fun i c => if c = 1 then (if i = 0 then fin 1 else nan) else
      if i = 0 then fin (-3) else if i = 1 then fin 1 else fin 3)
    (fun i _ => fin (10 + i)) (fun _ c => c) false true with log := fun _ _ => false, fees := fun _ _ => fin (1/100) }
  obtain ⟨sf, h, hsf⟩ := okAnd_iff (x := simulateFromOrders (Arith.exact 0 0) inp 3 2 [2] [fin 100] none 0)
    (f := fun s => decide (s.buf.orders.map (fun o => (o.size, o.price, o.fees, o.side)) =
      [(fin 3, fin 10, fin (3/10), OrderSide.Sell), (fin 1, fin 10, fin (1/10), OrderSide.Buy),
       (fin 1, fin 11, fin (11/100), OrderSide.Buy), (fin 3, fin 12, fin (36/100), OrderSide.Buy)] ∧
       s.position 0 = fin 1))
    (by decide +kernel)
  obtain ⟨s, h1, hs1⟩ := okAnd_iff (x := loopE (simRow (Arith.exact 0 0) inp true 0 0 2)
      { initState (initRecords 3 2 none 0) with cash := fin 100, free := fin 100 } (List.range 2))
    (f := fun s => decide (s.position 0 = fin (-2) ∧ s.debt 0 = fin 20 ∧ s.free = fin (6849 / 100))) (by decide +kernel)
  obtain ⟨hrec, hpos⟩ := of_decide_eq_true hsf
  obtain ⟨hp1, hd1, hc1⟩ := of_decide_eq_true hs1
  refine ⟨inp, sf, s, h, ?_, ⟨[], [], _, rfl, rfl, by decide, h1⟩, ?_, ?_, hp1, hd1, hpos, hc1⟩
  · unfold CallSeqOk; decide
  · intro o ho
    have hm : (o.size, o.price, o.fees, o.side) ∈ sf.buf.orders.map (fun o => (o.size, o.price, o.fees, o.side)) :=
      List.mem_map_of_mem ho
    rw [hrec] at hm
    simp only [List.mem_cons, List.not_mem_nil, or_false, Prod.mk.injEq] at hm
    rcases hm with ⟨a, b, c, d⟩ | ⟨a, b, c, d⟩ | ⟨a, b, c, d⟩ | ⟨a, b, c, d⟩ <;>
      exact ⟨_, _, _, a, b, c, by norm_num⟩
  · have := congrArg List.length hrec
    simpa using this

end Vbt
