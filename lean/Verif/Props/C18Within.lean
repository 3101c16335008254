import Verif.Lemmas.DriftRecon
import Verif.Props.C18

/-!
# C18 (and the history of C02) with tolerances, without guards

Balances of a run, series reconstructed from its records, and the records themselves agree up to what `add_nb` may
swallow: `rel / (1 - rel)` of the volume moved and `abs` per addition (`lost`).  With the tolerances of the code this is
1e-9 of the volume and 1e-12 per addition.  Only numbers are asked for: finite initial cash and finite records.
-/

namespace Vbt
open F

/-- A finished run of a column-major simulator from an empty state, with well-formed records; no guard on the orders. -/
structure Finished {σ : Type} (S : Simulator σ) (r t : ℚ) (rows cols : Nat) (lens : List Nat) (initCash : List F)
    (s00 sf : σ) : Prop where
  ok : S.Ok (Arith.exact r t) (fun _ => True) (fun g => initCash.getD g nan)
  buf : (S.proj s00).buf.orders = []
  pos : ∀ c, (S.proj s00).position c = zero
  run : S.run rows s00 (layout lens) = .ok sf
  wf : WellFormed rows cols (S.proj sf).buf.orders (S.proj sf).buf.logs

theorem ordersSim_finished {r t : ℚ} {inp rows cols lens initCash mo ml sf}
    (h : simulateFromOrders (Arith.exact r t) inp rows cols lens initCash mo ml = .ok sf)
    (hseq : isGrouped lens = true → ∀ x ∈ layout lens, ∀ i < rows, CallSeqOk inp i x.2.1 x.2.2) :
    Finished (ordersSim (Arith.exact r t) inp lens (fun g => initCash.getD g nan)) r t rows cols lens initCash
      (initState (initRecords rows cols mo ml)) sf :=
  ⟨ordersSim_ok (fun _ _ => trivial), rfl, fun _ => rfl, (simulateFromOrders_inv h).2.2.2, (C13_from_orders h hseq).1⟩

theorem sigSim_finished {r t : ℚ} {inp cell rows cols lens initCash mo ml sf}
    (h : simulateSig (Arith.exact r t) inp cell rows cols lens initCash mo ml = .ok sf)
    (hseq : isGrouped lens = true → ∀ x ∈ layout lens, ∀ i < rows, SigSeqOk inp i x.2.1 x.2.2) :
    Finished (sigSimulator (Arith.exact r t) inp cell (isGrouped lens) (fun g => initCash.getD g nan)) r t rows cols lens
      initCash { sim := initState (initRecords rows cols mo ml), stops := fun _ => Stops.none } sf :=
  ⟨sigSimulator_ok (fun _ _ _ => trivial), rfl, fun _ => rfl, (simulateSig_inv h).2.2.2, (C13_from_signals h hseq).1⟩

/-- The records of column `c` up to row `i`. -/
def colUpTo (orders : List OrderRec) (c i : Nat) : List OrderRec :=
  (orders.filter fun o => o.col = c).filter fun o => o.idx ≤ i

/-- The records of the columns of a group up to row `i`. -/
def groupUpTo (orders : List OrderRec) (grp : Nat × Nat × Nat) (i : Nat) : List OrderRec :=
  (orders.filter fun o => grp.2.1 ≤ o.col ∧ o.col < grp.2.1 + grp.2.2).filter fun o => o.idx ≤ i

section
variable {r t : ℚ} {σ : Type} {S : Simulator σ}

/-- Balances after a row against the records up to the row. -/
theorem Finished.balances (hr0 : 0 ≤ r) (hr : r < 1) (ht : 0 ≤ t) {rows cols lens initCash s00 sf grp i s} {x : ℚ}
    (h : Finished S r t rows cols lens initCash s00 sf) (hs : S.AfterRow rows lens s00 grp i s)
    (hcash : ∀ x ∈ layout lens, ∃ q, initCash.getD x.1 nan = fin q) (hx : initCash.getD grp.1 nan = fin x)
    (hv : ∀ o ∈ (S.proj sf).buf.orders, Numbers o) :
    (∃ q, (S.proj s).cash = fin q ∧
      |q - (x + bookedCash (groupUpTo (S.proj sf).buf.orders grp i))| ≤
        lost r t (cashVolume (groupUpTo (S.proj sf).buf.orders grp i))
          (2 * (groupUpTo (S.proj sf).buf.orders grp i).length + 1)) ∧
    ∀ c, grp.2.1 ≤ c → c < grp.2.1 + grp.2.2 → ∃ P, (S.proj s).position c = fin P ∧
      |P - bookedPos (colUpTo (S.proj sf).buf.orders c i)| ≤
        lost r t (assetVolume (colUpTo (S.proj sf).buf.orders c i))
          (2 * (colUpTo (S.proj sf).buf.orders c i).length + 1) := by
  have hat := (h.ok.orders_at h.buf hs h.run).1
  have hd := h.ok.afterRow_drifted hr0 hr ht hcash hx h.buf h.pos hs h.run hv
  have e1 : ∀ T n, lost r t T n + t = lost r t T (n + 1) := by
    intro T n; unfold lost; push_cast; ring
  refine ⟨?_, fun c h1 h2 => ?_⟩
  · have hg : (S.proj s).buf.orders.filter (fun o => decide (grp.2.1 ≤ o.col ∧ o.col < grp.2.1 + grp.2.2)) =
        groupUpTo (S.proj sf).buf.orders grp i := by
      rw [groupUpTo, List.filter_filter, ← hat _ (fun o ho => of_decide_eq_true ho)]
      exact List.filter_congr fun o _ => Bool.and_comm _ _
    obtain ⟨q, hq, hb⟩ := hd.cash.le ht
    rw [hg, e1] at hb
    exact ⟨q, hq, hb⟩
  · have hg : (S.proj s).buf.orders.filter (fun o => decide (o.col = c)) = colUpTo (S.proj sf).buf.orders c i := by
      rw [colUpTo, List.filter_filter, ← hat _ (fun o ho => by have := of_decide_eq_true ho; omega)]
      exact List.filter_congr fun o _ => Bool.and_comm _ _
    obtain ⟨q, hq, hb⟩ := (hd.pos c).le ht
    rw [hg, e1] at hb
    exact ⟨q, hq, hb⟩

theorem within {a b v x y : ℚ} {T1 T2 : ℚ} {n1 n2 : Nat} (h1 : |a - v| ≤ lost r t T1 n1) (h2 : |b - v| ≤ lost r t T2 n2)
    (hT : T1 + T2 = x) (hy : ((n1 + n2 : Nat) : ℚ) = y) : |a - b| ≤ r / (1 - r) * x + y * t := by
  have e : a - b = (a - v) - (b - v) := by ring
  rw [e, ← hT, ← hy]
  refine (abs_sub _ _).trans ((add_le_add h1 h2).trans (le_of_eq ?_))
  rw [lost_add, lost]

/-- Reconstructed assets against the position held. -/
theorem Finished.assets (hr0 : 0 ≤ r) (hr : r < 1) (ht : 0 ≤ t) {rows cols lens initCash s00 sf grp i s junk}
    (h : Finished S r t rows cols lens initCash s00 sf) (hs : S.AfterRow rows lens s00 grp i s)
    (hcash : ∀ x ∈ layout lens, ∃ q, initCash.getD x.1 nan = fin q)
    (hv : ∀ o ∈ (S.proj sf).buf.orders, Numbers o) {c : Nat} (h1 : grp.2.1 ≤ c) (h2 : c < grp.2.1 + grp.2.2) :
    ∃ flow Q P, assetFlow (Arith.exact r t) Direction.Both (S.proj sf).buf.orders junk c = .ok flow ∧
      assetsAt (Arith.exact r t) flow i = fin Q ∧ (S.proj s).position c = fin P ∧
      |Q - P| ≤ lost r t (3 * assetVolume (colUpTo (S.proj sf).buf.orders c i))
        (3 * (colUpTo (S.proj sf).buf.orders c i).length + i + 2) := by
  have hgm : grp ∈ layout lens := by
    obtain ⟨pre, post, s0, hlay, -⟩ := hs
    rw [hlay]; simp
  obtain ⟨x, hx⟩ := hcash grp hgm
  obtain ⟨P, hP, hb⟩ := (h.balances hr0 hr ht hs hcash hx hv).2 c h1 h2
  obtain ⟨flow, Q, e, hQ, hb'⟩ := assets_drift hr0 hr ht (junk := junk) (col := c) (fun o ho _ => hv o ho)
    ((IdsUp.of_range h.wf.orderIds).filter _) i
  refine ⟨flow, Q, P, e, hQ, hP, ?_⟩
  refine within hb' hb ?_ ?_
  · rw [colUpTo]; ring
  · rw [colUpTo]; push_cast; ring

/-- Reconstructed cash of a column against the cash held. -/
theorem Finished.cash (hr0 : 0 ≤ r) (hr : r < 1) (ht : 0 ≤ t) {rows cols lens initCash s00 sf grp i s junk}
    (h : Finished S r t rows cols lens initCash s00 sf) (hone : ∀ l ∈ lens, l = 1)
    (hs : S.AfterRow rows lens s00 grp i s)
    (hcash : ∀ x ∈ layout lens, ∃ q, initCash.getD x.1 nan = fin q)
    (hv : ∀ o ∈ (S.proj sf).buf.orders, Numbers o) :
    ∃ flow Q q, cashFlow (Arith.exact r t) false (S.proj sf).buf.orders junk grp.2.1 = .ok flow ∧
      cashAt (Arith.exact r t) (initCashCol initCash lens (isGrouped lens) grp.2.1) flow i = fin Q ∧
      (S.proj s).cash = fin q ∧
      |Q - q| ≤ lost r t (3 * cashVolume (colUpTo (S.proj sf).buf.orders grp.2.1 i))
        (3 * (colUpTo (S.proj sf).buf.orders grp.2.1 i).length + i + 2) := by
  have hgrp : grp.1 = grp.2.1 ∧ grp.2.2 = 1 ∧ grp ∈ layout lens := by
    obtain ⟨pre, post, s0, hlay, -⟩ := hs
    obtain ⟨l1, l2, hl, -, h1, h2, -⟩ := layoutFrom_parts hlay
    refine ⟨?_, hone _ (by rw [hl]; simp), by rw [hlay]; simp⟩
    rw [h1, h2]
    have : ∀ l : List Nat, (∀ x ∈ l, x = 1) → l.length = l.sum := by
      intro l
      induction l with
      | nil => intro _; rfl
      | cons x l ih =>
        intro hx
        rw [List.length_cons, List.sum_cons, ih (fun y hy => hx y (List.mem_cons_of_mem _ hy)), hx x List.mem_cons_self]
        omega
    rw [this l1 (fun x hx => hone x (by rw [hl]; exact List.mem_append_left _ hx))]
  obtain ⟨x, hx⟩ := hcash grp hgrp.2.2
  have hinit : initCashCol initCash lens (isGrouped lens) grp.2.1 = fin x := by
    rw [initCashCol, not_grouped hone, ← hgrp.1]; exact hx
  have hcol : groupUpTo (S.proj sf).buf.orders grp i = colUpTo (S.proj sf).buf.orders grp.2.1 i := by
    unfold groupUpTo colUpTo
    congr 1
    apply List.filter_congr
    intro o _
    rw [hgrp.2.1]
    by_cases hc : o.col = grp.2.1
    · simp [hc]
    · have : ¬ (grp.2.1 ≤ o.col ∧ o.col < grp.2.1 + 1) := by omega
      simp only [hc, this, decide_false]
  obtain ⟨q, hq, hb⟩ := (h.balances hr0 hr ht hs hcash hx hv).1
  rw [hcol] at hb
  obtain ⟨flow, Q, e, hQ, hb'⟩ := cash_drift hr0 hr ht (junk := junk) (col := grp.2.1) (fun o ho _ => hv o ho)
    ((IdsUp.of_range h.wf.orderIds).filter _) x i
  refine ⟨flow, Q, q, e, by rw [hinit]; exact hQ, hq, ?_⟩
  refine within hb' hb ?_ ?_
  · rw [colUpTo]; ring
  · rw [colUpTo]; push_cast; ring

/-- Reconstructed cash of a group against the cash held. -/
theorem Finished.cashGrouped (hr0 : 0 ≤ r) (hr : r < 1) (ht : 0 ≤ t) {rows cols lens initCash s00 sf grp i s}
    {junk : Nat → Nat} (h : Finished S r t rows cols lens initCash s00 sf) (hs : S.AfterRow rows lens s00 grp i s)
    (hcash : ∀ x ∈ layout lens, ∃ q, initCash.getD x.1 nan = fin q)
    (hv : ∀ o ∈ (S.proj sf).buf.orders, Numbers o) :
    ∃ (flow : Nat → Nat → F) (Q q : ℚ),
      (∀ c, ∃ f, cashFlow (Arith.exact r t) false (S.proj sf).buf.orders junk c = .ok f ∧ ∀ j, flow j c = f j) ∧
      cashAt (Arith.exact r t) (initCash.getD grp.1 nan)
        (fun j => sumGrouped (Arith.exact r t) flow grp.2.1 grp.2.2 j) i = fin Q ∧
      (S.proj s).cash = fin q ∧
      |Q - q| ≤ lost r t (3 * cashVolume (groupUpTo (S.proj sf).buf.orders grp i))
        (3 * (groupUpTo (S.proj sf).buf.orders grp i).length + i + 2) := by
  have hgm : grp ∈ layout lens := by
    obtain ⟨pre, post, s0, hlay, -⟩ := hs
    rw [hlay]; simp
  obtain ⟨x, hx⟩ := hcash grp hgm
  obtain ⟨q, hq, hb⟩ := (h.balances hr0 hr ht hs hcash hx hv).1
  obtain ⟨flow, Q, e, hQ, hb'⟩ := cashGrouped_drift hr0 hr ht (junk := junk) (fc := grp.2.1) (len := grp.2.2) hv
    (IdsUp.of_range h.wf.orderIds) x i
  refine ⟨flow, Q, q, e, by rw [hx]; exact hQ, hq, ?_⟩
  refine within hb' hb ?_ ?_
  · rw [groupUpTo]; ring
  · rw [groupUpTo]; push_cast; ring

/-- **C02** over a whole run.  After every row of a run from order arrays the cash of a group is its initial cash plus
what the records of its columns up to the row say, and every position is what was bought minus what was sold, up to
what the tolerances swallow: `rel / (1 - rel)` of the volume and `abs` for two additions per record and a final
reading. -/
theorem C02_run (hr0 : 0 ≤ r) (hr : r < 1) (ht : 0 ≤ t) {inp rows cols lens initCash mo ml sf grp i s} {x : ℚ}
    (h : simulateFromOrders (Arith.exact r t) inp rows cols lens initCash mo ml = .ok sf)
    (hseq : isGrouped lens = true → ∀ x ∈ layout lens, ∀ i < rows, CallSeqOk inp i x.2.1 x.2.2)
    (hs : AfterRow (Arith.exact r t) inp rows lens (fun g => initCash.getD g nan) (initRecords rows cols mo ml) grp i s)
    (hcash : ∀ x ∈ layout lens, ∃ q, initCash.getD x.1 nan = fin q) (hx : initCash.getD grp.1 nan = fin x)
    (hv : ∀ o ∈ sf.buf.orders, Numbers o) :
    (∃ q, s.cash = fin q ∧ |q - (x + bookedCash (groupUpTo sf.buf.orders grp i))| ≤
      lost r t (cashVolume (groupUpTo sf.buf.orders grp i)) (2 * (groupUpTo sf.buf.orders grp i).length + 1)) ∧
    ∀ c, grp.2.1 ≤ c → c < grp.2.1 + grp.2.2 → ∃ P, s.position c = fin P ∧
      |P - bookedPos (colUpTo sf.buf.orders c i)| ≤
        lost r t (assetVolume (colUpTo sf.buf.orders c i)) (2 * (colUpTo sf.buf.orders c i).length + 1) :=
  (ordersSim_finished h hseq).balances hr0 hr ht hs hcash hx hv

/-- **C02** over a whole run from signals. -/
theorem C02_run_signals (hr0 : 0 ≤ r) (hr : r < 1) (ht : 0 ≤ t) {inp cell rows cols lens initCash mo ml sf grp i s} {x : ℚ}
    (h : simulateSig (Arith.exact r t) inp cell rows cols lens initCash mo ml = .ok sf)
    (hseq : isGrouped lens = true → ∀ x ∈ layout lens, ∀ i < rows, SigSeqOk inp i x.2.1 x.2.2)
    (hs : SigAfterRow (Arith.exact r t) inp cell rows lens (fun g => initCash.getD g nan) (initRecords rows cols mo ml)
      grp i s)
    (hcash : ∀ x ∈ layout lens, ∃ q, initCash.getD x.1 nan = fin q) (hx : initCash.getD grp.1 nan = fin x)
    (hv : ∀ o ∈ sf.sim.buf.orders, Numbers o) :
    (∃ q, s.sim.cash = fin q ∧ |q - (x + bookedCash (groupUpTo sf.sim.buf.orders grp i))| ≤
      lost r t (cashVolume (groupUpTo sf.sim.buf.orders grp i)) (2 * (groupUpTo sf.sim.buf.orders grp i).length + 1)) ∧
    ∀ c, grp.2.1 ≤ c → c < grp.2.1 + grp.2.2 → ∃ P, s.sim.position c = fin P ∧
      |P - bookedPos (colUpTo sf.sim.buf.orders c i)| ≤
        lost r t (assetVolume (colUpTo sf.sim.buf.orders c i)) (2 * (colUpTo sf.sim.buf.orders c i).length + 1) :=
  (sigSim_finished h hseq).balances hr0 hr ht hs hcash hx hv

/-- **C18** (assets) for all tolerances and all finite records: the reconstructed position and the position held differ
by at most what the tolerances swallow. -/
theorem C18_assets_within (hr0 : 0 ≤ r) (hr : r < 1) (ht : 0 ≤ t) {inp rows cols lens initCash mo ml sf grp i s junk}
    (h : simulateFromOrders (Arith.exact r t) inp rows cols lens initCash mo ml = .ok sf)
    (hseq : isGrouped lens = true → ∀ x ∈ layout lens, ∀ i < rows, CallSeqOk inp i x.2.1 x.2.2)
    (hs : AfterRow (Arith.exact r t) inp rows lens (fun g => initCash.getD g nan) (initRecords rows cols mo ml) grp i s)
    (hcash : ∀ x ∈ layout lens, ∃ q, initCash.getD x.1 nan = fin q)
    (hv : ∀ o ∈ sf.buf.orders, Numbers o) {c : Nat} (h1 : grp.2.1 ≤ c) (h2 : c < grp.2.1 + grp.2.2) :
    ∃ flow Q P, assetFlow (Arith.exact r t) Direction.Both sf.buf.orders junk c = .ok flow ∧
      assetsAt (Arith.exact r t) flow i = fin Q ∧ s.position c = fin P ∧
      |Q - P| ≤ lost r t (3 * assetVolume (colUpTo sf.buf.orders c i)) (3 * (colUpTo sf.buf.orders c i).length + i + 2) :=
  (ordersSim_finished h hseq).assets hr0 hr ht hs hcash hv h1 h2

/-- **C18** (cash, without cash sharing) for all tolerances and all finite records. -/
theorem C18_cash_within (hr0 : 0 ≤ r) (hr : r < 1) (ht : 0 ≤ t) {inp rows cols lens initCash mo ml sf grp i s junk}
    (h : simulateFromOrders (Arith.exact r t) inp rows cols lens initCash mo ml = .ok sf)
    (hone : ∀ l ∈ lens, l = 1)
    (hs : AfterRow (Arith.exact r t) inp rows lens (fun g => initCash.getD g nan) (initRecords rows cols mo ml) grp i s)
    (hcash : ∀ x ∈ layout lens, ∃ q, initCash.getD x.1 nan = fin q)
    (hv : ∀ o ∈ sf.buf.orders, Numbers o) :
    ∃ flow Q q, cashFlow (Arith.exact r t) false sf.buf.orders junk grp.2.1 = .ok flow ∧
      cashAt (Arith.exact r t) (initCashCol initCash lens (isGrouped lens) grp.2.1) flow i = fin Q ∧ s.cash = fin q ∧
      |Q - q| ≤ lost r t (3 * cashVolume (colUpTo sf.buf.orders grp.2.1 i))
        (3 * (colUpTo sf.buf.orders grp.2.1 i).length + i + 2) :=
  (ordersSim_finished h (fun hg => by rw [not_grouped hone] at hg; cases hg)).cash hr0 hr ht hone hs hcash hv

/-- **C18** (cash of a group sharing cash) for all tolerances and all finite records. -/
theorem C18_cash_grouped_within (hr0 : 0 ≤ r) (hr : r < 1) (ht : 0 ≤ t) {inp rows cols lens initCash mo ml sf grp i s}
    {junk : Nat → Nat}
    (h : simulateFromOrders (Arith.exact r t) inp rows cols lens initCash mo ml = .ok sf)
    (hseq : isGrouped lens = true → ∀ x ∈ layout lens, ∀ i < rows, CallSeqOk inp i x.2.1 x.2.2)
    (hs : AfterRow (Arith.exact r t) inp rows lens (fun g => initCash.getD g nan) (initRecords rows cols mo ml) grp i s)
    (hcash : ∀ x ∈ layout lens, ∃ q, initCash.getD x.1 nan = fin q)
    (hv : ∀ o ∈ sf.buf.orders, Numbers o) :
    ∃ (flow : Nat → Nat → F) (Q q : ℚ),
      (∀ c, ∃ f, cashFlow (Arith.exact r t) false sf.buf.orders junk c = .ok f ∧ ∀ j, flow j c = f j) ∧
      cashAt (Arith.exact r t) (initCash.getD grp.1 nan)
        (fun j => sumGrouped (Arith.exact r t) flow grp.2.1 grp.2.2 j) i = fin Q ∧ s.cash = fin q ∧
      |Q - q| ≤ lost r t (3 * cashVolume (groupUpTo sf.buf.orders grp i))
        (3 * (groupUpTo sf.buf.orders grp i).length + i + 2) :=
  (ordersSim_finished h hseq).cashGrouped hr0 hr ht hs hcash hv

/-- **C18** (assets, from signals) for all tolerances and all finite records. -/
theorem C18_assets_signals_within (hr0 : 0 ≤ r) (hr : r < 1) (ht : 0 ≤ t)
    {inp cell rows cols lens initCash mo ml sf grp i s junk}
    (h : simulateSig (Arith.exact r t) inp cell rows cols lens initCash mo ml = .ok sf)
    (hseq : isGrouped lens = true → ∀ x ∈ layout lens, ∀ i < rows, SigSeqOk inp i x.2.1 x.2.2)
    (hs : SigAfterRow (Arith.exact r t) inp cell rows lens (fun g => initCash.getD g nan) (initRecords rows cols mo ml)
      grp i s)
    (hcash : ∀ x ∈ layout lens, ∃ q, initCash.getD x.1 nan = fin q)
    (hv : ∀ o ∈ sf.sim.buf.orders, Numbers o) {c : Nat} (h1 : grp.2.1 ≤ c) (h2 : c < grp.2.1 + grp.2.2) :
    ∃ flow Q P, assetFlow (Arith.exact r t) Direction.Both sf.sim.buf.orders junk c = .ok flow ∧
      assetsAt (Arith.exact r t) flow i = fin Q ∧ s.sim.position c = fin P ∧
      |Q - P| ≤ lost r t (3 * assetVolume (colUpTo sf.sim.buf.orders c i))
        (3 * (colUpTo sf.sim.buf.orders c i).length + i + 2) :=
  (sigSim_finished h hseq).assets hr0 hr ht hs hcash hv h1 h2

/-- **C18** (cash, without cash sharing, from signals) for all tolerances and all finite records. -/
theorem C18_cash_signals_within (hr0 : 0 ≤ r) (hr : r < 1) (ht : 0 ≤ t)
    {inp cell rows cols lens initCash mo ml sf grp i s junk}
    (h : simulateSig (Arith.exact r t) inp cell rows cols lens initCash mo ml = .ok sf)
    (hone : ∀ l ∈ lens, l = 1)
    (hs : SigAfterRow (Arith.exact r t) inp cell rows lens (fun g => initCash.getD g nan) (initRecords rows cols mo ml)
      grp i s)
    (hcash : ∀ x ∈ layout lens, ∃ q, initCash.getD x.1 nan = fin q)
    (hv : ∀ o ∈ sf.sim.buf.orders, Numbers o) :
    ∃ flow Q q, cashFlow (Arith.exact r t) false sf.sim.buf.orders junk grp.2.1 = .ok flow ∧
      cashAt (Arith.exact r t) (initCashCol initCash lens (isGrouped lens) grp.2.1) flow i = fin Q ∧ s.sim.cash = fin q ∧
      |Q - q| ≤ lost r t (3 * cashVolume (colUpTo sf.sim.buf.orders grp.2.1 i))
        (3 * (colUpTo sf.sim.buf.orders grp.2.1 i).length + i + 2) :=
  (sigSim_finished h (fun hg => by rw [not_grouped hone] at hg; cases hg)).cash hr0 hr ht hone hs hcash hv

/-- **C18** (cash of a group, from signals) for all tolerances and all finite records. -/
theorem C18_cash_grouped_signals_within (hr0 : 0 ≤ r) (hr : r < 1) (ht : 0 ≤ t)
    {inp cell rows cols lens initCash mo ml sf grp i s} {junk : Nat → Nat}
    (h : simulateSig (Arith.exact r t) inp cell rows cols lens initCash mo ml = .ok sf)
    (hseq : isGrouped lens = true → ∀ x ∈ layout lens, ∀ i < rows, SigSeqOk inp i x.2.1 x.2.2)
    (hs : SigAfterRow (Arith.exact r t) inp cell rows lens (fun g => initCash.getD g nan) (initRecords rows cols mo ml)
      grp i s)
    (hcash : ∀ x ∈ layout lens, ∃ q, initCash.getD x.1 nan = fin q)
    (hv : ∀ o ∈ sf.sim.buf.orders, Numbers o) :
    ∃ (flow : Nat → Nat → F) (Q q : ℚ),
      (∀ c, ∃ f, cashFlow (Arith.exact r t) false sf.sim.buf.orders junk c = .ok f ∧ ∀ j, flow j c = f j) ∧
      cashAt (Arith.exact r t) (initCash.getD grp.1 nan)
        (fun j => sumGrouped (Arith.exact r t) flow grp.2.1 grp.2.2 j) i = fin Q ∧ s.sim.cash = fin q ∧
      |Q - q| ≤ lost r t (3 * cashVolume (groupUpTo sf.sim.buf.orders grp i))
        (3 * (groupUpTo sf.sim.buf.orders grp i).length + i + 2) :=
  (sigSim_finished h hseq).cashGrouped hr0 hr ht hs hcash hv

end

/-- Non-vacuity, and the bound is not idle: the run of `C18_counterexample_tolerance` (a second buy of 5e-13) has finite
records and the state after its second row is reached; there the two computations do differ. -/
example : ∃ inp sf s flow,
    simulateFromOrders Arith.std inp 2 1 [1] [fin (3/2)] none 0 = .ok sf ∧
    AfterRow Arith.std inp 2 [1] (fun g => [fin (3/2)].getD g nan) (initRecords 2 1 none 0) (0, 0, 1) 1 s ∧
    (∀ o ∈ sf.buf.orders, Numbers o) ∧ sf.buf.orders.length = 2 ∧
    assetFlow Arith.std Direction.Both sf.buf.orders (fun _ => 0) 0 = .ok flow ∧
    assetsAt Arith.std flow 1 = fin 1 ∧ s.position 0 = fin (1 + 5 / 10000000000000) := by
  let inp := { simpleInputs (fun i _ => if i = 0 then fin 1 else pinf)
    (fun i _ => if i = 0 then fin 1 else fin 1000000000000) (fun _ _ => 0) false true with
      log := fun _ _ => false, fees := fun _ _ => fin 0 }
  obtain ⟨sf, h, hsf⟩ := okAnd_iff (x := simulateFromOrders Arith.std inp 2 1 [1] [fin (3/2)] none 0)
    (f := fun s => okAnd (assetFlow Arith.std Direction.Both s.buf.orders (fun _ => 0) 0) fun flow =>
      decide (s.buf.orders.map (fun o => (o.size, o.price, o.fees)) =
        [(fin 1, fin 1, fin 0), (fin (5 / 10000000000000), fin 1000000000000, fin 0)] ∧
        assetsAt Arith.std flow 1 = fin 1)) (by decide +kernel)
  obtain ⟨flow, h1, hf⟩ := okAnd_iff hsf
  obtain ⟨hrec, ha⟩ := of_decide_eq_true hf
  obtain ⟨s, h2, hs⟩ := okAnd_iff (x := loopE (simRow Arith.std inp false 0 0 1)
      { initState (initRecords 2 1 none 0) with cash := fin (3/2), free := fin (3/2) } (List.range 2))
    (f := fun s => decide (s.position 0 = fin (1 + 5 / 10000000000000))) (by decide +kernel)
  refine ⟨inp, sf, s, flow, h, ⟨[], [], _, rfl, rfl, by decide, h2⟩, ?_, ?_, h1, ha, of_decide_eq_true hs⟩
  · intro o ho
    have hm : (o.size, o.price, o.fees) ∈ sf.buf.orders.map (fun o => (o.size, o.price, o.fees)) :=
      List.mem_map_of_mem ho
    rw [hrec] at hm
    simp only [List.mem_cons, List.not_mem_nil, or_false, Prod.mk.injEq] at hm
    rcases hm with ⟨a, b, c⟩ | ⟨a, b, c⟩
    · exact ⟨_, _, _, a, b, c⟩
    · exact ⟨_, _, _, a, b, c⟩
  · have := congrArg List.length hrec
    simpa using this

end Vbt
