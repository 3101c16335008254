import Verif.Lemmas.Timeline
import Verif.Lemmas.Recon
import Verif.Props.C13
import Verif.Props.C17

/-! Reconstruction from the order records of any column-major simulator. -/

namespace Vbt
open F

/-- A finished run of a column-major simulator from an empty state, with well-formed records. -/
structure Simulated {σ : Type} (S : Simulator σ) (r t : ℚ) (rows cols : Nat) (lens : List Nat) (initCash : List F)
    (s00 sf : σ) : Prop where
  ok : S.Ok (Arith.exact r t) (FeesOk r t) (fun g => initCash.getD g nan)
  buf : (S.proj s00).buf.orders = []
  pos : ∀ c, (S.proj s00).position c = zero
  run : S.run rows s00 (layout lens) = .ok sf
  wf : WellFormed rows cols (S.proj sf).buf.orders (S.proj sf).buf.logs

section
variable {r t : ℚ} {σ : Type} {S : Simulator σ}

theorem visible_settled {l : List OrderRec} (h : ∀ o ∈ l, Visible r t o) :
    (∀ o ∈ l, Settled t (signedSize o)) ∧ ∀ o ∈ l, Settled t (orderFlow (Arith.exact r t) o) := by
  refine ⟨fun o ho => ?_, fun o ho => ?_⟩ <;>
    obtain ⟨d, q, h1, h2, h3, h4⟩ := (h o ho).flows
  · exact ⟨d, h1, h3⟩
  · exact ⟨q, h2, h4⟩

/-- What the guards give: after a row of a group, positions and cash are ledgers of the final records up to it. -/
theorem Simulated.ledgers (hr0 : 0 ≤ r) (hr : r < 1) (ht : 0 ≤ t) {rows cols lens initCash s00 sf grp i s}
    (h : Simulated S r t rows cols lens initCash s00 sf)
    (hs : S.AfterRow rows lens s00 grp i s)
    (hcash : ∀ x ∈ layout lens, Settled t (initCash.getD x.1 nan) ∧
      ((r = 0 ∧ t = 0) ∨ lt (initCash.getD x.1 nan) zero = false))
    (hv : ∀ o ∈ (S.proj sf).buf.orders, Visible r t o) :
    (∀ c, grp.2.1 ≤ c → c < grp.2.1 + grp.2.2 → (S.proj s).position c = ledger (Arith.exact r t) zero
      ((((S.proj sf).buf.orders.filter fun o => o.col = c).filter fun o => o.idx ≤ i).map signedSize)) ∧
    (S.proj s).cash = ledger (Arith.exact r t) (initCash.getD grp.1 nan)
      ((((S.proj sf).buf.orders.filter fun o => grp.2.1 ≤ o.col ∧ o.col < grp.2.1 + grp.2.2).filter fun o => o.idx ≤ i).map
        (orderFlow (Arith.exact r t))) := by
  have hok := h.ok
  have hl := h.run
  have hat : ∀ p : OrderRec → Bool, (∀ o, p o = true → grp.2.1 ≤ o.col ∧ o.col < grp.2.1 + grp.2.2) →
      (S.proj sf).buf.orders.filter (fun o => p o && decide (o.idx ≤ i)) = (S.proj s).buf.orders.filter p :=
    (hok.orders_at h.buf hs hl).1
  have hrec : Recorded r t grp.2.1 (grp.2.1 + grp.2.2) (initCash.getD grp.1 nan) (S.proj s) :=
    hok.afterRow_recorded hr0 hr ht hcash h.buf h.pos hs hl hv
  refine ⟨fun c h1 h2 => ?_, ?_⟩
  · rw [(hrec.pos c).1, ← hat (fun o => decide (o.col = c)) (fun o ho => by
      have := of_decide_eq_true ho; omega), List.filter_filter]
    congr 2
    apply List.filter_congr
    intro o _
    exact Bool.and_comm _ _
  · rw [hrec.cash, ← hat (fun o => decide (grp.2.1 ≤ o.col ∧ o.col < grp.2.1 + grp.2.2)) (fun o ho =>
      of_decide_eq_true ho), List.filter_filter]
    congr 2
    apply List.filter_congr
    intro o _
    exact Bool.and_comm _ _

/-- (assets).  The position recomputed from the records is, in every row and column, the position held after
that row. -/
theorem Simulated.assets (hr0 : 0 ≤ r) (hr : r < 1) (ht : 0 ≤ t) {rows cols lens initCash s00 sf grp i s junk}
    (h : Simulated S r t rows cols lens initCash s00 sf)
    (hs : S.AfterRow rows lens s00 grp i s)
    (hcash : ∀ x ∈ layout lens, Settled t (initCash.getD x.1 nan) ∧
      ((r = 0 ∧ t = 0) ∨ lt (initCash.getD x.1 nan) zero = false))
    (hv : ∀ o ∈ (S.proj sf).buf.orders, Visible r t o) {c : Nat} (h1 : grp.2.1 ≤ c) (h2 : c < grp.2.1 + grp.2.2) :
    ∃ flow, assetFlow (Arith.exact r t) Direction.Both (S.proj sf).buf.orders junk c = .ok flow ∧
      assetsAt (Arith.exact r t) flow i = (S.proj s).position c := by
  have hw := h.wf
  obtain ⟨flow, e, hf⟩ := assetFlow_both (A := Arith.exact r t) (junk := junk) (col := c)
    ((IdsUp.of_range hw.orderIds).filter _)
  refine ⟨flow, e, ?_⟩
  have hup : RowsUp ((S.proj sf).buf.orders.filter fun o => o.col = c) := by
    have := hw.orderRows.filter (fun o => decide (o.col = c))
    refine List.Pairwise.imp_of_mem ?_ this
    intro a b ha hb hab
    exact hab ((of_decide_eq_true (List.mem_filter.mp ha).2).trans (of_decide_eq_true (List.mem_filter.mp hb).2).symm)
  rw [assetsAt_eq, cashAt_ledger hr ht ⟨0, rfl, Or.inl rfl⟩ hup
    (fun o ho => (visible_settled hv).1 o (List.mem_of_mem_filter ho)) hf]
  exact ((h.ledgers hr0 hr ht hs hcash hv).1 c h1 h2).symm

/-- (cash, without cash sharing).  The cash of a column recomputed from the records is, in every row, the cash
held after that row. -/
theorem Simulated.cash (hr0 : 0 ≤ r) (hr : r < 1) (ht : 0 ≤ t) {rows cols lens initCash s00 sf grp i s junk}
    (h : Simulated S r t rows cols lens initCash s00 sf)
    (hone : ∀ l ∈ lens, l = 1)
    (hs : S.AfterRow rows lens s00 grp i s)
    (hcash : ∀ x ∈ layout lens, Settled t (initCash.getD x.1 nan) ∧
      ((r = 0 ∧ t = 0) ∨ lt (initCash.getD x.1 nan) zero = false))
    (hv : ∀ o ∈ (S.proj sf).buf.orders, Visible r t o) :
    ∃ flow, cashFlow (Arith.exact r t) false (S.proj sf).buf.orders junk grp.2.1 = .ok flow ∧
      cashAt (Arith.exact r t) (initCashCol initCash lens (isGrouped lens) grp.2.1) flow i = (S.proj s).cash := by
  have hng : isGrouped lens = false := by
    rw [isGrouped, List.any_eq_false]
    intro l hl
    rw [hone l hl]; decide
  have hw := h.wf
  obtain ⟨flow, e, hf⟩ := cashFlow_total (A := Arith.exact r t) (junk := junk) (col := grp.2.1)
    ((IdsUp.of_range hw.orderIds).filter _)
  refine ⟨flow, e, ?_⟩
  have hup : RowsUp ((S.proj sf).buf.orders.filter fun o => o.col = grp.2.1) := by
    have := hw.orderRows.filter (fun o => decide (o.col = grp.2.1))
    refine List.Pairwise.imp_of_mem ?_ this
    intro a b ha hb hab
    exact hab ((of_decide_eq_true (List.mem_filter.mp ha).2).trans (of_decide_eq_true (List.mem_filter.mp hb).2).symm)
  have hgrp : grp.1 = grp.2.1 ∧ grp.2.2 = 1 ∧ grp ∈ layout lens := by
    obtain ⟨pre, post, s0, hlay, -⟩ := hs
    obtain ⟨l1, l2, hl, -, h1, h2, -⟩ := layoutFrom_parts hlay
    refine ⟨?_, hone _ (by rw [hl]; simp), by rw [hlay]; simp⟩
    rw [h1, h2]
    have : ∀ l : List Nat, (∀ x ∈ l, x = 1) → l.length = l.sum := by
      intro l
      induction l with
      | nil => intro _; rfl
      | cons x l ih =>
        intro hx
        rw [List.length_cons, List.sum_cons, ih (fun y hy => hx y (List.mem_cons_of_mem _ hy)), hx x List.mem_cons_self]
        omega
    rw [this l1 (fun x hx => hone x (by rw [hl]; exact List.mem_append_left _ hx))]
  have hinit : initCashCol initCash lens (isGrouped lens) grp.2.1 = initCash.getD grp.1 nan := by
    rw [initCashCol, hng, hgrp.1]; rfl
  rw [hinit, cashAt_ledger hr ht (hcash grp hgrp.2.2).1 hup
    (fun o ho => (visible_settled hv).2 o (List.mem_of_mem_filter ho)) hf, (h.ledgers hr0 hr ht hs hcash hv).2]
  congr 3
  apply List.filter_congr
  intro o _
  rw [hgrp.2.1]
  by_cases hc : o.col = grp.2.1 <;> by_cases h1 : grp.2.1 ≤ o.col <;> by_cases h2 : o.col < grp.2.1 + 1 <;>
    first | omega | simp [hc, h1, h2]
  all_goals omega

/-- (cash of a group, zero tolerances).  The cash of a group of columns sharing cash, recomputed from the
grouped cash flow, is in every row the cash held after that row. -/
theorem Simulated.cashGrouped {rows cols lens initCash s00 sf grp i s} {junk : Nat → Nat}
    (h : Simulated S 0 0 rows cols lens initCash s00 sf)
    (hs : S.AfterRow rows lens s00 grp i s)
    (hcash : ∀ x ∈ layout lens, ∃ q, initCash.getD x.1 nan = fin q)
    (hv : ∀ o ∈ (S.proj sf).buf.orders, ∃ s p f : ℚ, o.size = fin s ∧ o.price = fin p ∧ o.fees = fin f) :
    ∃ flow : Nat → Nat → F,
      (∀ c, ∃ f, cashFlow (Arith.exact 0 0) false (S.proj sf).buf.orders junk c = .ok f ∧ ∀ j, flow j c = f j) ∧
      cashAt (Arith.exact 0 0) (initCash.getD grp.1 nan)
        (fun j => sumGrouped (Arith.exact 0 0) flow grp.2.1 grp.2.2 j) i = (S.proj s).cash := by
  have hvis : ∀ o ∈ (S.proj sf).buf.orders, Visible 0 0 o := by
    intro o ho
    obtain ⟨s, p, f, h1, h2, h3⟩ := hv o ho
    refine ⟨s, p, f, h1, h2, h3, ?_, ?_⟩
    · by_cases h : s = 0
      · exact Or.inl h
      · exact Or.inr (abs_pos.mpr h)
    · by_cases h : -(moved o.side s) * p - f = 0
      · exact Or.inl h
      · right; rw [zero_mul, max_self]; exact abs_pos.mpr h
  have hfl : ∀ o ∈ (S.proj sf).buf.orders, ∃ q, orderFlow (Arith.exact 0 0) o = fin q := by
    intro o ho
    obtain ⟨d, q, -, h2, -⟩ := (hvis o ho).flows
    exact ⟨q, h2⟩
  have hw := h.wf
  choose f e hf using fun c => cashFlow_total (A := Arith.exact 0 0) (orders := (S.proj sf).buf.orders) (junk := junk) (col := c)
    ((IdsUp.of_range hw.orderIds).filter _)
  refine ⟨fun j c => f c j, fun c => ⟨f c, e c, fun _ => rfl⟩, ?_⟩
  have hgm : grp ∈ layout lens := by
    obtain ⟨pre, post, s0, hlay, -⟩ := hs
    rw [hlay]; simp
  obtain ⟨x, hx⟩ := hcash grp hgm
  rw [(h.ledgers le_rfl (by norm_num) le_rfl hs
    (fun y hy => ⟨by
      obtain ⟨q, hq⟩ := hcash y hy
      refine ⟨q, hq, ?_⟩
      by_cases h0 : q = 0
      · exact Or.inl h0
      · exact Or.inr (abs_pos.mpr h0), Or.inl ⟨rfl, rfl⟩⟩) hvis).2, hx,
    ledger_sum (fun o ho => hfl o (List.mem_of_mem_filter (List.mem_of_mem_filter ho)))]
  have hfj : ∀ c j, f c j = fin ((((((S.proj sf).buf.orders.filter fun o => o.col = c).filter fun o => o.idx = j).map
      fun o => (orderFlow (Arith.exact 0 0) o).toQ)).sum) := by
    intro c j
    rw [hf c j, ledger_sum (fun o ho => hfl o (List.mem_of_mem_filter (List.mem_of_mem_filter ho))), zero_add]
  have hsg : ∀ j, sumGrouped (Arith.exact 0 0) (fun j c => f c j) grp.2.1 grp.2.2 j =
      fin ((((((S.proj sf).buf.orders.filter fun o => grp.2.1 ≤ o.col ∧ o.col < grp.2.1 + grp.2.2).filter fun o => o.idx = j).map
      fun o => (orderFlow (Arith.exact 0 0) o).toQ)).sum) := by
    intro j
    rw [sumGrouped, npSum_fin (fun k _ => ⟨_, hfj _ j⟩), ← sum_columns]
    simp only [hfj, F.toQ]
  rw [cashAt_sum (fun j => ⟨_, hsg j⟩)]
  simp only [hsg, F.toQ]
  rw [sum_rows]

end

end Vbt
