import Verif.Model.Recon
import Verif.Spec.Ledger
import Verif.Lemmas.Sim
import Verif.Props.C02

/-! # Balances of a simulation as ledgers of its order records -/

namespace Vbt
open F

/-- Booking movements one by one with `add_nb`. -/
def ledger (A : Arith) (x : F) (ds : List F) : F := ds.foldl (addNb A) x

theorem ledger_append (A : Arith) (x : F) (d e : List F) : ledger A x (d ++ e) = ledger A (ledger A x d) e := by
  simp [ledger]

section
variable {r t : ℚ}

theorem not_snap_zero_right {q : ℚ} (hr : r < 1) (ht : 0 ≤ t) (h : q = 0 ∨ t < |q|) :
    addNb (Arith.exact r t) (fin q) (fin 0) = fin q := by
  rcases addNb_exact r t q 0 with ⟨hs, e⟩ | ⟨-, e⟩
  · rw [e]
    rcases h with rfl | h
    · rfl
    · exfalso
      unfold Snap at hs
      split at hs
      · have := Close.zero_small hr ht hs
        rw [add_zero] at this; linarith
      · have := Close.zero_small (x := |q|) hr ht (by simpa using hs)
        rw [abs_abs] at this; linarith
  · rw [e, add_zero]

theorem not_snap_zero_left {q : ℚ} (hr : r < 1) (ht : 0 ≤ t) (h : q = 0 ∨ t < |q|) :
    addNb (Arith.exact r t) (fin 0) (fin q) = fin q := by
  rcases addNb_exact r t 0 q with ⟨hs, e⟩ | ⟨-, e⟩
  · rw [e]
    rcases h with rfl | h
    · rfl
    · exfalso
      unfold Snap at hs
      split at hs
      · have := Close.zero_small hr ht hs
        rw [zero_add] at this; linarith
      · have h' : Close r t |q| 0 := by
          rcases hs with h1 | h1
          · left; simpa using h1.symm
          · right; simpa using h1
        have := Close.zero_small hr ht h'
        rw [abs_abs] at this; linarith
  · rw [e, zero_add]

theorem addNb_settled {a b : ℚ} (hr : r < 1) (ht : 0 ≤ t) (ha : a = 0 ∨ t < |a|) (hb : b = 0 ∨ t < |b|) :
    Settled t (addNb (Arith.exact r t) (fin a) (fin b)) := by
  rcases hb with rfl | hb
  · rw [not_snap_zero_right hr ht ha]; exact ⟨a, rfl, ha⟩
  rcases addNb_exact r t a b with ⟨-, e⟩ | ⟨hs, e⟩
  · exact ⟨0, e, Or.inl rfl⟩
  · refine ⟨a + b, e, Or.inr ?_⟩
    unfold Snap at hs
    rcases sign_fin_cases a with ⟨h1, e1⟩ | ⟨h1, e1⟩ | ⟨h1, e1⟩ <;>
      rcases sign_fin_cases b with ⟨h2, e2⟩ | ⟨h2, e2⟩ | ⟨h2, e2⟩
    · rw [abs_of_neg h2] at hb; rw [abs_of_neg (by linarith)]; linarith
    · subst h2; rw [abs_zero] at hb; linarith
    · rw [if_neg (by rw [e1, e2]; simp; norm_num)] at hs
      unfold Close at hs; push Not at hs
      have := lt_of_le_of_lt (le_max_right _ _) hs.2
      rw [abs_of_neg h1, abs_of_pos h2] at this
      rw [show a + b = -(-a - b) by ring, abs_neg]; exact this
    · subst h1; rwa [zero_add]
    · subst h1; rwa [zero_add]
    · subst h1; rwa [zero_add]
    · rw [if_neg (by rw [e1, e2]; simp; norm_num)] at hs
      unfold Close at hs; push Not at hs
      have := lt_of_le_of_lt (le_max_right _ _) hs.2
      rw [abs_of_pos h1, abs_of_neg h2] at this
      rw [show a + b = a - -b by ring]; exact this
    · subst h2; rw [abs_zero] at hb; linarith
    · rw [abs_of_pos h2] at hb; rw [abs_of_pos (by linarith)]; linarith

/-- Adding two settled non-negative amounts snaps nothing. -/
theorem addNb_nonneg {a b : ℚ} (hr : r < 1) (ht : 0 ≤ t) (ha : a = 0 ∨ t < |a|) (hb : b = 0 ∨ t < |b|)
    (h : (r = 0 ∧ t = 0) ∨ (0 ≤ a ∧ 0 ≤ b)) : addNb (Arith.exact r t) (fin a) (fin b) = fin (a + b) := by
  rcases h with ⟨rfl, rfl⟩ | ⟨ha0, hb0⟩
  · exact addNb_zero_tol a b
  rcases hb with rfl | hb
  · rw [not_snap_zero_right hr ht ha, add_zero]
  rcases eq_or_lt_of_le ha0 with rfl | ha0
  · rw [not_snap_zero_left hr ht (Or.inr hb), zero_add]
  have hb0 : 0 < b := lt_of_le_of_ne hb0 (by rintro rfl; rw [abs_zero] at hb; linarith)
  rcases addNb_exact r t a b with ⟨hs, -⟩ | ⟨-, e⟩
  · exfalso
    unfold Snap at hs
    rw [if_pos (by simp [sign, ha0, hb0, not_lt.mpr ha0.le, not_lt.mpr hb0.le])] at hs
    have := Close.zero_small hr ht hs
    rw [abs_of_pos hb0] at hb
    rw [abs_of_pos (by linarith)] at this; linarith
  · exact e

theorem snap_settled {x : F} (hr : r < 1) (ht : 0 ≤ t) (h : Settled t x) : snap (Arith.exact r t) x = x := by
  obtain ⟨q, rfl, h⟩ := h
  rcases snap_reads (t := t) hr ht (fin q) with e | ⟨e, q', hq, hle⟩
  · exact e
  · cases hq
    rcases h with rfl | h
    · exact e
    · linarith

/-- A movement of cash above the tolerances is not swallowed when fees are taken off the proceeds. -/
theorem addNb_visible {a f : ℚ} (hr0 : 0 ≤ r) (hr : r < 1) (h : a - f = 0 ∨ max (r * max |a| |f|) t < |a - f|) :
    addNb (Arith.exact r t) (fin a) (fin (-f)) = fin (a - f) := by
  rcases addNb_exact r t a (-f) with ⟨hs, e⟩ | ⟨-, e⟩
  · rw [e]
    rcases h with h | h
    · rw [h]
    · have := hs.small hr0 hr
      rw [abs_neg, ← sub_eq_add_neg] at this
      linarith
  · rw [e, sub_eq_add_neg]

/-- The movements a visible record stands for. -/
theorem Visible.flows {o : OrderRec} (h : Visible r t o) :
    ∃ d q : ℚ, signedSize o = fin d ∧ orderFlow (Arith.exact r t) o = fin q ∧ (d = 0 ∨ t < |d|) ∧ (q = 0 ∨ t < |q|) := by
  obtain ⟨s, p, f, h1, h2, h3, h4, h5⟩ := h
  have hs : signedSize o = fin (moved o.side s) := by
    unfold signedSize moved
    split <;> simp [h1]
  refine ⟨moved o.side s, -(moved o.side s) * p - f, hs, ?_, ?_, ?_⟩
  · simp [orderFlow, hs, h2, h3]
  · unfold moved
    split
    · simpa using h4
    · exact h4
  · exact h5.imp id (fun h => lt_of_le_of_lt (le_max_right _ _) h)

/-- What a fill does to settled balances: the record's movements are booked with `add_nb`. -/
theorem fill_books (hr0 : 0 ≤ r) (hr : r < 1) (ht : 0 ≤ t) {i col group st upd o u b res st' b'}
    (h : processOrder (Arith.exact r t) i col group st upd o u b = .ok (res, st', b'))
    (hfill : res.status = OrderStatus.Filled) {oid : Nat}
    (hv : Visible r t (OrderRec.mk oid col i res.size res.price res.fees res.side))
    (hc : Settled t st.cash) (hp : Settled t st.position)
    (hn : (r = 0 ∧ t = 0) ∨ lt st.cash zero = false) :
    st'.position = addNb (Arith.exact r t) st.position
      (signedSize (OrderRec.mk oid col i res.size res.price res.fees res.side)) ∧
    st'.cash = addNb (Arith.exact r t) st.cash
      (orderFlow (Arith.exact r t) (OrderRec.mk oid col i res.size res.price res.fees res.side)) := by
  obtain ⟨s, p, f, hs, hpr, hf, hvs, hvq⟩ := hv
  simp only at hs hpr hf hvs hvq
  obtain ⟨es, hex, -, e1, e2, -⟩ := processOrder_inv h
  have hsc : (snapExec (Arith.exact r t) st).cash = st.cash := snap_settled hr ht hc
  have hsp : (snapExec (Arith.exact r t) st).position = st.position := snap_settled hr ht hp
  cases executeOrder_cases hex with
  | notFilled _ hn => exact absurd hfill (notFilled_status hn)
  | bought size percent lim f' _ _ hchk hres hpos _ hbf =>
    have hval := checkOrder_none hchk
    obtain ⟨hr', hcash, hposi, -⟩ := buyCommit_inv hbf.hcommit
    rw [hr'] at hs hpr hf
    simp only at hs hpr hf
    obtain ⟨p0, hp0, hp0'⟩ := hval.price
    obtain ⟨σ, hσ, hσ'⟩ := hval.slippage
    obtain ⟨φ, hfees, -⟩ := hval.fees
    obtain ⟨x, hfix, -⟩ := hval.fixedFees
    have hprice : buyPrice (Arith.exact r t) o = fin (p0 * (1 + σ)) := by simp [buyPrice, hp0, hσ]
    have hpp : 0 < p0 * (1 + σ) := mul_pos hp0' (by linarith)
    have hpe : p = p0 * (1 + σ) := by rw [hprice] at hpr; exact (F.fin.inj hpr).symm
    have hfin := hbf.hfinal
    rw [hprice] at hfin
    obtain ⟨hfe, hrq⟩ := buyFinal_conserve hpp.ne' hfees hfix hval.gran hfin hs
    have hff : f = s * p * φ + x := by rw [hfe, ← hpe] at hf; exact (F.fin.inj hf).symm
    constructor
    · rw [e2, hposi, hsp, hr']
      simp [signedSize, OrderSide.Buy, OrderSide.Sell]
    · rw [e1, hcash, hsc, hrq, hr']
      congr 1
      simp only [orderFlow, signedSize, OrderSide.Buy, OrderSide.Sell, hs, hprice, hf, neg_fin]
      rw [if_neg (by decide)]
      simp only [neg_fin, mul_exact, sub_exact]
      rw [hff, ← hpe]; congr 1; ring
  | sold size percent limit percent' _ _ hchk _ _ _ hsf =>
    have hval := checkOrder_none hchk
    obtain ⟨hr', hcash, hposi, -⟩ := sellCommit_inv hsf.hcommit hsf.hcover
    rw [hr'] at hs hpr hf hvq
    simp only at hs hpr hf hvq
    obtain ⟨p0, hp0, hp0'⟩ := hval.price
    obtain ⟨σ, hσ, hσ'⟩ := hval.slippage
    obtain ⟨φ, hfees, -⟩ := hval.fees
    obtain ⟨x, hfix, -⟩ := hval.fixedFees
    have hf' := hf
    rw [hs, hpr, hfees, hfix] at hf'
    have hff : f = s * p * φ + x := by
      simp only [mul_exact, add_exact] at hf'; exact (F.fin.inj hf').symm
    have hcov := hsf.hcover
    rw [hf, hs, hpr] at hcov hcash
    simp only [mul_exact, neg_fin] at hcov hcash
    have hmv : -(moved OrderSide.Sell s) * p - f = s * p - f := by simp [moved]
    rw [hmv] at hvq
    rw [addNb_visible hr0 hr hvq] at hcov hcash
    constructor
    · rw [e2, hposi, hsp, hr']
      simp [signedSize]
    · rw [e1, hcash, hsc, hr']
      simp only [orderFlow, signedSize, if_true]
      rw [hf, hs, hpr]
      simp only [neg_fin, neg_neg, mul_exact, sub_exact]
      obtain ⟨c, hc, hcs⟩ := hc
      rw [hc] at hn ⊢
      rw [add_exact, addNb_nonneg hr ht hcs (hvq.imp id (fun h => lt_of_le_of_lt (le_max_right _ _) h))]
      refine hn.imp id (fun h => ⟨by simpa using h, by simpa using hcov⟩)

/-- The state of a simulation as the ledger of its order records: positions of all columns, and the cash of the
group of columns `lo ≤ c < hi` started with `init`. -/
structure Recorded (r t : ℚ) (lo hi : Nat) (init : F) (s : SimState) : Prop where
  pos : ∀ c, s.position c = ledger (Arith.exact r t) zero ((s.buf.orders.filter (·.col = c)).map signedSize) ∧
    Settled t (s.position c)
  cash : s.cash = ledger (Arith.exact r t) init
    ((s.buf.orders.filter fun o => lo ≤ o.col ∧ o.col < hi).map (orderFlow (Arith.exact r t)))
  settled : Settled t s.cash
  nonneg : (r = 0 ∧ t = 0) ∨ lt s.cash zero = false

theorem callOrder_recorded (hr0 : 0 ≤ r) (hr : r < 1) (ht : 0 ≤ t) {i col group value upd ffill o u s s'}
    {lo hi : Nat} {init : F} (h : callOrder (Arith.exact r t) i col group value upd ffill o u s = .ok s')
    (hfees : (r = 0 ∧ t = 0) ∨ ∀ φ, o.fees = fin φ → 0 < 1 + φ) (h1 : lo ≤ col) (h2 : col < hi)
    (hv : ∀ x ∈ s'.buf.orders, Visible r t x) (hs : Recorded r t lo hi init s) : Recorded r t lo hi init s' := by
  obtain ⟨res, st, b, hp, rfl⟩ := callOrder_inv h
  have hnn : (r = 0 ∧ t = 0) ∨ lt st.cash zero = false := by
    rcases hs.nonneg with h | h
    · exact Or.inl h
    · rcases hfees with hf | hf
      · exact Or.inl hf
      · exact Or.inr (C01_never_negative_partial hr.le hp hf h)
  obtain ⟨es, hex, -, e1, e2, -, -, hrec, -⟩ := processOrder_inv hp
  rcases hrec with ⟨hf, -, -, hob, -⟩ | ⟨hf, -, hob, -⟩
  · simp only at hob
    have hvis := hv (OrderRec.mk s.oidx col i res.size res.price res.fees res.side) (by
      show _ ∈ b.orders; rw [hob]; simp)
    obtain ⟨g1, g2⟩ := fill_books hr0 hr ht hp hf hvis hs.settled (hs.pos col).2 hs.nonneg
    simp only at g1 g2
    obtain ⟨d, q, hd, hq, hds, hqs⟩ := hvis.flows
    refine ⟨fun c => ?_, ?_, ?_, hnn⟩
    · simp only [setAt, hob, List.filter_append, List.map_append]
      by_cases hcc : c = col
      · subst hcc
        rw [if_pos rfl, g1, ledger_append, ← (hs.pos c).1]
        refine ⟨by simp [ledger], ?_⟩
        obtain ⟨P, hP, hPs⟩ := (hs.pos c).2
        rw [hP, hd]
        exact addNb_settled hr ht hPs hds
      · rw [if_neg hcc]
        have : (List.filter (fun x : OrderRec => decide (x.col = c))
          [OrderRec.mk s.oidx col i res.size res.price res.fees res.side]) = [] := by
          simp; exact fun h => hcc h.symm
        rw [this]
        simpa using hs.pos c
    · show st.cash = _
      simp only [hob, List.filter_append, List.map_append]
      rw [g2, ledger_append, ← hs.cash]
      simp [ledger, h1, h2]
    · show Settled t st.cash
      obtain ⟨c, hc, hcs⟩ := hs.settled
      rw [g2, hc, hq]
      exact addNb_settled hr ht hcs hqs
  · cases executeOrder_cases hex with
    | notFilled he _ =>
      have g1 : st.cash = s.cash := by rw [e1, he]; exact snap_settled hr ht hs.settled
      have g2 : st.position = s.position col := by rw [e2, he]; exact snap_settled hr ht (hs.pos col).2
      refine ⟨fun c => ?_, ?_, ?_, hnn⟩
      · simp only [setAt, hob]
        split
        · rename_i hcc; subst hcc; rw [g2]; exact hs.pos c
        · exact hs.pos c
      · simp only [hob, g1]; exact hs.cash
      · simp only [g1]; exact hs.settled
    | bought _ _ _ _ _ _ _ _ _ _ hbf => exact absurd (by rw [(buyCommit_inv hbf.hcommit).1]) hf
    | sold _ _ _ _ _ _ _ _ _ _ hsf => exact absurd (by rw [(sellCommit_inv hsf.hcommit hsf.hcover).1]) hf

end

end Vbt
