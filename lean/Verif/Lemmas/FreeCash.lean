import Verif.Spec.Account
import Verif.Lemmas.Simulated
import Verif.Props.C07

/-! # Free cash and debt as accounts of the order records -/

namespace Vbt
open F

theorem boughtBack_neg {P s : ℚ} (hP : P < 0) : boughtBack P s = if P + s < 0 then s else -P := by
  unfold boughtBack
  rw [max_eq_left (by linarith)]
  split
  · exact min_eq_left (by linarith)
  · exact min_eq_right (by linarith)

theorem boughtBack_nonneg {P s : ℚ} (hP : 0 ≤ P) (hs : 0 ≤ s) : boughtBack P s = 0 := by
  unfold boughtBack
  rw [max_eq_right (by linarith)]
  exact min_eq_right hs

theorem soldShort_neg {P s : ℚ} (h : P - s < 0) (hs : 0 ≤ s) : soldShort P s = if P < 0 then s else |P - s| := by
  unfold soldShort
  split
  · rename_i hP
    rw [max_eq_right hP.le, min_eq_right hs, sub_zero]
  · rename_i hP
    rw [max_eq_left (by linarith), min_eq_right (by linarith), abs_of_neg h]; ring

theorem soldShort_nonneg {P s : ℚ} (h : 0 ≤ P - s) (hs : 0 ≤ s) : soldShort P s = 0 := by
  unfold soldShort
  rw [max_eq_left (by linarith), min_eq_left (by linarith), sub_self]

theorem Account.book_shift (a : Account) (k : ℚ) (side : Int) (s p f : ℚ) :
    (Account.mk a.position a.debt (a.flow + k)).book side s p f =
      ⟨(a.book side s p f).position, (a.book side s p f).debt, (a.book side s p f).flow + k⟩ := by
  unfold Account.book
  split <;> (simp only [Account.mk.injEq, true_and]; ring)

/-- What a fill does to the balances, zero tolerances. -/
theorem fill_account {i col group st upd o u b res st' b'}
    (h : processOrder (Arith.exact 0 0) i col group st upd o u b = .ok (res, st', b'))
    (hfill : res.status = OrderStatus.Filled) {s p f : ℚ} (hs : res.size = fin s) (hpr : res.price = fin p)
    (hf : res.fees = fin f) (hs0 : 0 ≤ s) {a : Account} (hP : st.position = fin a.position) (hD : st.debt = fin a.debt)
    (hF : st.freeCash = fin a.flow) :
    st'.position = fin (a.book res.side s p f).position ∧ st'.debt = fin (a.book res.side s p f).debt ∧
      st'.freeCash = fin (a.book res.side s p f).flow := by
  obtain ⟨P, D, K⟩ := a
  simp only at hP hD hF
  obtain ⟨es, hex, -, -, e2, e3, e4, -⟩ := processOrder_inv h
  have sP : (snapExec (Arith.exact 0 0) st).position = fin P := by
    show snap _ st.position = _; rw [hP, snap_zero_tol]
  have sD : (snapExec (Arith.exact 0 0) st).debt = fin D := by
    show snap _ st.debt = _; rw [hD, snap_zero_tol]
  have sF : (snapExec (Arith.exact 0 0) st).freeCash = fin K := by
    show snap _ st.freeCash = _; rw [hF, snap_zero_tol]
  cases executeOrder_cases hex with
  | notFilled _ hn => exact absurd hfill (notFilled_status hn)
  | bought size percent lim f' _ _ hchk hres hpos _ hbf =>
    have hval := checkOrder_none hchk
    obtain ⟨hr', -, hposi, hdebt⟩ := buyCommit_inv hbf.hcommit
    rw [hr'] at hs hpr hf
    simp only at hs hpr hf
    obtain ⟨p0, hp0, hp0'⟩ := hval.price
    obtain ⟨σ, hσ, hσ'⟩ := hval.slippage
    obtain ⟨φ, hfees, -⟩ := hval.fees
    obtain ⟨x, hfix, -⟩ := hval.fixedFees
    have hprice : buyPrice (Arith.exact 0 0) o = fin (p0 * (1 + σ)) := by simp [buyPrice, hp0, hσ]
    have hpp : 0 < p0 * (1 + σ) := mul_pos hp0' (by linarith)
    have hpe : p = p0 * (1 + σ) := by rw [hprice] at hpr; exact (F.fin.inj hpr).symm
    have hfin := hbf.hfinal
    rw [hprice] at hfin
    obtain ⟨hfe, hrq⟩ := buyFinal_conserve hpp.ne' hfees hfix hval.gran hfin hs
    have hff : f = s * p * φ + x := by rw [hfe, ← hpe] at hf; exact (F.fin.inj hf).symm
    have hrq : f'.req = fin (s * p + f) := by rw [hrq, hff, hpe]
    rw [sP, hs, addNb_zero_tol] at hposi
    rw [sP, sD, sF, hs, hrq, addNb_zero_tol] at hdebt
    have hside : res.side ≠ OrderSide.Sell := by rw [hr']; show OrderSide.Buy ≠ OrderSide.Sell; decide
    unfold Account.book
    rw [if_neg hside]
    simp only
    refine ⟨by rw [e2, hposi], ?_⟩
    rcases hdebt with ⟨hneg, avg, havg, hd, hfr⟩ | ⟨hneg, hd, hfr⟩
    · have hPn : P < 0 := by simpa using hneg
      simp only [abs_fin, abs_of_neg hPn] at havg
      rw [divE_exact, if_neg (show ¬ (-P : ℚ) = 0 by intro h0; linarith)] at havg
      have havg := Except.ok.inj havg
      have hsh : (if lt (fin (P + s)) zero = true then fin s else abs (fin P)) = fin (boughtBack P s) := by
        rw [boughtBack_neg hPn]
        by_cases hc : P + s < 0
        · rw [if_pos (by simpa using hc), if_pos hc]
        · rw [if_neg (by simpa using hc), if_neg hc, abs_fin, abs_of_neg hPn]
      rw [hsh, ← havg] at hd hfr
      simp only [mul_exact, neg_fin, addNb_zero_tol, two, add_exact] at hd hfr
      rw [e3, e4, hd, hfr]
      constructor <;> congr 1 <;> ring
    · have hPn : 0 ≤ P := by simpa using hneg
      simp only [neg_fin, addNb_zero_tol] at hfr
      rw [boughtBack_nonneg hPn hs0, e3, e4, hd, hfr]
      constructor <;> congr 1 <;> ring
  | sold size percent limit percent' _ _ hchk _ _ _ hsf =>
    obtain ⟨hr', -, hposi, hdebt⟩ := sellCommit_inv hsf.hcommit hsf.hcover
    have hside : res.side = OrderSide.Sell := by rw [hr']
    rw [hr'] at hs hpr hf
    simp only at hs hpr hf
    rw [hf, hs, hpr, sP, sD, sF] at hdebt
    rw [hs, sP] at hposi
    simp only [neg_fin, mul_exact, addNb_zero_tol] at hposi hdebt
    unfold Account.book
    rw [if_pos hside]
    simp only
    refine ⟨by rw [e2, hposi, sub_eq_add_neg], ?_⟩
    rcases hdebt with ⟨hneg, hd, hfr⟩ | ⟨hneg, hd, hfr⟩
    · have hPn : P - s < 0 := by rw [sub_eq_add_neg]; simpa using hneg
      have hsh : (if lt (fin P) zero = true then fin s else abs (fin (P + -s))) = fin (soldShort P s) := by
        rw [soldShort_neg hPn hs0]
        by_cases hc : P < 0
        · rw [if_pos (by simpa using hc), if_pos hc]
        · rw [if_neg (by simpa using hc), if_neg hc, abs_fin, sub_eq_add_neg]
      rw [hsh] at hd hfr
      simp only [mul_exact, add_exact, addNb_zero_tol] at hd hfr
      rw [e3, e4, hd, hfr]
      constructor <;> congr 1 <;> ring
    · have hPn : 0 ≤ P - s := by rw [sub_eq_add_neg]; simpa using hneg
      simp only [add_exact] at hfr
      rw [soldShort_nonneg hPn hs0, e3, e4, hd, hfr]
      constructor <;> congr 1 <;> ring

theorem accountFrom_append (a : Account) (l m : List OrderRec) :
    accountFrom a (l ++ m) = accountFrom (accountFrom a l) m := by simp [accountFrom]

theorem accountOf_concat (l : List OrderRec) (o : OrderRec) :
    accountOf (l ++ [o]) = (accountOf l).book o.side o.size.val o.price.val o.fees.val := by
  simp [accountOf, accountFrom]

theorem Account.book_flow (P D K : ℚ) (side : Int) (s p f : ℚ) (a : Account) (h1 : a.position = P) (h2 : a.debt = D) :
    (Account.mk P D K).book side s p f =
      ⟨(a.book side s p f).position, (a.book side s p f).debt, K + ((a.book side s p f).flow - a.flow)⟩ := by
  have := a.book_shift (K - a.flow) side s p f
  rw [h1, h2, show a.flow + (K - a.flow) = K by ring] at this
  rw [this]
  congr 1; ring

/-- Records of a column. -/
def colOrders (s : SimState) (c : Nat) : List OrderRec := s.buf.orders.filter fun o => o.col = c

/-- The state of a simulation as the accounts of its order records: positions and debts of all columns, and the free
cash of the group of columns `lo ≤ c < lo + len` started with `init`. -/
structure Accounted (lo len : Nat) (init : ℚ) (s : SimState) : Prop where
  col : ∀ c, s.position c = fin (accountOf (colOrders s c)).position ∧ s.debt c = fin (accountOf (colOrders s c)).debt
  free : s.free = fin (init + ((List.range len).map fun k => (accountOf (colOrders s (lo + k))).flow).sum)

theorem sum_update {n k : Nat} (hk : k < n) {f g : Nat → ℚ} (h : ∀ j, j ≠ k → f j = g j) :
    ((List.range n).map f).sum = ((List.range n).map g).sum + (f k - g k) := by
  induction n with
  | zero => omega
  | succ n ih =>
    rw [List.range_succ, List.map_append, List.map_append, List.sum_append, List.sum_append]
    simp only [List.map_cons, List.map_nil, List.sum_cons, List.sum_nil, add_zero]
    by_cases hkn : k = n
    · subst hkn
      have : (List.range k).map f = (List.range k).map g :=
        List.map_congr_left fun j hj => h j (by have := List.mem_range.mp hj; omega)
      rw [this]; ring
    · rw [ih (by omega), h n (fun e => hkn e.symm)]; ring

theorem callOrder_accounted {i col group value upd ffill o u s s'} {lo len : Nat} {init : ℚ}
    (h : callOrder (Arith.exact 0 0) i col group value upd ffill o u s = .ok s') (h1 : lo ≤ col) (h2 : col < lo + len)
    (hv : ∀ x ∈ s'.buf.orders, Sized x) (hs : Accounted lo len init s) : Accounted lo len init s' := by
  obtain ⟨res, st, b, hp, rfl⟩ := callOrder_inv h
  obtain ⟨es, hex, -, -, e2, e3, e4, hrec, -⟩ := processOrder_inv hp
  rcases hrec with ⟨hf, -, -, hob, -⟩ | ⟨hf, -, hob, -⟩
  · simp only at hob
    obtain ⟨z, p, f, z1, z2, z3, z4⟩ := hv (OrderRec.mk s.oidx col i res.size res.price res.fees res.side) (by
      show _ ∈ b.orders; rw [hob]; simp)
    simp only at z1 z2 z3
    obtain ⟨c1, c2⟩ := hs.col col
    obtain ⟨g1, g2, g3⟩ := fill_account (a := ⟨(accountOf (colOrders s col)).position, (accountOf (colOrders s col)).debt,
      init + ((List.range len).map fun k => (accountOf (colOrders s (lo + k))).flow).sum⟩) hp hf z1 z2 z3 z4.le c1 c2 hs.free
    rw [Account.book_flow _ _ _ _ _ _ _ (accountOf (colOrders s col)) rfl rfl] at g1 g2 g3
    simp only at g1 g2 g3
    have hcol : ∀ c, b.orders.filter (fun x => decide (x.col = c)) = if c = col then
        colOrders s col ++ [OrderRec.mk s.oidx col i res.size res.price res.fees res.side] else colOrders s c := by
      intro c
      rw [hob, List.filter_append]
      by_cases hcc : c = col
      · subst hcc; simp [colOrders]
      · rw [if_neg hcc]
        have : (List.filter (fun x : OrderRec => decide (x.col = c))
          [OrderRec.mk s.oidx col i res.size res.price res.fees res.side]) = [] := by
          simp; exact fun h => hcc h.symm
        rw [this, List.append_nil]; rfl
    have hnew : accountOf (b.orders.filter fun x => decide (x.col = col)) =
        (accountOf (colOrders s col)).book res.side z p f := by
      rw [hcol, if_pos rfl, accountOf_concat]
      simp [z1, z2, z3, F.val]
    refine ⟨fun c => ?_, ?_⟩
    · simp only [setAt, colOrders]
      by_cases hcc : c = col
      · subst hcc
        rw [if_pos rfl, if_pos rfl, hnew]
        exact ⟨g1, g2⟩
      · rw [if_neg hcc, if_neg hcc, hcol, if_neg hcc]
        exact hs.col c
    · show st.freeCash = fin (init + ((List.range len).map fun k =>
        (accountOf (b.orders.filter fun x => decide (x.col = lo + k))).flow).sum)
      rw [g3, sum_update (n := len) (k := col - lo) (by omega)
        (f := fun k => (accountOf (b.orders.filter fun x => decide (x.col = lo + k))).flow)
        (g := fun k => (accountOf (colOrders s (lo + k))).flow)]
      · rw [show lo + (col - lo) = col by omega, hnew]
        congr 1; ring
      · intro j hj
        rw [hcol, if_neg (by omega)]
  · cases executeOrder_cases hex with
    | notFilled he _ =>
      have hsn : ∀ {x : F} {q : ℚ}, x = fin q → snap (Arith.exact 0 0) x = x := by
        rintro x q rfl; exact snap_zero_tol q
      have g1 : st.freeCash = s.free := by rw [e4, he]; exact hsn hs.free
      have g2 : st.position = s.position col := by rw [e2, he]; exact hsn (hs.col col).1
      have g3 : st.debt = s.debt col := by rw [e3, he]; exact hsn (hs.col col).2
      have hob' : b.orders = s.buf.orders := hob
      refine ⟨fun c => ?_, ?_⟩
      · simp only [setAt, colOrders, hob']
        by_cases hcc : c = col
        · subst hcc; rw [if_pos rfl, if_pos rfl, g2, g3]; exact hs.col c
        · rw [if_neg hcc, if_neg hcc]; exact hs.col c
      · simp only [colOrders, hob', g1]; exact hs.free
    | bought _ _ _ _ _ _ _ _ _ _ hbf => exact absurd (by rw [(buyCommit_inv hbf.hcommit).1]) hf
    | sold _ _ _ _ _ _ _ _ _ _ hsf => exact absurd (by rw [(sellCommit_inv hsf.hcommit hsf.hcover).1]) hf

theorem RowPath.accounted {G : Order → Prop} {lo len i s s'} {init : ℚ}
    (h : RowPath (Arith.exact 0 0) G lo (lo + len) i s s')
    (hv : ∀ x ∈ s'.buf.orders, Sized x) (hs : Accounted lo len init s) : Accounted lo len init s' := by
  induction h with
  | refl => exact hs
  | tweak _ h1 h2 h3 h4 h5 h6 h7 ih =>
    rw [h5] at hv
    have := ih hv
    exact ⟨by simp only [h3, h4, colOrders, h5]; exact this.col, by simp only [h2, colOrders, h5]; exact this.free⟩
  | call h0 h1 h2 h3 h4 ih =>
    refine callOrder_accounted h4 h1 h2 hv (ih fun x hx => hv x ?_)
    obtain ⟨os, ls, a1, -⟩ := (callOrder_appends h4).app
    rw [a1]; exact List.mem_append_left _ hx

section
variable {σ : Type} {S : Simulator σ} {G : Order → Prop} {initCash : Nat → F}

theorem accountOf_none {l : List OrderRec} {c : Nat} (h : ∀ o ∈ l, o.col ≠ c) :
    accountOf (l.filter fun o => decide (o.col = c)) = ⟨0, 0, 0⟩ := by
  rw [List.filter_eq_nil_iff.mpr]
  · rfl
  · intro o ho; simpa using h o ho

theorem Simulator.Ok.rows_accounted (hS : S.Ok (Arith.exact 0 0) G initCash) {x s s'} {l : List Nat} {init : ℚ}
    (h : loopE (S.row x) s l = .ok s') (hv : ∀ o ∈ (S.proj s').buf.orders, Sized o)
    (hs : Accounted x.2.1 x.2.2 init (S.proj s)) : Accounted x.2.1 x.2.2 init (S.proj s') := by
  revert hv
  refine loopE_inv (P := fun a => (∀ o ∈ (S.proj a).buf.orders, Sized o) → Accounted x.2.1 x.2.2 init (S.proj a))
    ?_ (fun _ => hs) h
  intro a i a' hi ha hrow hv
  have hp := hS.row _ _ _ _ hrow
  exact hp.accounted hv (ha fun o ho => hv o (hp.adds.mem ho))

/-- Starting a group: its columns have no records yet. -/
theorem Simulator.Ok.start_accounted (hS : S.Ok (Arith.exact 0 0) G initCash) {x s} {q : ℚ} (hq : initCash x.1 = fin q)
    (hcol : ∀ o ∈ (S.proj s).buf.orders, o.col < x.2.1)
    (hs : ∀ c, (S.proj s).position c = fin (accountOf (colOrders (S.proj s) c)).position ∧
      (S.proj s).debt c = fin (accountOf (colOrders (S.proj s) c)).debt) :
    Accounted x.2.1 x.2.2 q (S.proj (S.start s x)) := by
  obtain ⟨b1, b2, b3, b4, b5⟩ := hS.start s x
  refine ⟨by simp only [b3, b4, colOrders, b5]; exact hs, ?_⟩
  simp only [b2, hq, colOrders, b5]
  have : ∀ k, (accountOf ((S.proj s).buf.orders.filter fun o => decide (o.col = x.2.1 + k))).flow = 0 := by
    intro k
    rw [accountOf_none]
    intro o ho
    have := hcol o ho
    omega
  simp [this]

theorem Simulator.Ok.run_accounted (hS : S.Ok (Arith.exact 0 0) G initCash) {rows g c s s'} {lens : List Nat}
    (hcash : ∀ x ∈ layoutFrom g c lens, ∃ q, initCash x.1 = fin q)
    (h : S.run rows s (layoutFrom g c lens) = .ok s')
    (hv : ∀ o ∈ (S.proj s').buf.orders, Sized o) (hcol : ∀ o ∈ (S.proj s).buf.orders, o.col < c)
    (hs : ∀ c, (S.proj s).position c = fin (accountOf (colOrders (S.proj s) c)).position ∧
      (S.proj s).debt c = fin (accountOf (colOrders (S.proj s) c)).debt) :
    ∀ c, (S.proj s').position c = fin (accountOf (colOrders (S.proj s') c)).position ∧
      (S.proj s').debt c = fin (accountOf (colOrders (S.proj s') c)).debt := by
  induction lens generalizing g c s with
  | nil => cases h; exact hs
  | cons l ls ih =>
    rw [layoutFrom] at h
    obtain ⟨s1, h1, h2⟩ := loopE_cons_ok h
    have hv1 : ∀ o ∈ (S.proj s1).buf.orders, Sized o := fun o ho => hv o ((hS.run_adds h2).mem ho)
    obtain ⟨q, hq⟩ := hcash (g, c, l) (by rw [layoutFrom]; exact List.mem_cons_self)
    have hk := hS.start_accounted (x := (g, c, l)) hq hcol hs
    have hk1 := hS.rows_accounted (x := (g, c, l)) h1 hv1 hk
    refine ih (fun x hx => hcash x (by rw [layoutFrom]; exact List.mem_cons_of_mem _ hx)) h2 ?_ hk1.col
    intro o ho
    obtain ⟨os, e, z⟩ := hS.rows_adds h1
    rw [e, (hS.start s (g, c, l)).2.2.2.2] at ho
    rcases List.mem_append.mp ho with ho | ho
    · have := hcol o ho; omega
    · exact (z o ho).2.2

/-- After every row the balances are the accounts of the records so far. -/
theorem Simulator.Ok.afterRow_accounted (hS : S.Ok (Arith.exact 0 0) G initCash) {rows lens s00 grp i s sf} {q : ℚ}
    (hcash : ∀ x ∈ layout lens, ∃ q, initCash x.1 = fin q) (hq : initCash grp.1 = fin q)
    (hbuf : (S.proj s00).buf.orders = []) (hpos : ∀ c, (S.proj s00).position c = zero)
    (hdebt : ∀ c, (S.proj s00).debt c = zero)
    (hs : S.AfterRow rows lens s00 grp i s) (h : S.run rows s00 (layout lens) = .ok sf)
    (hv : ∀ o ∈ (S.proj sf).buf.orders, Sized o) : Accounted grp.2.1 grp.2.2 q (S.proj s) := by
  have hv' : ∀ o ∈ (S.proj s).buf.orders, Sized o := fun o ho => hv o ((hS.orders_at hbuf hs h).2 o ho)
  obtain ⟨pre, post, s0, hlay, h0, hi, h1⟩ := hs
  obtain ⟨l1, l2, hl, hpre, -, hfc, hpost⟩ := layoutFrom_parts hlay
  have a1 := hS.rows_adds h1
  have hv0 : ∀ o ∈ (S.proj s0).buf.orders, Sized o := fun o ho => hv' o (a1.mem (by
    rw [(hS.start s0 grp).2.2.2.2]; exact ho))
  subst hpre
  have hk := hS.run_accounted (fun x hx => hcash x (by rw [hlay]; exact List.mem_append_left _ hx)) h0 hv0
    (by rw [hbuf]; simp) (fun c => by rw [hpos, hdebt, colOrders, hbuf]; exact ⟨rfl, rfl⟩)
  refine hS.rows_accounted h1 hv' (hS.start_accounted hq ?_ hk)
  intro o ho
  obtain ⟨os, e, z⟩ := hS.run_adds h0
  rw [e, hbuf, List.nil_append] at ho
  have := z o ho
  omega

end

/-! ## The reconstruction -/

theorem freeCashDiff_book {a : Account} {side : Int} {s p f : ℚ} (hs : 0 < s) :
    freeCashDiff (Arith.exact 0 0) (fin a.position) (fin (a.position + moved side s)) (fin a.debt) (fin p) (fin f) =
      .ok (fin (a.book side s p f).debt, fin ((a.book side s p f).flow - a.flow)) ∧
    a.position + moved side s = (a.book side s p f).position := by
  obtain ⟨P, D, K⟩ := a
  have hcl : ∀ q : ℚ, q ≠ 0 → isClose (Arith.exact 0 0) (fin q) zero = false := by
    intro q hq
    rw [Bool.eq_false_iff]
    intro hc
    have := Close.zero_small (by norm_num) le_rfl ((isClose_exact 0 0 q 0).mp hc)
    exact hq (abs_eq_zero.mp (le_antisymm this (abs_nonneg _)))
  unfold freeCashDiff
  simp only [neg_fin, addNb_zero_tol]
  by_cases hside : side = OrderSide.Sell
  · simp only [moved, Account.book, hside, if_true]
    rw [show P + -s + -P = -s by ring, if_neg (by rw [hcl _ (by linarith [hs] : (-s : ℚ) ≠ 0)]; simp),
      if_neg (by simp [gt]; exact hs.le)]
    refine ⟨?_, by ring⟩
    by_cases hn : P - s < 0
    · rw [if_pos (by simpa [← sub_eq_add_neg] using hn)]
      have hsh : (if lt (fin P) zero = true then abs (fin (-s)) else abs (fin (P + -s))) = fin (soldShort P s) := by
        rw [soldShort_neg hn hs.le]
        by_cases hc : P < 0
        · rw [if_pos (by simpa using hc), if_pos hc, abs_fin, abs_neg, abs_of_pos hs]
        · rw [if_neg (by simpa using hc), if_neg hc, abs_fin, sub_eq_add_neg]
      rw [hsh]
      simp only [mul_exact, add_exact, sub_exact, addNb_zero_tol]
      congr 2; ring_nf
    · rw [if_neg (by simpa [← sub_eq_add_neg] using hn), soldShort_nonneg (by linarith) hs.le]
      simp only [mul_exact, sub_exact]
      congr 2 <;> ring_nf
  · simp only [moved, Account.book, hside, if_false]
    rw [show P + s + -P = s by ring, if_neg (by rw [hcl _ hs.ne']; simp), if_pos (by simpa [gt] using hs)]
    refine ⟨?_, trivial⟩
    by_cases hn : P < 0
    · rw [if_pos (by simpa using hn)]
      have hsh : (if lt (fin (P + s)) zero = true then abs (fin s) else abs (fin P)) = fin (boughtBack P s) := by
        rw [boughtBack_neg hn]
        by_cases hc : P + s < 0
        · rw [if_pos (by simpa using hc), if_pos hc, abs_fin, abs_of_pos hs]
        · rw [if_neg (by simpa using hc), if_neg hc, abs_fin, abs_of_neg hn]
      rw [hsh, abs_fin, abs_of_neg hn, divE_exact, if_neg (show ¬ (-P : ℚ) = 0 by intro h0; linarith)]
      simp only [mul_exact, sub_exact, neg_fin, addNb_zero_tol, two]
      congr 2 <;> congr 1 <;> ring
    · rw [if_neg (by simpa using hn), boughtBack_nonneg (by linarith) hs.le]
      simp only [mul_exact, sub_exact]
      congr 2 <;> ring_nf

/-- The sum of a series up to row `i`. -/
def upTo (flow : Nat → F) (i : Nat) : ℚ := ((List.range (i + 1)).map fun j => (flow j).toQ).sum

theorem upTo_setAt (flow : Nat → F) (i k : Nat) (q d : ℚ) (hk : flow k = fin q) :
    upTo (setAt flow k (fin (q + d))) i = upTo flow i + if k ≤ i then d else 0 := by
  unfold upTo
  split
  · rename_i h
    rw [sum_update (n := i + 1) (k := k) (by omega) (g := fun j => (flow j).toQ)]
    · simp [setAt, hk, F.toQ]
    · intro j hj; simp [setAt, hj]
  · rename_i h
    rw [add_zero]
    congr 1
    refine List.map_congr_left fun j hj => ?_
    have := List.mem_range.mp hj
    simp [setAt, show j ≠ k by omega]

theorem freeFlow_loop {l : List OrderRec} : ∀ {a : Account} {st : FlowState}, IdsUp l → RowsUp l → (∀ o ∈ l, Sized o) →
    (∀ o ∈ l, st.lastId ≤ o.id) → st.position = fin a.position → st.debt = fin a.debt → (∀ j, ∃ q, st.out j = fin q) →
    ∃ st', loopE (cashFlowStep (Arith.exact 0 0) true) st l = .ok st' ∧ (∀ j, ∃ q, st'.out j = fin q) ∧
      ∀ i, upTo st'.out i = upTo st.out i + ((accountFrom a (l.filter fun o => o.idx ≤ i)).flow - a.flow) := by
  induction l with
  | nil => intro a st _ _ _ _ _ _ h; exact ⟨st, rfl, h, fun i => by simp [accountFrom]⟩
  | cons o l ih =>
    intro a st hid hrows hsz hle hP hD hout
    obtain ⟨h3, h4⟩ := List.pairwise_cons.mp hid
    obtain ⟨h5, h6⟩ := List.pairwise_cons.mp hrows
    obtain ⟨s, p, f, z1, z2, z3, z4⟩ := hsz o List.mem_cons_self
    obtain ⟨q, hq⟩ := hout o.idx
    obtain ⟨e1, e2⟩ := freeCashDiff_book (a := a) (side := o.side) (p := p) (f := f) z4
    have hsg : signedSize o = fin (moved o.side s) := by unfold signedSize moved; split <;> simp [z1]
    have hstep : cashFlowStep (Arith.exact 0 0) true st o =
        .ok { lastId := o.id, position := fin (a.book o.side s p f).position, debt := fin (a.book o.side s p f).debt,
              out := setAt st.out o.idx (fin (q + ((a.book o.side s p f).flow - a.flow))) } := by
      unfold cashFlowStep
      have := hle o List.mem_cons_self
      rw [if_neg (by omega)]
      simp only [if_true, hP, hD, hsg, addNb_zero_tol, z2, z3]
      rw [e1]
      simp only [hq, addNb_zero_tol, e2]
    obtain ⟨st', g1, g2, g3⟩ := ih (a := a.book o.side s p f) (st := FlowState.mk o.id
        (fin (a.book o.side s p f).position) (fin (a.book o.side s p f).debt)
        (setAt st.out o.idx (fin (q + ((a.book o.side s p f).flow - a.flow))))) h4 h6
      (fun x hx => hsz x (List.mem_cons_of_mem _ hx)) (fun x hx => by
        show (o.id : Int) ≤ x.id
        exact_mod_cast h3 x hx) rfl rfl (fun j => by
        show ∃ q, setAt _ _ _ j = fin q
        unfold setAt
        split
        · exact ⟨_, rfl⟩
        · exact hout j)
    refine ⟨st', by rw [loopE, hstep]; exact g1, g2, fun i => ?_⟩
    rw [g3, upTo_setAt _ _ _ _ _ hq]
    by_cases hi : o.idx ≤ i
    · rw [if_pos hi, List.filter_cons_of_pos (by simpa using hi)]
      simp only [accountFrom, List.foldl_cons, z1, z2, z3, F.val]
      ring
    · rw [if_neg hi, List.filter_cons_of_neg (by simpa using hi)]
      have hn : l.filter (fun x => decide (x.idx ≤ i)) = [] := by
        rw [List.filter_eq_nil_iff]
        intro x hx
        have := h5 x hx
        simp; omega
      rw [hn]
      simp [accountFrom]

/-- The free cash flow of a column accumulates to the flow of the account of its records. -/
theorem freeFlow_account {orders : List OrderRec} {junk : Nat → Nat} {c : Nat} (hid : IdsUp (orders.filter fun o => o.col = c))
    (hrows : RowsUp (orders.filter fun o => o.col = c)) (hsz : ∀ o ∈ orders, Sized o) :
    ∃ flow, cashFlow (Arith.exact 0 0) true orders junk c = .ok flow ∧ (∀ j, ∃ q, flow j = fin q) ∧
      ∀ i, upTo flow i = (accountOf ((orders.filter fun o => o.col = c).filter fun o => o.idx ≤ i)).flow := by
  obtain ⟨st', h1, h2, h3⟩ := freeFlow_loop (l := orders.filter fun o => o.col = c) (a := ⟨0, 0, 0⟩)
    (st := FlowState.start) hid hrows (fun o ho => hsz o (List.mem_of_mem_filter ho))
    (fun o _ => by show (-1 : Int) ≤ _; omega) rfl rfl (fun _ => ⟨0, rfl⟩)
  refine ⟨st'.out, ?_, h2, fun i => ?_⟩
  · unfold cashFlow
    rw [columnRecords_eq, h1]
  · rw [h3]
    have : upTo FlowState.start.out i = 0 := by simp [upTo, FlowState.start, F.toQ]
    rw [this]
    simp [accountOf]

end Vbt
