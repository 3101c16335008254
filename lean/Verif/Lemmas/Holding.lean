import Verif.Lemmas.Ledger
import Verif.Lemmas.Scan
import Verif.Lemmas.OrderNum2
import Verif.Spec.Holding

/-! # Holding: an order for infinitely many assets in the first row, nothing afterwards -/

namespace Vbt
open F

variable {r t : ℚ}

theorem isClose_pos_zero (hr : r < 1) (ht : 0 ≤ t) {x : ℚ} (h : t < |x|) :
    isClose (Arith.exact r t) (fin x) zero = false := by
  rw [← Bool.not_eq_true, isClose_exact]
  intro hc
  have := Close.zero_small hr ht hc
  linarith

theorem addNb_cancel (x : ℚ) : addNb (Arith.exact r t) (fin x) (fin (-x)) = fin 0 := by
  rcases addNb_exact r t x (-x) with h | h
  · exact h.2
  · rw [h.2]; simp

/-- What `signals_to_size_nb` makes of an entry without accumulation and of an infinite size. -/
theorem hold_cell {A : Arith} {inp : SigInputs} {a : SigArrays} {i c : Nat} {q : ℚ} {vp : F} {st : Stops}
    (hs : arraySignals a i c = ⟨true, false, false, false⟩) (hst : inp.useStops = false)
    (hz : inp.size i c = pinf) (hty : inp.sizeType i c = SizeType.Amount)
    (hac : inp.accumulate i c = AccumulationMode.Disabled) (hq : 0 ≤ q) :
    arrayCell A inp a i c (fin q) vp st = .ok (st, {
      price := sigPrice inp i c, slippage := inp.slippage i c, size := if q = 0 then pinf else zero, sizeType := SizeType.Amount,
      direction := if q = 0 then Direction.Both else Direction.LongOnly }) := by
  have hl : isLess A pinf zero = false := by simp [isLess, isClose, lt]
  unfold arrayCell checkStops
  rw [hst, hs]
  simp only [Bool.false_and, Bool.false_eq_true, if_false]
  unfold cellOrder
  simp only [hst, hz, hty, hac, Bool.false_and, Bool.false_eq_true, if_false, resolveSignals, resolveSignalConflict,
    resolveDirConflict, resolveOppositeEntry, oppositeShort, oppositeLong, Bool.and_false, Bool.or_false, if_true]
  unfold signalsToSize
  rw [hl]
  rcases hq.lt_or_eq with h | h
  · simp [gt, lt, h, h.ne', hq.not_gt, addsTo, AccumulationMode.Disabled, AccumulationMode.Both, AccumulationMode.AddOnly]
  · subst h
    simp [gt, lt]

/-- Buying for all the cash: cash `x`, price `p`, fees `f`, slippage `g`. -/
theorem hold_execute (hr : r < 1) (ht : 0 ≤ t) {st : ProcState} {o : Order} {u : F} {x p f g m : ℚ}
    (h1 : st.cash = fin x) (h2 : st.freeCash = fin x) (h3 : st.position = zero) (h4 : st.debt = zero)
    (o1 : o.size = pinf) (o2 : o.price = fin p) (o3 : o.sizeType = SizeType.Amount) (o4 : o.direction = Direction.Both)
    (o5 : o.fees = fin f) (o6 : o.fixedFees = zero) (o7 : o.slippage = fin g) (o8 : o.minSize = fin m)
    (o9 : o.maxSize = pinf) (o10 : o.gran = nan) (o11 : o.rejectProb = zero)
    (hx : t < x) (hp : 0 < p) (hf : 0 ≤ f) (hg : 0 ≤ g) (hm : 0 ≤ m)
    (hq : t < x / (1 + f) / (p * (1 + g))) (hmq : m ≤ x / (1 + f) / (p * (1 + g))) :
    executeOrder (Arith.exact r t) st o u = .ok
      ({ cash := zero, position := fin (x / (1 + f) / (p * (1 + g))), debt := zero, freeCash := zero },
       { size := fin (x / (1 + f) / (p * (1 + g))), price := fin (p * (1 + g)), fees := fin (x - x / (1 + f)),
         side := OrderSide.Buy, status := OrderStatus.Filled, statusInfo := -1 }) := by
  have hx0 : 0 < x := lt_of_le_of_lt ht hx
  have hf1 : (0 : ℚ) < 1 + f := by linarith
  have hg1 : (0 : ℚ) < 1 + g := by linarith
  have hpg : 0 < p * (1 + g) := mul_pos hp hg1
  have hq0 : 0 < x / (1 + f) := div_pos hx0 hf1
  set q := x / (1 + f) / (p * (1 + g)) with hqd
  have hqp : 0 < q := lt_of_le_of_lt ht hq
  have s0 : snap (Arith.exact r t) zero = zero := snap_settled hr ht ⟨0, rfl, .inl rfl⟩
  have sx : snap (Arith.exact r t) (fin x) = fin x :=
    snap_settled hr ht ⟨x, rfl, .inr (by rwa [abs_of_pos hx0])⟩
  have hsn : snapExec (Arith.exact r t) st = { cash := fin x, position := zero, debt := zero, freeCash := fin x } := by
    unfold snapExec; rw [h1, h2, h3, h4, s0, sx]
  have hchk : checkOrder { cash := fin x, position := zero, debt := zero, freeCash := fin x } o = none := by
    unfold checkOrder
    simp [o2, o3, o4, o5, o6, o7, o8, o9, o10, o11, lt, le, gt, isnan, isinf, isfinite, hx0.le, hx0.not_gt, hp.not_ge,
      hg.not_gt, hm.not_gt, SizeType.Amount, Direction.Both, Direction.LongOnly, Direction.ShortOnly]
  have hrs : resolveSize (Arith.exact r t) { cash := fin x, position := zero, debt := zero, freeCash := fin x } o
      (snap (Arith.exact r t) st.valPrice) (snap (Arith.exact r t) st.value) = .size pinf nan := by
    simp [resolveSize, resolveValue, resolveTargetAmount, resolvePercent, o1, o3, o4, SizeType.Amount, SizeType.Value,
      SizeType.TargetValue, SizeType.TargetPercent, SizeType.TargetAmount, SizeType.Percent, Direction.Both,
      Direction.ShortOnly, lt]
  have hmin : ∀ y : ℚ, pmin (fin y) (fin y) = fin y := fun y => by simp [pmin]
  have hlim : buyCashLimit (Arith.exact r t) { cash := fin x, position := zero, debt := zero, freeCash := fin x } o
      (fin (p * (1 + g))) nan = .ok (fin x) := by
    unfold buyCashLimit
    cases hlc : o.lockCash <;> simp [ge, le, hmin, isnan]
  have ha : addNb (Arith.exact r t) (fin x) (neg zero) = fin x := by
    have := addNb_exact r t x 0
    rcases this with ⟨hs, _⟩ | ⟨_, e⟩
    · exfalso
      unfold Snap at hs
      rw [if_neg (by simp [sign, hx0, hx0.not_gt])] at hs
      rw [abs_of_pos hx0, abs_zero] at hs
      have := Close.zero_small hr ht hs
      rw [abs_of_pos hx0] at this; linarith
    · simpa [neg] using e
  have haq : addNb (Arith.exact r t) zero (fin q) = fin q := by
    rw [not_snap_zero_left hr ht (Or.inr (by rwa [abs_of_pos hqp]))]
  have hreq : isCloseOrLess (Arith.exact r t)
      (add (Arith.exact r t) (mul (Arith.exact r t) pinf (fin (p * (1 + g))))
        (add (Arith.exact r t) (mul (Arith.exact r t) (mul (Arith.exact r t) pinf (fin (p * (1 + g)))) (fin f)) zero))
      (fin x) = false := by
    have e : mul (Arith.exact r t) pinf (fin (p * (1 + g))) = pinf := by
      simp [mul, infMul, hpg, hpg.not_gt]
    rw [e]
    rcases hf.lt_or_eq with h | h
    · simp [mul, add, infMul, h, h.not_gt, isCloseOrLess, isClose, lt, isnan, isinf]
    · subst h
      simp [mul, add, infMul, isCloseOrLess, isClose, lt, isnan]
  have hfin : buyFinal (Arith.exact r t) o pinf (fin (p * (1 + g))) (fin x) =
      .ok (some { size := fin q, fees := fin (x - x / (1 + f)), req := fin x }) := by
    unfold buyFinal
    simp only [o5, o6, o10, hreq, Bool.false_eq_true, if_false, ha, add_exact, one_def]
    rw [divE_exact, if_neg hf1.ne']
    simp only [le, decide_eq_true_eq, hq0.not_ge, if_false]
    rw [divE_exact, if_neg hpg.ne']
    simp [isnan, sub_exact, hqd]
  have hless : isLess (Arith.exact r t) (fin q) (fin m) = false := by
    unfold isLess
    split
    · rfl
    · simpa [lt] using hmq
  have hbuy : buy (Arith.exact r t) { cash := fin x, position := zero, debt := zero, freeCash := fin x } o pinf nan = .ok
      ({ cash := zero, position := fin q, debt := zero, freeCash := zero },
       { size := fin q, price := fin (p * (1 + g)), fees := fin (x - x / (1 + f)),
         side := OrderSide.Buy, status := OrderStatus.Filled, statusInfo := -1 }) := by
    unfold buy
    simp only [o2, o7, add_exact, mul_exact, one_def, hlim, o4, or_true, if_true]
    rw [if_neg (by simp [eqb, hx0.ne']), if_neg (by simp [isinf])]
    unfold buyBody
    have hd : ¬ o.direction = Direction.ShortOnly := by rw [o4]; decide
    simp only [hd, o9, o10, granulate, gt, lt, eqb, isnan, hfin, Bool.false_eq_true, if_false, Bool.false_and, if_true]
    rw [if_neg (by simp [isClose, isinf]), o8, hless]
    simp only [Bool.false_eq_true, if_false, isfinite, Bool.false_and]
    unfold buyCommit
    simp [lt, neg, addNb_cancel, haq]
  unfold executeOrder
  rw [hsn]
  simp only [o1, o2, isnan, Bool.false_eq_true, if_false, hchk, hrs]
  rw [if_pos (by decide), hbuy]
  simp [applyReject, o11, gt, lt]

/-- The record of the order of column `c`. -/
def heldRec (x p f g : Nat → ℚ) (c : Nat) : OrderRec :=
  { id := c, col := c, idx := 0, size := fin (heldSize (x c) (p c) (f c) (g c)), price := fin (p c * (1 + g c)),
    fees := fin (x c - x c / (1 + f c)), side := OrderSide.Buy }

theorem heldSize_eq (x p f g : ℚ) : x / (1 + f) / (p * (1 + g)) = heldSize x p f g := by
  unfold heldSize
  rw [div_div]
  congr 1
  ring

/-- The first row of a column. -/
theorem hold_first (hr : r < 1) (ht : 0 ≤ t) {inp : SigInputs} {a : SigArrays} {x p f g m : Nat → ℚ}
    (hS : HoldSettings inp a f g m) {c : Nat} (hA : HoldAffordable t (x c) (p c) (f c) (g c) (m c))
    (hp : inp.close 0 c = fin (p c)) {s : SigState}
    (h1 : s.sim.cash = fin (x c)) (h2 : s.sim.free = fin (x c)) (h3 : s.sim.position c = zero)
    (h4 : s.sim.debt c = zero) (h5 : s.sim.oidx = c) (h6 : s.sim.oidx < s.sim.buf.maxOrders) :
    ∃ s', sigRow (Arith.exact r t) inp (arrayCell (Arith.exact r t) inp a) false c c 1 s 0 = .ok s' ∧
      s'.sim.position = setAt s.sim.position c (fin (heldSize (x c) (p c) (f c) (g c))) ∧
      s'.sim.debt = setAt s.sim.debt c zero ∧ s'.sim.oidx = c + 1 ∧
      s'.sim.buf = { s.sim.buf with orders := s.sim.buf.orders ++ [heldRec x p f g c] } := by
  have hpr : sigPrice inp 0 c = fin (p c) := by
    unfold sigPrice; simp [hS.price, isinf, gt, lt, hp]
  obtain ⟨a1, a2, a3, a4, a5, a6, a7⟩ := hA
  rw [← heldSize_eq] at a6 a7
  unfold sigRow sigCells
  simp only [List.range_one, loopE, Nat.add_zero, h3]
  rw [hold_cell (hS.signals 0 c) hS.stops (hS.size 0 c) (hS.sizeType 0 c) (hS.accumulate 0 c) (le_refl 0)]
  simp only [sigCallSeq, Bool.false_and, Bool.false_eq_true, if_false, List.range_one, List.map_cons, List.map_nil,
    List.zip_cons_cons, List.zip_nil_left, loopE, if_true]
  unfold sigSlot
  simp only [Bool.false_and, Bool.false_eq_true, if_false, Nat.add_zero, setAt, if_true]
  rw [if_pos (by simp [eqb])]
  unfold processOrder
  rw [hold_execute hr ht (x := x c) (p := p c) (f := f c) (g := g c) (m := m c) h1 h2 h3 h4
    (by simp [sigOrder, gt, lt, Direction.Both, Direction.ShortOnly]) (by simp [sigOrder, hpr]) (by simp [sigOrder])
    (by simp [sigOrder]) (by simp [sigOrder, hS.fees]) (by simp [sigOrder, hS.fixedFees])
    (by simp [sigOrder, hS.slippage]) (by simp [sigOrder, hS.minSize]) (by simp [sigOrder, hS.maxSize])
    (by simp [sigOrder, hS.gran]) (by simp [sigOrder, hS.rejectProb]) a1 a2 a3 a4 a5 a6 a7]
  have hlog : ∀ z, (sigOrder inp 0 c z).log = false := fun z => by simp [sigOrder, hS.log]
  simp only [hlog, Bool.false_eq_true, false_and, if_false]
  rw [if_neg (by simp [OrderStatus.Filled, OrderStatus.Rejected]), if_neg (by simp; omega)]
  refine ⟨_, rfl, ?_, ?_, ?_, ?_⟩
  · funext k; simp [heldSize_eq, setAt]
  · funext k; simp [setAt]
  · simp [h5]
  · simp [heldRec, heldSize_eq, h5]

/-- A later row of a column. -/
theorem hold_later {inp : SigInputs} {a : SigArrays} {f g m : Nat → ℚ} {A : Arith}
    (hS : HoldSettings inp a f g m) {c i : Nat} {q : ℚ} (hq : 0 < q) {s : SigState} (h3 : s.sim.position c = fin q) :
    ∃ s', sigRow A inp (arrayCell A inp a) false c c 1 s i = .ok s' ∧
      s'.sim.position = s.sim.position ∧ s'.sim.debt = s.sim.debt ∧ s'.sim.oidx = s.sim.oidx ∧
      s'.sim.buf = s.sim.buf := by
  unfold sigRow sigCells
  simp only [List.range_one, loopE, Nat.add_zero, h3]
  rw [hold_cell (hS.signals i c) hS.stops (hS.size i c) (hS.sizeType i c) (hS.accumulate i c) hq.le]
  simp only [sigCallSeq, Bool.false_and, Bool.false_eq_true, if_false, List.range_one, List.map_cons, List.map_nil,
    List.zip_cons_cons, List.zip_nil_left, loopE, hq.ne']
  unfold sigSlot
  simp only [Bool.false_and, Bool.false_eq_true, if_false, Nat.add_zero, setAt, if_true]
  rw [if_neg (by simp [eqb])]
  exact ⟨_, rfl, rfl, rfl, rfl, rfl⟩

theorem hold_laters {inp : SigInputs} {a : SigArrays} {f g m : Nat → ℚ} {A : Arith}
    (hS : HoldSettings inp a f g m) {c : Nat} {q : ℚ} (hq : 0 < q) (l : List Nat) (s : SigState)
    (h3 : s.sim.position c = fin q) :
    ∃ s', loopE (sigRow A inp (arrayCell A inp a) false c c 1) s l = .ok s' ∧
      s'.sim.position = s.sim.position ∧ s'.sim.debt = s.sim.debt ∧ s'.sim.oidx = s.sim.oidx ∧
      s'.sim.buf = s.sim.buf := by
  induction l generalizing s with
  | nil => exact ⟨s, rfl, rfl, rfl, rfl, rfl⟩
  | cons i l ih =>
    obtain ⟨s1, e, e1, e2, e3, e4⟩ := hold_later (A := A) (i := i) hS hq h3
    obtain ⟨s2, e', e1', e2', e3', e4'⟩ := ih s1 (by rw [e1, h3])
    refine ⟨s2, ?_, by rw [e1', e1], by rw [e2', e2], by rw [e3', e3], by rw [e4', e4]⟩
    rw [loopE, e]
    exact e'

/-- The state after the first `k` columns. -/
structure HeldUpTo (x p f g : Nat → ℚ) (b : Buffers) (k : Nat) (s : SimState) : Prop where
  before : ∀ c < k, s.position c = fin (heldSize (x c) (p c) (f c) (g c))
  after : ∀ c, k ≤ c → s.position c = zero
  debt : ∀ c, s.debt c = zero
  oidx : s.oidx = k
  buf : s.buf = { b with orders := (List.range k).map (heldRec x p f g) }

theorem hold_group (hr : r < 1) (ht : 0 ≤ t) {inp : SigInputs} {a : SigArrays} {x p f g m : Nat → ℚ}
    (hS : HoldSettings inp a f g m) {k rows : Nat} (hA : HoldAffordable t (x k) (p k) (f k) (g k) (m k))
    (hp : inp.close 0 k = fin (p k)) {init : Nat → F} (hi : init k = fin (x k)) {b : Buffers} (hb : k < b.maxOrders)
    {s : SigState} (hs : HeldUpTo x p f g b k s.sim) :
    ∃ s', sigGroup (Arith.exact r t) inp (arrayCell (Arith.exact r t) inp a) false init (rows + 1) s (k, k, 1) = .ok s' ∧
      HeldUpTo x p f g b (k + 1) s'.sim := by
  unfold sigGroup
  rw [List.range_succ_eq_map, loopE]
  obtain ⟨s1, e, e1, e2, e3, e4⟩ := hold_first hr ht hS hA hp
    (s := { s with sim := { s.sim with cash := init k, free := init k } }) hi hi (hs.after k (le_refl _)) (hs.debt k)
    hs.oidx (by show s.sim.oidx < s.sim.buf.maxOrders; rw [hs.oidx, hs.buf]; exact hb)
  have hq : 0 < heldSize (x k) (p k) (f k) (g k) := lt_of_le_of_lt ht hA.visible
  obtain ⟨s2, e', e1', e2', e3', e4'⟩ := hold_laters (A := Arith.exact r t) hS hq ((List.range rows).map Nat.succ) s1
    (by rw [e1]; show (if k = k then _ else _) = _; rw [if_pos rfl])
  refine ⟨s2, ?_, ?_⟩
  · simp only [e]; exact e'
  · constructor
    · intro c hc
      rw [e1', e1]
      by_cases h : c = k
      · subst h; simp [setAt]
      · simp only [setAt, h, if_false]; exact hs.before c (by omega)
    · intro c hc
      rw [e1', e1]
      simp only [setAt, show c ≠ k by omega, if_false]
      exact hs.after c (by omega)
    · intro c
      rw [e2', e2]
      simp only [setAt]
      split
      · rfl
      · exact hs.debt c
    · rw [e3', e3]
    · rw [e4', e4]
      simp only [hs.buf, List.range_succ, List.map_append, List.map_cons, List.map_nil]

/-- All columns. -/
theorem hold_all (hr : r < 1) (ht : 0 ≤ t) {inp : SigInputs} {a : SigArrays} {x p f g m : Nat → ℚ}
    (hS : HoldSettings inp a f g m) {rows cols : Nat} (hA : ∀ c < cols, HoldAffordable t (x c) (p c) (f c) (g c) (m c))
    (hp : ∀ c < cols, inp.close 0 c = fin (p c)) {mo : Option Nat} (hmo : ∀ n, mo = some n → cols ≤ n) (ml : Nat) :
    ∃ s, simulateFromSignals (Arith.exact r t) inp a (rows + 1) cols (List.replicate cols 1)
        ((List.range cols).map fun c => fin (x c)) mo ml = .ok s ∧
      HeldUpTo x p f g (initRecords (rows + 1) cols mo ml) cols s.sim := by
  unfold simulateFromSignals simulateSig
  have hng : isGrouped (List.replicate cols 1) = false := by
    unfold isGrouped
    rw [List.any_eq_false]
    intro l hl
    rw [List.eq_of_mem_replicate hl]; decide
  rw [if_neg (by simp)]
  simp only [hng, Bool.false_eq_true, false_and, if_false, true_and]
  rw [if_neg (by simp)]
  have hlay : layout (List.replicate cols 1) = (List.range cols).map fun g => (g, g, 1) := by
    have : ∀ n k, layoutFrom k k (List.replicate n 1) = (List.range' k n).map fun g => (g, g, 1) := by
      intro n
      induction n with
      | zero => intro k; rfl
      | succ n ih => intro k; rw [List.replicate_succ, layoutFrom, ih, List.range'_succ, List.map_cons]
    rw [layout, this, List.range_eq_range']
  rw [hlay]
  have hmax : cols ≤ (initRecords (rows + 1) cols mo ml).maxOrders := by
    unfold initRecords
    cases mo with
    | none => simp only [Option.getD_none]; rw [Nat.add_mul]; omega
    | some n => exact hmo n rfl
  have key : ∀ n ≤ cols, ∃ s, loopE (sigGroup (Arith.exact r t) inp (arrayCell (Arith.exact r t) inp a) false
      (fun g => ((List.range cols).map fun c => fin (x c)).getD g nan) (rows + 1))
      { sim := initState (initRecords (rows + 1) cols mo ml), stops := fun _ => Stops.none }
      ((List.range n).map fun g => (g, g, 1)) = .ok s ∧
      HeldUpTo x p f g (initRecords (rows + 1) cols mo ml) n s.sim := by
    intro n
    induction n with
    | zero =>
      intro _
      exact ⟨_, rfl, ⟨fun c hc => absurd hc (Nat.not_lt_zero c), fun _ _ => rfl, fun _ => rfl, rfl, rfl⟩⟩
    | succ n ih =>
      intro hn
      obtain ⟨s, e, hs⟩ := ih (by omega)
      obtain ⟨s', e', hs'⟩ := hold_group hr ht (rows := rows) hS (hA n hn) (hp n hn)
        (init := fun g => ((List.range cols).map fun c => fin (x c)).getD g nan)
        (by simp [List.getD, List.getElem?_map, List.getElem?_range hn]) (by omega) hs
      refine ⟨s', ?_, hs'⟩
      rw [List.range_succ, List.map_append, List.map_cons, List.map_nil, loopE_append, e]
      simp only [loopE, e']
  exact key cols (le_refl _)

end Vbt
