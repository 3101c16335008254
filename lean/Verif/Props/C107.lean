import Verif.Lemmas.Holding
import Verif.Lemmas.Recon
import Verif.Lemmas.SigWitness
import Verif.Model.FromSignals
import Verif.Model.RustRecon
import Verif.Props.C28

/-!
# C107  Holding is the benchmark

`Portfolio.from_holding` buys for all the cash in the first row and does nothing afterwards; its value is that of the
benchmark, divided by the costs.  And what the arguments of `from_signals` stand for.
-/

namespace Vbt
open F

variable {r t : ℚ}

/-- **C107** (orders).  Columns on their own: exactly one order per column, in the first row, for all the cash. -/
theorem C107_orders (hr : r < 1) (ht : 0 ≤ t) {inp : SigInputs} {a : SigArrays} {x p f g m : Nat → ℚ}
    (hS : HoldSettings inp a f g m) {rows cols : Nat} (hA : ∀ c < cols, HoldAffordable t (x c) (p c) (f c) (g c) (m c))
    (hp : ∀ c < cols, inp.close 0 c = fin (p c)) {mo : Option Nat} (hmo : ∀ n, mo = some n → cols ≤ n) (ml : Nat) :
    ∃ s, simulateFromSignals (Arith.exact r t) inp a (rows + 1) cols (List.replicate cols 1)
        ((List.range cols).map fun c => fin (x c)) mo ml = .ok s ∧
      s.sim.buf.orders = (List.range cols).map fun c =>
        { id := c, col := c, idx := 0, size := fin (x c / ((1 + f c) * (1 + g c) * p c)),
          price := fin (p c * (1 + g c)), fees := fin (x c - x c / (1 + f c)), side := OrderSide.Buy } := by
  obtain ⟨s, e, h⟩ := hold_all hr ht hS hA hp hmo ml
  refine ⟨s, e, ?_⟩
  rw [h.buf]
  rfl

theorem held_column {x p f g : Nat → ℚ} {cols c : Nat} (hc : c < cols) (junk : Nat → Nat) :
    columnRecords ((List.range cols).map (heldRec x p f g)) junk c = [heldRec x p f g c] := by
  rw [columnRecords_eq, List.filter_map]
  have : (List.range cols).filter ((fun o : OrderRec => decide (o.col = c)) ∘ heldRec x p f g) = [c] := by
    have : ((fun o : OrderRec => decide (o.col = c)) ∘ heldRec x p f g) = fun k => decide (k = c) := by
      funext k; rfl
    rw [this]
    induction cols with
    | zero => exact absurd hc (Nat.not_lt_zero _)
    | succ n ih =>
      rw [List.range_succ, List.filter_append]
      rcases Nat.lt_succ_iff_lt_or_eq.1 hc with h | h
      · rw [ih h]; simp [show n ≠ c by omega]
      · subst h
        have : (List.range c).filter (fun k => decide (k = c)) = [] := by
          rw [List.filter_eq_nil_iff]
          intro k hk
          have := List.mem_range.1 hk
          simp; omega
        rw [this]; simp
  rw [this]
  rfl

/-- **C107** (value).  Cash, assets and value reconstructed from these orders: no cash is left, the assets stay, and the value
is the benchmark divided by the costs of the purchase. -/
theorem C107_value (hr : r < 1) (ht : 0 ≤ t) {x p f g m : Nat → ℚ} {cols c : Nat} (hc : c < cols)
    (hA : HoldAffordable t (x c) (p c) (f c) (g c) (m c)) {orders : List OrderRec}
    (ho : orders = (List.range cols).map fun c =>
      { id := c, col := c, idx := 0, size := fin (x c / ((1 + f c) * (1 + g c) * p c)),
        price := fin (p c * (1 + g c)), fees := fin (x c - x c / (1 + f c)), side := OrderSide.Buy })
    (junk : Nat → Nat) {close : Nat → Nat → F} (hp : close 0 c = fin (p c)) {i : Nat} {q : ℚ} (hq : close i c = fin q) :
    ∃ cf af, cashFlow (Arith.exact r t) false orders junk c = .ok cf ∧
      assetFlow (Arith.exact r t) Direction.Both orders junk c = .ok af ∧
      cashAt (Arith.exact r t) (fin (x c)) cf i = zero ∧
      assetsAt (Arith.exact r t) af i = fin (x c / ((1 + f c) * (1 + g c) * p c)) ∧
      valueAt (Arith.exact r t) (fun _ _ => cashAt (Arith.exact r t) (fin (x c)) cf i)
        (assetValue (Arith.exact r t) close fun _ _ => assetsAt (Arith.exact r t) af i) i c =
        fin (q / p c * x c / ((1 + f c) * (1 + g c))) ∧
      benchmarkValue (Arith.exact r t) close (fun c => fin (x c)) i c = fin (q / p c * x c) := by
  obtain ⟨a1, a2, a3, a4, a5, a6, a7⟩ := hA
  have hx0 : 0 < x c := lt_of_le_of_lt ht a1
  have hf1 : (0 : ℚ) < 1 + f c := by linarith
  have hg1 : (0 : ℚ) < 1 + g c := by linarith
  have hcol : columnRecords orders junk c = [heldRec x p f g c] := by rw [ho]; exact held_column hc junk
  have hh : heldSize (x c) (p c) (f c) (g c) = x c / ((1 + f c) * (1 + g c) * p c) := rfl
  set h := heldSize (x c) (p c) (f c) (g c) with hhd
  have hpos : 0 < h := lt_of_le_of_lt ht a6
  have hin : addNb (Arith.exact r t) zero (fin h) = fin h :=
    not_snap_zero_left hr ht (.inr (by rwa [abs_of_pos hpos]))
  have hin' : addNb (Arith.exact r t) (fin h) zero = fin h :=
    not_snap_zero_right hr ht (.inr (by rwa [abs_of_pos hpos]))
  have hcx : addNb (Arith.exact r t) zero (fin (-x c)) = fin (-x c) :=
    not_snap_zero_left hr ht (.inr (by rwa [abs_neg, abs_of_pos hx0]))
  have h00 : addNb (Arith.exact r t) zero zero = zero := not_snap_zero_left hr ht (.inl rfl)
  have hflow : orderFlow (Arith.exact r t) (heldRec x p f g c) = fin (-x c) := by
    unfold orderFlow signedSize heldRec
    rw [if_neg (by show ¬ OrderSide.Buy = OrderSide.Sell; decide)]
    simp only [neg, mul_exact, sub_exact]
    congr 1
    unfold heldSize
    field_simp
    ring
  have hsz : signedSize (heldRec x p f g c) = fin h := by
    unfold signedSize heldRec
    rw [if_neg (by show ¬ OrderSide.Buy = OrderSide.Sell; decide)]
  have hidx : (heldRec x p f g c).idx = 0 := rfl
  refine ⟨fun k => if k = 0 then fin (-x c) else zero, fun k => if k = 0 then fin h else zero, ?_, ?_, ?_⟩
  · have hstep : cashFlowStep (Arith.exact r t) false FlowState.start (heldRec x p f g c) =
        .ok { FlowState.start with
          lastId := c, position := addNb (Arith.exact r t) zero (fin h), out := setAt (fun _ => zero) 0 (fin (-x c)) } := by
      unfold cashFlowStep
      rw [if_neg (by show ¬ ((c : Int) < -1); omega), hflow, hsz]
      simp only [Bool.false_eq_true, if_false]
      conv_rhs => rw [← hcx]
      rfl
    unfold cashFlow
    rw [hcol, loopE, hstep]
    rfl
  · have hstep : assetFlowStep (Arith.exact r t) Direction.Both FlowState.start (heldRec x p f g c) =
        .ok { FlowState.start with
          lastId := c, position := addNb (Arith.exact r t) zero (fin h), out := setAt (fun _ => zero) 0 (fin h) } := by
      unfold assetFlowStep
      rw [if_neg (by show ¬ ((c : Int) < -1); omega), hsz]
      simp only []
      rw [if_neg (show ¬ Direction.Both = Direction.LongOnly by decide),
        if_neg (show ¬ Direction.Both = Direction.ShortOnly by decide)]
      conv_rhs => rw [show setAt (fun _ => zero) 0 (fin h) = setAt (fun _ => zero) 0 (addNb (Arith.exact r t) zero (fin h)) by rw [hin]]
      rfl
    unfold assetFlow
    rw [hcol, loopE, hstep]
    rfl
  have hcash : ∀ i, cashAt (Arith.exact r t) (fin (x c)) (fun k => if k = 0 then fin (-x c) else zero) i = zero := by
    intro i
    induction i with
    | zero => rw [cashAt, if_pos rfl]; exact addNb_cancel _
    | succ i ih => rw [cashAt, ih, if_neg (by omega)]; exact h00
  have hass : ∀ i, assetsAt (Arith.exact r t) (fun k => if k = 0 then fin h else zero) i = fin h := by
    intro i
    induction i with
    | zero => rw [assetsAt, if_pos rfl]; exact hin
    | succ i ih => rw [assetsAt, ih, if_neg (by omega)]; exact hin'
  rw [hcash, hass]
  refine ⟨rfl, by rw [hh], ?_, ?_⟩
  · unfold valueAt assetValue
    rw [hq, mul_exact, add_exact]
    congr 1
    rw [hh, zero_add]
    field_simp
  · unfold benchmarkValue
    rw [hq, hp, div_exact _ _ _ _ a2.ne', mul_exact]

/-- **C107** (benchmark).  Without fees and slippage the value is that of the benchmark in every row, and the total return is
the total return of the benchmark. -/
theorem C107_benchmark (hr : r < 1) (ht : 0 ≤ t) {x p m : Nat → ℚ} {cols c : Nat} (hc : c < cols)
    (hA : HoldAffordable t (x c) (p c) 0 0 (m c)) {orders : List OrderRec}
    (ho : orders = (List.range cols).map fun c =>
      { id := c, col := c, idx := 0, size := fin (x c / p c), price := fin (p c), fees := zero, side := OrderSide.Buy })
    (junk : Nat → Nat) {close : Nat → Nat → F} (hp : close 0 c = fin (p c)) {rows : Nat} {q : Nat → ℚ}
    (hq : ∀ i ≤ rows, close i c = fin (q i)) :
    (∃ cf af, cashFlow (Arith.exact r t) false orders junk c = .ok cf ∧
      assetFlow (Arith.exact r t) Direction.Both orders junk c = .ok af ∧ ∀ i ≤ rows,
        valueAt (Arith.exact r t) (fun i _ => cashAt (Arith.exact r t) (fin (x c)) cf i)
          (assetValue (Arith.exact r t) close fun i _ => assetsAt (Arith.exact r t) af i) i c =
          benchmarkValue (Arith.exact r t) close (fun c => fin (x c)) i c) ∧
    ∃ profit, totalProfit (Arith.exact r t) orders junk (close rows c) c = .ok profit ∧
      totalBenchmarkReturn (Arith.exact r t)
        (fun i c => benchmarkValue (Arith.exact r t) close (fun c => fin (x c)) i c) (rows + 1) c =
        .ok (totalReturn (Arith.exact r t) profit (fin (x c))) := by
  have ho' : orders = (List.range cols).map fun c =>
      { id := c, col := c, idx := 0, size := fin (x c / ((1 + (0 : ℚ)) * (1 + 0) * p c)),
        price := fin (p c * (1 + 0)), fees := fin (x c - x c / (1 + 0)), side := OrderSide.Buy } := by
    rw [ho]; congr 1; funext c; simp
  have hx0 : 0 < x c := lt_of_le_of_lt ht hA.cash
  have hp0 : p c ≠ 0 := hA.price.ne'
  have hh : heldSize (x c) (p c) 0 0 = x c / p c := by simp [heldSize]
  have hpos : 0 < x c / p c := div_pos hx0 hA.price
  constructor
  · obtain ⟨cf, af, e1, e2, -⟩ := C107_value (f := fun _ => 0) (g := fun _ => 0) hr ht hc hA ho' junk hp (i := 0) hp
    refine ⟨cf, af, e1, e2, fun i hi => ?_⟩
    obtain ⟨cf', af', e1', e2', -, -, e3, e4⟩ :=
      C107_value (f := fun _ => 0) (g := fun _ => 0) hr ht hc hA ho' junk hp (hq i hi)
    rw [e1] at e1'; rw [e2] at e2'
    cases e1'; cases e2'
    rw [e4]
    refine e3.trans ?_
    congr 1
    ring
  · have hcol : columnRecords orders junk c = [heldRec x p (fun _ => 0) (fun _ => 0) c] := by
      rw [ho']; exact held_column hc junk
    have hin : addNb (Arith.exact r t) zero (fin (x c / p c)) = fin (x c / p c) :=
      not_snap_zero_left hr ht (.inr (by rw [abs_of_pos hpos, ← hh]; exact hA.visible))
    have hcx : addNb (Arith.exact r t) zero (fin (-x c)) = fin (-x c) :=
      not_snap_zero_left hr ht (.inr (by rw [abs_neg, abs_of_pos hx0]; exact hA.cash))
    have hb : ∀ i ≤ rows, benchmarkValue (Arith.exact r t) close (fun c => fin (x c)) i c = fin (q i / p c * x c) := by
      intro i hi
      unfold benchmarkValue
      rw [hq i hi, hp, div_exact _ _ _ _ hp0, mul_exact]
    have hq0 : q 0 = p c := by
      have := hq 0 (Nat.zero_le _)
      rw [hp] at this
      exact (F.fin.inj this).symm
    refine ⟨fin (-x c + x c / p c * q rows), ?_, ?_⟩
    · unfold totalProfit
      rw [hcol]
      simp only [loopE, totalProfitStep]
      rw [if_neg (by simp)]
      simp only [heldRec, if_true, hh, List.length_singleton]
      rw [hq rows (le_refl _)]
      have : x c / p c * (p c * (1 + 0)) + (x c - x c / (1 + 0)) = x c := by field_simp; ring
      simp only [mul_exact, add_exact, this, neg, hcx, hin]
      simp
    · unfold totalBenchmarkReturn getReturn totalReturn
      beta_reduce
      rw [Nat.add_sub_cancel, hb 0 (Nat.zero_le _), hb rows (le_refl _), hq0, div_self hp0, one_mul]
      rw [if_neg (by simp [eqb, hx0.ne']), sub_exact, divE_exact, if_neg hx0.ne', div_exact _ _ _ _ hx0.ne']
      simp only [lt, hx0.not_gt, decide_false, Bool.false_eq_true, if_false]
      congr 2
      congr 1
      ring

/-- **C107** (defaults).  The defaults of `from_holding`, with any direction that is not short only, are what the theorems above
ask for; so is leaving out entries and exits altogether. -/
theorem C107_defaults (close : Nat → Nat → F) (g : SigArgs) (h : g.lsMode = false) (hf : g.signalFunc = none)
    (h1 : g.adjustSl = none) (h2 : g.adjustTp = none) (hd : ∀ i c, g.directionOr i c ≠ Direction.ShortOnly)
    (A : Arith) (inp : SigInputs) (rows cols : Nat) (lens : List Nat) (initCash : List F) (mo : Option Nat) (ml : Nat) :
    ∃ a, HoldSettings (defaultSettings close) a (fun _ => 0) (fun _ => 0) (fun _ => 1 / 100000000) ∧
      fromHolding A inp g rows cols lens initCash mo ml = simulateFromSignals A inp a rows cols lens initCash mo ml ∧
      (g.entries = none → g.exits = none →
        fromSignals A inp g rows cols lens initCash mo ml = simulateFromSignals A inp a rows cols lens initCash mo ml) := by
  have hl : (g.shortEntries.isSome || g.shortExits.isSome) = false := h
  refine ⟨{
      entries := fun _ _ => true, exits := fun _ _ => false, direction := g.directionOr,
      longEntries := fun _ _ => false, longExits := fun _ _ => false,
      shortEntries := fun _ _ => false, shortExits := fun _ _ => false }, ?_, ?_, ?_⟩
  · constructor
    · intro i c
      unfold arraySignals
      simp only [Bool.true_or, if_true, Bool.or_false, hd i c, if_false, ite_self]
    all_goals first | (intros; rfl) | decide
  · unfold fromHolding fromSignals
    rw [if_neg (by simp [hf]), if_pos (by simp [hf, h1, h2])]
    unfold SigArgs.arrays SigArgs.lsMode
    simp only [hl, Bool.false_eq_true, if_false]
    rfl
  · intro he hx
    unfold fromSignals
    rw [if_neg (by simp [hf]), if_pos (by simp [hf, h1, h2])]
    unfold SigArgs.arrays
    rw [h]
    simp only [Bool.false_eq_true, if_false, SigArgs.entriesOr, he, hx, h, Option.isNone_none, Bool.not_false, Bool.and_self, if_true]
    rfl

/-- **C107** (infinite cash).  Holding needs finite cash: with infinite cash the first order raises. -/
theorem C107_infinite {A : Arith} {inp : SigInputs} {a : SigArrays} {f g m : Nat → ℚ} (hS : HoldSettings inp a f g m)
    {p : ℚ} (hp : inp.close 0 0 = fin p) (h0 : 0 < p) (hg : 0 ≤ g 0) (hm : 0 ≤ m 0) (rows cols : Nat)
    (lens : List Nat) (hl : lens = List.replicate (cols + 1) 1) (mo : Option Nat) (ml : Nat) :
    simulateFromSignals A inp a (rows + 1) (cols + 1) lens (List.replicate (cols + 1) pinf) mo ml =
      .error (.valueError "Attempt to go in long direction infinitely") := by
  subst hl
  have hng : isGrouped (List.replicate (cols + 1) 1) = false := by
    unfold isGrouped
    rw [List.any_eq_false]
    intro l hl
    rw [List.eq_of_mem_replicate hl]; decide
  have hpr : sigPrice inp 0 0 = fin p := by
    unfold sigPrice; simp [hS.price, isinf, gt, lt, hp]
  unfold simulateFromSignals simulateSig
  rw [if_neg (by simp)]
  simp only [hng, Bool.false_eq_true, false_and, if_false, true_and]
  rw [if_neg (by simp)]
  unfold layout
  rw [show layoutFrom 0 0 (List.replicate (cols + 1) 1) = (0, 0, 1) :: layoutFrom 1 1 (List.replicate cols 1) from rfl, loopE]
  have hrow : sigRow A inp (arrayCell A inp a) false 0 0 1
      { sim := { (initState (initRecords (rows + 1) (cols + 1) mo ml)) with cash := pinf, free := pinf },
        stops := fun _ => Stops.none } 0 = .error (.valueError "Attempt to go in long direction infinitely") := by
    unfold sigRow sigCells
    simp only [List.range_one, loopE, Nat.add_zero, initState]
    rw [show (zero : F) = fin 0 from rfl,
      hold_cell (hS.signals 0 0) hS.stops (hS.size 0 0) (hS.sizeType 0 0) (hS.accumulate 0 0) (le_refl 0)]
    simp only [sigCallSeq, Bool.false_and, Bool.false_eq_true, if_false, List.range_one, List.map_cons, List.map_nil,
      List.zip_cons_cons, List.zip_nil_left, loopE, if_true]
    unfold sigSlot
    simp only [Bool.false_and, Bool.false_eq_true, if_false, Nat.add_zero, setAt, if_true]
    rw [if_pos (by simp [eqb])]
    unfold processOrder executeOrder
    have hsn : ∀ v w n k, snapExec A
        { cash := pinf, position := fin 0, debt := fin 0, freeCash := pinf, valPrice := v, value := w, oidx := n, lidx := k } = { cash := pinf, position := fin 0, debt := fin 0, freeCash := pinf } := by
      intro v w n k
      simp [snapExec, snap, isClose, eqb]
    rw [hsn]
    have hsz : ∀ z : CellOrder, z.size = pinf → z.direction = Direction.Both → (sigOrder inp 0 0 z).size = pinf := by
      intro z h h'
      simp [sigOrder, h, h', gt, lt, Direction.Both, Direction.ShortOnly]
    generalize hz : (CellOrder.mk (sigPrice inp 0 0) (inp.slippage 0 0) pinf SizeType.Amount Direction.Both) = z
    have o1 : (sigOrder inp 0 0 z).size = pinf := hsz z (by rw [← hz]) (by rw [← hz])
    have o2 : (sigOrder inp 0 0 z).price = fin p := by simp [sigOrder, ← hz, hpr]
    have o3 : (sigOrder inp 0 0 z).sizeType = SizeType.Amount := by simp [sigOrder, ← hz]
    have o4 : (sigOrder inp 0 0 z).direction = Direction.Both := by simp [sigOrder, ← hz]
    have o5 : (sigOrder inp 0 0 z).fees = fin (f 0) := by simp [sigOrder, hS.fees]
    have o6 : (sigOrder inp 0 0 z).fixedFees = zero := by simp [sigOrder, hS.fixedFees]
    have o7 : (sigOrder inp 0 0 z).slippage = fin (g 0) := by simp [sigOrder, ← hz, hS.slippage]
    have o8 : (sigOrder inp 0 0 z).minSize = fin (m 0) := by simp [sigOrder, hS.minSize]
    have o9 : (sigOrder inp 0 0 z).maxSize = pinf := by simp [sigOrder, hS.maxSize]
    have o10 : (sigOrder inp 0 0 z).gran = nan := by simp [sigOrder, hS.gran]
    have o11 : (sigOrder inp 0 0 z).rejectProb = zero := by simp [sigOrder, hS.rejectProb]
    generalize sigOrder inp 0 0 z = o at *
    have hchk : checkOrder { cash := pinf, position := fin 0, debt := fin 0, freeCash := pinf } o = none := by
      unfold checkOrder
      simp [o2, o3, o4, o5, o6, o7, o8, o9, o10, o11, lt, le, gt, isnan, isinf, isfinite, h0.not_ge, hg.not_gt, hm.not_gt,
        SizeType.Amount, Direction.Both, Direction.LongOnly, Direction.ShortOnly]
    have hrs : ∀ v w, resolveSize A { cash := pinf, position := fin 0, debt := fin 0, freeCash := pinf } o v w = .size pinf nan := by
      intro v w
      simp [resolveSize, resolveValue, resolveTargetAmount, resolvePercent, o1, o3, o4, SizeType.Amount, SizeType.Value,
        SizeType.TargetValue, SizeType.TargetPercent, SizeType.TargetAmount, SizeType.Percent, Direction.Both,
        Direction.ShortOnly, lt]
    have hlim : ∀ v, buyCashLimit A { cash := pinf, position := fin 0, debt := fin 0, freeCash := pinf } o v nan = .ok pinf := by
      intro v
      unfold buyCashLimit
      cases hlc : o.lockCash <;> simp [ge, le, pmin, lt, isnan]
    have hbuy : buy A { cash := pinf, position := fin 0, debt := fin 0, freeCash := pinf } o pinf nan =
        .error (.valueError "Attempt to go in long direction infinitely") := by
      unfold buy
      simp only [hlim, o4, or_true, if_true]
      rw [if_neg (by simp [eqb]), if_pos (by simp [isinf])]
    simp only [o1, o2, isnan, Bool.false_eq_true, if_false, hchk, hrs]
    rw [if_pos (by decide), hbuy]
  have hgrp : sigGroup A inp (arrayCell A inp a) false (fun g => (List.replicate (cols + 1) pinf).getD g nan) (rows + 1)
      { sim := initState (initRecords (rows + 1) (cols + 1) mo ml), stops := fun _ => Stops.none } (0, 0, 1) =
      .error (.valueError "Attempt to go in long direction infinitely") := by
    unfold sigGroup
    rw [List.range_succ_eq_map, loopE]
    simp only [List.replicate_succ, List.getD_cons_zero]
    rw [hrow]
  rw [hgrp]

/-! ## Examples and counterexamples -/

/-- Prices 2, 3, 4 and 5, 5, 10. -/
def wHoldClose : Nat → Nat → F := fun i c => if c = 0 then fin (2 + i) else if i = 2 then fin 10 else fin 5

/-- The defaults in two columns: what the theorem on orders says, met. -/
example : ∃ a s, fromHolding Arith.std (defaultSettings wHoldClose) {} 3 2 [1, 1] [fin 100, fin 50] none 1 = .ok s ∧
    HoldSettings (defaultSettings wHoldClose) a (fun _ => 0) (fun _ => 0) (fun _ => 1 / 100000000) ∧
    s.sim.buf.orders = [⟨0, 0, 0, fin 50, fin 2, fin 0, OrderSide.Buy⟩, ⟨1, 1, 0, fin 10, fin 5, fin 0, OrderSide.Buy⟩] := by
  obtain ⟨a, h1, h2, -⟩ := C107_defaults wHoldClose {} rfl rfl rfl rfl (fun _ _ => by show Direction.LongOnly ≠ Direction.ShortOnly; decide) Arith.std
    (defaultSettings wHoldClose) 3 2 [1, 1] [fin 100, fin 50] none 1
  obtain ⟨s, e, h⟩ := C107_orders (r := 1 / 1000000000) (t := 1 / 1000000000000) (by norm_num) (by norm_num) h1
    (x := fun c => if c = 0 then 100 else 50) (p := fun c => if c = 0 then 2 else 5) (rows := 2) (cols := 2)
    (fun c _ => by
      by_cases h : c = 0 <;> simp only [h, if_true, if_false] <;> constructor <;> norm_num [heldSize])
    (fun c hc => by
      have : c = 0 ∨ c = 1 := by omega
      rcases this with rfl | rfl <;> simp [defaultSettings, wHoldClose]) (mo := none) (fun _ h => by cases h) 1
  refine ⟨a, s, ?_, h1, ?_⟩
  · rw [h2]
    exact e
  · rw [h]
    simp [List.range_succ]
    norm_num

/-- Fees of 25 % and slippage of 10 %: the value is the benchmark divided by `1.25 * 1.1`. -/
example : ∃ cf af,
    cashFlow (Arith.exact 0 0) false [⟨0, 0, 0, fin 40, fin (11 / 5), fin 22, OrderSide.Buy⟩] id 0 = .ok cf ∧
    assetFlow (Arith.exact 0 0) Direction.Both [⟨0, 0, 0, fin 40, fin (11 / 5), fin 22, OrderSide.Buy⟩] id 0 = .ok af ∧
    cashAt (Arith.exact 0 0) (fin 110) cf 2 = zero ∧ assetsAt (Arith.exact 0 0) af 2 = fin 40 ∧
    valueAt (Arith.exact 0 0) (fun _ _ => cashAt (Arith.exact 0 0) (fin 110) cf 2)
        (assetValue (Arith.exact 0 0) wHoldClose fun _ _ => assetsAt (Arith.exact 0 0) af 2) 2 0 = fin 160 ∧
    benchmarkValue (Arith.exact 0 0) wHoldClose (fun _ => fin 110) 2 0 = fin 220 := by
  obtain ⟨cf, af, h1, h2, h3, h4, h5, h6⟩ := C107_value (r := 0) (t := 0) (by norm_num) (by norm_num)
    (x := fun _ => 110) (p := fun _ => 2) (f := fun _ => 1 / 4) (g := fun _ => 1 / 10) (m := fun _ => 0) (cols := 1) (c := 0) (by omega)
    (by constructor <;> norm_num [heldSize])
    (orders := [⟨0, 0, 0, fin 40, fin (11 / 5), fin 22, OrderSide.Buy⟩])
    (by simp [List.range_succ]; norm_num) id (close := wHoldClose) (by decide +kernel) (i := 2) (q := 4) (by decide +kernel)
  refine ⟨cf, af, h1, h2, h3, ?_, ?_, ?_⟩
  · rw [h4]; norm_num
  · rw [h5]; norm_num
  · rw [h6]; norm_num

/-- The hypotheses of the benchmark theorem can be met: prices 2, 3, 4, cash 100. -/
example : ∃ profit, totalProfit (Arith.exact 0 0) [⟨0, 0, 0, fin 50, fin 2, zero, OrderSide.Buy⟩] id (wHoldClose 2 0) 0 = .ok profit ∧
    totalBenchmarkReturn (Arith.exact 0 0)
      (fun i c => benchmarkValue (Arith.exact 0 0) wHoldClose (fun _ => fin 100) i c) 3 0 =
      .ok (totalReturn (Arith.exact 0 0) profit (fin 100)) :=
  (C107_benchmark (r := 0) (t := 0) (by norm_num) (by norm_num) (x := fun _ => 100) (p := fun _ => 2) (m := fun _ => 0)
    (cols := 1) (c := 0) (by omega) (by constructor <;> norm_num [heldSize])
    (orders := [⟨0, 0, 0, fin 50, fin 2, zero, OrderSide.Buy⟩])
    (by simp [List.range_succ]; norm_num) id (close := wHoldClose) (by decide +kernel) (rows := 2) (q := fun i => 2 + i)
    (fun i _ => by simp [wHoldClose])).2

/-- Infinite cash. -/
example : ∃ a, simulateFromSignals Arith.std (defaultSettings wHoldClose) a 3 2 [1, 1] [pinf, pinf] none 1 =
    .error (.valueError "Attempt to go in long direction infinitely") := by
  obtain ⟨a, h1, -⟩ := C107_defaults wHoldClose {} rfl rfl rfl rfl (fun _ _ => by show Direction.LongOnly ≠ Direction.ShortOnly; decide) Arith.std
    (defaultSettings wHoldClose) 3 2 [1, 1] [fin 100, fin 50] none 1
  exact ⟨a, C107_infinite h1 (p := 2) (by decide +kernel) (by norm_num) (by norm_num) (by norm_num) 2 1 _ rfl none 1⟩

/-- **C107**, negation for groups sharing cash: holding puts all of the cash into the first column of the group, the benchmark of
the group spreads it evenly.  Prices 2, 3, 4 and 5, 5, 10; cash 100: the group is worth 200, the benchmark 200 as well in the
last row, but 150 against 125 in the second. -/
theorem C107_group_counterexample : ∃ s,
    fromHolding Arith.std (defaultSettings wHoldClose) {} 3 2 [2] [fin 100] none 1 = .ok s ∧
    s.sim.buf.orders = [⟨0, 0, 0, fin 50, fin 2, fin 0, OrderSide.Buy⟩] ∧
    s.sim.cash = zero ∧ mul Arith.std (fin 50) (wHoldClose 1 0) = fin 150 ∧
    benchmarkGrouped Arith.std wHoldClose 0 2 (fin 100) 1 = .ok (fin 125) := by
  obtain ⟨s, h, hs⟩ := okAnd_iff (x := fromHolding Arith.std (defaultSettings wHoldClose) {} 3 2 [2] [fin 100] none 1)
    (f := fun s => decide (s.sim.buf.orders = [⟨0, 0, 0, fin 50, fin 2, fin 0, OrderSide.Buy⟩] ∧ s.sim.cash = zero))
    (by decide +kernel)
  have := of_decide_eq_true hs
  refine ⟨s, h, this.1, this.2, by decide +kernel, ?_⟩
  obtain ⟨b, e, hb⟩ := okAnd_iff (x := benchmarkGrouped Arith.std wHoldClose 0 2 (fin 100) 1)
    (f := fun b => decide (b = fin 125)) (by decide +kernel)
  rw [e, of_decide_eq_true hb]

/-- **C107**, negation for initial cash: the integer 1 is taken for a mode, the float 1.0 for an amount.  Holding with
`init_cash=1.0` buys; with `init_cash=1` it raises. -/
theorem C107_init_cash_counterexample :
    (∃ cash s, resolveInitCash 1 (.float one) = .ok (none, cash) ∧
      fromHolding Arith.std (defaultSettings wHoldClose) {} 3 1 [1] cash none 1 = .ok s ∧
      s.sim.buf.orders = [⟨0, 0, 0, fin (1 / 2), fin 2, fin 0, OrderSide.Buy⟩]) ∧
    ∃ cash, resolveInitCash 1 (.int 1) = .ok (some 1, cash) ∧
      fromHolding Arith.std (defaultSettings wHoldClose) {} 3 1 [1] cash none 1 =
        .error (.valueError "Attempt to go in long direction infinitely") := by
  constructor
  · obtain ⟨s, h, hs⟩ := okAnd_iff (x := fromHolding Arith.std (defaultSettings wHoldClose) {} 3 1 [1] [one] none 1)
      (f := fun s => decide (s.sim.buf.orders = [⟨0, 0, 0, fin (1 / 2), fin 2, fin 0, OrderSide.Buy⟩])) (by decide +kernel)
    exact ⟨[one], s, by decide +kernel, h, of_decide_eq_true hs⟩
  · exact ⟨[pinf], by decide +kernel, raised_iff.mp (by decide +kernel)⟩

end Vbt
