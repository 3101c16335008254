import Verif.Lemmas.RustOrder
import Verif.Lemmas.Double
import Verif.Props.C21

/-!
# C83: the Rust engine executes an order as the Numba engine does
-/

namespace Vbt
open F

/-- **C83** (execution).  For every arithmetic that rounds like IEEE 754 does, every state and every order of `Rs.Common`:
unless the Numba engine divides by zero, the Rust engine returns the same balances and the same result, or the same error. -/
theorem C83_execute_partial {A : Arith} (hA : A.Sound) (z : Bool) {st : ProcState} {o : Order} (u : F)
    (hc : Rs.Common A st o) (h : executeOrder A st o u ≠ .error .zeroDivision) :
    Rs.executeOrder A z st o u = executeOrder A st o u := Rs.executeOrder_eq hA z u hc h

/-- **C83** (processing).  Neither do the valuation after the order, the records and the errors differ. -/
theorem C83_process_partial {A : Arith} (hA : A.Sound) (z : Bool) (i col group : Nat) {st : ProcState} (updVal : Bool)
    {o : Order} (u : F) (b : Buffers) (hc : Rs.Common A st o)
    (h : processOrder A i col group st updVal o u b ≠ .error .zeroDivision) :
    Rs.processOrder A z i col group st updVal o u b = processOrder A i col group st updVal o u b :=
  Rs.processOrder_eq hA z i col group updVal u b hc h

/-- **C83** (defaults).  In binary64: an order without granularity and without locked cash that is not a `Percent` order of size
zero is processed alike, whatever the balances, prices, fees, limits, size type and direction. -/
theorem C83_double (z : Bool) (i col group : Nat) {st : ProcState} (updVal : Bool) {o : Order} (u : F)
    (b : Buffers)
    (hst : Rep Arith.double st.cash ∧ Rep Arith.double st.position ∧
      Rep Arith.double st.debt ∧ Rep Arith.double st.freeCash)
    (ho : Rep Arith.double o.size ∧ Rep Arith.double o.maxSize ∧
      Rep Arith.double o.fixedFees)
    (hg : o.gran = nan) (hl : o.lockCash = false) (hp : o.sizeType = SizeType.Percent → o.size ≠ zero)
    (h : processOrder Arith.double i col group st updVal o u b ≠ .error .zeroDivision) :
    Rs.processOrder Arith.double z i col group st updVal o u b =
      processOrder Arith.double i col group st updVal o u b := by
  refine Rs.processOrder_eq double_sound z i col group updVal u b ?_ h
  exact ⟨hst.1, hst.2.1, hst.2.2.1, hst.2.2.2, ho.1, ho.2.1, ho.2.2, hp, fun e => absurd e (by simp [hl]),
    fun e => absurd e (by simp [hl]), .inl (by rw [hg]; rfl)⟩

/-- **C83** (exact arithmetic).  Locked cash and granularity included, as long as no balance is infinite. -/
theorem C83_exact {r t : ℚ} (z : Bool) (i col group : Nat) {st : ProcState} (updVal : Bool) {o : Order} (u : F)
    (b : Buffers) (hf : st.freeCash ≠ ninf) (hv : st.value ≠ pinf)
    (hp : o.sizeType = SizeType.Percent → o.size ≠ zero ∧ o.size.isfinite = true)
    (h : processOrder (Arith.exact r t) i col group st updVal o u b ≠ .error .zeroDivision) :
    Rs.processOrder (Arith.exact r t) z i col group st updVal o u b =
      processOrder (Arith.exact r t) i col group st updVal o u b := by
  refine Rs.processOrder_eq (exact_sound r t) z i col group updVal u b ?_ h
  exact ⟨Rs.rep_exact _ _ _, Rs.rep_exact _ _ _, Rs.rep_exact _ _ _, Rs.rep_exact _ _ _, Rs.rep_exact _ _ _,
    Rs.rep_exact _ _ _, Rs.rep_exact _ _ _, fun e => (hp e).1, fun _ _ => ⟨Rs.unbounded_exact r t, hf⟩,
    fun _ _ _ => hv, .inr ⟨⟨r, t, rfl⟩, hf, fun e => (hp e).2⟩⟩

/-- A state with a short position, for the examples. -/
def wShort : ProcState :=
  { cash := fin 150, position := fin (-5), debt := fin 50, freeCash := fin 50, valPrice := fin 10, value := fin 100,
    oidx := 0, lidx := 0 }

/-- A locked, granular order with fees, for the examples: only part of it can be paid for. -/
def wLocked : Order :=
  { size := fin 20, price := fin 12, fees := fin (1 / 100), fixedFees := fin 1, slippage := fin (1 / 100), gran := fin (1 / 2),
    lockCash := true }

example : Rs.processOrder Arith.std false 0 0 0 wShort true wLocked nan wBuf = processOrder Arith.std 0 0 0 wShort true wLocked nan wBuf ∧
    okAnd (processOrder Arith.std 0 0 0 wShort true wLocked nan wBuf) (fun r => decide (r.1.size = fin 12)) = true := by
  constructor
  · unfold Arith.std
    refine C83_exact false 0 0 0 true nan wBuf (by decide) (by decide) (fun e => absurd e (by decide)) ?_
    decide +kernel
  · decide +kernel

/-- The double nearest to `0.1`. -/
def wTenth : F := fin (3602879701896397 / 36028797018963968)

/-- An order with fees of `0.1`, for the examples: a reversal from short to long that cannot be paid for in full. -/
def wReversal : Order := { size := fin 20, price := fin 12, fees := wTenth }

example : Rs.processOrder Arith.double false 0 0 0 wShort true wReversal nan wBuf =
      processOrder Arith.double 0 0 0 wShort true wReversal nan wBuf ∧
    okAnd (processOrder Arith.double 0 0 0 wShort true wReversal nan wBuf) (fun r =>
      decide (r.1.status = OrderStatus.Filled) && lt r.1.size (fin 12) && gt r.2.1.position zero && eqb r.2.1.cash zero) = true := by
  constructor
  · refine C83_double false 0 0 0 true nan wBuf ⟨?_, ?_, ?_, ?_⟩ ⟨?_, ?_, ?_⟩ rfl rfl (fun e => absurd e (by decide)) ?_
    all_goals first | (intro q hq; cases hq; done) | (intro q hq; cases hq; decide +kernel) | decide +kernel
  · decide +kernel

example : Rs.executeOrder Arith.std true wShort wLocked nan = executeOrder Arith.std wShort wLocked nan := by
  unfold Arith.std
  refine C83_execute_partial (exact_sound _ _) true nan ?_ (by decide +kernel)
  exact ⟨Rs.rep_exact _ _ _, Rs.rep_exact _ _ _, Rs.rep_exact _ _ _, Rs.rep_exact _ _ _, Rs.rep_exact _ _ _, Rs.rep_exact _ _ _,
    Rs.rep_exact _ _ _, fun e => absurd e (by decide), fun _ _ => ⟨Rs.unbounded_exact _ _, by decide⟩, fun _ _ _ => by decide,
    .inr ⟨⟨_, _, rfl⟩, by decide, fun e => absurd e (by decide)⟩⟩

/-! ## Where the engines differ -/

/-- An order for zero percent of the cash. -/
def wZeroPercent : Order := { size := zero, price := fin 10, sizeType := SizeType.Percent, direction := Direction.Both }

/-- A state with cash only. -/
def wCash : ProcState :=
  { cash := fin 100, position := zero, debt := zero, freeCash := fin 100, valPrice := fin 10, value := fin 100, oidx := 0, lidx := 0 }

/-- **C83** (zero percent).  An order for zero percent: the Numba engine fills a sale of NaN, the Rust engine rejects a purchase for
lack of cash. -/
theorem C83_zero_percent_differs :
    okAnd (executeOrder Arith.std wCash wZeroPercent nan) (fun r => decide (r.2.status = OrderStatus.Filled) && r.2.size.isnan &&
      decide (r.2.side = OrderSide.Sell) && r.1.cash.isnan) = true ∧
    Rs.executeOrder Arith.std false wCash wZeroPercent nan =
      .ok (snapExec Arith.std wCash, orderNotFilled OrderStatus.Rejected Info.NoCashLong) := by
  constructor <;> decide +kernel

/-- A purchase of one unit in steps of `0.1`. -/
def wSteps : Order := { size := fin 1, price := fin 10, gran := wTenth }

/-- **C83** (granularity).  In binary64 one unit in steps of `0.1` is nine steps for the Numba engine and ten for the Rust engine. -/
theorem C83_granularity_differs :
    okAnd (executeOrder Arith.double wCash wSteps nan)
      (fun r => decide (lt r.2.size (fin (91 / 100)) = true)) = true ∧
    okAnd (Rs.executeOrder Arith.double false wCash wSteps nan)
      (fun r => decide (r.2.size = fin 1)) = true := by
  constructor <;> decide +kernel

/-- A short position out of free cash. -/
def wSqueezed : ProcState :=
  { cash := fin 9, position := fin (-1), debt := fin 10, freeCash := fin (-1), valPrice := fin 20, value := fin (-11), oidx := 0, lidx := 0 }

/-- A locked purchase at twice the entry price of the short position. -/
def wCover : Order := { size := fin 1, price := fin 20, lockCash := true }

/-- **C83** (division by zero).  Covering a short position with locked cash at exactly twice its entry price when free cash is
negative: the Numba engine stops with a division by zero, the Rust engine rejects the order. -/
theorem C83_zero_division_differs :
    executeOrder Arith.std wSqueezed wCover nan = .error .zeroDivision ∧
    Rs.executeOrder Arith.std false wSqueezed wCover nan =
      .ok (snapExec Arith.std wSqueezed, orderNotFilled OrderStatus.Rejected Info.CantCoverFees) := by
  constructor <;> decide +kernel

/-- A sale for nothing. -/
def wGift : Order := { size := fin (-5), price := fin 20, slippage := one, lockCash := true }

/-- **C83** (division by zero, filled).  A locked sale with a slippage of 100 %: the Numba engine stops with a division by zero, the
Rust engine fills it at a price of zero. -/
theorem C83_zero_division_fills :
    executeOrder Arith.std wCash wGift nan = .error .zeroDivision ∧
    okAnd (Rs.executeOrder Arith.std false wCash wGift nan) (fun r => decide (r.2.status = OrderStatus.Filled) &&
      decide (r.2.size = fin 5) && decide (r.2.price = zero) && decide (r.1.cash = fin 100)) = true := by
  constructor <;> decide +kernel

/-- An account without a limit. -/
def wEndless : ProcState :=
  { cash := pinf, position := fin 1, debt := zero, freeCash := pinf, valPrice := fin 10, value := pinf, oidx := 0, lidx := 0 }

/-- A target of zero percent with locked cash. -/
def wZeroTarget : Order := { size := zero, price := fin 10, sizeType := SizeType.TargetPercent, lockCash := true }

/-- **C83** (minimum of NaN).  A target of zero percent of an infinite value with locked cash: the Numba engine fills NaN, the Rust engine
stops. -/
theorem C83_nan_minimum_differs :
    okAnd (executeOrder Arith.std wEndless wZeroTarget nan)
      (fun r => decide (r.2.status = OrderStatus.Filled) && r.2.size.isnan) = true ∧
    Rs.executeOrder Arith.std false wEndless wZeroTarget nan =
      .error (.valueError "Attempt to go in short direction infinitely") := by
  constructor <;> decide +kernel

end Vbt
