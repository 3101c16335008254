import Verif.Lemmas.Witness
import Verif.Lemmas.RustSignalRuns
import Verif.Lemmas.SigWitness
import Verif.Props.C84

/-! # C85 — simulation from signals on the Rust engine -/

namespace Vbt
open F

theorem sigOut_map {a : Except Err SigState} {b : Except Err (List OrderRec × List LogRec)}
    (h : Rs.SigOut (fun s p => p = Rs.recordsOf s.sim) a b) (hz : a ≠ .error .zeroDivision) : b = Rs.rustOutcome a := by
  rcases h with e | ⟨e, rfl, rfl⟩ | ⟨s, t, rfl, rfl, rfl⟩
  · exact absurd e hz
  · rfl
  · rfl

/-- **C85** (no locked cash, no granularity).  For every arithmetic that rounds like IEEE 754 does, every number of rows, columns
and groups, every signal array, conflict rule, accumulation mode and stop: unless the Numba engine divides by zero, the Rust engine
returns exactly its order and log records, or raises an error with the same message. -/
theorem C85_simulate {A : Arith} (hA : A.Sound) (z : Nat → Nat → Bool) {inp : SigInputs} (a : SigArrays) {rows cols : Nat}
    {lens : List Nat} {initCash : List F} (maxOrders : Option Nat) (maxLogs : Nat)
    (hc : Rs.SigCommon A inp rows cols (isGrouped lens) initCash) (hp : Rs.SigPlain inp rows cols) (hpos : ∀ l ∈ lens, 0 < l)
    (hz : simulateFromSignals A inp a rows cols lens initCash maxOrders maxLogs ≠ .error .zeroDivision) :
    Rs.simulateFromSignals A z inp a rows cols lens initCash maxOrders maxLogs =
      Rs.rustOutcome (simulateFromSignals A inp a rows cols lens initCash maxOrders maxLogs) :=
  sigOut_map (Rs.sigSimulate_out ⟨hA, hc, .inl hp⟩ z a hpos maxOrders maxLogs) hz

/-- **C85** (binary64). -/
theorem C85_double (z : Nat → Nat → Bool) {inp : SigInputs} (a : SigArrays) {rows cols : Nat}
    {lens : List Nat} {initCash : List F} (maxOrders : Option Nat) (maxLogs : Nat)
    (hc : Rs.SigCommon Arith.double inp rows cols (isGrouped lens) initCash) (hp : Rs.SigPlain inp rows cols)
    (hpos : ∀ l ∈ lens, 0 < l)
    (hz : simulateFromSignals Arith.double inp a rows cols lens initCash maxOrders maxLogs ≠ .error .zeroDivision) :
    Rs.simulateFromSignals Arith.double z inp a rows cols lens initCash maxOrders maxLogs =
      Rs.rustOutcome (simulateFromSignals Arith.double inp a rows cols lens initCash maxOrders maxLogs) :=
  C85_simulate double_sound z a maxOrders maxLogs hc hp hpos hz

/-- **C85** (divisions).  Without stops and orders by value the Numba engine divides by zero only if the arguments of a cell make it:
one plus the fees, or the price after slippage, is zero. -/
theorem C85_no_zero_division {A : Arith} {inp : SigInputs} (a : SigArrays) {rows cols : Nat}
    {lens : List Nat} {initCash : List F} (maxOrders : Option Nat) (maxLogs : Nat) (hp : Rs.SigPlain inp rows cols)
    (hz : Rs.SigNoZeroDivisor A inp rows cols) :
    simulateFromSignals A inp a rows cols lens initCash maxOrders maxLogs ≠ .error .zeroDivision :=
  Rs.sigSimulate_fine hp.lockCash hz

/-- **C85** (exact arithmetic).  Locked cash and granularity included.  Missing: locked cash and granularity in rounded arithmetic,
where the engines differ (`C83_granularity_differs`). -/
theorem C85_exact_partial {A : Arith} (z : Nat → Nat → Bool) {inp : SigInputs} (a : SigArrays) {rows cols : Nat}
    {lens : List Nat} {initCash : List F} (maxOrders : Option Nat) (maxLogs : Nat)
    (hc : Rs.SigCommon A inp rows cols (isGrouped lens) initCash) (hp : Rs.SigExact A inp rows cols initCash)
    (hpos : ∀ l ∈ lens, 0 < l)
    (hz : simulateFromSignals A inp a rows cols lens initCash maxOrders maxLogs ≠ .error .zeroDivision) :
    Rs.simulateFromSignals A z inp a rows cols lens initCash maxOrders maxLogs =
      Rs.rustOutcome (simulateFromSignals A inp a rows cols lens initCash maxOrders maxLogs) := by
  have hA : A.Sound := by
    obtain ⟨r, t, rfl⟩ := hp.exact
    exact exact_sound r t
  exact sigOut_map (Rs.sigSimulate_out ⟨hA, hc, .inr hp⟩ z a hpos maxOrders maxLogs) hz

/-! ## The hypotheses can be met -/

/-- Long and short entries, reversed every other row; trailing stops, fees of `0.1`, accumulation in the third column. -/
def wSignals : SigInputs :=
  { wSig with fees := fun _ _ => wTenth, log := fun _ _ => true, autoCallSeq := true, callSeq := fun _ c => if c = 1 then 1 else 0,
              slStop := fun _ _ => fin (1 / 8), updateValue := true,
              accumulate := fun _ c => if c = 2 then AccumulationMode.Both else AccumulationMode.Disabled }

def wSides : SigArrays :=
  { wArr with entries := fun i c => decide (i = 0) || decide (c = 2), exits := fun i c => decide (c = 1 ∧ i = 1),
              direction := fun _ _ => Direction.Both }

/-- Two groups, one sharing cash, in binary64: the stop loss of column 0 is hit in row 2, column 1 is reversed in row 1. -/
example : Rs.simulateFromSignals Arith.double (fun _ _ => true) wSignals wSides 3 3 [2, 1] [fin 100, fin 50] none 9 =
      Rs.rustOutcome (simulateFromSignals Arith.double wSignals wSides 3 3 [2, 1] [fin 100, fin 50] none 9) ∧
    okAnd (simulateFromSignals Arith.double wSignals wSides 3 3 [2, 1] [fin 100, fin 50] none 9) (fun s =>
      decide ((Rs.recordsOf s.sim).1.map OrderRec.cell =
        [(0, 0), (0, 1), (1, 1), (2, 0), (0, 2), (1, 2), (2, 2)])) = true := by
  constructor
  · refine C85_double _ _ none 9 ⟨?_, ?_, ?_, ?_, ?_⟩ ⟨?_, ?_⟩ (by decide) ?_
    · exact fun x hx => rep_of_repb ((by decide +kernel : ∀ x ∈ [fin 100, fin 50], repb Arith.double x = true) x hx)
    · exact fun i hi c hc => rep_of_repb ((by decide +kernel : ∀ i < 3, ∀ c < 3, repb Arith.double (wSignals.size i c) = true) i hi c hc)
    · exact fun i hi c hc => rep_of_repb ((by decide +kernel : ∀ i < 3, ∀ c < 3, repb Arith.double (wSignals.maxSize i c) = true) i hi c hc)
    · exact fun i hi c hc => rep_of_repb ((by decide +kernel : ∀ i < 3, ∀ c < 3, repb Arith.double (wSignals.fixedFees i c) = true) i hi c hc)
    · decide
    · decide
    · decide
    · intro h
      have : okAnd (simulateFromSignals Arith.double wSignals wSides 3 3 [2, 1] [fin 100, fin 50] none 9) (fun _ => true) = true := by
        decide +kernel
      rw [h] at this
      cases this
  · decide +kernel

/-- The same without stops: no division by zero. -/
example : simulateFromSignals Arith.double { wSignals with useStops := false } wSides 3 3 [2, 1] [fin 100, fin 50] none 9 ≠
    .error .zeroDivision :=
  C85_no_zero_division _ _ _ ⟨by decide, by decide⟩ ⟨rfl, by decide, by decide +kernel, by decide +kernel, by decide +kernel⟩

/-- Locked cash, steps of `1/2`, columns on their own. -/
def wLockedSignals : SigInputs :=
  { wSignals with lockCash := fun _ _ => true, gran := fun _ _ => fin (1 / 2), autoCallSeq := false }

example : Rs.simulateFromSignals Arith.std (fun _ _ => false) wLockedSignals wSides 3 3 [1, 1, 1] [fin 100, fin 30, fin 50] none 9 =
      Rs.rustOutcome (simulateFromSignals Arith.std wLockedSignals wSides 3 3 [1, 1, 1] [fin 100, fin 30, fin 50] none 9) ∧
    okAnd (simulateFromSignals Arith.std wLockedSignals wSides 3 3 [1, 1, 1] [fin 100, fin 30, fin 50] none 9) (fun s =>
      decide ((Rs.recordsOf s.sim).1.map OrderRec.cell = [(0, 0), (2, 0), (0, 1), (1, 1), (0, 2), (1, 2), (2, 2)])) = true := by
  constructor
  · refine C85_exact_partial _ _ none 9 ⟨?_, ?_, ?_, ?_, ?_⟩ ⟨⟨_, _, rfl⟩, ?_, ?_, ?_⟩ (by decide) ?_
    · exact fun x _ => Rs.rep_exact _ _ x
    · exact fun _ _ _ _ => Rs.rep_exact _ _ _
    · exact fun _ _ _ _ => Rs.rep_exact _ _ _
    · exact fun _ _ _ _ => Rs.rep_exact _ _ _
    · intro h; cases h
    · decide
    · intro i _ c _ φ h
      have : φ = 3602879701896397 / 36028797018963968 := by injection h with h; exact h.symm
      rw [this]; norm_num
    · decide
    · intro h
      have : okAnd (simulateFromSignals Arith.std wLockedSignals wSides 3 3 [1, 1, 1] [fin 100, fin 30, fin 50] none 9) (fun _ => true) =
          true := by
        decide +kernel
      rw [h] at this
      cases this
  · decide +kernel

/-! ## Where the engines differ -/

/-- **C85** (exceptions).  A size below zero is a `ValueError` for the Numba engine; the Rust engine raises `RejectedOrderError`, which is
not a `ValueError`. -/
theorem C85_exception_differs :
    simulateFromSignals Arith.std { wSig with size := fun _ _ => fin (-1) } wArr 1 1 [1] [fin 100] none 0 =
      .error (.valueError "Negative size is not allowed. You must express direction using signals.") ∧
    Rs.simulateFromSignals Arith.std (fun _ _ => false) { wSig with size := fun _ _ => fin (-1) } wArr 1 1 [1] [fin 100] none 0 =
      .error (.rejected "Negative size is not allowed. You must express direction using signals.") :=
  ⟨raised_iff.1 (by decide +kernel), raised_iff.1 (by decide +kernel)⟩

/-- A long position to be reversed by value, valued at zero. -/
def wWorthless : SigInputs :=
  { wSig with sizeType := fun _ _ => SizeType.Value, size := fun _ _ => fin 20, useStops := false,
              valPrice := fun i _ => if i = 0 then fin 10 else zero }

/-- **C85** (divisions).  Reversing a position by value at a valuation price of zero: the Numba engine divides by zero, the Rust engine
goes short without limit. -/
theorem C85_division_differs :
    simulateFromSignals Arith.std wWorthless wSides 2 2 [1, 1] [fin 100, fin 100] none 0 = .error .zeroDivision ∧
    okAnd (Rs.simulateFromSignals Arith.std (fun _ _ => false) wWorthless wSides 2 2 [1, 1] [fin 100, fin 100] none 0) (fun p =>
      decide (p.1.map OrderRec.cell = [(0, 0), (0, 1), (1, 1)])) = true :=
  ⟨raised_iff.1 (by decide +kernel), by decide +kernel⟩

end Vbt
