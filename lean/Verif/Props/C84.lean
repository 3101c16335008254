import Verif.Lemmas.RustSimDiv
import Verif.Lemmas.Double
import Verif.Props.C13
import Verif.Props.C48
import Verif.Props.C83

/-!
# C84: a simulation from orders on the Rust engine returns the records of the Numba engine
-/

namespace Vbt
open F

theorem out_map {a : Except Err SimState} {b : Except Err (List OrderRec × List LogRec)}
    (h : Rs.Out (fun s p => p = (s.buf.orders.take s.oidx, s.buf.logs.take s.lidx)) a b) (hz : a ≠ .error .zeroDivision) :
    b = a.map Rs.recordsOf := by
  rcases h with e | ⟨e, rfl, rfl⟩ | ⟨s, t, rfl, rfl, rfl⟩
  · exact absurd e hz
  · rfl
  · rfl

/-- **C84** (no locked cash, no granularity).  For every arithmetic that rounds like IEEE 754 does, every number of rows, columns
and groups, with and without cash sharing, with and without sorting of the calls: the Rust engine returns exactly the order and
log records of the Numba engine, or raises the same error. -/
theorem C84_simulate {A : Arith} (hA : A.Sound) (z : Nat → Nat → Bool) {inp : Inputs} {rows cols : Nat} {lens : List Nat}
    {initCash : List F} (maxOrders : Option Nat) (maxLogs : Nat) (hc : Rs.CommonCells A inp rows cols initCash)
    (hp : Rs.PlainCells inp rows cols (isGrouped lens)) (hz : Rs.NoZeroDivisor A inp rows cols) (hpos : ∀ l ∈ lens, 0 < l) :
    Rs.simulateFromOrders A z inp rows cols lens initCash maxOrders maxLogs =
      (simulateFromOrders A inp rows cols lens initCash maxOrders maxLogs).map Rs.recordsOf :=
  out_map (Rs.simulate_out ⟨hA, hc, .inl hp⟩ z hpos maxOrders maxLogs) (Rs.simulate_fine hp.lockCash hz)

/-- **C84** (binary64). -/
theorem C84_double (z : Nat → Nat → Bool) {inp : Inputs} {rows cols : Nat} {lens : List Nat}
    {initCash : List F} (maxOrders : Option Nat) (maxLogs : Nat) (hc : Rs.CommonCells Arith.double inp rows cols initCash)
    (hp : Rs.PlainCells inp rows cols (isGrouped lens)) (hz : Rs.NoZeroDivisor Arith.double inp rows cols)
    (hpos : ∀ l ∈ lens, 0 < l) :
    Rs.simulateFromOrders Arith.double z inp rows cols lens initCash maxOrders maxLogs =
      (simulateFromOrders Arith.double inp rows cols lens initCash maxOrders maxLogs).map Rs.recordsOf :=
  C84_simulate double_sound z maxOrders maxLogs hc hp hz hpos

/-- **C84** (exact arithmetic).  Locked cash and granularity included, unless the Numba engine divides by zero.  Missing: locked
cash and granularity in rounded arithmetic, where the engines differ (`C83_granularity_differs`). -/
theorem C84_exact_partial {A : Arith} (z : Nat → Nat → Bool) {inp : Inputs} {rows cols : Nat} {lens : List Nat}
    {initCash : List F} (maxOrders : Option Nat) (maxLogs : Nat) (hc : Rs.CommonCells A inp rows cols initCash)
    (hp : Rs.ExactCells A inp rows cols (isGrouped lens) initCash) (hpos : ∀ l ∈ lens, 0 < l)
    (hz : simulateFromOrders A inp rows cols lens initCash maxOrders maxLogs ≠ .error .zeroDivision) :
    Rs.simulateFromOrders A z inp rows cols lens initCash maxOrders maxLogs =
      (simulateFromOrders A inp rows cols lens initCash maxOrders maxLogs).map Rs.recordsOf := by
  have hA : A.Sound := by
    obtain ⟨r, t, rfl⟩ := hp.exact
    exact exact_sound r t
  exact out_map (Rs.simulate_out ⟨hA, hc, .inr hp⟩ z hpos maxOrders maxLogs) hz

/-! ## Reading the arguments -/

/-- **C84** (arguments).  An array of at most two dimensions is accepted iff NumPy can broadcast it to the shape of the simulation, and
then every cell reads what the Numba engine reads. -/
theorem C84_flex {α : Type} (name : String) (a : NArr α) (rows cols : Nat) (flex2d : Bool) (hdim : a.shape.length ≤ 2) :
    (Broadcastable (a.operand flex2d).shape [rows, cols] →
      ∃ fa, Rs.fromPyarray name a rows cols flex2d = .ok fa ∧
        ∀ i < rows, ∀ c < cols, fa.get i c = flexSelectAuto a i c flex2d) ∧
    (¬ Broadcastable (a.operand flex2d).shape [rows, cols] →
      ∃ m, Rs.fromPyarray name a rows cols flex2d = .error (.valueError m)) := by
  obtain ⟨shape, get⟩ := a
  match shape, hdim with
  | [], _ =>
    refine ⟨fun _ => ⟨_, rfl, fun _ _ _ _ => rfl⟩, fun h => absurd ?_ h⟩
    cases flex2d <;> exact ⟨by simp [NArr.operand], by simp [NArr.operand]⟩
  | [n], _ =>
    have hb : Broadcastable (NArr.operand ⟨[n], get⟩ flex2d).shape [rows, cols] ↔
        (n = 1 ∨ n = if flex2d then cols else rows) := by
      cases flex2d <;> simp [Broadcastable, NArr.operand, NArr.asColumn]
    rw [hb]
    have key : (!(decide (n = 1) || (if flex2d = true then decide (n = cols) else decide (n = rows)))) = true ↔
        ¬ (n = 1 ∨ n = if flex2d then cols else rows) := by
      cases flex2d <;> simp
    unfold Rs.fromPyarray
    simp only [key]
    constructor
    · intro h
      rw [if_neg (fun e => e h)]
      by_cases hn : n = 1
      · rw [if_pos hn]
        refine ⟨_, rfl, fun i _ c _ => ?_⟩
        cases flex2d <;> simp [Rs.FlexArray.get, Rs.flatten, flexSelectAuto, flexSelect, flexChoose, hn]
      · rw [if_neg hn]
        refine ⟨_, rfl, fun i _ c _ => ?_⟩
        cases flex2d <;> simp [Rs.FlexArray.get, Rs.flatten, flexSelectAuto, flexSelect, flexChoose, hn]
    · intro h
      rw [if_pos h]
      exact ⟨_, rfl⟩
  | [r, k], _ =>
    have hb : Broadcastable (NArr.operand ⟨[r, k], get⟩ flex2d).shape [rows, cols] ↔
        (r = 1 ∨ r = rows) ∧ (k = 1 ∨ k = cols) := by
      cases flex2d <;> simp [Broadcastable, NArr.operand]
    rw [hb]
    unfold Rs.fromPyarray
    simp only
    constructor
    · rintro ⟨h1, h2⟩
      have h0 : ¬ ((r ≠ 1 ∧ r ≠ rows) ∨ (k ≠ 1 ∧ k ≠ cols)) := by omega
      rw [if_neg h0]
      by_cases h3 : r = 1 ∧ k = 1
      · rw [if_pos h3]
        obtain ⟨rfl, rfl⟩ := h3
        exact ⟨_, rfl, fun i _ c _ => by simp [Rs.FlexArray.get, Rs.flatten, flexSelectAuto, flexSelect, flexChoose]⟩
      rw [if_neg h3]
      by_cases h4 : r = rows ∧ k = cols
      · rw [if_pos h4]
        obtain ⟨rfl, rfl⟩ := h4
        refine ⟨_, rfl, fun i hi c hc => ?_⟩
        have e1 : (i * k + c) / k = i := by
          rw [Nat.mul_comm, Nat.mul_add_div (by omega), Nat.div_eq_of_lt hc, Nat.add_zero]
        have e2 : (i * k + c) % k = c := by
          rw [Nat.mul_comm, Nat.mul_add_mod, Nat.mod_eq_of_lt hc]
        have e3 : (if r = 1 then (0 : Int) else -1) = 0 → i = 0 := by
          split
          · omega
          · intro h; cases h
        have e4 : (if k = 1 then (0 : Int) else -1) = 0 → c = 0 := by
          split
          · omega
          · intro h; cases h
        simp only [Rs.FlexArray.get, Rs.flatten, flexSelectAuto, flexSelect, flexChoose, e1, e2]
        by_cases hr : r = 1 <;> by_cases hk : k = 1 <;> simp_all
      rw [if_neg h4]
      by_cases h5 : r = 1
      · rw [if_pos h5]
        subst h5
        have hk : k ≠ 1 := fun e => h3 ⟨rfl, e⟩
        have hk' : k = cols := by omega
        refine ⟨_, rfl, fun i hi c hc => ?_⟩
        have e1 : min c (k - 1) = c := by omega
        simp [Rs.FlexArray.get, Rs.flatten, flexSelectAuto, flexSelect, flexChoose, e1, hk, Nat.mod_eq_of_lt (hk' ▸ hc),
          Nat.div_eq_of_lt (hk' ▸ hc)]
      · rw [if_neg h5]
        have hk : k = 1 := by omega
        subst hk
        refine ⟨_, rfl, fun i hi c hc => ?_⟩
        simp [Rs.FlexArray.get, Rs.flatten, flexSelectAuto, flexSelect, flexChoose, h5, Nat.mod_one]
    · intro h
      have h0 : (r ≠ 1 ∧ r ≠ rows) ∨ (k ≠ 1 ∧ k ≠ cols) := by omega
      rw [if_pos h0]
      exact ⟨_, rfl⟩
  | _ :: _ :: _ :: _, h => simp at h

/-! ## The hypotheses can be met -/

/-- Decides `Rep`. -/
def repb (A : Arith) (x : F) : Bool :=
  match x with
  | fin q => decide (A.rnd q = fin q)
  | _ => true

theorem rep_of_repb {A : Arith} {x : F} (h : repb A x = true) : Rep A x := by
  rintro q rfl
  exact of_decide_eq_true h

/-- Two rows, three columns: purchases, then a sale of everything, a reversal and a target; fees of `0.1`, sorted calls. -/
def wRun : Inputs :=
  { simpleInputs (fun i c => if i = 0 then fin (c + 1) else if c = 0 then ninf else if c = 1 then fin (-5) else fin (1 / 2))
      (fun i c => fin (i + c + 1)) (fun _ c => if c = 0 then 0 else if c = 1 then 1 else 0) true true with
    sizeType := fun i c => if i = 1 ∧ c = 2 then SizeType.TargetPercent else SizeType.Amount
    direction := fun _ c => if c = 0 then Direction.LongOnly else Direction.Both
    fees := fun _ _ => wTenth }

/-- Two groups sharing cash, in binary64: six orders and six log records. -/
example : Rs.simulateFromOrders Arith.double (fun _ _ => true) wRun 2 3 [2, 1] [fin 10, fin 50] none 6 =
      (simulateFromOrders Arith.double wRun 2 3 [2, 1] [fin 10, fin 50] none 6).map Rs.recordsOf ∧
    okAnd (simulateFromOrders Arith.double wRun 2 3 [2, 1] [fin 10, fin 50] none 6) (fun s =>
      decide ((Rs.recordsOf s).1.map OrderRec.cell = [(0, 0), (0, 1), (1, 0), (1, 1), (0, 2), (1, 2)] ∧ (Rs.recordsOf s).2.length = 6)) = true := by
  constructor
  · refine C84_double _ none 6 ⟨?_, ?_, ?_, ?_, ?_⟩ ⟨?_, ?_, ?_⟩ ⟨?_, ?_, ?_⟩ (by decide)
    · exact fun x hx => rep_of_repb ((by decide +kernel : ∀ x ∈ [fin 10, fin 50], repb Arith.double x = true) x hx)
    · exact fun i hi c hc => rep_of_repb ((by decide +kernel : ∀ i < 2, ∀ c < 3, repb Arith.double (wRun.size i c) = true) i hi c hc)
    · exact fun i hi c hc => rep_of_repb ((by decide +kernel : ∀ i < 2, ∀ c < 3, repb Arith.double (wRun.maxSize i c) = true) i hi c hc)
    · exact fun i hi c hc => rep_of_repb ((by decide +kernel : ∀ i < 2, ∀ c < 3, repb Arith.double (wRun.fixedFees i c) = true) i hi c hc)
    · decide
    · decide
    · decide
    · intro _ _; unfold Rs.ShortPercent; decide
    · decide +kernel
    · decide +kernel
    · decide +kernel
  · decide +kernel

/-- Locked cash and steps of `1/2`, columns on their own. -/
def wLockedRun : Inputs :=
  { wRun with lockCash := fun _ _ => true, gran := fun _ _ => fin (1 / 2), autoCallSeq := false }

example : Rs.simulateFromOrders Arith.std (fun _ _ => false) wLockedRun 2 3 [1, 1, 1] [fin 10, fin 3, fin 50] none 6 =
      (simulateFromOrders Arith.std wLockedRun 2 3 [1, 1, 1] [fin 10, fin 3, fin 50] none 6).map Rs.recordsOf ∧
    okAnd (simulateFromOrders Arith.std wLockedRun 2 3 [1, 1, 1] [fin 10, fin 3, fin 50] none 6) (fun s =>
      decide ((Rs.recordsOf s).1.map OrderRec.cell = [(0, 0), (1, 0), (0, 1), (1, 1), (0, 2), (1, 2)])) = true := by
  constructor
  · refine C84_exact_partial _ none 6 ⟨?_, ?_, ?_, ?_, ?_⟩ ⟨⟨_, _, rfl⟩, ?_, ?_, ?_, ?_, ?_⟩ (by decide) ?_
    · exact fun x _ => Rs.rep_exact _ _ x
    · exact fun _ _ _ _ => Rs.rep_exact _ _ _
    · exact fun _ _ _ _ => Rs.rep_exact _ _ _
    · exact fun _ _ _ _ => Rs.rep_exact _ _ _
    · decide
    · decide
    · intro i _ c _ φ h
      have : φ = 3602879701896397 / 36028797018963968 := by injection h with h; exact h.symm
      rw [this]; norm_num
    · decide
    · intro i hi c hc h1 h2
      exact absurd h2 ((by decide +kernel : ∀ i < 2, ∀ c < 3, wLockedRun.sizeType i c = SizeType.TargetPercent → ¬ wLockedRun.size i c = zero) i hi c hc h1)
    · intro h; cases h
    · intro h
      have : okAnd (simulateFromOrders Arith.std wLockedRun 2 3 [1, 1, 1] [fin 10, fin 3, fin 50] none 6) (fun _ => true) = true := by
        decide +kernel
      rw [h] at this
      cases this
  · decide +kernel

example : Broadcastable (NArr.operand (⟨[1, 3], fun idx => idx⟩ : NArr (List Nat)) true).shape [2, 3] := by
  simp [Broadcastable, NArr.operand]

example : ¬ Broadcastable (NArr.operand (⟨[3], fun idx => idx⟩ : NArr (List Nat)) false).shape [2, 3] := by
  simp [Broadcastable, NArr.operand, NArr.asColumn]

/-! ## Where the engines differ -/

/-- A purchase and a short sale in percents without a valuation price, sorted by value. -/
def wUnvalued : Inputs :=
  { simpleInputs (fun _ c => if c = 0 then one else fin (-1 / 2)) (fun _ _ => fin 10) (fun _ c => c) true true with
    sizeType := fun _ _ => SizeType.Percent
    fees := fun _ _ => zero
    valPrice := fun _ _ => ninf }

/-- **C84** (sorting).  Without a valuation price the value of a short sale in percents is NaN for the Numba engine, a number for the
Rust engine: they call the orders in different sequences and the records differ. -/
theorem C84_sort_differs :
    okAnd (simulateFromOrders Arith.std wUnvalued 1 2 [2] [fin 100] none 2) (fun s =>
      decide ((Rs.recordsOf s).1.map OrderRec.cell = [(0, 0)])) = true ∧
    okAnd (Rs.simulateFromOrders Arith.std (fun _ _ => false) wUnvalued 1 2 [2] [fin 100] none 2) (fun p =>
      decide (p.1.map OrderRec.cell = [(0, 1), (0, 0)])) = true := by
  constructor <;> decide +kernel

end Vbt
