import Verif.Props.C27
import Verif.Props.C28
import Verif.Props.C29

/-!
# C75  A hit stop decides the order of the bar

For both simulators from signals: which order is placed for a column in a row, from the stops in force, the bar and the
signals; and which stops are in force when hooks adjust them.
-/

namespace Vbt
open F

/-- A stop: reference price and relative distance. -/
structure StopRule where
  ref : ℚ
  dist : ℚ

/-- The price at which a level below is hit by a bar: at the open if that is already beyond, else at the level. -/
def hitDown (level o l : ℚ) : Option ℚ := if l ≤ level then some (min o level) else none

/-- The price at which a level above is hit by a bar. -/
def hitUp (level o h : ℚ) : Option ℚ := if level ≤ h then some (max o level) else none

/-- Stop loss: against the position. -/
def lossHit (P : ℚ) (s : StopRule) (o l h : ℚ) : Option ℚ :=
  if 0 < P then hitDown (s.ref * (1 - s.dist)) o l else hitUp (s.ref * (1 + s.dist)) o h

/-- Take profit: in favour of the position. -/
def profitHit (P : ℚ) (s : StopRule) (o l h : ℚ) : Option ℚ :=
  if 0 < P then hitUp (s.ref * (1 + s.dist)) o h else hitDown (s.ref * (1 - s.dist)) o l

/-- The price at which a position is stopped: the stop loss has priority. -/
def stopAt (P : ℚ) (loss profit : Option StopRule) (o l h : ℚ) : Option ℚ :=
  (loss.bind fun s => lossHit P s o l h) <|> (profit.bind fun s => profitHit P s o l h)

/-- A pair of values stands for a stop. -/
inductive RuleOf : F → F → Option StopRule → Prop
  | off (ref : F) : RuleOf ref nan none
  | on (ref dist : ℚ) (h : 0 ≤ dist) : RuleOf (fin ref) (fin dist) (some ⟨ref, dist⟩)

/-- The price of a stop as a number, NaN if there is none. -/
def orNan : Option ℚ → F
  | none => nan
  | some q => fin q

theorem loss_price {r t P : ℚ} (hP : P ≠ 0) {s : StopRule} (hs : 0 ≤ s.dist) {o l h : ℚ} (hl : l ≤ o) (hh : o ≤ h) :
    getStopPrice (Arith.exact r t) (fin P) (fin s.ref) (fin s.dist) (fin o) (fin l) (fin h) true =
      .ok (orNan (lossHit P s o l h)) := by
  unfold lossHit
  rcases lt_or_gt_of_ne hP with h0 | h0
  · rw [if_neg (not_lt.mpr h0.le), C29_up (Or.inl ⟨.short h0, rfl⟩) hs hl hh, hitUp]
    split <;> rfl
  · rw [if_pos h0, C29_down (Or.inl ⟨.long h0, rfl⟩) hs hl hh, hitDown]
    split <;> rfl

theorem profit_price {r t P : ℚ} (hP : P ≠ 0) {s : StopRule} (hs : 0 ≤ s.dist) {o l h : ℚ} (hl : l ≤ o) (hh : o ≤ h) :
    getStopPrice (Arith.exact r t) (fin P) (fin s.ref) (fin s.dist) (fin o) (fin l) (fin h) false =
      .ok (orNan (profitHit P s o l h)) := by
  unfold profitHit
  rcases lt_or_gt_of_ne hP with h0 | h0
  · rw [if_neg (not_lt.mpr h0.le), C29_down (Or.inr ⟨.short h0, rfl⟩) hs hl hh, hitDown]
    split <;> rfl
  · rw [if_pos h0, C29_up (Or.inr ⟨.long h0, rfl⟩) hs hl hh, hitUp]
    split <;> rfl

theorem stopPriceOf_spec {r t P : ℚ} (hP : P ≠ 0) {st : Stops} {loss profit : Option StopRule}
    (hsl : RuleOf st.slCurrPrice st.slCurrStop loss) (htp : RuleOf st.tpInitPrice st.tpCurrStop profit)
    {o l h : ℚ} (hl : l ≤ o) (hh : o ≤ h) :
    stopPriceOf (Arith.exact r t) (fin P) st ⟨fin o, fin l, fin h⟩ = .ok (orNan (stopAt P loss profit o l h)) := by
  obtain ⟨a1, a2, a3, refl, dl, a6, a7, refp, dp⟩ := st
  simp only at hsl htp
  unfold stopPriceOf stopAt
  simp only
  cases hsl with
  | off =>
    cases htp with
    | off => rfl
    | on ref dist hd =>
      simp only [isnan, Bool.not_true, Bool.false_eq_true, if_false, Bool.not_false, Bool.and_self, if_true]
      rw [profit_price hP (s := ⟨ref, dist⟩) hd hl hh]
      rfl
  | on ref dist hd =>
    simp only [isnan, Bool.not_false, if_true]
    rw [loss_price hP (s := ⟨ref, dist⟩) hd hl hh]
    simp only [Option.bind_some]
    cases hx : lossHit P ⟨ref, dist⟩ o l h with
    | some q => rfl
    | none =>
      cases htp with
      | off => rfl
      | on ref' dist' hd' =>
        simp only [orNan, isnan, Bool.not_false, Bool.and_self, if_true]
        rw [profit_price hP (s := ⟨ref', dist'⟩) hd' hl hh]
        rfl

/-- **C75** (price).  The price reported for a position with the given stops and a finite bar: none, or the level of the
stop loss, else of the take profit, or the open beyond it. -/
theorem C75_price {r t P : ℚ} {inp : SigInputs} {i col : Nat} (hu : inp.useStops = true) (hP : P ≠ 0) {st : Stops}
    {loss profit : Option StopRule}
    (hsl : RuleOf st.slCurrPrice st.slCurrStop loss) (htp : RuleOf st.tpInitPrice st.tpCurrStop profit)
    {o l h : ℚ} (hb : currentBar inp i col = ⟨fin o, fin l, fin h⟩) (hl : l ≤ o) (hh : o ≤ h) :
    ∃ st', checkStops (Arith.exact r t) inp i col (fin P) st = .ok (orNan (stopAt P loss profit o l h), st') := by
  unfold checkStops
  by_cases hon : (inp.useStops && (!st.slCurrStop.isnan || !st.tpCurrStop.isnan)) = true
  · rw [if_pos hon, hb]
    simp only [stopPriceOf_spec hP hsl htp hl hh]
    exact ⟨_, rfl⟩
  · rw [if_neg hon]
    rw [hu] at hon
    obtain ⟨a1, a2, a3, refl, dl, a6, a7, refp, dp⟩ := st
    simp only at hsl htp
    cases hsl with
    | on => simp at hon
    | off =>
      cases htp with
      | on => simp at hon
      | off => exact ⟨_, rfl⟩

/-- **C75** (stopped).  If the stop is hit, the order asks for the position documented for the stop-exit mode, with the
accumulation of the cell, whatever the signals of the bar; its price and slippage are those of the stop-exit price
mode. -/
theorem C75_stopped {r t P x q : ℚ} {inp : SigInputs} {a : SigArrays} {i col : Nat} {vp : F} (hu : inp.useStops = true)
    (hP : P ≠ 0) {st : Stops} {loss profit : Option StopRule}
    (hsl : RuleOf st.slCurrPrice st.slCurrStop loss) (htp : RuleOf st.tpInitPrice st.tpCurrStop profit)
    {o l h : ℚ} (hb : currentBar inp i col = ⟨fin o, fin l, fin h⟩) (hl : l ≤ o) (hh : o ≤ h)
    (hq : stopAt P loss profit o l h = some q)
    (hx : AmountOf vp (inp.size i col) (inp.sizeType i col) x) (h0 : le zero (inp.size i col) = true) (pos v : F) :
    ∃ st' c, arrayCell (Arith.exact r t) inp a i col (fin P) vp st = .ok (st', c) ∧
      Requested (sigOrder inp i col c) pos vp v
        (stopDesired P x (inp.uponStopExit i col) (inp.accumulate i col) - P) ∧
      (c.price, c.slippage) = (
        if inp.stopExitPrice i col = StopExitPrice.StopMarket then (fin q, inp.slippage i col)
        else if inp.stopExitPrice i col = StopExitPrice.StopLimit then (fin q, zero)
        else if inp.stopExitPrice i col = StopExitPrice.Close then (inp.close i col, inp.slippage i col)
        else (sigPrice inp i col, inp.slippage i col)) := by
  obtain ⟨st', hck⟩ := C75_price (r := r) (t := t) hu hP hsl htp hb hl hh
  rw [hq] at hck
  unfold arrayCell
  rw [hck]
  simp only
  unfold cellOrder
  simp only [hu, orNan, isnan, Bool.not_false, Bool.and_self, if_true]
  obtain ⟨out, h1, h2⟩ := C27_order (r := r) (t := t) (P := P) (s := (generateStopSignal (fin P) (inp.uponStopExit i col)
    (inp.accumulate i col)).1) (acc := (generateStopSignal (fin P) (inp.uponStopExit i col) (inp.accumulate i col)).2) hx h0
    inp i col (resolveStopPriceAndSlippage (fin q) (sigPrice inp i col) (inp.close i col) (inp.slippage i col)
      (inp.stopExitPrice i col)).1 (resolveStopPriceAndSlippage (fin q) (sigPrice inp i col) (inp.close i col)
      (inp.slippage i col) (inp.stopExitPrice i col)).2 pos v
  rw [C27_stop hP] at h2
  rw [h1]
  exact ⟨_, _, rfl, h2, rfl⟩

/-- **C75** (not stopped).  Otherwise the order asks for the position the resolved signals of the bar ask for, at the
order price. -/
theorem C75_signalled {r t P x : ℚ} {inp : SigInputs} {a : SigArrays} {i col : Nat} {vp : F} {st : Stops}
    (hno : inp.useStops = false ∨ ∃ st', checkStops (Arith.exact r t) inp i col (fin P) st = .ok (nan, st'))
    (hx : AmountOf vp (inp.size i col) (inp.sizeType i col) x) (h0 : le zero (inp.size i col) = true) (pos v : F) :
    ∃ st' c s acc, arrayCell (Arith.exact r t) inp a i col (fin P) vp st = .ok (st', c) ∧
      resolveSignals (fin P) (arraySignals a i col) (inp.uponLongConflict i col) (inp.uponShortConflict i col)
        (inp.uponDirConflict i col) (inp.uponOppositeEntry i col) (inp.accumulate i col) = (s, acc) ∧
      Requested (sigOrder inp i col c) pos vp v (desired P x s acc - P) ∧
      c.price = sigPrice inp i col ∧ c.slippage = inp.slippage i col := by
  have hck : ∃ st', checkStops (Arith.exact r t) inp i col (fin P) st = .ok (nan, st') := by
    rcases hno with h | h
    · exact ⟨st, by unfold checkStops; rw [h]; rfl⟩
    · exact h
  obtain ⟨st', hck⟩ := hck
  obtain ⟨out, h1, h2⟩ := C27_order (r := r) (t := t) (P := P) (s := (resolveSignals (fin P) (arraySignals a i col)
    (inp.uponLongConflict i col) (inp.uponShortConflict i col) (inp.uponDirConflict i col) (inp.uponOppositeEntry i col)
    (inp.accumulate i col)).1) (acc := (resolveSignals (fin P) (arraySignals a i col)
    (inp.uponLongConflict i col) (inp.uponShortConflict i col) (inp.uponDirConflict i col) (inp.uponOppositeEntry i col)
    (inp.accumulate i col)).2) hx h0 inp i col (sigPrice inp i col) (inp.slippage i col) pos v
  refine ⟨st', cellOf (sigPrice inp i col) (inp.slippage i col) out, _, _, ?_, rfl, h2, rfl, rfl⟩
  unfold arrayCell
  rw [hck]
  simp only
  unfold cellOrder
  simp only [isnan, Bool.not_true, Bool.and_false, Bool.false_eq_true, if_false]
  rw [h1]
  rfl

/-- **C75** (hooks).  With a signal function, the bar is decided as with arrays holding the signals it returns, for the
stop loss and trailing flag returned by `adjust_sl_func_nb` and the take profit returned by `adjust_tp_func_nb`; the hooks
see the stops as they were. -/
theorem C75_hooks {A : Arith} {inp : SigInputs} {f : SigFuncs} {a : SigArrays} {i col : Nat} {p vp : F} {st : Stops}
    (hu : inp.useStops = true) (hs : arraySignals a i col = f.signal ⟨i, col, p, vp⟩) :
    funcCell A inp f i col p vp st = arrayCell A inp a i col p vp
      (Stops.mk st.slInitI st.slInitPrice st.slCurrI st.slCurrPrice
        (f.adjustSl ⟨i, col, p, vp, st.slInitI, st.slInitPrice, st.slCurrI, st.slCurrPrice, st.slCurrStop,
          st.slCurrTrail⟩).1
        (f.adjustSl ⟨i, col, p, vp, st.slInitI, st.slInitPrice, st.slCurrI, st.slCurrPrice, st.slCurrStop,
          st.slCurrTrail⟩).2
        st.tpInitI st.tpInitPrice (f.adjustTp ⟨i, col, p, vp, st.tpInitI, st.tpInitPrice, st.tpCurrStop⟩)) := by
  unfold funcCell arrayCell adjustStops
  rw [if_pos hu, hs]

/-- Arrays holding given signals in one cell. -/
def arraysOf (s : Signals) : SigArrays :=
  { entries := fun _ _ => false, exits := fun _ _ => false, direction := fun _ _ => Direction.LongOnly,
    longEntries := fun _ _ => s.longEntry, longExits := fun _ _ => s.longExit, shortEntries := fun _ _ => s.shortEntry,
    shortExits := fun _ _ => s.shortExit }

/-- **C75** (hooks, stopped).  If the stops returned by the hooks are hit, the position is stopped at their price. -/
theorem C75_hooks_stopped {r t P x q : ℚ} {inp : SigInputs} {f : SigFuncs} {i col : Nat} {vp : F}
    (hu : inp.useStops = true) (hP : P ≠ 0) {st : Stops} {loss profit : Option StopRule}
    (hsl : RuleOf st.slCurrPrice (f.adjustSl ⟨i, col, fin P, vp, st.slInitI, st.slInitPrice, st.slCurrI, st.slCurrPrice,
      st.slCurrStop, st.slCurrTrail⟩).1 loss)
    (htp : RuleOf st.tpInitPrice (f.adjustTp ⟨i, col, fin P, vp, st.tpInitI, st.tpInitPrice, st.tpCurrStop⟩) profit)
    {o l h : ℚ} (hb : currentBar inp i col = ⟨fin o, fin l, fin h⟩) (hl : l ≤ o) (hh : o ≤ h)
    (hq : stopAt P loss profit o l h = some q)
    (hx : AmountOf vp (inp.size i col) (inp.sizeType i col) x) (h0 : le zero (inp.size i col) = true) (pos v : F) :
    ∃ st' c, funcCell (Arith.exact r t) inp f i col (fin P) vp st = .ok (st', c) ∧
      Requested (sigOrder inp i col c) pos vp v
        (stopDesired P x (inp.uponStopExit i col) (inp.accumulate i col) - P) ∧
      (c.price, c.slippage) = (
        if inp.stopExitPrice i col = StopExitPrice.StopMarket then (fin q, inp.slippage i col)
        else if inp.stopExitPrice i col = StopExitPrice.StopLimit then (fin q, zero)
        else if inp.stopExitPrice i col = StopExitPrice.Close then (inp.close i col, inp.slippage i col)
        else (sigPrice inp i col, inp.slippage i col)) := by
  rw [C75_hooks (a := arraysOf (f.signal ⟨i, col, fin P, vp⟩)) hu rfl]
  exact C75_stopped hu hP hsl htp hb hl hh hq hx h0 pos v

/-- Non-vacuity: long 3 entered at 100, stop loss 10 %, take profit 5 %.  A bar from 104 up to 106 takes the profit at
105, a bar down to 80 opening at 95 is stopped at 90; both at once: the stop loss. -/
example : stopAt 3 (some ⟨100, 1/10⟩) (some ⟨100, 1/20⟩) 104 103 106 = some 105 ∧
    stopAt 3 (some ⟨100, 1/10⟩) (some ⟨100, 1/20⟩) 95 80 106 = some 90 ∧
    stopAt 3 (some ⟨100, 1/10⟩) (some ⟨100, 1/20⟩) 85 80 86 = some 85 ∧
    stopAt (-3) (some ⟨100, 1/10⟩) (some ⟨100, 1/20⟩) 99 98 105 = none := by decide +kernel

/-- Non-vacuity: the hook lowers the take profit to 5 %, which is hit; with `CloseReduce` and accumulation the position
is reduced by the size of the cell. -/
example : ∃ st' c, funcCell Arith.std { wSig with
      size := fun _ _ => fin 1, uponStopExit := fun _ _ => StopExitMode.CloseReduce,
      accumulate := fun _ _ => AccumulationMode.Both, close := fun _ _ => fin 106, open_ := fun _ _ => fin 104,
      low := fun _ _ => fin 103, high := fun _ _ => fin 107, stopExitPrice := fun _ _ => StopExitPrice.StopLimit }
      ⟨noSignal, fun _ => (nan, false), fun _ => fin (1/20)⟩ 1 0 (fin 3) (fin 106)
      { Stops.none with tpInitI := 0, tpInitPrice := fin 100, tpCurrStop := fin (1/2) } = .ok (st', c) ∧
    c.price = fin 105 ∧ c.size = fin (-1) ∧ st'.tpCurrStop = fin (1/20) := by
  obtain ⟨⟨st', c⟩, h, hf⟩ := okAnd_iff (x := funcCell Arith.std { wSig with
      size := fun _ _ => fin 1, uponStopExit := fun _ _ => StopExitMode.CloseReduce,
      accumulate := fun _ _ => AccumulationMode.Both, close := fun _ _ => fin 106, open_ := fun _ _ => fin 104,
      low := fun _ _ => fin 103, high := fun _ _ => fin 107, stopExitPrice := fun _ _ => StopExitPrice.StopLimit }
      ⟨noSignal, fun _ => (nan, false), fun _ => fin (1/20)⟩ 1 0 (fin 3) (fin 106)
      { Stops.none with tpInitI := 0, tpInitPrice := fin 100, tpCurrStop := fin (1/2) })
    (f := fun y => decide (y.2.price = fin 105 ∧ y.2.size = fin (-1) ∧ y.1.tpCurrStop = fin (1/20))) (by decide +kernel)
  exact ⟨st', c, h, of_decide_eq_true hf⟩

end Vbt
