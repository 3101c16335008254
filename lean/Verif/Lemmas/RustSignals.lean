import Verif.Lemmas.RustSimDiv
import Verif.Lemmas.SigSim
import Verif.Model.RustSignals
import Verif.Spec.EngineSignals
import Verif.Props.C11

/-! # The simulation from signals of the Rust engine follows the one of the Numba engine -/

namespace Vbt.Rs
open F

/-! ## Two computations side by side -/

/-- The first computation divides by zero, both raise corresponding errors, or both succeed with related results. -/
def SigOut {σ τ : Type} (R : σ → τ → Prop) (a : Except Err σ) (b : Except Err τ) : Prop :=
  a = .error .zeroDivision ∨ (∃ e, a = .error e ∧ b = .error (rustError e)) ∨ ∃ s t, a = .ok s ∧ b = .ok t ∧ R s t

theorem SigOut.mono {σ τ : Type} {R S : σ → τ → Prop} {a : Except Err σ} {b : Except Err τ} (h : SigOut R a b)
    (hRS : ∀ s t, a = .ok s → R s t → S s t) : SigOut S a b := by
  rcases h with h | h | ⟨s, t, h1, h2, h3⟩
  · exact .inl h
  · exact .inr (.inl h)
  · exact .inr (.inr ⟨s, t, h1, h2, hRS s t h1 h3⟩)

/-- Loops whose bodies go side by side; `n` counts what is left. -/
theorem SigOut.loop {σ τ α β : Type} {f : σ → α → Except Err σ} {g : τ → β → Except Err τ} {φ : α → β}
    {R : Nat → σ → τ → Prop} {cost : α → Nat} {l : List α}
    (h : ∀ x ∈ l, ∀ n s t, R (n + cost x) s t → SigOut (R n) (f s x) (g t (φ x))) {n : Nat} {s : σ} {t : τ}
    (h0 : R (n + (l.map cost).sum) s t) : SigOut (R n) (loopE f s l) (loopE g t (l.map φ)) := by
  induction l generalizing s t with
  | nil => exact .inr (.inr ⟨s, t, rfl, rfl, by simpa using h0⟩)
  | cons x xs ih =>
    have h1 : SigOut (R (n + (xs.map cost).sum)) (f s x) (g t (φ x)) := by
      refine h x List.mem_cons_self _ s t ?_
      have e : n + ((x :: xs).map cost).sum = n + (xs.map cost).sum + cost x := by
        simp only [List.map_cons, List.sum_cons]; omega
      rw [← e]; exact h0
    simp only [List.map_cons, loopE]
    rcases h1 with e | ⟨e, e1, e2⟩ | ⟨s', t', e1, e2, hR⟩
    · rw [e]; exact .inl rfl
    · rw [e1, e2]; exact .inr (.inl ⟨e, rfl, rfl⟩)
    · rw [e1, e2]
      exact ih (fun y hy => h y (List.mem_cons_of_mem _ hy)) hR

variable {A : Arith}

/-! ## Rules for signals -/

theorem resolveOppositeEntry_eq (position : F) (s : Signals) (mode accumulate : Int) :
    Rs.resolveOppositeEntry position s mode accumulate = Vbt.resolveOppositeEntry position s mode accumulate := rfl

theorem shouldUpdateStop_eq (stop : F) (mode : Int) : Rs.shouldUpdateStop stop mode = Vbt.shouldUpdateStop stop mode := by
  unfold Rs.shouldUpdateStop Vbt.shouldUpdateStop
  by_cases h : mode = StopUpdateMode.Override ∨ mode = StopUpdateMode.OverrideNaN
  · rw [if_pos h, if_pos h]
    by_cases h1 : stop.isnan = true <;> by_cases h2 : mode = StopUpdateMode.OverrideNaN <;> simp [h1, h2]
  · rw [if_neg h, if_neg h]

theorem getStopPrice_out (position stopPrice stop o l h : F) (below : Bool) :
    SigOut (fun p q => q = p) (Vbt.getStopPrice A position stopPrice stop o l h below)
      (Rs.getStopPrice A position stopPrice stop o l h below) := by
  unfold Vbt.getStopPrice Rs.getStopPrice
  by_cases h0 : lt stop zero = true
  · rw [if_pos h0, if_pos h0]
    exact .inr (.inl ⟨_, rfl, by decide⟩)
  rw [if_neg h0, if_neg h0]
  have key : ∀ x : Except Err F, (∃ p, x = .ok p) → SigOut (fun p q => q = p) x x := by
    rintro x ⟨p, rfl⟩
    exact .inr (.inr ⟨p, p, rfl, rfl, rfl⟩)
  refine key _ ?_
  simp only
  split
  · split
    · exact ⟨_, rfl⟩
    · split <;> exact ⟨_, rfl⟩
  · split
    · split
      · exact ⟨_, rfl⟩
      · split <;> exact ⟨_, rfl⟩
    · exact ⟨_, rfl⟩

/-- What is known of an order made of signals. -/
structure CellOk (A : Arith) (inp : SigInputs) (i col : Nat) (c : CellOrder) : Prop where
  rep : Rep A c.size
  type : c.sizeType = SizeType.Amount ∨ c.sizeType = SizeType.Value ∨ c.sizeType = SizeType.Percent
  percent : c.sizeType = SizeType.Percent →
    inp.sizeType i col = SizeType.Percent ∧ (c.size = zero ∨ c.size = inp.size i col ∨ c.size = neg (inp.size i col))

theorem rep_sub (hA : A.Sound) (x y : F) : Rep A (sub A x y) := rep_add hA _ _

theorem removes_iff (acc : Int) :
    (acc = AccumulationMode.Both ∨ acc = AccumulationMode.RemoveOnly) ↔ removes acc = true := by
  simp [removes]

theorem addsTo_iff (acc : Int) :
    (acc = AccumulationMode.Both ∨ acc = AccumulationMode.AddOnly) ↔ addsTo acc = true := by
  simp [addsTo]

theorem signalsToSize_out (hA : A.Sound) {inp : SigInputs} {i col : Nat} {position : F} (s : Signals) (acc : Int) (valPrice price slip : F)
    (hs : Rep A (inp.size i col)) (hp : Rep A position) :
    SigOut (fun p q => q = p ∧ CellOk A inp i col ⟨price, slip, p.1, p.2.1, p.2.2⟩)
      (Vbt.signalsToSize A position s (inp.size i col) (inp.sizeType i col) acc valPrice)
      (Rs.signalsToSize A position s (inp.size i col) (inp.sizeType i col) acc valPrice) := by
  unfold Vbt.signalsToSize Rs.signalsToSize
  simp only [removes_iff, addsTo_iff, isLess_eq hA]
  by_cases h0 : inp.sizeType i col ≠ SizeType.Amount ∧ inp.sizeType i col ≠ SizeType.Value ∧ inp.sizeType i col ≠ SizeType.Percent
  · simp only [if_pos h0]
    exact .inr (.inl ⟨_, rfl, by decide⟩)
  simp only [if_neg h0]
  by_cases h1 : Vbt.isLess A (inp.size i col) zero = true
  · simp only [if_pos h1]
    exact .inr (.inl ⟨_, rfl, by decide⟩)
  simp only [if_neg h1]
  have hty : inp.sizeType i col = SizeType.Amount ∨ inp.sizeType i col = SizeType.Value ∨ inp.sizeType i col = SizeType.Percent := by
    by_contra h
    exact h0 (by tauto)
  have keep : ∀ (x : F) (d : Int), (x = zero ∨ x = inp.size i col ∨ x = neg (inp.size i col)) →
      SigOut (fun p q => q = p ∧ CellOk A inp i col ⟨price, slip, p.1, p.2.1, p.2.2⟩)
        (.ok (x, inp.sizeType i col, d)) (.ok (x, inp.sizeType i col, d)) := by
    intro x d hx
    refine .inr (.inr ⟨_, _, rfl, rfl, rfl, ?_, hty, fun h => ⟨h, hx⟩⟩)
    rcases hx with rfl | rfl | rfl
    · exact rep_zero hA
    · exact hs
    · exact rep_neg hA hs
  have amount : ∀ (x : F) (d : Int), Rep A x →
      SigOut (fun p q => q = p ∧ CellOk A inp i col ⟨price, slip, p.1, p.2.1, p.2.2⟩)
        (.ok (x, SizeType.Amount, d)) (.ok (x, SizeType.Amount, d)) := by
    intro x d hx
    exact .inr (.inr ⟨_, _, rfl, rfl, rfl, hx, .inl rfl, fun h => absurd (show SizeType.Amount = SizeType.Percent from h) (by decide)⟩)
  have ha := rep_abs hA hp
  by_cases hpos : gt position zero = true
  · simp only [if_pos hpos]
    by_cases h2 : s.shortEntry = true
    · simp only [if_pos h2]
      by_cases h3 : removes acc = true
      · simp only [if_pos h3]; exact keep _ _ (.inr (.inr rfl))
      simp only [if_neg h3]
      unfold reverseSize
      by_cases h4 : (inp.size i col).isnan = true
      · simp only [h4, if_true, Bool.not_true, Bool.false_eq_true, if_false]
        exact amount _ _ (rep_neg hA ha)
      rw [Bool.not_eq_true] at h4
      simp only [h4, Bool.false_eq_true, if_false, Bool.not_false, if_true]
      by_cases h5 : inp.sizeType i col = SizeType.Percent
      · simp only [if_pos h5]
        exact .inr (.inl ⟨_, rfl, by decide⟩)
      simp only [if_neg h5]
      by_cases h6 : inp.sizeType i col = SizeType.Value
      · simp only [if_pos h6]
        unfold divE
        by_cases h7 : eqb valPrice zero = true
        · rw [if_pos h7]; exact .inl rfl
        · rw [if_neg h7]; exact amount _ _ (rep_sub hA _ _)
      · simp only [if_neg h6]
        exact amount _ _ (rep_sub hA _ _)
    simp only [if_neg h2]
    by_cases h3 : s.longExit = true
    · simp only [if_pos h3]
      by_cases h4 : removes acc = true
      · simp only [if_pos h4]; exact keep _ _ (.inr (.inr rfl))
      · simp only [if_neg h4]; exact amount _ _ (rep_neg hA ha)
    simp only [if_neg h3]
    by_cases h4 : s.longEntry = true
    · simp only [if_pos h4]
      by_cases h5 : addsTo acc = true
      · simp only [if_pos h5]; exact keep _ _ (.inr (.inl rfl))
      · simp only [if_neg h5]; exact keep _ _ (.inl rfl)
    · simp only [if_neg h4]; exact keep _ _ (.inl rfl)
  simp only [if_neg hpos]
  by_cases hneg : lt position zero = true
  · simp only [if_pos hneg]
    by_cases h2 : s.longEntry = true
    · simp only [if_pos h2]
      by_cases h3 : removes acc = true
      · simp only [if_pos h3]; exact keep _ _ (.inr (.inl rfl))
      simp only [if_neg h3]
      unfold reverseSize
      by_cases h4 : (inp.size i col).isnan = true
      · simp only [h4, if_true, Bool.not_true, Bool.false_eq_true, if_false]
        exact amount _ _ ha
      rw [Bool.not_eq_true] at h4
      simp only [h4, Bool.false_eq_true, if_false, Bool.not_false, if_true]
      by_cases h5 : inp.sizeType i col = SizeType.Percent
      · simp only [if_pos h5]
        exact .inr (.inl ⟨_, rfl, by decide⟩)
      simp only [if_neg h5]
      by_cases h6 : inp.sizeType i col = SizeType.Value
      · simp only [if_pos h6]
        unfold divE
        by_cases h7 : eqb valPrice zero = true
        · rw [if_pos h7]; exact .inl rfl
        · rw [if_neg h7]; exact amount _ _ (rep_add hA _ _)
      · simp only [if_neg h6]
        exact amount _ _ (rep_add hA _ _)
    simp only [if_neg h2]
    by_cases h3 : s.shortExit = true
    · simp only [if_pos h3]
      by_cases h4 : removes acc = true
      · simp only [if_pos h4]; exact keep _ _ (.inr (.inl rfl))
      · simp only [if_neg h4]; exact amount _ _ ha
    simp only [if_neg h3]
    by_cases h4 : s.shortEntry = true
    · simp only [if_pos h4]
      by_cases h5 : addsTo acc = true
      · simp only [if_pos h5]; exact keep _ _ (.inr (.inr rfl))
      · simp only [if_neg h5]; exact keep _ _ (.inl rfl)
    · simp only [if_neg h4]; exact keep _ _ (.inl rfl)
  simp only [if_neg hneg]
  by_cases h2 : s.longEntry = true
  · simp only [if_pos h2]; exact keep _ _ (.inr (.inl rfl))
  simp only [if_neg h2]
  by_cases h3 : s.shortEntry = true
  · simp only [if_pos h3]; exact keep _ _ (.inr (.inr rfl))
  · simp only [if_neg h3]; exact keep _ _ (.inl rfl)

/-! ## One cell -/

/-- The stops of a column with the two variables that a trailing stop moves. -/
def withTrail (st : Stops) (x : Int × F) : Stops := { st with slCurrI := x.1, slCurrPrice := x.2 }

theorem stopsAt_out (inp : SigInputs) (i col : Nat) (position : F) (st : Stops) :
    SigOut (fun p q => q.1 = p.1 ∧ p.2 = withTrail st q.2) (checkStops A inp i col position st)
      (stopsAt A inp i col position st.slCurrStop st.slCurrPrice st.slCurrTrail st.slCurrI st.tpCurrStop st.tpInitPrice) := by
  unfold checkStops stopsAt
  by_cases h0 : inp.useStops = true
  swap
  · simp only [h0, Bool.false_and, Bool.false_eq_true, if_false]
    exact .inr (.inr ⟨_, _, rfl, rfl, rfl, rfl⟩)
  by_cases h1 : (!st.slCurrStop.isnan || !st.tpCurrStop.isnan) = true
  swap
  · rw [if_pos h0, if_neg h1, if_neg (by simp [h0, h1])]
    exact .inr (.inr ⟨_, _, rfl, rfl, rfl, rfl⟩)
  rw [if_pos h0, if_pos h1, if_pos (by rw [h0, h1]; rfl)]
  simp only
  generalize hb : currentBar inp i col = b
  have ho : (if (inp.open_ i col).isnan = true then inp.close i col else inp.open_ i col) = b.open_ := by rw [← hb]; rfl
  rw [ho]
  have hmin : fmin b.open_ (inp.close i col) = pmin b.open_ (inp.close i col) := by
    by_cases hn : b.open_.isnan = true
    · have : (inp.open_ i col).isnan = true := by
        by_contra h
        rw [if_neg h] at ho
        exact h (ho ▸ hn)
      rw [if_pos this] at ho
      rw [ho] at *
      unfold fmin pmin
      rw [if_pos hn]
      split <;> rfl
    · exact fmin_eq_pmin _ (by simpa using hn)
  have hmax : fmax b.open_ (inp.close i col) = pmax b.open_ (inp.close i col) := by
    by_cases hn : b.open_.isnan = true
    · have : (inp.open_ i col).isnan = true := by
        by_contra h
        rw [if_neg h] at ho
        exact h (ho ▸ hn)
      rw [if_pos this] at ho
      rw [ho] at *
      unfold fmax pmax
      rw [if_pos hn]
      split <;> rfl
    · exact fmax_eq_pmax _ (by simpa using hn)
  have hl : (if (inp.low i col).isnan = true then fmin b.open_ (inp.close i col) else inp.low i col) = b.low := by
    rw [hmin, ← hb]; rfl
  have hh : (if (inp.high i col).isnan = true then fmax b.open_ (inp.close i col) else inp.high i col) = b.high := by
    rw [hmax, ← hb]; rfl
  rw [hl, hh]
  unfold stopPriceOf
  have hsl : SigOut (fun p q => q = p)
      (if (!st.slCurrStop.isnan) = true then Vbt.getStopPrice A position st.slCurrPrice st.slCurrStop b.open_ b.low b.high true
        else .ok nan)
      (if (!st.slCurrStop.isnan) = true then Rs.getStopPrice A position st.slCurrPrice st.slCurrStop b.open_ b.low b.high true
        else .ok nan) := by
    split
    · exact getStopPrice_out _ _ _ _ _ _ _
    · exact .inr (.inr ⟨_, _, rfl, rfl, rfl⟩)
  simp only
  rcases hsl with e | ⟨e, e1, e2⟩ | ⟨p, q, e1, e2, hpq⟩
  · rw [e]; exact .inl rfl
  · rw [e1, e2]; exact .inr (.inl ⟨e, rfl, rfl⟩)
  rw [hpq] at e2
  rw [e1, e2]
  simp only
  have htp : SigOut (fun p q => q = p)
      (if (p.isnan && !st.tpCurrStop.isnan) = true then
        Vbt.getStopPrice A position st.tpInitPrice st.tpCurrStop b.open_ b.low b.high false else .ok p)
      (if (p.isnan && !st.tpCurrStop.isnan) = true then
        Rs.getStopPrice A position st.tpInitPrice st.tpCurrStop b.open_ b.low b.high false else .ok p) := by
    split
    · exact getStopPrice_out _ _ _ _ _ _ _
    · exact .inr (.inr ⟨_, _, rfl, rfl, rfl⟩)
  rcases htp with e | ⟨e, e1, e2⟩ | ⟨p', q', e1, e2, rfl⟩
  · rw [e]; exact .inl rfl
  · rw [e1, e2]; exact .inr (.inl ⟨e, rfl, rfl⟩)
  rw [e1, e2]
  refine .inr (.inr ⟨_, _, rfl, rfl, rfl, ?_⟩)
  simp only
  unfold trailStop
  split
  · split
    · split <;> rfl
    · split
      · split <;> rfl
      · rfl
  · rfl

/-- A cell of both engines. -/
theorem sigCell_out (hA : A.Sound) (inp : SigInputs) (a : SigArrays) (i col : Nat) {position : F} (valPrice : F) (st : Stops)
    (hs : Rep A (inp.size i col)) (hp : Rep A position) :
    SigOut (fun p q => q = p ∧ CellOk A inp i col p.2) (arrayCell A inp a i col position valPrice st)
      (sigCell A inp a i col position valPrice st) := by
  unfold arrayCell sigCell processSignalsAt
  rcases stopsAt_out (A := A) inp i col position st with e | ⟨e, e1, e2⟩ | ⟨⟨p, st'⟩, ⟨q, x⟩, e1, e2, hq, hx⟩
  · rw [e]; exact .inl rfl
  · rw [e1, e2]; exact .inr (.inl ⟨e, rfl, rfl⟩)
  simp only at hq hx
  subst hq hx
  rw [e1, e2]
  simp only
  unfold Vbt.cellOrder
  simp only
  by_cases hit : (inp.useStops && !q.isnan) = true
  · simp only [if_pos hit]
    rcases signalsToSize_out hA (inp := inp) (i := i) (col := col)
      (Vbt.generateStopSignal position (inp.uponStopExit i col) (inp.accumulate i col)).1
      (Vbt.generateStopSignal position (inp.uponStopExit i col) (inp.accumulate i col)).2 valPrice
      (Vbt.resolveStopPriceAndSlippage q (sigPrice inp i col) (inp.close i col) (inp.slippage i col)
        (inp.stopExitPrice i col)).1
      (Vbt.resolveStopPriceAndSlippage q (sigPrice inp i col) (inp.close i col) (inp.slippage i col)
        (inp.stopExitPrice i col)).2 hs hp with e | ⟨e, e1, e2⟩ | ⟨p, _, e1, e2, rfl, hok⟩
    · rw [e]; exact .inl rfl
    · rw [e1]
      refine .inr (.inl ⟨e, rfl, ?_⟩)
      have e2' : Rs.signalsToSize A position (Rs.generateStopSignal position (inp.uponStopExit i col) (inp.accumulate i col)).1
        (inp.size i col) (inp.sizeType i col)
        (Rs.generateStopSignal position (inp.uponStopExit i col) (inp.accumulate i col)).2 valPrice = _ := e2
      rw [e2']
    · rw [e1]
      have e2' : Rs.signalsToSize A position (Rs.generateStopSignal position (inp.uponStopExit i col) (inp.accumulate i col)).1
        (inp.size i col) (inp.sizeType i col)
        (Rs.generateStopSignal position (inp.uponStopExit i col) (inp.accumulate i col)).2 valPrice = _ := e2
      rw [e2']
      exact .inr (.inr ⟨_, _, rfl, rfl, rfl, hok⟩)
  · simp only [if_neg hit]
    have hr : (if ((readSignals (a.entries i col) (a.exits i col) (a.direction i col) (a.longEntries i col) (a.longExits i col)
          (a.shortEntries i col) (a.shortExits i col)).longEntry ||
          (readSignals (a.entries i col) (a.exits i col) (a.direction i col) (a.longEntries i col) (a.longExits i col)
          (a.shortEntries i col) (a.shortExits i col)).shortEntry) = true then
        Rs.resolveOppositeEntry position
          { longEntry := (Rs.resolveDirConflict position
              (Rs.resolveSignalConflict position (arraySignals a i col).longEntry (arraySignals a i col).longExit
                Direction.LongOnly (inp.uponLongConflict i col)).1
              (Rs.resolveSignalConflict position (arraySignals a i col).shortEntry (arraySignals a i col).shortExit
                Direction.ShortOnly (inp.uponShortConflict i col)).1 (inp.uponDirConflict i col)).1,
            longExit := (Rs.resolveSignalConflict position (arraySignals a i col).longEntry (arraySignals a i col).longExit
                Direction.LongOnly (inp.uponLongConflict i col)).2,
            shortEntry := (Rs.resolveDirConflict position
              (Rs.resolveSignalConflict position (arraySignals a i col).longEntry (arraySignals a i col).longExit
                Direction.LongOnly (inp.uponLongConflict i col)).1
              (Rs.resolveSignalConflict position (arraySignals a i col).shortEntry (arraySignals a i col).shortExit
                Direction.ShortOnly (inp.uponShortConflict i col)).1 (inp.uponDirConflict i col)).2,
            shortExit := (Rs.resolveSignalConflict position (arraySignals a i col).shortEntry (arraySignals a i col).shortExit
                Direction.ShortOnly (inp.uponShortConflict i col)).2 }
          (inp.uponOppositeEntry i col) (inp.accumulate i col)
        else (arraySignals a i col, inp.accumulate i col)) =
      resolveSignals position (arraySignals a i col) (inp.uponLongConflict i col) (inp.uponShortConflict i col)
        (inp.uponDirConflict i col) (inp.uponOppositeEntry i col) (inp.accumulate i col) := rfl
    have hread : readSignals (a.entries i col) (a.exits i col) (a.direction i col) (a.longEntries i col) (a.longExits i col)
          (a.shortEntries i col) (a.shortExits i col) = arraySignals a i col := rfl
    rw [hread] at hr
    simp only [hread]
    rw [hr]
    rcases signalsToSize_out hA (inp := inp) (i := i) (col := col)
      (resolveSignals position (arraySignals a i col) (inp.uponLongConflict i col) (inp.uponShortConflict i col)
        (inp.uponDirConflict i col) (inp.uponOppositeEntry i col) (inp.accumulate i col)).1
      (resolveSignals position (arraySignals a i col) (inp.uponLongConflict i col) (inp.uponShortConflict i col)
        (inp.uponDirConflict i col) (inp.uponOppositeEntry i col) (inp.accumulate i col)).2 valPrice
      (sigPrice inp i col) (inp.slippage i col) hs hp with e | ⟨e, e1, e2⟩ | ⟨p, _, e1, e2, rfl, hok⟩
    · rw [e]; exact .inl rfl
    · rw [e1, e2]; exact .inr (.inl ⟨e, rfl, rfl⟩)
    · rw [e1, e2]; exact .inr (.inr ⟨_, _, rfl, rfl, rfl, hok⟩)

end Vbt.Rs
