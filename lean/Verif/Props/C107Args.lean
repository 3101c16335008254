import Verif.Props.C107

/-!
# C107, continued: what the arguments of `from_signals` stand for
-/

namespace Vbt
open F

/-- Both raise the same error, or both return and the results are related. -/
def SameE {σ τ : Type} (R : σ → τ → Prop) : Except Err σ → Except Err τ → Prop
  | .ok a, .ok b => R a b
  | .error e, .error e' => e = e'
  | _, _ => False

theorem loopE_same {σ τ α : Type} {R : σ → τ → Prop} {f : σ → α → Except Err σ} {g : τ → α → Except Err τ}
    (h : ∀ s t x, R s t → SameE R (f s x) (g t x)) (l : List α) {s : σ} {t : τ} (h0 : R s t) :
    SameE R (loopE f s l) (loopE g t l) := by
  induction l generalizing s t with
  | nil => exact h0
  | cons x l ih =>
    have := h s t x h0
    unfold loopE
    cases hf : f s x <;> cases hg : g t x <;> rw [hf, hg] at this
    · exact this
    · exact this.elim
    · exact this.elim
    · exact ih this

/-- Stops that are never hit. -/
def Quiet (st : Stops) : Prop := st.slCurrStop = nan ∧ st.tpCurrStop = nan

theorem quiet_cell {A : Arith} {inp : SigInputs} {a : SigArrays} {i col : Nat} {p v : F} {st st' : Stops} (h : Quiet st) :
    SameE (fun x y => Quiet x.1 ∧ x.2 = y.2) (arrayCell A { inp with useStops := true } a i col p v st)
      (arrayCell A { inp with useStops := false } a i col p v st') := by
  have e1 : checkStops A { inp with useStops := true } i col p st = .ok (nan, st) := by
    simp [checkStops, h.1, h.2, isnan]
  have e2 : checkStops A { inp with useStops := false } i col p st' = .ok (nan, st') := by
    simp [checkStops]
  unfold arrayCell
  rw [e1, e2]
  have e3 : cellOrder A { inp with useStops := true } i col p v nan (arraySignals a i col) =
      cellOrder A { inp with useStops := false } i col p v nan (arraySignals a i col) := by
    unfold cellOrder
    simp only [isnan, Bool.not_true, Bool.and_false, Bool.false_and]
    rfl
  simp only [e3]
  cases cellOrder A { inp with useStops := false } i col p v nan (arraySignals a i col) with
  | error e => exact rfl
  | ok c => exact ⟨h, rfl⟩

theorem quiet_update {inp : SigInputs} (h1 : ∀ i c, inp.slStop i c = nan) (h2 : ∀ i c, inp.tpStop i c = nan) {i col : Nat} {o : Order}
    {res : OrderResult} {b n v : F} {st : Stops} (h : Quiet st) : Quiet (updateStops inp i col o res b n v st) := by
  unfold updateStops
  split
  · split
    · exact ⟨rfl, rfl⟩
    · dsimp only
      split
      · exact ⟨h1 _ _, h2 _ _⟩
      · split
        · split
          · refine ⟨?_, h2 _ _⟩
            dsimp only
            split
            · exact h1 _ _
            · exact h.1
          · split
            · exact ⟨h1 _ _, h.2⟩
            · exact h
        · exact h
  · exact h

/-- **C107** (stops).  Whether the stops are used is a matter of speed only: when all stops are NaN, the simulation with stops has
the outcome of the simulation without (balances, orders, logs, errors). -/
theorem C107_use_stops {A : Arith} {inp : SigInputs} {a : SigArrays} (h1 : ∀ i c, inp.slStop i c = nan)
    (h2 : ∀ i c, inp.tpStop i c = nan) (rows cols : Nat) (lens : List Nat) (initCash : List F) (mo : Option Nat) (ml : Nat) (b : Bool) :
    (simulateFromSignals A { inp with useStops := b } a rows cols lens initCash mo ml).map (·.sim) =
      (simulateFromSignals A { inp with useStops := false } a rows cols lens initCash mo ml).map (·.sim) := by
  cases b with
  | false => rfl
  | true =>
    have key : SameE (fun s s' : SigState => s.sim = s'.sim ∧ ∀ c, Quiet (s.stops c))
        (simulateFromSignals A { inp with useStops := true } a rows cols lens initCash mo ml)
        (simulateFromSignals A { inp with useStops := false } a rows cols lens initCash mo ml) := by
      unfold simulateFromSignals simulateSig
      by_cases hl : lens.sum ≠ cols
      · rw [if_pos hl, if_pos hl]; exact rfl
      rw [if_neg hl, if_neg hl]
      dsimp only
      by_cases hi : isGrouped lens = true ∧ initCash.length ≠ lens.length
      · rw [if_pos hi, if_pos hi]; exact rfl
      rw [if_neg hi, if_neg hi]
      by_cases hj : isGrouped lens = false ∧ initCash.length ≠ cols
      · rw [if_pos hj, if_pos hj]; exact rfl
      rw [if_neg hj, if_neg hj]
      refine loopE_same (fun s s' x hR => ?_) _ ⟨rfl, fun _ => ⟨rfl, rfl⟩⟩
      unfold sigGroup
      refine loopE_same (fun s s' i hR => ?_) _ ⟨by simp only [hR.1], hR.2⟩
      unfold sigRow
      obtain ⟨hsim, hq⟩ := hR
      have hcells := loopE_same (R := fun (x y : (Nat → Stops) × (Nat → CellOrder)) => (∀ c, Quiet (x.1 c)) ∧ x.2 = y.2)
        (f := fun z k => match arrayCell A { inp with useStops := true } a i (x.2.1 + k) (s.sim.position (x.2.1 + k))
            (sigRowValPrice { inp with useStops := true } i x.2.1 x.2.2 s.sim.valPrice (x.2.1 + k)) (z.1 (x.2.1 + k)) with
          | .error e => .error e
          | .ok (st, c) => .ok (setAt z.1 (x.2.1 + k) st, setAt z.2 (x.2.1 + k) c))
        (g := fun z k => match arrayCell A { inp with useStops := false } a i (x.2.1 + k) (s'.sim.position (x.2.1 + k))
            (sigRowValPrice { inp with useStops := false } i x.2.1 x.2.2 s'.sim.valPrice (x.2.1 + k)) (z.1 (x.2.1 + k)) with
          | .error e => .error e
          | .ok (st, c) => .ok (setAt z.1 (x.2.1 + k) st, setAt z.2 (x.2.1 + k) c))
        (fun z z' k hz => by
          have := quiet_cell (A := A) (inp := inp) (a := a) (i := i) (col := x.2.1 + k) (p := s.sim.position (x.2.1 + k))
            (v := sigRowValPrice { inp with useStops := true } i x.2.1 x.2.2 s.sim.valPrice (x.2.1 + k))
            (st := z.1 (x.2.1 + k)) (st' := z'.1 (x.2.1 + k)) (hz.1 _)
          rw [← hsim]
          have e : sigRowValPrice { inp with useStops := false } i x.2.1 x.2.2 s.sim.valPrice (x.2.1 + k) =
            sigRowValPrice { inp with useStops := true } i x.2.1 x.2.2 s.sim.valPrice (x.2.1 + k) := rfl
          rw [e]
          revert this
          cases arrayCell A { inp with useStops := true } a i (x.2.1 + k) (s.sim.position (x.2.1 + k))
            (sigRowValPrice { inp with useStops := true } i x.2.1 x.2.2 s.sim.valPrice (x.2.1 + k)) (z.1 (x.2.1 + k)) with
          | error e1 =>
            cases arrayCell A { inp with useStops := false } a i (x.2.1 + k) (s.sim.position (x.2.1 + k))
              (sigRowValPrice { inp with useStops := true } i x.2.1 x.2.2 s.sim.valPrice (x.2.1 + k)) (z'.1 (x.2.1 + k)) with
            | error e2 => exact fun h => h
            | ok y => exact fun h => h.elim
          | ok w =>
            cases arrayCell A { inp with useStops := false } a i (x.2.1 + k) (s.sim.position (x.2.1 + k))
              (sigRowValPrice { inp with useStops := true } i x.2.1 x.2.2 s.sim.valPrice (x.2.1 + k)) (z'.1 (x.2.1 + k)) with
            | error e2 => exact fun h => h.elim
            | ok y =>
              rintro ⟨g1, g2⟩
              refine ⟨fun c => ?_, ?_⟩
              · show Quiet (setAt z.1 _ w.1 c)
                unfold setAt
                split
                · exact g1
                · exact hz.1 c
              · show setAt z.2 _ w.2 = setAt z'.2 _ y.2
                rw [g2, hz.2])
        (List.range x.2.2)
        (s := (s.stops, fun _ => { price := nan, slippage := nan, size := zero, sizeType := 0, direction := 0 }))
        (t := (s'.stops, fun _ => { price := nan, slippage := nan, size := zero, sizeType := 0, direction := 0 })) ⟨hq, rfl⟩
      unfold sigCells
      dsimp only
      revert hcells
      cases loopE (fun (z : (Nat → Stops) × (Nat → CellOrder)) k =>
          match arrayCell A { inp with useStops := true } a i (x.2.1 + k) (s.sim.position (x.2.1 + k))
            (sigRowValPrice { inp with useStops := true } i x.2.1 x.2.2 s.sim.valPrice (x.2.1 + k)) (z.1 (x.2.1 + k)) with
          | .error e => .error e
          | .ok (st, c) => .ok (setAt z.1 (x.2.1 + k) st, setAt z.2 (x.2.1 + k) c))
        (s.stops, fun _ => { price := nan, slippage := nan, size := zero, sizeType := 0, direction := 0 }) (List.range x.2.2) with
      | error e1 =>
        cases loopE (fun (z : (Nat → Stops) × (Nat → CellOrder)) k =>
          match arrayCell A { inp with useStops := false } a i (x.2.1 + k) (s'.sim.position (x.2.1 + k))
            (sigRowValPrice { inp with useStops := false } i x.2.1 x.2.2 s'.sim.valPrice (x.2.1 + k)) (z.1 (x.2.1 + k)) with
          | .error e => .error e
          | .ok (st, c) => .ok (setAt z.1 (x.2.1 + k) st, setAt z.2 (x.2.1 + k) c))
          (s'.stops, fun _ => { price := nan, slippage := nan, size := zero, sizeType := 0, direction := 0 }) (List.range x.2.2) with
        | error e2 => exact fun h => h
        | ok y => exact fun h => h.elim
      | ok w =>
        cases loopE (fun (z : (Nat → Stops) × (Nat → CellOrder)) k =>
          match arrayCell A { inp with useStops := false } a i (x.2.1 + k) (s'.sim.position (x.2.1 + k))
            (sigRowValPrice { inp with useStops := false } i x.2.1 x.2.2 s'.sim.valPrice (x.2.1 + k)) (z.1 (x.2.1 + k)) with
          | .error e => .error e
          | .ok (st, c) => .ok (setAt z.1 (x.2.1 + k) st, setAt z.2 (x.2.1 + k) c))
          (s'.stops, fun _ => { price := nan, slippage := nan, size := zero, sizeType := 0, direction := 0 }) (List.range x.2.2) with
        | error e2 => exact fun h => h.elim
        | ok y =>
          rintro ⟨g1, g2⟩
          obtain ⟨w1, w2⟩ := w
          obtain ⟨y1, y2⟩ := y
          dsimp only at g1 g2 ⊢
          subst g2
          rw [← hsim]
          refine loopE_same (fun s s' slot hR => ?_) _ ⟨rfl, g1⟩
          obtain ⟨hsim, hq⟩ := hR
          unfold sigSlot
          rw [← hsim]
          dsimp only
          by_cases hb : (isGrouped lens && decide (slot.2 ≥ x.2.2)) = true
          · rw [if_pos hb, if_pos hb]; exact rfl
          rw [if_neg hb, if_neg hb]
          generalize (if isGrouped lens = true then x.2.1 + slot.2 else x.2.1 + slot.1) = col
          generalize (if isGrouped lens = true then s.sim.value
            else if (!eqb (s.sim.position col) zero) = true then
              add A s.sim.cash (mul A (s.sim.position col) (s.sim.valPrice col)) else s.sim.cash) = value
          by_cases hz : (!eqb (w2 col).size zero) = true
          · rw [if_pos hz, if_pos hz]
            have e : ∀ col c, sigOrder { inp with useStops := true } i col c = sigOrder { inp with useStops := false } i col c :=
              fun _ _ => rfl
            rw [e]
            generalize processOrder A i col x.1 _ _ _ _ _ = P
            cases P with
            | error e => exact rfl
            | ok P =>
              refine ⟨rfl, fun c => ?_⟩
              dsimp only
              unfold setAt
              split
              · exact quiet_update (inp := { inp with useStops := true }) h1 h2 (hq _)
              · exact hq c
          · rw [if_neg hz, if_neg hz]
            exact ⟨rfl, hq⟩
    revert key
    cases simulateFromSignals A { inp with useStops := true } a rows cols lens initCash mo ml <;>
      cases simulateFromSignals A { inp with useStops := false } a rows cols lens initCash mo ml
    · exact fun h => by rw [show _ = _ from h]
    · exact fun h => h.elim
    · exact fun h => h.elim
    · rintro ⟨h, -⟩
      exact congrArg Except.ok h

/-- **C107** (resolution of `use_stops`).  Left alone, stops are used unless both are the float NaN and no function adjusts them;
an array of NaN counts as a stop. -/
theorem C107_stops_resolved (sl tp : StopArg) (g : SigArgs) :
    (resolveUseStops none none sl tp g = false ↔ sl = .float nan ∧ tp = .float nan ∧ g.adjustSl = none ∧ g.adjustTp = none) ∧
    ∀ b s, resolveUseStops (some b) s sl tp g = b := by
  constructor
  · have hs : ∀ x : StopArg, x.absent = true ↔ x = .float nan := by
      intro x
      cases x with
      | float x => cases x <;> simp [StopArg.absent, isnan]
      | other => simp [StopArg.absent]
    unfold resolveUseStops
    simp only [Bool.not_eq_false', Bool.and_eq_true, hs, Option.isNone_iff_eq_none, and_assoc]
  · intro b s
    rfl

/-- **C107** (conflict).  Signal arrays together with a signal function raise, whatever else is given. -/
theorem C107_conflict {A : Arith} {inp : SigInputs} {g : SigArgs} {f : SignalContext → Signals} (hf : g.signalFunc = some f)
    (h : g.entries ≠ none ∨ g.exits ≠ none ∨ g.shortEntries ≠ none ∨ g.shortExits ≠ none)
    (rows cols : Nat) (lens : List Nat) (initCash : List F) (mo : Option Nat) (ml : Nat) :
    fromSignals A inp g rows cols lens initCash mo ml =
      .error (.valueError "Either any of the signal arrays or signal_func_nb should be set, not both") := by
  unfold fromSignals
  rw [if_pos]
  simp only [hf, Option.isSome_some, Bool.and_true, SigArgs.lsMode, Bool.or_eq_true, Option.isSome_iff_ne_none]
  tauto

theorem fromSignals_arrays {A : Arith} {inp : SigInputs} {g : SigArgs} (hf : g.signalFunc = none)
    (h1 : ∀ f, g.adjustSl = some f → f = noAdjustSl) (h2 : ∀ f, g.adjustTp = some f → f = noAdjustTp)
    (rows cols : Nat) (lens : List Nat) (initCash : List F) (mo : Option Nat) (ml : Nat) :
    fromSignals A inp g rows cols lens initCash mo ml = simulateFromSignals A inp g.arrays rows cols lens initCash mo ml := by
  unfold fromSignals
  rw [if_neg (by simp [hf])]
  split
  · rfl
  · have e1 : g.adjustSl.getD noAdjustSl = noAdjustSl := by
      cases h : g.adjustSl with
      | none => rfl
      | some f => exact h1 f h
    have e2 : g.adjustTp.getD noAdjustTp = noAdjustTp := by
      cases h : g.adjustTp with
      | none => rfl
      | some f => exact h2 f h
    rw [e1, e2]
    unfold SigArgs.signalOr SigArgs.arrays
    rw [hf]
    dsimp only
    split
    · exact C28_ls (a := ⟨fun _ _ => false, fun _ _ => false, fun _ _ => Direction.LongOnly, g.entriesOr, signalsOr g.exits,
        signalsOr g.shortEntries, signalsOr g.shortExits⟩) (fun _ _ => ⟨rfl, rfl⟩) rows cols lens initCash mo ml
    · exact C28_dir (a := ⟨g.entriesOr, signalsOr g.exits, g.directionOr, fun _ _ => false, fun _ _ => false, fun _ _ => false,
        fun _ _ => false⟩) (fun _ _ => ⟨rfl, rfl, rfl, rfl⟩) rows cols lens initCash mo ml

/-- **C107** (one simulation, two implementations).  The arrays of `from_signals` go to the array simulator or, if stops are
adjusted, to the signal function simulator.  The outcome does not depend on which: not on hooks that do nothing, and not on
giving the signal function that reads the arrays in place of the arrays. -/
theorem C107_one_simulation {A : Arith} {inp : SigInputs} {g : SigArgs} (hf : g.signalFunc = none)
    (h1 : g.adjustSl = none) (h2 : g.adjustTp = none)
    (rows cols : Nat) (lens : List Nat) (initCash : List F) (mo : Option Nat) (ml : Nat) :
    fromSignals A inp { g with adjustSl := some noAdjustSl } rows cols lens initCash mo ml =
      fromSignals A inp g rows cols lens initCash mo ml ∧
    fromSignals A inp { g with adjustTp := some noAdjustTp } rows cols lens initCash mo ml =
      fromSignals A inp g rows cols lens initCash mo ml ∧
    fromSignals A inp { signalFunc := some g.signalOr } rows cols lens initCash mo ml =
      fromSignals A inp g rows cols lens initCash mo ml := by
  have e0 := fromSignals_arrays (A := A) (inp := inp) (g := g) hf (by rw [h1]; exact fun _ h => by cases h)
    (by rw [h2]; exact fun _ h => by cases h) rows cols lens initCash mo ml
  refine ⟨?_, ?_, ?_⟩
  · rw [e0, fromSignals_arrays (g := { g with adjustSl := some noAdjustSl }) hf (fun f h => by cases h; rfl)
      (by simp only [h2]; exact fun _ h => by cases h)]
    rfl
  · rw [e0, fromSignals_arrays (g := { g with adjustTp := some noAdjustTp }) hf
      (by simp only [h1]; exact fun _ h => by cases h) (fun f h => by cases h; rfl)]
    rfl
  · rw [e0]
    have := fromSignals_arrays (A := A) (inp := inp) (g := { g with adjustSl := some noAdjustSl }) hf (fun f h => by cases h; rfl)
      (by simp only [h2]; exact fun _ h => by cases h) rows cols lens initCash mo ml
    rw [show g.arrays = ({ g with adjustSl := some noAdjustSl } : SigArgs).arrays from rfl, ← this]
    unfold fromSignals
    rw [if_neg (by simp [SigArgs.lsMode]), if_neg (by simp), if_neg (by simp [hf]), if_neg (by simp)]
    show simulateFromSignalFunc A inp ⟨_, _, _⟩ _ _ _ _ _ _ = simulateFromSignalFunc A inp ⟨_, _, _⟩ _ _ _ _ _ _
    rw [h2]
    rfl

/-- **C107** (direction).  With short signals the direction has no effect; without them it says which of the four signals the
arrays stand for: long, short, or entries long and exits short. -/
theorem C107_direction {A : Arith} {inp : SigInputs} {g : SigArgs} (hf : g.signalFunc = none) (h1 : g.adjustSl = none)
    (h2 : g.adjustTp = none) (rows cols : Nat) (lens : List Nat) (initCash : List F) (mo : Option Nat) (ml : Nat) :
    (g.lsMode = true → ∀ d, fromSignals A inp { g with direction := d } rows cols lens initCash mo ml =
      fromSignals A inp g rows cols lens initCash mo ml) ∧
    (∀ e x, g.lsMode = false → g.entries = some e → g.exits = some x →
      ((∀ i c, g.directionOr i c = Direction.LongOnly) → fromSignals A inp g rows cols lens initCash mo ml =
        fromSignals A inp { entries := some e, exits := some x, shortEntries := some fun _ _ => false } rows cols lens initCash mo ml) ∧
      ((∀ i c, g.directionOr i c = Direction.ShortOnly) → fromSignals A inp g rows cols lens initCash mo ml =
        fromSignals A inp { shortEntries := some e, shortExits := some x } rows cols lens initCash mo ml) ∧
      ((∀ i c, g.directionOr i c = Direction.Both) → fromSignals A inp g rows cols lens initCash mo ml =
        fromSignals A inp { entries := some e, shortEntries := some x } rows cols lens initCash mo ml)) := by
  have e0 := fromSignals_arrays (A := A) (inp := inp) (g := g) hf (by rw [h1]; exact fun _ h => by cases h)
    (by rw [h2]; exact fun _ h => by cases h) rows cols lens initCash mo ml
  have en : ∀ g' : SigArgs, g'.signalFunc = none → g'.adjustSl = none → g'.adjustTp = none →
      fromSignals A inp g' rows cols lens initCash mo ml = simulateFromSignals A inp g'.arrays rows cols lens initCash mo ml :=
    fun g' a b c => fromSignals_arrays a (by rw [b]; exact fun _ h => by cases h) (by rw [c]; exact fun _ h => by cases h) _ _ _ _ _ _
  constructor
  · intro hl d
    rw [e0, en { g with direction := d } hf h1 h2]
    unfold SigArgs.arrays
    rw [if_pos hl, if_pos (show ({ g with direction := d } : SigArgs).lsMode = true from hl)]
    rfl
  · intro e x hl he hx
    refine ⟨fun hd => ?_, fun hd => ?_, fun hd => ?_⟩ <;>
      rw [e0, en _ rfl rfl rfl] <;> refine C28_modes (fun i c => ?_) rows cols lens initCash mo ml <;>
      unfold arraySignals SigArgs.arrays <;> rw [hl] <;>
      simp only [SigArgs.lsMode, SigArgs.entriesOr, he, hx, hd, signalsOr, Bool.false_eq_true, if_false, if_true, Option.isSome_some,
        Option.isSome_none, Bool.or_true, Option.getD_some, Option.getD_none, Bool.or_false, Bool.false_or, Option.isNone_none,
        Bool.not_true, Bool.and_false]
    · cases e i c <;> cases x i c <;> rfl
    · cases e i c <;> cases x i c <;> rfl
    · cases e i c <;> cases x i c <;> rfl

/-- **C107** (initial cash).  A number is an amount unless it is the integer 0 or 1, which are modes: the simulation then starts
with infinite cash. -/
theorem C107_init_cash (n : Nat) (k : Int) (x : F) :
    resolveInitCash n (.float x) = .ok (none, List.replicate n x) ∧
    (k ≠ 0 → k ≠ 1 → resolveInitCash n (.int k) = resolveInitCash n (.float (fin k))) ∧
    (k = 0 ∨ k = 1 → resolveInitCash n (.int k) = .ok (some k, List.replicate n pinf)) := by
  refine ⟨rfl, fun h0 h1 => ?_, fun h => ?_⟩
  · unfold resolveInitCash
    dsimp only
    rw [if_neg (by simp [initCashModes, h0, h1])]
  · unfold resolveInitCash
    dsimp only
    rw [if_pos (by simpa [initCashModes] using h)]

/-- **C107** (grouping).  Sharing cash without groups puts all columns into one group, and needs groups to be selectable; otherwise
the groups are those given.  The automatic call sequence is the default one, sorted. -/
theorem C107_grouping {α : Type} (whole : α) (share select : Bool) (gb : Option α) :
    (share = true → select = false → ∃ m, resolveGroupBy whole share select gb = .error (.valueError m)) ∧
    (share = true → select = true → gb = none → resolveGroupBy whole share select gb = .ok (some whole)) ∧
    (share = false ∨ (select = true ∧ gb ≠ none) → resolveGroupBy whole share select gb = .ok gb) ∧
    (∀ k : Int, (resolveCallSeq k).2 = true ↔ k = 3) ∧ (resolveCallSeq 3).1 = 0 ∧ (∀ k : Int, k ≠ 3 → (resolveCallSeq k).1 = k) := by
  refine ⟨?_, ?_, ?_, ?_, rfl, ?_⟩
  · rintro rfl rfl; exact ⟨_, rfl⟩
  · rintro rfl rfl rfl; rfl
  · rintro (rfl | ⟨rfl, h⟩)
    · unfold resolveGroupBy; simp
    · unfold resolveGroupBy
      cases gb with
      | none => exact absurd rfl h
      | some y => simp
  · intro k
    unfold resolveCallSeq
    by_cases h : k = 3 <;> simp [h]
  · intro k h
    unfold resolveCallSeq
    rw [if_neg h]

/-! ## Examples -/

/-- Entries in row 0, exits in row 2, prices 2, 3, 4: with and without stops that are NaN, an order each way. -/
def wEnEx : SigArgs := { entries := some fun i _ => decide (i = 0), exits := some fun i _ => decide (i = 2) }

example : (simulateFromSignals Arith.std { defaultSettings wHoldClose with useStops := true } wEnEx.arrays 3 1 [1] [fin 100] none 1).map (·.sim) =
      (simulateFromSignals Arith.std { defaultSettings wHoldClose with useStops := false } wEnEx.arrays 3 1 [1] [fin 100] none 1).map (·.sim) ∧
    okAnd (simulateFromSignals Arith.std { defaultSettings wHoldClose with useStops := true } wEnEx.arrays 3 1 [1] [fin 100] none 1)
      (fun s => decide (s.sim.buf.orders = [⟨0, 0, 0, fin 50, fin 2, fin 0, OrderSide.Buy⟩, ⟨1, 0, 2, fin 50, fin 4, fin 0, OrderSide.Sell⟩])) =
      true :=
  ⟨C107_use_stops (fun _ _ => rfl) (fun _ _ => rfl) 3 1 [1] [fin 100] none 1 true, by decide +kernel⟩

example : resolveUseStops none none (.float nan) (.float nan) wEnEx = false ∧ resolveUseStops none none .other (.float nan) wEnEx = true :=
  ⟨(C107_stops_resolved _ _ _).1.2 ⟨rfl, rfl, rfl, rfl⟩, by decide⟩

example : fromSignals Arith.std (defaultSettings wHoldClose) { wEnEx with signalFunc := some noSignal } 3 1 [1] [fin 100] none 1 =
    .error (.valueError "Either any of the signal arrays or signal_func_nb should be set, not both") :=
  C107_conflict rfl (.inl (by simp [wEnEx])) 3 1 [1] [fin 100] none 1

example : fromSignals Arith.std (defaultSettings wHoldClose) { signalFunc := some wEnEx.signalOr } 3 1 [1] [fin 100] none 1 =
      fromSignals Arith.std (defaultSettings wHoldClose) wEnEx 3 1 [1] [fin 100] none 1 ∧
    okAnd (fromSignals Arith.std (defaultSettings wHoldClose) wEnEx 3 1 [1] [fin 100] none 1)
      (fun s => decide (s.sim.buf.orders.length = 2)) = true :=
  ⟨(C107_one_simulation rfl rfl rfl 3 1 [1] [fin 100] none 1).2.2, by decide +kernel⟩

/-- Short: the same arrays sell first and buy back. -/
example : fromSignals Arith.std (defaultSettings wHoldClose) { wEnEx with direction := some fun _ _ => Direction.ShortOnly } 3 1 [1] [fin 100] none 1 =
      fromSignals Arith.std (defaultSettings wHoldClose)
        { shortEntries := some fun i _ => decide (i = 0), shortExits := some fun i _ => decide (i = 2) } 3 1 [1] [fin 100] none 1 ∧
    okAnd (fromSignals Arith.std (defaultSettings wHoldClose) { wEnEx with direction := some fun _ _ => Direction.ShortOnly } 3 1 [1] [fin 100] none 1)
      (fun s => decide (s.sim.buf.orders.map (·.side) = [OrderSide.Sell, OrderSide.Buy])) = true :=
  ⟨((C107_direction (g := { wEnEx with direction := some fun _ _ => Direction.ShortOnly }) rfl rfl rfl 3 1 [1] [fin 100] none 1).2
    _ _ rfl rfl rfl).2.1 (fun _ _ => rfl), by decide +kernel⟩

example : resolveInitCash 2 (.int 100) = .ok (none, [fin 100, fin 100]) ∧ resolveInitCash 2 (.int 1) = .ok (some 1, [pinf, pinf]) :=
  ⟨(C107_init_cash 2 100 nan).2.1 (by decide) (by decide), (C107_init_cash 2 1 nan).2.2 (.inr rfl)⟩

example : resolveGroupBy 0 true true none = .ok (some 0) ∧ resolveGroupBy 0 false true (some 5) = .ok (some 5) :=
  ⟨(C107_grouping 0 true true none).2.1 rfl rfl rfl, (C107_grouping 0 false true (some 5)).2.2.1 (.inl rfl)⟩

end Vbt
