import Verif.Lemmas.SigWitness
import Verif.Lemmas.Sim

/-!
# C28  Array signals and signal functions agree

The two simulators of the source differ only in the hooks adjusting stops and in where signals come from (a textual
comparison of portfolio/nb.py:1999-2414 with 2518-2939 shows no other difference), so the model shares the rest.
Results are equal as a whole: orders, logs, balances, stops, and errors.
-/

namespace Vbt
open F

/-- Hooks that do nothing leave the stops as they are. -/
theorem adjustStops_none {inp : SigInputs} {f : SigFuncs} {i col : Nat} {p v : F} {st : Stops}
    (h1 : ∀ c, f.adjustSl c = noAdjustSl c) (h2 : ∀ c, f.adjustTp c = noAdjustTp c) :
    adjustStops inp f i col p v st = st := by
  unfold adjustStops
  split
  · simp only [h1, h2, noAdjustSl, noAdjustTp]
  · rfl

theorem funcCell_eq_arrayCell {A : Arith} {inp : SigInputs} {a : SigArrays} {f : SigFuncs}
    (hs : ∀ c, f.signal c = arraySignals a c.i c.col)
    (h1 : ∀ c, f.adjustSl c = noAdjustSl c) (h2 : ∀ c, f.adjustTp c = noAdjustTp c) :
    funcCell A inp f = arrayCell A inp a := by
  funext i col p v st
  unfold funcCell arrayCell
  rw [adjustStops_none h1 h2]
  simp only [hs]

/-- **C28**.  A signal function that returns what the arrays say, with hooks that do nothing. -/
theorem C28_agree {A : Arith} {inp : SigInputs} {a : SigArrays} {f : SigFuncs}
    (hs : ∀ c, f.signal c = arraySignals a c.i c.col)
    (h1 : ∀ c, f.adjustSl c = noAdjustSl c) (h2 : ∀ c, f.adjustTp c = noAdjustTp c)
    (rows cols : Nat) (lens : List Nat) (initCash : List F) (mo : Option Nat) (ml : Nat) :
    simulateFromSignalFunc A inp f rows cols lens initCash mo ml =
      simulateFromSignals A inp a rows cols lens initCash mo ml := by
  unfold simulateFromSignalFunc simulateFromSignals
  rw [funcCell_eq_arrayCell hs h1 h2]

/-- **C28** (entries, exits, direction).  `dir_enex_signal_func_nb` reads arrays given in direction mode. -/
theorem C28_dir {A : Arith} {inp : SigInputs} {a : SigArrays}
    (hl : ∀ i c, a.longEntries i c = false ∧ a.longExits i c = false ∧ a.shortEntries i c = false ∧
      a.shortExits i c = false)
    (rows cols : Nat) (lens : List Nat) (initCash : List F) (mo : Option Nat) (ml : Nat) :
    simulateFromSignalFunc A inp ⟨dirEnexSignal a.entries a.exits a.direction, noAdjustSl, noAdjustTp⟩ rows cols lens
        initCash mo ml =
      simulateFromSignals A inp a rows cols lens initCash mo ml := by
  refine C28_agree (fun c => ?_) (fun _ => rfl) (fun _ => rfl) _ _ _ _ _ _
  obtain ⟨h1, h2, h3, h4⟩ := hl c.i c.col
  unfold dirEnexSignal arraySignals
  simp only [h1, h2, h3, h4, Bool.or_false]
  cases he : a.entries c.i c.col <;> cases hx : a.exits c.i c.col <;> simp

/-- **C28** (long and short signals).  `ls_enex_signal_func_nb` reads arrays given in long-short mode. -/
theorem C28_ls {A : Arith} {inp : SigInputs} {a : SigArrays}
    (hl : ∀ i c, a.entries i c = false ∧ a.exits i c = false)
    (rows cols : Nat) (lens : List Nat) (initCash : List F) (mo : Option Nat) (ml : Nat) :
    simulateFromSignalFunc A inp ⟨lsEnexSignal a.longEntries a.longExits a.shortEntries a.shortExits, noAdjustSl,
        noAdjustTp⟩ rows cols lens initCash mo ml =
      simulateFromSignals A inp a rows cols lens initCash mo ml := by
  refine C28_agree (fun c => ?_) (fun _ => rfl) (fun _ => rfl) _ _ _ _ _ _
  obtain ⟨h1, h2⟩ := hl c.i c.col
  unfold lsEnexSignal arraySignals
  simp only [h1, h2, Bool.or_self, Bool.false_eq_true, if_false]

/-- **C28** (the two modes).  Direction mode is long-short mode with the signals of that direction. -/
theorem C28_modes {A : Arith} {inp : SigInputs} {a b : SigArrays}
    (h : ∀ i c, arraySignals a i c = arraySignals b i c)
    (rows cols : Nat) (lens : List Nat) (initCash : List F) (mo : Option Nat) (ml : Nat) :
    simulateFromSignals A inp a rows cols lens initCash mo ml =
      simulateFromSignals A inp b rows cols lens initCash mo ml := by
  have : arrayCell A inp a = arrayCell A inp b := by
    funext i col p v st
    unfold arrayCell
    simp only [h]
  unfold simulateFromSignals
  rw [this]

/-- No signals, no orders: `no_signal_func_nb` places none (without stops). -/
theorem C28_no_signal {A : Arith} {inp : SigInputs} (hst : inp.useStops = false) {i col : Nat} {p v : F} {st st' : Stops}
    {c : CellOrder} {f : SigFuncs} (hf : ∀ c, f.signal c = noSignal c)
    (h : funcCell A inp f i col p v st = .ok (st', c)) : c.size = zero := by
  unfold funcCell at h
  split at h
  · cases h
  split at h
  · cases h
  rename_i c' hc
  cases h
  unfold cellOrder at hc
  simp only [hst, Bool.false_and, Bool.false_eq_true, if_false, hf, noSignal, resolveSignals, Bool.or_self] at hc
  split at hc
  · cases hc
  rename_i size ty dir hsz
  cases hc
  show size = zero
  unfold signalsToSize at hsz
  simp only [Bool.false_eq_true, if_false] at hsz
  repeat' split at hsz
  all_goals first
    | (cases hsz; done)
    | (cases hsz; rfl)

/-! Non-vacuity: a run that enters in row 0, is stopped out in row 2, and so has two orders. -/

example : (∀ i c, wArr.longEntries i c = false ∧ wArr.longExits i c = false ∧ wArr.shortEntries i c = false ∧
    wArr.shortExits i c = false) ∧
    ∃ s, simulateFromSignals Arith.std wSig wArr 4 1 [1] [fin 100] none 0 = .ok s ∧
      s.sim.buf.orders.map (fun o => (o.idx, o.size, o.price, o.side)) =
        [(0, fin 2, fin 10, OrderSide.Buy), (2, fin 2, fin 9, OrderSide.Sell)] := by
  refine ⟨fun _ _ => ⟨rfl, rfl, rfl, rfl⟩, ?_⟩
  obtain ⟨s, h, hf⟩ := okAnd_iff (x := simulateFromSignals Arith.std wSig wArr 4 1 [1] [fin 100] none 0)
    (f := fun s => decide (s.sim.buf.orders.map (fun o => (o.idx, o.size, o.price, o.side)) =
        [(0, fin 2, fin 10, OrderSide.Buy), (2, fin 2, fin 9, OrderSide.Sell)])) (by decide +kernel)
  exact ⟨s, h, of_decide_eq_true hf⟩

end Vbt
