import Verif.Model.SignalRules

/-!
# Documented outcomes of conflicts between signals

Written from the documentation of `ConflictMode`, `DirectionConflictMode` and `OppositeEntryMode`
(portfolio/enums.py:151-246), as tables over what is held.
-/

namespace Vbt
open F

/-- What is held. -/
inductive Held
  | flat
  | long
  | short
deriving DecidableEq, Repr

/-- `position` is a holding of the given kind; NaN is none. -/
inductive Holds : F → Held → Prop
  | flat : Holds (fin 0) .flat
  | long {q : ℚ} (h : 0 < q) : Holds (fin q) .long
  | longInf : Holds pinf .long
  | short {q : ℚ} (h : q < 0) : Holds (fin q) .short
  | shortInf : Holds ninf .short

/-- Entry or exit. -/
inductive Kind
  | entry
  | exit
deriving DecidableEq, Repr

/-- Long or short. -/
inductive Way
  | long
  | short
deriving DecidableEq, Repr

/-- The signal executed if entry and exit occur together, for signals of one direction: the adjacent signal is the entry,
the opposite one the exit. -/
def survivor (mode : Int) (held : Held) : Option Kind :=
  match mode, held with
  | 1, _ => some .entry
  | 2, _ => some .exit
  | 3, .flat => none
  | 3, _ => some .entry
  | 4, .flat => none
  | 4, _ => some .exit
  | _, _ => none

/-- The same for signals of both directions, where the exit stands for a short entry. -/
def survivorBoth (mode : Int) (held : Held) : Option Kind :=
  match mode, held with
  | 1, _ => some .entry
  | 2, _ => some .exit
  | 3, .long => some .entry
  | 3, .short => some .exit
  | 4, .long => some .exit
  | 4, .short => some .entry
  | _, _ => none

/-- The entry executed if a long and a short entry occur together. -/
def entrySurvivor (mode : Int) (held : Held) : Option Way :=
  match mode, held with
  | 1, _ => some .long
  | 2, _ => some .short
  | 3, .long => some .long
  | 3, .short => some .short
  | 4, .long => some .short
  | 4, .short => some .long
  | _, _ => none

/-- What becomes of an entry opposite to what is held: nothing, an exit of what is held, or the entry itself; and whether
accumulation is switched off. -/
def oppositeOutcome (mode : Int) : Option Kind × Bool :=
  match mode with
  | 0 => (none, false)
  | 1 => (some .exit, true)
  | 2 => (some .exit, false)
  | 3 => (some .entry, true)
  | _ => (some .entry, false)

/-- At most one action per direction and at most one entry. -/
structure AtMostOne (s : Signals) : Prop where
  long : ¬ (s.longEntry = true ∧ s.longExit = true)
  short : ¬ (s.shortEntry = true ∧ s.shortExit = true)
  entries : ¬ (s.longEntry = true ∧ s.shortEntry = true)

end Vbt
