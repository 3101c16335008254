import Verif.Model.Signals
import Mathlib.Data.List.Basic
import Mathlib.Data.Finset.Card
import Mathlib.Data.Finset.Range

/-! # What the functions on signals are to do -/

namespace Vbt

/-- `E` and `X` are the entries and exits `en` and `ex` after cleaning. -/
structure Cleaned (n : Nat) (en ex : Nat → Bool) (entryFirst : Bool) (E X : Nat → Bool) : Prop where
  entry_of : ∀ i, E i = true → i < n ∧ en i = true ∧ ex i = false
  exit_of : ∀ i, X i = true → i < n ∧ ex i = true ∧ en i = false
  /-- Between two entries there is an exit and the other way round. -/
  entries_apart : ∀ i j, i < j → E i = true → E j = true → ∃ k, i < k ∧ k < j ∧ X k = true
  exits_apart : ∀ i j, i < j → X i = true → X j = true → ∃ k, i < k ∧ k < j ∧ E k = true
  /-- With `entry_first` every exit comes after an entry. -/
  first : entryFirst = true → ∀ j, X j = true → ∃ i, i < j ∧ E i = true
  /-- A signal without a signal of the other kind is dropped only if the last kept signal is of the same kind... -/
  entry_dropped : ∀ i, i < n → en i = true → ex i = false → E i = false →
    ∃ k, k < i ∧ E k = true ∧ ∀ m, k < m → m < i → X m = false
  /-- ... or if it is an exit in front of all entries. -/
  exit_dropped : ∀ i, i < n → ex i = true → en i = false → X i = false →
    (∃ k, k < i ∧ X k = true ∧ ∀ m, k < m → m < i → E m = false) ∨ (entryFirst = true ∧ ∀ k, k < i → E k = false)

/-- The rows to choose an exit for the entry `e` from end before row `to`. -/
def WindowEnd (n : Nat) (entries : Nat → Bool) (untilNext : Bool) (e stop : Nat) : Prop :=
  if untilNext then
    e < stop ∧ (∀ k, e < k → k < stop → entries k = false) ∧ ((stop < n ∧ entries stop = true) ∨ stop = n)
  else stop = n

/-- The exits chosen for each entry that gets exits: `picks` are entries together with the rows chosen for them. -/
structure ExitPicks (n : Nat) (entries : Nat → Bool) (wait : Nat) (untilNext skipUntilExit pickFirst : Bool)
    (choice : Int → Int → List Int) (picks : List (Nat × List Int)) : Prop where
  sorted : picks.Pairwise fun p q => p.1 < q.1
  /-- Whatever is chosen for an entry is the answer of the choice function for the window of the entry. -/
  pick : ∀ p ∈ picks, p.1 < n ∧ entries p.1 = true ∧ ∃ stop, WindowEnd n entries untilNext p.1 stop ∧
    p.2 = (if pickFirst then (choice (p.1 + wait : Nat) stop).take 1 else choice (p.1 + wait : Nat) stop) ∧ p.2 ≠ [] ∧
    ∀ x ∈ p.2, ((p.1 + wait : Nat) : Int) ≤ x ∧ x < stop
  /-- With `skip_until_exit`, an entry is considered only after the last exit returned for an earlier entry. -/
  skip : skipUntilExit = true → picks.Pairwise fun p q => ∀ x, p.2.getLast? = some x → x < q.1
  /-- An entry gets no exit only if it is skipped, if its window is empty or if nothing is chosen. -/
  complete : ∀ e, e < n → entries e = true → (∀ p ∈ picks, p.1 ≠ e) →
    (skipUntilExit = true ∧ ∃ p ∈ picks, p.1 < e ∧ ∃ x, p.2.getLast? = some x ∧ (e : Int) ≤ x) ∨
    ∃ stop, WindowEnd n entries untilNext e stop ∧ (stop ≤ e + wait ∨ choice (e + wait : Nat) stop = [])

/-! ## Alternating generation -/

namespace EnexInputs

/-- The rows in front of turn `k` that are left out: even turns are entries, odd turns are exits. -/
def wait (x : EnexInputs) (k : Nat) : Nat := if k % 2 = 0 then x.entryWait else x.exitWait

/-- What the choice function of turn `k` answers. -/
def answer (x : EnexInputs) (k : Nat) (fromI : Int) : List Int :=
  if k % 2 = 0 then x.entryChoice k fromI x.n else x.exitChoice k fromI x.n

def pickFirst (x : EnexInputs) (k : Nat) : Bool := if k % 2 = 0 then x.entryPickFirst else x.exitPickFirst

/-- What is used of the answer. -/
def picked (x : EnexInputs) (k : Nat) (fromI : Int) : List Int :=
  if x.pickFirst k then (x.answer k fromI).take 1 else x.answer k fromI

/-- The rows `ts` are chosen in the turns `k`, `k + 1`, ..., the first one among the rows from `f` on, the following ones
from the last row chosen before plus the wait on.  The generation ends only when there is nothing left to choose from or
nothing is chosen. -/
def TurnsFrom (x : EnexInputs) : Nat → Int → List (List Int) → Prop
  | k, f, [] => (x.n : Int) ≤ f ∨ x.answer k f = []
  | k, f, t :: ts => f < x.n ∧ t = x.picked k f ∧
      ∃ a b, t.head? = some a ∧ t.getLast? = some b ∧ f ≤ a ∧ b < x.n ∧ TurnsFrom x (k + 1) (b + x.wait (k + 1)) ts

/-- Each side either uses the first row of an answer only or is answered in ascending order. -/
def Ascending (x : EnexInputs) : Prop :=
  ∀ k f, x.pickFirst k = true ∨ (x.answer k f).Pairwise (· ≤ ·)

/-- The choice functions answer with rows of the range they are asked about. -/
def InRange (x : EnexInputs) : Prop :=
  ∀ k f, f < (x.n : Int) → ∀ r ∈ x.answer k f, f ≤ r ∧ r < x.n

end EnexInputs

/-! ## Ranks -/

/-- Row `j` has a signal that is ranked: with `after_false`, signals in front of the first false value are not. -/
def Ranked (a : Nat → Bool) (afterFalse : Bool) (j : Nat) : Prop :=
  a j = true ∧ (afterFalse = true → ∃ k, k < j ∧ a k = false)

/-- `q` is the row of the last reset signal up to row `i`, 0 if there is none. -/
def LastReset (resetBy : Option (Nat → Bool)) (i q : Nat) : Prop :=
  match resetBy with
  | some r => (q ≤ i ∧ r q = true ∧ ∀ k, q < k → k ≤ i → r k = false) ∨ (q = 0 ∧ ∀ k, k ≤ i → r k = false)
  | none => q = 0

open Classical in
/-- The ranked signals from row `q` on and in front of row `i`; without gaps only those of the run of true values that
reaches row `i`. -/
noncomputable def earlierSignals (a : Nat → Bool) (afterFalse allowGaps : Bool) (q i : Nat) : Finset Nat :=
  (Finset.range i).filter fun j =>
    q ≤ j ∧ Ranked a afterFalse j ∧ (allowGaps = true ∨ ∀ k, j ≤ k → k ≤ i → a k = true)

open Classical in
/-- The last rows of the runs of ranked signals that end at or after row `q` and in front of row `i`. -/
noncomputable def earlierRuns (a : Nat → Bool) (afterFalse : Bool) (q i : Nat) : Finset Nat :=
  (Finset.range i).filter fun j => q ≤ j ∧ Ranked a afterFalse j ∧ a (j + 1) = false

/-- Row `j` is among the rows `l`; negative rows count from the end. -/
def HitsRow (n : Nat) (l : List Int) (j : Nat) : Prop := ∃ r ∈ l, r = j ∨ (r < 0 ∧ r + n = j)

end Vbt
