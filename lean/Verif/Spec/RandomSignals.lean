import Verif.Model.RandomSignals
import Verif.Spec.Signals

/-! # What random signals are to keep, whatever is drawn -/

namespace Vbt
open F

/-- What `np.random.choice(k, size=size, replace=False)` may return. -/
structure IsSample (k size : Nat) (l : List Nat) : Prop where
  size : l.length = size
  nodup : l.Nodup
  below : ∀ x ∈ l, x < k

/-- The number of signals of a column. -/
def signalCount (rows : Nat) (a : Nat → Bool) : Nat := ((List.range rows).filter a).length

/-- `n` entries and `n` exits one after another: entry, exit, entry, exit, ... with at least `exitWait` rows from an entry to
its exit and at least `entryWait` rows from an exit to the next entry, all inside of the array. -/
structure PairedUp (rows n entryWait exitWait : Nat) (E X : Nat → Bool) (e x : Nat → Nat) : Prop where
  entries : ∀ i, E i = true ↔ ∃ j < n, i = e j
  exits : ∀ i, X i = true ↔ ∃ j < n, i = x j
  exit_after : ∀ j < n, e j + exitWait ≤ x j
  inside : ∀ j < n, x j < rows
  entry_after : ∀ j, j + 1 < n → x j + entryWait ≤ e (j + 1)

/-- What the theorems about the random distances need of the rounding: floats made of 53 bits are kept, and other numbers are
rounded by not more than their `2 ^ 53`-th part.  Exact arithmetic and `float64` are such arithmetics. -/
structure Arith.Fine (A : Arith) : Prop where
  sound : A.Sound
  bits : ∀ k : Nat, k ≤ 2 ^ 53 → A.rnd ((k : ℚ) / 2 ^ 53) = fin ((k : ℚ) / 2 ^ 53)
  near : ∀ q : ℚ, 1 / 2 ^ 53 ≤ q → q ≤ 2 ^ 53 → ∃ v : ℚ, A.rnd q = fin v ∧ v ≤ q + q / 2 ^ 53

end Vbt
