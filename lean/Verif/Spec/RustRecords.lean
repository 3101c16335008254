import Verif.Model.Records
import Verif.Model.Signals

/-! # Vocabulary for the records and reductions of the Rust engine -/

namespace Vbt
open F

/-- Every position listed for a column is one of a record, and the rows of the record lie in the index of the column. -/
def RowsInIndex (records : List RangeRec) (m : ColMap) (nIdxs nCols : Nat) (indexLens : Nat → Nat) : Prop :=
  ∀ c < nCols, ∀ k < m.lens c, ((List.range c).map m.lens).sum + k < nIdxs ∧
    ∃ r, records[m.idxs (((List.range c).map m.lens).sum + k)]? = some r ∧
      ∀ i, r.start ≤ i → (if r.status = RangeStatus.Open then i ≤ r.stop else i < r.stop) → i < indexLens c

/-- `k` is the position of the first best value of `a` that is not NaN. -/
def FirstExtreme (better : F → F → Bool) (a : List F) (k : Nat) : Prop :=
  ∃ x, a[k]? = some x ∧ x.isnan = false ∧
    (∀ (j : Nat) (y : F), a[j]? = some y → y.isnan = false → better y x = false) ∧
    ∀ j < k, ∀ y : F, a[j]? = some y → y.isnan = false → better x y = true

end Vbt
