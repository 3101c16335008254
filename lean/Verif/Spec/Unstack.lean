import Verif.Model.Unstack

/-! # What reshaping by labels is to do: values stay with their labels -/

namespace Vbt
open F

/-- The value of the last row that has a property, missing if there is none. -/
def lastVal {R : Type} (rv : List (R × F)) (p : R → Bool) : F :=
  match (rv.filter (fun x => p x.1)).getLast? with
  | some x => x.2
  | none => nan

/-- Each value of the series is found under its labels. -/
def RightlyLabelled {R K : Type} [LinearOrder K] (rows : List R) (vals : List F) (fi fc : R → K)
    (d : LFrame K) : Prop :=
  ∀ (k : Nat) r x, rows[k]? = some r → vals[k]? = some x → d.loc (fi r) (fc r) = x

/-- The values of a level come in increasing order, disregarding repetitions: a new value is larger than all before it. -/
def ComesSorted {K : Type} [LinearOrder K] (keys : List K) : Prop :=
  ∀ (j : Nat) (b : K), keys[j]? = some b → b ∉ keys.take j → ∀ a ∈ keys.take j, a < b

end Vbt
