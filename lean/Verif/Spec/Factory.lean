import Verif.Model.Factory
import Verif.Spec.Params

/-!
# What a run of an indicator has to show
-/

namespace Vbt

/-- `tuples` are the `n` combinations of parameter values taken position by position; a list with one value stands for that value
at all positions. -/
def PerPosition {P : Type} (n : Nat) (params tuples : List (List P)) : Prop :=
  tuples.length = n ∧ (∀ vals ∈ params, vals.length = 1 ∨ vals.length = n) ∧
    ∀ (k : Nat) (t : List P), tuples[k]? = some t → t.length = params.length ∧
      ∀ (p : Nat) (vals : List P), params[p]? = some vals → t[p]? = if vals.length = 1 then vals[0]? else vals[k]?

/-- `tuples` are all combinations of parameter values, the last parameter varying fastest. -/
def AllChoices {P : Type} (params tuples : List (List P)) : Prop :=
  tuples.length = combos params ∧ (∀ t ∈ tuples, t.length = params.length) ∧
    ∀ js, Chooses js params → ∀ (p j : Nat) (vals : List P), js[p]? = some j → params[p]? = some vals →
      ∃ t, tuples[choicePos js params]? = some t ∧ t[p]? = vals[j]?

/-- An array of `nrows` rows and `w` columns. -/
def Arr2.HasShape {α : Type} (a : Arr2 α) (nrows w : Nat) : Prop := a.nrows = nrows ∧ a.cols.length = w

/-- Either no in-place output has been provided or all have, in the shape of the inputs. -/
def AllOrNone {α : Type} (nrows w : Nat) (given : List (Option (Arr2 α))) : Prop :=
  (∀ g ∈ given, g = none) ∨ ∀ g ∈ given, ∃ a, g = some a ∧ a.HasShape nrows w

/-- What a call finds in its in-place outputs: the provided arrays, and anything in others. -/
def StartsAs {α : Type} (nrows w : Nat) (given : List (Option (Arr2 α))) (io : List (Arr2 α)) : Prop :=
  io.length = given.length ∧ ∀ (j : Nat) (a : Arr2 α), io[j]? = some a → a.HasShape nrows w ∧ ∀ g, given[j]? = some (some g) → a = g

/-- For a combination `t` the function fills `ios` and returns `outs`, all in the shape of the inputs. -/
structure ApplyComputes {P α : Type} (apply : ApplyFunc P α) (col : Option Nat) (inputs : List (Arr2 α)) (nrows w numRet : Nat)
    (given : List (Option (Arr2 α))) (t : List P) (r : Filled α) : Prop where
  runs : ∀ io, StartsAs nrows w given io → apply col inputs io t = .ok r
  ios : r.1.length = given.length
  outs : r.2.length = numRet
  shape : ∀ a, a ∈ r.1 ∨ a ∈ r.2 → a.HasShape nrows w

/-- An indicator built from `apply` that has at least one output and computes `f t` for each of the combinations, seeing all input
columns at once. -/
structure WellRun {P α L : Type} (apply : ApplyFunc P α) (s : Setup P α L) (tuples : List (List P)) (f : List P → Filled α) : Prop where
  custom : s.custom = applyCustom apply
  given : AllOrNone s.nrows s.labels.length s.given
  hasOutput : 0 < s.given.length + s.numRet
  computes : ∀ t ∈ tuples, ApplyComputes apply none s.inputs s.nrows s.labels.length s.numRet s.given t (f t)

/-- The values of the parameters whose level is shown. -/
def visible {P : Type} (hide : List Nat) (t : List P) : List P := (t.zipIdx.filter fun xi => xi.2 ∉ hide).map Prod.fst

/-- Columns `k * w + c` of the result belong to combination `k` and input column `c`: outputs hold what `f` computes for them,
mappers and labels name them. -/
structure Shows {P α L : Type} (hide : List Nat) (hasInputs : Bool) (labels : List L) (tuples : List (List P)) (f : List P → Filled α)
    (r : PipeResult P α L) : Prop where
  widths : ∀ a, a ∈ r.inOutputs ∨ a ∈ r.outputs → a.cols.length = tuples.length * labels.length
  inOuts : ∀ (k : Nat) (t : List P), tuples[k]? = some t → r.inOutputs.length = (f t).1.length ∧ ∀ (j : Nat) (a : Arr2 α), (f t).1[j]? = some a →
    ∃ b, r.inOutputs[j]? = some b ∧ b.nrows = a.nrows ∧ ∀ c : Nat, c < labels.length → b.cols[k * labels.length + c]? = a.cols[c]?
  outs : ∀ (k : Nat) (t : List P), tuples[k]? = some t → r.outputs.length = (f t).2.length ∧ ∀ (j : Nat) (a : Arr2 α), (f t).2[j]? = some a →
    ∃ b, r.outputs[j]? = some b ∧ b.nrows = a.nrows ∧ ∀ c : Nat, c < labels.length → b.cols[k * labels.length + c]? = a.cols[c]?
  mappers : ∀ (k : Nat) (t : List P), tuples[k]? = some t → r.mappers.length = t.length ∧ ∀ (p : Nat) (x : P), t[p]? = some x →
    ∃ m, r.mappers[p]? = some m ∧ m.length = tuples.length * labels.length ∧ ∀ c : Nat, c < labels.length → m[k * labels.length + c]? = some x
  inputMapper : ∀ m, r.inputMapper = some m → m.length = tuples.length * labels.length ∧
    ∀ (k : Nat) (t : List P), tuples[k]? = some t → ∀ c : Nat, c < labels.length → m[k * labels.length + c]? = some c
  hasMapper : (∃ t ∈ tuples, t ≠ []) → (r.inputMapper.isSome ↔ hasInputs = true)
  columns : r.columns.length = tuples.length * labels.length ∧ ∀ (k : Nat) (t : List P), tuples[k]? = some t → ∀ (c : Nat) (l : L), labels[c]? = some l →
    r.columns[k * labels.length + c]? = some (visible hide t, l)

/-- An indicator built from `apply` that has at least one output and, run column by column, computes `f c` for column `c` and its
combination. -/
structure WellRunColumns {P α L : Type} (apply : ApplyFunc P α) (s : Setup P α L) (passCol : Bool) (tuples : List (List P))
    (f : Nat → Filled α) : Prop where
  custom : s.custom = applyCustom apply
  given : AllOrNone s.nrows s.labels.length s.given
  hasOutput : 0 < s.given.length + s.numRet
  computes : ∀ (c : Nat) (t : List P), tuples[c]? = some t →
    ApplyComputes apply (if passCol then some c else none) (s.inputs.map fun a => a.part c (c + 1)) s.nrows 1 s.numRet
      (s.given.map fun g => g.map fun a => a.part c (c + 1)) t (f c)

/-- Column `c` of the result belongs to input column `c` and combination `c`. -/
structure ShowsColumns {P α L : Type} (hide : List Nat) (hasInputs : Bool) (labels : List L) (tuples : List (List P)) (f : Nat → Filled α)
    (r : PipeResult P α L) : Prop where
  widths : ∀ a, a ∈ r.inOutputs ∨ a ∈ r.outputs → a.cols.length = labels.length
  inOuts : ∀ (c : Nat) (t : List P), tuples[c]? = some t → r.inOutputs.length = (f c).1.length ∧ ∀ (j : Nat) (a : Arr2 α), (f c).1[j]? = some a →
    ∃ b, r.inOutputs[j]? = some b ∧ b.nrows = a.nrows ∧ b.cols[c]? = a.cols[0]?
  outs : ∀ (c : Nat) (t : List P), tuples[c]? = some t → r.outputs.length = (f c).2.length ∧ ∀ (j : Nat) (a : Arr2 α), (f c).2[j]? = some a →
    ∃ b, r.outputs[j]? = some b ∧ b.nrows = a.nrows ∧ b.cols[c]? = a.cols[0]?
  mappers : ∀ (c : Nat) (t : List P), tuples[c]? = some t → r.mappers.length = t.length ∧ ∀ (p : Nat) (x : P), t[p]? = some x →
    ∃ m, r.mappers[p]? = some m ∧ m.length = labels.length ∧ m[c]? = some x
  inputMapper : r.inputMapper = if hasInputs then some (List.range labels.length) else none
  columns : r.columns.length = labels.length ∧ ∀ (c : Nat) (t : List P), tuples[c]? = some t → ∀ l, labels[c]? = some l →
    r.columns[c]? = some (visible hide t, l)

end Vbt
