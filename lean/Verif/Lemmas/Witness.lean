import Verif.Model.Float

/-! # Evaluating the model on concrete inputs (used only for `example`s and counterexamples) -/

namespace Vbt

/-- Run a computation and test its result. -/
def okAnd {ε α} (x : Except ε α) (f : α → Bool) : Bool :=
  match x with
  | .ok a => f a
  | .error _ => false

theorem okAnd_iff {ε α} {x : Except ε α} {f : α → Bool} (h : okAnd x f = true) :
    ∃ a, x = .ok a ∧ f a = true := by
  cases x with
  | error e => cases h
  | ok a => exact ⟨a, rfl, h⟩

/-- Whether a computation raised this error. -/
def raised {α : Type} (x : Except Err α) (e : Err) : Bool :=
  match x with
  | .error e' => decide (e' = e)
  | .ok _ => false

theorem raised_iff {α : Type} {x : Except Err α} {e : Err} : raised x e = true ↔ x = .error e := by
  cases x with
  | error e' => simp [raised]
  | ok a => simp [raised]

end Vbt
