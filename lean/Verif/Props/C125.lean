import Verif.Model.RandomPlan

/-!
# C125: how random signals are generated
-/

namespace Vbt

/-- **C125, by number.**  Signals are generated by their number exactly if it is given and no probability is; a seed not given is that
of the settings. -/
theorem C125_number {α : Type} (cfg : Option Nat) (n prob en ex : Option α) (seed : Option Nat) (k : α) (s : Option Nat) :
    randPlan cfg n prob en ex seed = .ok (.byNumber k s) ↔
      n = some k ∧ prob = none ∧ en = none ∧ ex = none ∧ (∀ v, seed = some v → s = some v) ∧ (seed = none → s = cfg) := by
  cases n <;> cases prob <;> cases en <;> cases ex <;> cases seed <;> simp [randPlan, randBranches, givenOr, eq_comm]

/-- **C125, by probability.**  They are generated by probabilities exactly if no number is given and there is one for entries and one
for exits, where `prob` stands for each that is not given. -/
theorem C125_prob {α : Type} (cfg : Option Nat) (n prob en ex : Option α) (seed : Option Nat) (e x : α) (s : Option Nat) :
    randPlan cfg n prob en ex seed = .ok (.byProb e x s) ↔
      n = none ∧ (en = some e ∨ en = none ∧ prob = some e) ∧ (ex = some x ∨ ex = none ∧ prob = some x) ∧
      (∀ v, seed = some v → s = some v) ∧ (seed = none → s = cfg) := by
  cases n <;> cases prob <;> cases en <;> cases ex <;> cases seed <;> simp [randPlan, randBranches, givenOr, eq_comm]

/-- **C125, refused.**  Everything else is refused: a number together with any probability, and without a number a missing
probability of entries or exits. -/
theorem C125_refused {α : Type} (cfg : Option Nat) (n prob en ex : Option α) (seed : Option Nat) :
    (randPlan cfg n prob en ex seed = .error (.valueError "Either n or entry_prob and exit_prob should be set") ↔
      n ≠ none ∧ (prob ≠ none ∨ en ≠ none ∨ ex ≠ none)) ∧
    (randPlan cfg n prob en ex seed = .error (.valueError "At least n or entry_prob and exit_prob should be set") ↔
      n = none ∧ prob = none ∧ (en = none ∨ ex = none)) := by
  cases n <;> cases prob <;> cases en <;> cases ex <;> simp [randPlan, randBranches, givenOr]

/-! ## The hypotheses can be met -/

example : randPlan (some 42) none (some 3) none (some 5) none = .ok (.byProb 3 5 (some 42)) :=
  (C125_prob _ _ _ _ _ _ _ _ _).mpr ⟨rfl, .inr ⟨rfl, rfl⟩, .inl rfl, by simp, by simp⟩

example : randPlan none (some 10) none none none (some 7) = .ok (.byNumber 10 (some 7)) :=
  (C125_number _ _ _ _ _ _ _ _).mpr ⟨rfl, rfl, rfl, rfl, by simp, by simp⟩

example : randPlan (α := Nat) none none none (some 1) none none =
    .error (.valueError "At least n or entry_prob and exit_prob should be set") :=
  (C125_refused _ _ _ _ _ _).2.mpr ⟨rfl, rfl, .inr rfl⟩

end Vbt
