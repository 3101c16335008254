import Verif.Model.Float

/-!
# Arguments of `Portfolio.from_random_signals`: `vectorbt/portfolio/base.py`
-/

namespace Vbt

/-- How the signals are generated: by their number (`RANDNX`) or by the probabilities of entries and exits (`RPROBNX`), with the
seed. -/
inductive RandPlan (α : Type) where
  | byNumber (n : α) (seed : Option Nat)
  | byProb (entry exit : α) (seed : Option Nat)
deriving DecidableEq

/-- `if x is None: x = d`. -/
def givenOr {β : Type} : Option β → Option β → Option β
  | none, d => d
  | some v, _ => some v

/-- The branches of `Portfolio.from_random_signals`, portfolio/base.py:3269-3296. -/
def randBranches {α : Type} (seed : Option Nat) : (n entry exit : Option α) → Except Err (RandPlan α)
  | some k, none, none => .ok (.byNumber k seed)
  | some _, _, _ => .error (.valueError "Either n or entry_prob and exit_prob should be set")
  | none, some e, some x => .ok (.byProb e x seed)
  | none, _, _ => .error (.valueError "At least n or entry_prob and exit_prob should be set")

/-- `Portfolio.from_random_signals`, portfolio/base.py:3260-3296, up to the generation of the signals; `cfgSeed` is the seed of the
settings. -/
def randPlan {α : Type} (cfgSeed : Option Nat) (n prob entryProb exitProb : Option α) (seed : Option Nat) : Except Err (RandPlan α) :=
  randBranches (givenOr seed cfgSeed) n (givenOr entryProb prob) (givenOr exitProb prob)

end Vbt
