import Verif.Model.ConfigReset

/-!
# C52, second part: what `reset` does not restore
-/

namespace Vbt

/-- `{"a": {"b": {"c": 1}}}` at 0, and `{"a": {"b": {"c": 2}}}` at 3. -/
def wNested : Heap :=
  ⟨6, fun a => if a = 0 then ⟨.plain, [("a", .ref 1)]⟩ else if a = 1 then ⟨.plain, [("b", .ref 2)]⟩
      else if a = 2 then ⟨.plain, [("c", .atom 1)]⟩ else if a = 3 then ⟨.plain, [("a", .ref 4)]⟩
      else if a = 4 then ⟨.plain, [("b", .ref 5)]⟩ else ⟨.plain, [("c", .atom 2)]⟩⟩

/-- Create a config with `nested`, call `update(…, nested=True)` and `reset`; what stands under `a`, `b`, `c` after each. -/
def resetScenario (nested : Bool) : Option (List (Option HVal)) :=
  match newConfigH 9 nested wNested 0 with
  | none => none
  | some (h1, c) =>
    match updateH 9 true false h1 c.self 3 with
    | none => none
    | some h2 =>
      match resetH 9 nested h2 c with
      | none => none
      | some (h3, c') => some [pathH h1 (.ref c.self) ["a", "b", "c"], pathH h2 (.ref c.self) ["a", "b", "c"],
          pathH h3 (.ref c'.self) ["a", "b", "c"]]

/-- By default (`nested=False`) the grandchildren of a config are shared with the dictionary it is reset to: after
`update(…, nested=True)` a reset does not restore the value. -/
theorem C52_counterexample_shared : resetScenario false = some [some (.atom 1), some (.atom 2), some (.atom 2)] := by
  decide +kernel

/-! With `nested=True` it does, here. -/

example : resetScenario true = some [some (.atom 1), some (.atom 2), some (.atom 1)] := by
  decide +kernel

end Vbt
