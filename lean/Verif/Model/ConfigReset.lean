import Verif.Model.ConfigHeap

/-!
# Creating and resetting configs in memory: `vectorbt/utils/config.py`

Configs as objects with shared children, for what `reset` restores.  Without `readonly` the copy mode is "hybrid" by default:
every value is copied by `copy.copy`, and children of children only with `nested`.
-/

namespace Vbt

/-- The loop of `copy_dict` in the mode "hybrid", utils/config.py:122-131: with `nested` children are copied by `child`,
otherwise a dictionary is copied without its children. -/
def copyItemsH (nested : Bool) (child : Heap → Nat → Option (Heap × Nat)) (h : Heap) :
    List (String × HVal) → Option (Heap × List (String × HVal))
  | [] => some (h, [])
  | (k, .atom x) :: rest =>
    match copyItemsH nested child h rest with
    | none => none
    | some (h, items) => some (h, (k, .atom x) :: items)
  | (k, .ref a) :: rest =>
    match if nested then child h a else some (h.alloc (h.node a)) with
    | none => none
    | some (h, b) =>
      match copyItemsH nested child h rest with
      | none => none
      | some (h, items) => some (h, (k, .ref b) :: items)

/-- `copy_dict` in the mode "hybrid", utils/config.py:101-132, of dictionaries that are not configs. -/
def copyDictH (nested : Bool) : Nat → Heap → Nat → Option (Heap × Nat)
  | 0, _, _ => none
  | fuel + 1, h, a =>
    match copyItemsH nested (copyDictH nested fuel) h (h.node a).items with
    | none => none
    | some (h1, items) => some (h1.alloc ⟨(h.node a).kind, items⟩)

/-- A config in memory: the address of its items and of `reset_dct_`. -/
structure CfgObj where
  self : Nat
  reset : Nat
deriving DecidableEq

/-- `Config.__init__`, utils/config.py:332-447: the given dictionary is copied, and the copy is copied again. -/
def newConfigH (fuel : Nat) (nested : Bool) (h : Heap) (dct : Nat) : Option (Heap × CfgObj) :=
  match copyDictH nested fuel h dct with
  | none => none
  | some (h, self) =>
    match copyDictH nested fuel h self with
    | none => none
    | some (h, reset) => some (h, ⟨self, reset⟩)

/-- `Config.reset`, utils/config.py:623-633: the config gets the values of the stored dictionary, and a copy of that is
stored. -/
def resetH (fuel : Nat) (nested : Bool) (h : Heap) (c : CfgObj) : Option (Heap × CfgObj) :=
  match copyDictH nested fuel h c.reset with
  | none => none
  | some (h, r) =>
    some ({ h with node := setAt h.node c.self { h.node c.self with items := (h.node c.reset).items } }, ⟨c.self, r⟩)

/-- `Config.make_checkpoint`, utils/config.py:635-643: a copy of the config is what the next `reset` restores. -/
def checkpointH (fuel : Nat) (nested : Bool) (h : Heap) (c : CfgObj) : Option (Heap × CfgObj) :=
  match copyDictH nested fuel h c.self with
  | none => none
  | some (h, r) => some (h, ⟨c.self, r⟩)

/-- `config[p[0]][p[1]]...`. -/
def pathH (h : Heap) : HVal → List String → Option HVal
  | v, [] => some v
  | .atom _, _ :: _ => none
  | .ref a, k :: p =>
    match hGet k (h.node a).items with
    | none => none
    | some v => pathH h v p

end Vbt
