import Verif.Model.Float

/-!
# Chains of attributes: `deep_getattr`, `vectorbt/utils/attr_.py:44-90`

`deep_getattr` finds the functions that metrics and subplots name by a path.
-/

namespace Vbt

/-- What a chain of attributes can be made of: strings, tuples, lists, dictionaries (by their keys and a mark for their values) and
anything else. -/
inductive AttrChain where
  | str (s : List Char)
  | tup (l : List AttrChain)
  | lst (l : List AttrChain)
  | dict (keys : List AttrChain) (vals : Nat)
  | other (n : Nat)

/-- `str.split(".")`. -/
def splitDots : List Char → List (List Char)
  | [] => [[]]
  | c :: cs =>
    if c = '.' then [] :: splitDots cs
    else
      match splitDots cs with
      | [] => [[c]]
      | h :: t => (c :: h) :: t

/-- `getattr_func(obj, attr, args, kwargs, call_attr)`; arguments that are not given are `none`. -/
abbrev GetattrFunc (O : Type) := O → List Char → Option (List AttrChain) → Option AttrChain → Bool → Except Err O

/-- The tuples that stand for a call, utils/attr_.py:72-83: name, positional arguments, keyword arguments. -/
def callForm : List AttrChain → Option (List Char × Option (List AttrChain) × Option AttrChain)
  | [.str n] => some (n, none, none)
  | [.str n, .tup a] => some (n, some a, none)
  | [.str n, .tup a, .dict k v] => some (n, some a, some (.dict k v))
  | _ => none

/-- The loop of `deep_getattr`, utils/attr_.py:84-90, over names without dots. -/
def getNames {O : Type} (g : GetattrFunc O) (obj : O) : List (List Char) → Bool → Except Err O
  | [], _ => .ok obj
  | [n], last => g obj n none none last
  | n :: m :: ns, last =>
    match g obj n none none true with
    | .error e => .error e
    | .ok r => getNames g r (m :: ns) last

mutual

/-- `deep_getattr`, utils/attr_.py:44-90.  The parts of a string with dots have none, so the call for their list is written out
(`getNames`).  Iterables without a length are left out. -/
def deepGetattr {O : Type} (g : GetattrFunc O) (obj : O) : AttrChain → Bool → Except Err O
  | .str s, last => if '.' ∈ s then getNames g obj (splitDots s) last else g obj s none none last
  | .tup l, last =>
    match callForm l with
    | some (n, a, k) => g obj n a k true
    | none => deepChain g obj l last
  | .lst l, last => deepChain g obj l last
  | .dict keys _, last => deepChain g obj keys last
  | .other _, _ => .error (.typeError "instance")

/-- The loop of `deep_getattr`, utils/attr_.py:84-90. -/
def deepChain {O : Type} (g : GetattrFunc O) (obj : O) : List AttrChain → Bool → Except Err O
  | [], _ => .ok obj
  | c :: cs, last =>
    match deepGetattr g obj c (if cs = [] then last else true) with
    | .error e => .error e
    | .ok r => deepChain g r cs last

end

end Vbt
