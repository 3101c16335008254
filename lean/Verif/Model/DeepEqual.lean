import Verif.Model.Float

/-!
# Deep comparison: `vectorbt/utils/checks.py`, `vectorbt/utils/config.py`

Values are trees.  A list or tuple is given by its length and its elements, a dictionary by its keys and its values.  How arrays
and pandas objects of the same type compare exactly and approximately, and how other objects compare (`==`, then the code of
functions, then pickled bytes), are parameters.
Subclasses of lists, tuples and dictionaries, which differ from them by their type, are left out.
-/

namespace Vbt

/-- A value: arrays and pandas objects, lists and tuples, dictionaries, anything else. -/
inductive PyTree (K A S : Type) where
  | array (a : A)
  | seq (isTuple : Bool) (n : Nat) (get : Nat → PyTree K A S)
  | dict (keys : List K) (get : K → PyTree K A S)
  | leaf (s : S)

/-- Comparisons of what is not a list, tuple or dictionary; they include the comparison of types. -/
structure LeafOps (A S : Type) where
  exact : A → A → Bool
  close : A → A → Bool
  leaf : S → S → Bool

variable {K A S : Type} [DecidableEq K]

/-- `is_deep_equal`, utils/checks.py:286-350.  An exception (an index or key that the second argument does not have) means `False`;
`check_exact` is not passed on to the elements. -/
def deepEqual (ops : LeafOps A S) (exact : Bool) : PyTree K A S → PyTree K A S → Bool
  | .array a, .array b => ops.exact a b || (!exact && ops.close a b)
  | .seq t n f, .seq t' m g => t == t' && (List.range n).all fun i => decide (i < m) && deepEqual ops false (f i) (g i)
  | .dict ks f, .dict ks' g => ks.all fun k => decide (k ∈ ks') && deepEqual ops false (f k) (g k)
  | .leaf s, .leaf s' => ops.leaf s s'
  | _, _ => false

/-- `Config.__eq__`, utils/config.py:689-690. -/
def configEqual (ops : LeafOps A S) (ks : List K) (f : K → PyTree K A S) (ks' : List K) (g : K → PyTree K A S) : Bool :=
  deepEqual ops false (.dict ks f) (.dict ks' g)

/-- A `Configured` object: its type, `writeable_attrs` with their values, and its config. -/
structure ConfObj (K A S : Type) where
  type : Nat
  attrs : List K
  attr : K → PyTree K A S
  keys : List K
  config : K → PyTree K A S

/-- `Configured.__eq__`, utils/config.py:813-822; `writeable_attrs` are sets. -/
def confEqual (ops : LeafOps A S) (x y : ConfObj K A S) : Bool :=
  if x.type ≠ y.type then false
  else if ¬ (x.attrs ⊆ y.attrs ∧ y.attrs ⊆ x.attrs) then false
  else if ¬ (x.attrs.all fun a => deepEqual ops false (x.attr a) (y.attr a)) then false
  else configEqual ops x.keys x.config y.keys y.config

end Vbt
