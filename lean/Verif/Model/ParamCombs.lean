import Verif.Model.Params

/-!
# Combinations of parameters from a tree of operations: `create_param_combs`, `vectorbt/utils/params.py`
-/

namespace Vbt

/-- An operation tree: an argument or a function (such as `itertools.product`) of arguments. -/
inductive OpTree (A : Type) where
  | arg (a : A)
  | node (f : List A → Except Err A) (args : List (OpTree A))

mutual
/-- `create_param_combs` up to the flattening, utils/params.py:58-66. -/
def OpTree.run {A : Type} : OpTree A → Except Err A
  | .arg a => .ok a
  | .node f args =>
    match OpTree.runAll args with
    | .error e => .error e
    | .ok as => f as
/-- The loop over the arguments, utils/params.py:61-65. -/
def OpTree.runAll {A : Type} : List (OpTree A) → Except Err (List A)
  | [] => .ok []
  | t :: ts =>
    match t.run with
    | .error e => .error e
    | .ok a =>
      match OpTree.runAll ts with
      | .error e => .error e
      | .ok as => .ok (a :: as)
end

/-- `create_param_combs`, utils/params.py:39-70; the root has to be a function.  The fuel is that of `flattenParamTuples`. -/
def createParamCombs (fuel : Nat) : OpTree (List PVal) → Except Err (List (List PVal))
  | .arg _ => .error (.rejected "Type must be a callable")
  | t =>
    match t.run with
    | .error e => .error e
    | .ok out => flattenParamTuples fuel out

/-- A tuple with the elements of a list. -/
def mkTuple : List PVal → PVals
  | [] => .nil
  | v :: vs => .cons v (mkTuple vs)

/-- `itertools.product` of lists of values. -/
def productOp (ls : List (List PVal)) : Except Err (List PVal) := .ok ((iterProduct ls).map fun t => .tup (mkTuple t))

/-- `itertools.combinations(l, k)`: choices of `k` positions in lexicographic order. -/
def iterCombs {α : Type} : Nat → List α → List (List α)
  | 0, _ => [[]]
  | _ + 1, [] => []
  | k + 1, a :: l => ((iterCombs k l).map (a :: ·)) ++ iterCombs (k + 1) l

/-- `combinations` as an operation on one list. -/
def combsOp (k : Nat) : List (List PVal) → Except Err (List PVal)
  | [l] => .ok ((iterCombs k l).map fun t => .tup (mkTuple t))
  | _ => .error (.typeError "combinations() takes one list")

end Vbt
