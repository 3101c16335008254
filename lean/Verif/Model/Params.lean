import Verif.Model.Sim

/-!
# Parameter combinations: `vectorbt/utils/params.py`
-/

namespace Vbt

/-- `itertools.product` of lists: the last list varies fastest. -/
def iterProduct {α : Type} : List (List α) → List (List α)
  | [] => [[]]
  | xs :: rest => xs.flatMap fun x => (iterProduct rest).map fun t => x :: t

/-- `zip(*rows)`: as many tuples as the shortest row is long; none without rows.  `n` bounds the length. -/
def unzipRows {α : Type} : Nat → List (List α) → List (List α)
  | 0, _ => []
  | n + 1, rows =>
    if rows = [] then []
    else
      match rows.mapM List.head? with
      | none => []
      | some heads => heads :: unzipRows n (rows.map List.tail)

/-- `list(map(list, zip(*rows)))`. -/
def zipStar {α : Type} [DecidableEq α] (rows : List (List α)) : List (List α) :=
  unzipRows ((rows.map List.length).sum + 1) rows

/-- `create_param_product`, utils/params.py:90-92. -/
def createParamProduct {α : Type} [DecidableEq α] (paramList : List (List α)) : List (List α) :=
  zipStar (iterProduct paramList)

/-- One turn of the loop of `broadcast_params`, utils/params.py:78-86. -/
def broadcastParam {α : Type} (n : Nat) (out : List (List α)) (params : List α) : Except Err (List (List α)) :=
  if params.length = 1 ∨ params.length = n then
    if params.length < n then .ok (out ++ [(List.range n).flatMap fun _ => params])
    else .ok (out ++ [params])
  else .error (.valueError "Parameters cannot be broadcast")

/-- `broadcast_params`, utils/params.py:73-87; `max` of no lengths is an exception. -/
def broadcastParams {α : Type} (paramList : List (List α)) (n : Option Nat) : Except Err (List (List α)) :=
  match n with
  | some n => loopE (broadcastParam n) [] paramList
  | none =>
    match (paramList.map List.length).max? with
    | none => .error (.valueError "max() arg is an empty sequence")
    | some n => loopE (broadcastParam n) [] paramList

mutual
/-- A parameter value: a tuple or anything else. -/
inductive PVal where
  | leaf (x : Nat)
  | tup (xs : PVals)
deriving DecidableEq
/-- The elements of a tuple. -/
inductive PVals where
  | nil
  | cons (x : PVal) (rest : PVals)
deriving DecidableEq
end

/-- The elements of a tuple as a list. -/
def PVals.toList : PVals → List PVal
  | .nil => []
  | .cons x rest => x :: rest.toList

/-- The elements of an argument of `zip`; anything but a tuple cannot be iterated. -/
def PVal.elems : PVal → Option (List PVal)
  | .leaf _ => none
  | .tup xs => some xs.toList

/-- One turn of `flatten_param_tuples`, utils/params.py:30-35; `flat` is the recursive call. -/
def flattenTurn (flat : List PVal → Except Err (List (List PVal))) (out : List (List PVal)) (col : List PVal) :
    Except Err (List (List PVal)) :=
  match col with
  | .tup _ :: _ =>
    match flat col with
    | .error e => .error e
    | .ok cols => .ok (out ++ cols)
  | _ => .ok (out ++ [col])

/-- `flatten_param_tuples`, utils/params.py:26-36; the fuel bounds the depth of the tuples. -/
def flattenParamTuples : Nat → List PVal → Except Err (List (List PVal))
  | 0, _ => .error (.valueError "maximum recursion depth exceeded")
  | fuel + 1, tuples =>
    match tuples.mapM PVal.elems with
    | none => .error (.typeError "zip argument must support iteration")
    | some rows => loopE (flattenTurn (flattenParamTuples fuel)) [] (zipStar rows)

end Vbt
