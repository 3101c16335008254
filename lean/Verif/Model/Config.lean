import Verif.Model.Sim

/-!
# Configuration dictionaries: `vectorbt/utils/config.py`

Dictionaries are lists of items in insertion order.  Values are compared and copied as values: two references to the same
child dictionary are two equal values here, and `copy_dict` is the identity.  Keys are strings.  Attributes
(`as_attrs`), pickling and the conversion of children to configs (`convert_dicts`) are not modelled, but children may be
configs with flags of their own.
-/

namespace Vbt

/-- The class of a dictionary: `dict`, `atomic_dict`, `Config` or `AtomicConfig` with `readonly_` and `frozen_keys_`. -/
inductive DictKind where
  | plain
  | atomic
  | config (readonly frozen : Bool)
  | atomicConfig (readonly frozen : Bool)
deriving DecidableEq

/-- `isinstance(dct, atomic_dict)`. -/
def DictKind.isAtomic : DictKind → Bool
  | .atomic => true
  | .atomicConfig _ _ => true
  | _ => false

mutual
/-- A value: a dictionary or anything else. -/
inductive CfgVal where
  | atom (x : Nat)
  | dict (kind : DictKind) (items : CfgItems)
deriving DecidableEq
/-- The items of a dictionary. -/
inductive CfgItems where
  | nil
  | cons (k : String) (v : CfgVal) (rest : CfgItems)
deriving DecidableEq
end

/-- `dct.get(k)`. -/
def CfgItems.get (k : String) : CfgItems → Option CfgVal
  | .nil => none
  | .cons k' v rest => if k' = k then some v else rest.get k

/-- `dict.__setitem__`: replaces the value of a key, or appends the key. -/
def CfgItems.put (k : String) (v : CfgVal) : CfgItems → CfgItems
  | .nil => .cons k v .nil
  | .cons k' v' rest => if k' = k then .cons k' v rest else .cons k' v' (rest.put k v)

/-- `dict.__delitem__` of a key that exists. -/
def CfgItems.del (k : String) : CfgItems → CfgItems
  | .nil => .nil
  | .cons k' v' rest => if k' = k then rest else .cons k' v' (rest.del k)

/-- `list(dct)`. -/
def CfgItems.keys : CfgItems → List String
  | .nil => []
  | .cons k _ rest => k :: rest.keys

/-- `dict.popitem` removes the last item. -/
def CfgItems.dropLast : CfgItems → CfgItems
  | .nil => .nil
  | .cons _ _ .nil => .nil
  | .cons k v (.cons k' v' rest) => .cons k v (CfgItems.dropLast (.cons k' v' rest))

/-- The flags and items of `Config.__setitem__`, utils/config.py:492-500. -/
def configSetItem (readonly frozen force : Bool) (x : CfgItems) (k : String) (v : CfgVal) : Except Err CfgItems :=
  if !force && readonly then .error (.typeError "Config is read-only")
  else if !force && frozen && (x.get k).isNone then .error (.keyError "Config keys are frozen: key not found")
  else .ok (x.put k v)

/-- `set_dict_item`, utils/config.py:91-98. -/
def setDictItem (force : Bool) (kind : DictKind) (x : CfgItems) (k : String) (v : CfgVal) : Except Err CfgItems :=
  match kind with
  | .config ro fr => configSetItem ro fr force x k v
  | .atomicConfig ro fr => configSetItem ro fr force x k v
  | _ => .ok (x.put k v)

/-- utils/config.py:161-164: the branch of `update_dict` that does not recurse. -/
def setOrSkip (force same : Bool) (kind : DictKind) (x : CfgItems) (k : String) (v : CfgVal) : CfgItems × Option Err :=
  if same && (x.get k).isNone then (x, none)
  else
    match setDictItem force kind x k v with
    | .ok x => (x, none)
    | .error e => (x, some e)

/-- One turn of `update_dict`, utils/config.py:158-164; `child` is the recursive call on the child dictionary `x[k]`. -/
def updateItem (nested force same : Bool) (kind : DictKind) (x : CfgItems) (k : String) (v : CfgVal)
    (child : DictKind → CfgItems → CfgItems × Option Err) : CfgItems × Option Err :=
  match v with
  | .atom a => setOrSkip force same kind x k (.atom a)
  | .dict kv ys =>
    match x.get k with
    | some (.dict kx xs) =>
      if nested && !kv.isAtomic then (x.put k (.dict kx (child kx xs).1), (child kx xs).2)
      else setOrSkip force same kind x k (.dict kv ys)
    | _ => setOrSkip force same kind x k (.dict kv ys)

/-- An exception ends the loop. -/
def thenUpdate (r : CfgItems × Option Err) (next : CfgItems → CfgItems × Option Err) : CfgItems × Option Err :=
  match r.2 with
  | some e => (r.1, some e)
  | none => next r.1

mutual
/-- The recursive call of `update_dict`, utils/config.py:160: `nested` and `same_keys` are not passed on. -/
def updateChild (force : Bool) (kx : DictKind) (xs : CfgItems) : CfgVal → CfgItems × Option Err
  | .atom _ => (xs, none)
  | .dict _ ys => updateDict true force false kx xs ys
/-- `update_dict`, utils/config.py:135-164: the updated dictionary and the exception, if any.  An exception leaves the
updates made before. -/
def updateDict (nested force same : Bool) (kind : DictKind) (x : CfgItems) : CfgItems → CfgItems × Option Err
  | .nil => (x, none)
  | .cons k v rest =>
    thenUpdate (updateItem nested force same kind x k v (fun kx xs => updateChild force kx xs v))
      (fun x => updateDict nested force same kind x rest)
end

mutual
/-- `convert_to_dict` of a child, utils/config.py:83-87. -/
def CfgVal.convert : CfgVal → CfgVal
  | .atom x => .atom x
  | .dict kind items => .dict (if kind.isAtomic then .atomic else .plain) items.convert
/-- utils/config.py:83-87. -/
def CfgItems.convert : CfgItems → CfgItems
  | .nil => .nil
  | .cons k v rest => .cons k v.convert rest.convert
end

/-- `convert_to_dict`, utils/config.py:71-88; `none` is Python's None. -/
def convertToDict (nested : Bool) (d : Option (DictKind × CfgItems)) : DictKind × CfgItems :=
  match d with
  | none => (.plain, .nil)
  | some (kind, items) => (if kind.isAtomic then .atomic else .plain, if nested then items.convert else items)

/-- utils/config.py:191-200: the first two dictionaries of `merge_dicts`. -/
def mergeTwo (nested same : Bool) (x y : DictKind × CfgItems) : DictKind × CfgItems :=
  let (x1, upd1) := if x.1 = .plain ∧ y.1 = .plain ∧ x.2 = .nil then (y, false) else (x, true)
  let (x2, upd2) := if x1.1.isAtomic || y.1.isAtomic then (y, false) else (x1, upd1)
  if upd2 then (x2.1, (updateDict nested true same x2.1 x2.2 y.2).1) else x2

/-- The recursion of `merge_dicts`, utils/config.py:201-210. -/
def mergeAll (nested same : Bool) (x : DictKind × CfgItems) : List (DictKind × CfgItems) → DictKind × CfgItems
  | [] => x
  | y :: rest => mergeAll nested same (mergeTwo nested same x y) rest

/-- `merge_dicts`, utils/config.py:167-210, with `to_dict=True`. -/
def mergeDicts (nested same : Bool) (dicts : List (Option (DictKind × CfgItems))) : Except Err (DictKind × CfgItems) :=
  match dicts.map (convertToDict nested) with
  | x :: y :: rest => .ok (mergeAll nested same x (y :: rest))
  | _ => .error (.indexError "tuple index out of range")

end Vbt
