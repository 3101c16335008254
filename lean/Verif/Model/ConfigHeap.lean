import Verif.Model.Config

/-!
# Merging dictionaries in memory: `vectorbt/utils/config.py`

The same functions as in `Verif.Model.Config`, with dictionaries as objects that are shared and updated in place.  This is
what the claim "the arguments are not modified" needs.  Values that are not dictionaries are opaque.  Recursion takes fuel;
running out of it is Python's `RecursionError` (a dictionary containing itself).
-/

namespace Vbt

/-- A reference to a dictionary, or anything else. -/
inductive HVal where
  | atom (x : Nat)
  | ref (a : Nat)
deriving DecidableEq

/-- A dictionary object. -/
structure HNode where
  kind : DictKind
  items : List (String × HVal)
deriving DecidableEq

/-- The objects with addresses below `next` exist. -/
structure Heap where
  next : Nat
  node : Nat → HNode

/-- `dct.get(k)`. -/
def hGet (k : String) (items : List (String × HVal)) : Option HVal := (items.find? fun p => p.1 == k).map (·.2)

/-- `dct[k] = v`. -/
def hPut (k : String) (v : HVal) : List (String × HVal) → List (String × HVal)
  | [] => [(k, v)]
  | p :: rest => if p.1 = k then (k, v) :: rest else p :: hPut k v rest

/-- A new object. -/
def Heap.alloc (h : Heap) (n : HNode) : Heap × Nat := (⟨h.next + 1, setAt h.node h.next n⟩, h.next)

/-- `dct[k] = v` on an object. -/
def Heap.setItem (h : Heap) (a : Nat) (k : String) (v : HVal) : Heap :=
  { h with node := setAt h.node a { h.node a with items := hPut k v (h.node a).items } }

/-- The loop of `convert_to_dict`, utils/config.py:83-87. -/
def convertItemsH (convert : Heap → Nat → Option (Heap × Nat)) (h : Heap) :
    List (String × HVal) → Option (Heap × List (String × HVal))
  | [] => some (h, [])
  | (k, .atom x) :: rest =>
    match convertItemsH convert h rest with
    | none => none
    | some (h, items) => some (h, (k, .atom x) :: items)
  | (k, .ref a) :: rest =>
    match convert h a with
    | none => none
    | some (h, b) =>
      match convertItemsH convert h rest with
      | none => none
      | some (h, items) => some (h, (k, .ref b) :: items)

/-- `convert_to_dict`, utils/config.py:71-88: a new object, and with `nested` new objects for all children. -/
def convertH (nested : Bool) : Nat → Heap → Nat → Option (Heap × Nat)
  | 0, _, _ => none
  | fuel + 1, h, a =>
    let kind := if (h.node a).kind.isAtomic then DictKind.atomic else DictKind.plain
    if nested then
      match convertItemsH (convertH nested fuel) h (h.node a).items with
      | none => none
      | some (h1, items) => some (h1.alloc ⟨kind, items⟩)
    else some (h.alloc ⟨kind, (h.node a).items⟩)

/-- One turn of `update_dict` with `force=True`, utils/config.py:158-164. -/
def updateItemH (child : Heap → Nat → Nat → Option Heap) (nested same : Bool) (x : Nat) (h : Heap) (p : String × HVal) :
    Option Heap :=
  let set : Option Heap := if same && (hGet p.1 (h.node x).items).isNone then some h else some (h.setItem x p.1 p.2)
  match p.2, hGet p.1 (h.node x).items with
  | .ref b, some (.ref c) => if nested && !(h.node b).kind.isAtomic then child h c b else set
  | _, _ => set

/-- The loop of `update_dict`. -/
def updateItemsH (child : Heap → Nat → Nat → Option Heap) (nested same : Bool) (x : Nat) (h : Heap) :
    List (String × HVal) → Option Heap
  | [] => some h
  | p :: rest =>
    match updateItemH child nested same x h p with
    | none => none
    | some h => updateItemsH child nested same x h rest

/-- `update_dict(x, y, force=True)`, utils/config.py:135-164. -/
def updateH : Nat → Bool → Bool → Heap → Nat → Nat → Option Heap
  | 0, _, _, _, _, _ => none
  | fuel + 1, nested, same, h, x, y =>
    updateItemsH (fun h c b => updateH fuel true false h c b) nested same x h (h.node y).items

/-- The first two dictionaries of `merge_dicts`, utils/config.py:191-200. -/
def mergeTwoH (fuel : Nat) (nested same : Bool) (h : Heap) (x y : Nat) : Option (Heap × Nat) :=
  if (h.node x).kind = .plain ∧ (h.node y).kind = .plain ∧ (h.node x).items = [] then some (h, y)
  else if (h.node x).kind.isAtomic || (h.node y).kind.isAtomic then some (h, y)
  else
    match updateH fuel nested same h x y with
    | none => none
    | some h => some (h, x)

/-- The recursion of `merge_dicts`, utils/config.py:201-210. -/
def mergeAllH (fuel : Nat) (nested same : Bool) (h : Heap) (x : Nat) : List Nat → Option (Heap × Nat)
  | [] => some (h, x)
  | y :: rest =>
    match mergeTwoH fuel nested same h x y with
    | none => none
    | some (h, x) => mergeAllH fuel nested same h x rest

/-- utils/config.py:185-186: converts all arguments; `none` is Python's None. -/
def convertArgsH (fuel : Nat) (nested : Bool) (h : Heap) : List (Option Nat) → Option (Heap × List Nat)
  | [] => some (h, [])
  | none :: rest =>
    match convertArgsH fuel nested (h.alloc ⟨.plain, []⟩).1 rest with
    | none => none
    | some (h', as) => some (h', h.next :: as)
  | some a :: rest =>
    match convertH nested fuel h a with
    | none => none
    | some (h, b) =>
      match convertArgsH fuel nested h rest with
      | none => none
      | some (h, as) => some (h, b :: as)

/-- `merge_dicts`, utils/config.py:167-210, with `to_dict=True` and `copy_mode="shallow"`. -/
def mergeDictsH (fuel : Nat) (nested same : Bool) (h : Heap) (dicts : List (Option Nat)) : Option (Heap × Nat) :=
  match convertArgsH fuel nested h dicts with
  | some (h, x :: rest) => mergeAllH fuel nested same h x rest
  | _ => none

end Vbt
