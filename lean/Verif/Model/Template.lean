import Verif.Model.Config

/-!
# Templates: `vectorbt/utils/template.py`

Objects are trees.  Dictionaries and lists, which can be changed in place, carry a reference: `some r` is the object `r` of
the caller, `none` an object created by `deep_substitute`.  Everything that is not a container or a template is a value
(`CfgVal`); so are the values of a mapping, hence a mapping does not contain templates.  What an expression, a function and
a string template return for given names is a parameter (`TmplEnv`).  Two templates are equal when they are the same object.
-/

namespace Vbt

/-- The class of a template with its content: `Sub`, `Rep`, `RepEval`, `RepFunc` (with the names of the arguments) or
`string.Template`. -/
inductive TmplKind where
  | sub (text : Nat)
  | rep (key : String)
  | expr (code : Nat)
  | func (f : Nat) (args : List String)
  | plain (text : Nat)
deriving DecidableEq

/-- A template: its identity, content and own mapping (`none` is Python's None). -/
structure Tmpl where
  id : Nat
  kind : TmplKind
  own : Option (DictKind × CfgItems)
deriving DecidableEq

mutual
/-- An object that may contain templates. -/
inductive TObj where
  | val (v : CfgVal)
  | tmpl (t : Tmpl)
  | dict (ref : Option Nat) (kind : DictKind) (keys : List String) (vals : TObjs)
  | list (ref : Option Nat) (xs : TObjs)
  | tuple (named : Option Nat) (xs : TObjs)
  | set (frozen : Bool) (xs : TObjs)
deriving DecidableEq
/-- The elements of a container in order. -/
inductive TObjs where
  | nil
  | cons (x : TObj) (rest : TObjs)
deriving DecidableEq
end

/-- The elements as a list. -/
def TObjs.toList : TObjs → List TObj
  | .nil => []
  | .cons x rest => x :: rest.toList

/-- The inverse of `TObjs.toList`. -/
def TObjs.ofList : List TObj → TObjs
  | [] => .nil
  | x :: rest => .cons x (TObjs.ofList rest)

/-- What Python returns for `eval`, a call, `Template.substitute` and `hash`. -/
structure TmplEnv where
  eval : Nat → CfgItems → Except Err CfgVal
  call : Nat → CfgItems → Except Err CfgVal
  format : Nat → CfgItems → Except Err CfgVal
  hashable : Nat → Bool

/-- The items of a mapping whose key is in a list: the loop of `RepFunc.call`, utils/template.py:144-146. -/
def CfgItems.restrict (names : List String) : CfgItems → CfgItems
  | .nil => .nil
  | .cons k v rest => if k ∈ names then .cons k v (rest.restrict names) else rest.restrict names

/-- `Sub.substitute` (38-44), `Rep.replace` (73-78), `RepEval.eval` (103-108), `RepFunc.call` (137-147) of
utils/template.py, and `string.Template.substitute`, which has no mapping of its own. -/
def Tmpl.resolve (E : TmplEnv) (mapping : DictKind × CfgItems) (t : Tmpl) : Except Err CfgVal :=
  match t.kind with
  | .plain text => E.format text mapping.2
  | kind =>
    match mergeDicts true false [some (t.own.getD (.plain, .nil)), some mapping] with
    | .error e => .error e
    | .ok m =>
      match kind with
      | .sub text => E.format text m.2
      | .rep key =>
        match m.2.get key with
        | none => .error (.keyError key)
        | some v => .ok v
      | .expr code => E.eval code m.2
      | .func f args => E.call f (m.2.restrict args)
      | .plain text => E.format text mapping.2

mutual
/-- `has_templates`, utils/template.py:153-173.  Keys are not searched. -/
def TObj.hasTemplates : TObj → Bool
  | .val _ => false
  | .tmpl _ => true
  | .dict _ _ _ vals => vals.hasTemplates
  | .list _ xs => xs.hasTemplates
  | .tuple _ xs => xs.hasTemplates
  | .set _ xs => xs.hasTemplates
/-- See `TObj.hasTemplates`. -/
def TObjs.hasTemplates : TObjs → Bool
  | .nil => false
  | .cons x rest => if x.hasTemplates then true else rest.hasTemplates
end

mutual
/-- Whether `hash` works: dictionaries, lists and sets have no hash, tuples need the hashes of their elements. -/
def TObj.hashable (E : TmplEnv) : TObj → Bool
  | .val (.atom n) => E.hashable n
  | .val (.dict _ _) => false
  | .tmpl _ => true
  | .dict _ _ _ _ => false
  | .list _ _ => false
  | .tuple _ xs => xs.hashable E
  | .set frozen _ => frozen
/-- See `TObj.hashable`. -/
def TObjs.hashable (E : TmplEnv) : TObjs → Bool
  | .nil => true
  | .cons x rest => x.hashable E && rest.hashable E
end

/-- `set(result)` and `frozenset(result)`, utils/template.py:250.  Iteration order is insertion order here, and frozensets
are equal when listed equally. -/
def buildSet (E : TmplEnv) (frozen : Bool) (result : TObjs) : Except Err TObj :=
  if result.hashable E then .ok (.set frozen (.ofList result.toList.eraseDups))
  else .error (.typeError "unhashable type")

/-- utils/template.py:251-254: with `safe` an exception leaves the object as it was. -/
def orKeep (safe : Bool) (obj : TObj) (r : Except Err TObj) : Except Err TObj :=
  match r with
  | .ok out => .ok out
  | .error e => if safe then .ok obj else .error e

/-- utils/template.py:233-234, 239-240: the reference of the object that is changed. -/
def copyRef (makeCopy : Bool) (ref : Option Nat) : Option Nat := if makeCopy then none else ref

mutual
/-- `deep_substitute`, utils/template.py:176-254.  `make_copy` is not passed on.  Assigning the keys of a dictionary in
iteration order with `force=True` replaces its values.  With `safe` no element raises, so that only templates and sets are
kept as they were. -/
def TObj.subst (E : TmplEnv) (mapping : DictKind × CfgItems) (safe makeCopy : Bool) : TObj → Except Err TObj
  | .val v => .ok (.val v)
  | .tmpl t => orKeep safe (.tmpl t) ((t.resolve E mapping).map .val)
  | .dict ref kind keys vals =>
    if vals.hasTemplates then
      orKeep safe (.dict ref kind keys vals) ((vals.subst E mapping safe).map (.dict (copyRef makeCopy ref) kind keys))
    else .ok (.dict ref kind keys vals)
  | .list ref xs =>
    if xs.hasTemplates then orKeep safe (.list ref xs) ((xs.subst E mapping safe).map (.list (copyRef makeCopy ref)))
    else .ok (.list ref xs)
  | .tuple named xs =>
    if xs.hasTemplates then orKeep safe (.tuple named xs) ((xs.subst E mapping safe).map (.tuple named))
    else .ok (.tuple named xs)
  | .set frozen xs =>
    if xs.hasTemplates then
      orKeep safe (.set frozen xs)
        (match xs.subst E mapping safe with
        | .error e => .error e
        | .ok result => buildSet E frozen result)
    else .ok (.set frozen xs)
/-- The loops of `deep_substitute` over the elements, utils/template.py:235-236, 241-242, 246-247. -/
def TObjs.subst (E : TmplEnv) (mapping : DictKind × CfgItems) (safe : Bool) : TObjs → Except Err TObjs
  | .nil => .ok .nil
  | .cons x rest =>
    match x.subst E mapping safe true with
    | .error e => .error e
    | .ok y =>
      match rest.subst E mapping safe with
      | .error e => .error e
      | .ok ys => .ok (.cons y ys)
end

end Vbt
