import Verif.Model.Indexing

/-!
# Grouping anew: `vectorbt/base/column_grouper.py`, `ArrayWrapper.regroup`, `Portfolio.regroup`

Labels are values of a type with decidable equality, none is missing; `Index.equals` is equality of the labels.  Levels of the
columns are passed as the labels that `select_levels` reads off them.  Caching is left out.
-/

namespace Vbt

/-- The argument `group_by`: `None`, `False`, `True`, a sequence of labels (or levels of the columns), or a `pd.Index`. -/
inductive GroupArg (L : Type) where
  | absent
  | off
  | whole
  | seq (labels : List L)
  | index (labels : List L)
deriving DecidableEq

/-- The wrapper with the restrictions of its `ColumnGrouper`, base/column_grouper.py:122-150. -/
structure RestrictedWrapper (L : Type) where
  wrapper : Wrapper L
  allowEnable : Bool
  allowDisable : Bool
  allowModify : Bool

section
variable {L : Type} [DecidableEq L]

/-- `group_by_to_index`, base/column_grouper.py:25-51; `whole` is the label "group".  `none` is `None` or `False`. -/
def groupByToIndex (whole : L) (n : Nat) (a : GroupArg L) : Except Err (Option (List L)) :=
  match a with
  | .absent | .off => .ok none
  | .whole => .ok (some (List.replicate n whole))
  | .seq labels | .index labels =>
    if labels.length ≠ n then .error (.valueError "group_by and index must have the same length") else .ok (some labels)

/-- `ColumnGrouper.is_grouped`, base/column_grouper.py:176-182. -/
def Wrapper.isGroupedBy (w : Wrapper L) (a : GroupArg L) : Bool :=
  match a with
  | .off => false
  | .absent => w.groupBy.isSome
  | _ => true

/-- `ColumnGrouper.is_grouping_enabled`, base/column_grouper.py:184-186. -/
def Wrapper.groupingEnabled (w : Wrapper L) (a : GroupArg L) : Bool := w.groupBy.isNone && w.isGroupedBy a

/-- `ColumnGrouper.is_grouping_disabled`, base/column_grouper.py:188-190. -/
def Wrapper.groupingDisabled (w : Wrapper L) (a : GroupArg L) : Bool := w.groupBy.isSome && !w.isGroupedBy a

/-- `ColumnGrouper.is_grouping_modified`, base/column_grouper.py:192-207. -/
def Wrapper.groupingModified (whole : L) (w : Wrapper L) (a : GroupArg L) : Except Err Bool :=
  if a = .absent ∨ (a = .off ∧ w.groupBy = none) then .ok false
  else
    match groupByToIndex whole w.columns.length a with
    | .error e => .error e
    | .ok new =>
      match new, w.groupBy with
      | some ls, some old =>
        if ls ≠ old then .ok (decide ((factorize (ls.map some)).2 ≠ (factorize (old.map some)).2)) else .ok false
      | _, _ => .ok true

/-- `ColumnGrouper.is_grouping_changed`, base/column_grouper.py:209-217. -/
def Wrapper.groupingChanged (w : Wrapper L) (a : GroupArg L) : Bool :=
  if a = .absent ∨ (a = .off ∧ w.groupBy = none) then false
  else
    match a, w.groupBy with
    | .index ls, some old => decide (ls ≠ old)
    | _, _ => true

/-- `ColumnGrouper.is_group_count_changed`, base/column_grouper.py:219-225. -/
def Wrapper.groupCountChanged (w : Wrapper L) (a : GroupArg L) : Bool :=
  if a = .absent ∨ (a = .off ∧ w.groupBy = none) then false
  else
    match a, w.groupBy with
    | .index ls, some old => decide (ls.length ≠ old.length)
    | _, _ => true

/-- `ColumnGrouper.check_group_by` without arguments, base/column_grouper.py:227-250. -/
def RestrictedWrapper.check (whole : L) (g : RestrictedWrapper L) (a : GroupArg L) : Except Err Unit :=
  if g.wrapper.groupingEnabled a then
    if !g.allowEnable then .error (.valueError "Enabling grouping is not allowed") else .ok ()
  else if g.wrapper.groupingDisabled a then
    if !g.allowDisable then .error (.valueError "Disabling grouping is not allowed") else .ok ()
  else
    match g.wrapper.groupingModified whole a with
    | .error e => .error e
    | .ok m => if m && !g.allowModify then .error (.valueError "Modifying groups is not allowed") else .ok ()

/-- `ColumnGrouper.resolve_group_by`, base/column_grouper.py:252-259. -/
def RestrictedWrapper.resolveGroupBy (whole : L) (g : RestrictedWrapper L) (a : GroupArg L) : Except Err (Option (List L)) :=
  let a1 : GroupArg L :=
    if a = .absent then (match g.wrapper.groupBy with | none => .absent | some ls => .index ls) else a
  let a2 : GroupArg L := if a1 = .off ∧ g.wrapper.groupBy = none then .absent else a1
  match g.check whole a2 with
  | .error e => .error e
  | .ok () => groupByToIndex whole g.wrapper.columns.length a2

/-- `ArrayWrapper.replace(grouped_ndim=…, group_by=…)`: the constructor of `ColumnGrouper`, base/column_grouper.py:138-142. -/
def RestrictedWrapper.withGroups (whole : L) (g : RestrictedWrapper L) (a : GroupArg L) (d : Option Nat) : Except Err (RestrictedWrapper L) :=
  match groupByToIndex whole g.wrapper.columns.length a with
  | .error e => .error e
  | .ok ls => .ok { g with wrapper := { g.wrapper with groupBy := ls, groupedNdim := d } }

/-- `ArrayWrapper.regroup`, base/array_wrapper.py:507-518. -/
def RestrictedWrapper.regroup (whole : L) (g : RestrictedWrapper L) (a : GroupArg L) : Except Err (RestrictedWrapper L) :=
  if g.wrapper.groupingChanged a then
    match g.check whole a with
    | .error e => .error e
    | .ok () =>
      if g.wrapper.isGroupedBy a && !g.wrapper.groupCountChanged a then
        match g.wrapper.getNdim with
        | .error e => .error e
        | .ok d => g.withGroups whole a (some d)
      else g.withGroups whole a none
  else .ok g

/-- `ArrayWrapper.resolve`, base/array_wrapper.py:520-533: columns and dimensions of the results. -/
def RestrictedWrapper.resolve (whole : L) (g : RestrictedWrapper L) (a : GroupArg L) : Except Err (RestrictedWrapper L) :=
  match g.regroup whole a with
  | .error e => .error e
  | .ok g1 =>
    match g1.wrapper.groupBy with
    | none => .ok g1
    | some labels =>
      match g1.wrapper.getNdim with
      | .error e => .error e
      | .ok d =>
        .ok { g1 with wrapper := { columns := (factorize (labels.map some)).1, ndim := d, groupBy := none, groupedNdim := none } }

/-- `Portfolio.wrapper`, portfolio/base.py:4143-4148. -/
def sharedGuard (sharing : Bool) (g : RestrictedWrapper L) : RestrictedWrapper L :=
  if sharing then { g with allowEnable := false, allowModify := false } else g

/-- `Portfolio.regroup`, portfolio/base.py:4150-4160, with `Wrapping.regroup`, base/array_wrapper.py:745-754: the wrapper. -/
def pfRegroup (whole : L) (sharing : Bool) (g : RestrictedWrapper L) (a : GroupArg L) : Except Err (RestrictedWrapper L) :=
  let gs := sharedGuard sharing g
  let rest : Except Err (RestrictedWrapper L) :=
    if gs.wrapper.groupingChanged a then
      match gs.check whole a with
      | .error e => .error e
      | .ok () => gs.regroup whole a
    else .ok g
  if sharing then
    match gs.wrapper.groupingModified whole a with
    | .error e => .error e
    | .ok true => .error (.valueError "Cannot modify grouping globally when cash_sharing=True")
    | .ok false => rest
  else rest

/-- What `ArrayWrapper.wrap_reduced` returns for a one-dimensional array: one number, a Series whose index are the columns, or
a Series without the columns that carries the name of the first one. -/
inductive Reduced (L V : Type) where
  | scalar (v : V)
  | perColumn (columns : List L) (values : List V)
  | unlabelled (name : Option L) (values : List V)
deriving DecidableEq

/-- `ArrayWrapper.wrap_reduced`, base/array_wrapper.py:611-690, for a one-dimensional array and a name (a string), where a name 0 is not told from no
name; `Series(…,
index=columns)` raises if the lengths differ. -/
def RestrictedWrapper.wrapReduced {V : Type} (whole : L) (g : RestrictedWrapper L) (a : GroupArg L) (values : List V) : Except Err (Reduced L V) :=
  match g.resolve whole a with
  | .error e => .error e
  | .ok r =>
    if r.wrapper.ndim = 1 then
      match values with
      | [v] => .ok (.scalar v)
      | _ => .ok (.unlabelled r.wrapper.columns.head? values)
    else if values.length ≠ r.wrapper.columns.length then .error (.valueError "Length of values does not match length of index")
    else .ok (.perColumn r.wrapper.columns values)

end

end Vbt
