import Verif.Model.Float
import Mathlib.Data.List.Dedup

/-!
# Functions on index objects: `vectorbt/base/index_fns.py`

`N` are the names of levels, `V` the labels, and `nat` tells which label is the integer `k` (of which `pd.RangeIndex` consists).
Labels are compared with `==`; the missing label (which is not equal to itself) is not among them.

A `pd.MultiIndex` consists of levels of the same length.  Its categories (`index.levels[i]`) are the labels that occur in the
level: so `pd.MultiIndex.from_arrays` builds them, which makes every multi-index that these functions work on.  Sequences
that are not indexes (`to_any_index`) are converted by the caller.
-/

namespace Vbt

/-- A level of an index, or a plain index: its name and the label of each row. -/
structure Lev (N V : Type) where
  name : Option N
  vals : List V
deriving DecidableEq, Repr

/-- A plain index or a multi-index. -/
inductive Idx (N V : Type) where
  | single (l : Lev N V)
  | multi (ls : List (Lev N V))
deriving DecidableEq, Repr

variable {N V : Type} [DecidableEq N] [DecidableEq V]

/-- The levels of an index; those of a plain index are the index itself, index_fns.py:126-133. -/
def Idx.levels : Idx N V → List (Lev N V)
  | .single l => [l]
  | .multi ls => ls

/-- The number of rows that a list of levels has. -/
def levsLen : List (Lev N V) → Nat
  | [] => 0
  | l :: _ => l.vals.length

/-- `len(index)`. -/
def Idx.len (i : Idx N V) : Nat := levsLen i.levels

/-- `checks.is_index_equal`, utils/checks.py:157-171. -/
def isIndexEqual (strict : Bool) : Idx N V → Idx N V → Bool
  | .single a, .single b => (!strict || decide (a.name = b.name)) && decide (a.vals = b.vals)
  | .multi a, .multi b =>
    (!strict || decide (a.map Lev.name = b.map Lev.name)) && decide (a.map Lev.vals = b.map Lev.vals)
  | _, _ => false

/-- `pd.RangeIndex(start=0, stop=n, step=1)`. -/
def rangeIndex (nat : Nat → V) (n : Nat) : Idx N V := .single ⟨none, (List.range n).map nat⟩

/-- `checks.is_default_index`, utils/checks.py:174-176. -/
def isDefaultIndex (nat : Nat → V) (i : Idx N V) : Bool := isIndexEqual true i (rangeIndex nat i.len)

/-- An operation on the labels of each level. -/
def Idx.mapVals (f : List V → List V) : Idx N V → Idx N V
  | .single l => .single ⟨l.name, f l.vals⟩
  | .multi ls => .multi (ls.map (fun l => ⟨l.name, f l.vals⟩))

/-- `np.repeat`. -/
def repeatList {α : Type} (n : Nat) (l : List α) : List α := l.flatMap (List.replicate n)

/-- `np.tile`. -/
def tileList {α : Type} (n : Nat) (l : List α) : List α := (List.replicate n l).flatten

/-- `repeat_index`, index_fns.py:70-84. -/
def repeatIndex (nat : Nat → V) (ignoreDefault : Bool) (index : Idx N V) (n : Nat) : Idx N V :=
  if isDefaultIndex nat index && ignoreDefault then rangeIndex nat (index.len * n)
  else index.mapVals (repeatList n)

/-- `tile_index`, index_fns.py:87-103. -/
def tileIndex (nat : Nat → V) (ignoreDefault : Bool) (index : Idx N V) (n : Nat) : Idx N V :=
  if isDefaultIndex nat index && ignoreDefault then rangeIndex nat (index.len * n)
  else index.mapVals (tileList n)

/-- `MultiIndex.droplevel` with a list of different positions (pandas): a multi-index of which one level is left becomes a
plain index. -/
def dropLevelPos (ls : List (Lev N V)) (drop : List Nat) : Except Err (Idx N V) :=
  if ls.length ≤ drop.length then .error (.valueError "Cannot remove all levels: at least one level must be left")
  else
    let left := (ls.zipIdx.filter (fun p => !drop.contains p.2)).map Prod.fst
    match left with
    | [l] => .ok (.single l)
    | _ => .ok (.multi left)

/-- The condition of one level in `drop_redundant_levels`, index_fns.py:210-213. -/
def redundantLev (nat : Nat → V) (len : Nat) (l : Lev N V) : Bool :=
  (decide (1 < len) && decide (l.vals.dedup.length = 1) && l.name.isNone) || isDefaultIndex nat (.single l)

/-- `drop_redundant_levels`, index_fns.py:203-217. -/
def dropRedundantLevels (nat : Nat → V) (index : Idx N V) : Except Err (Idx N V) :=
  match index with
  | .single l => .ok (.single l)
  | .multi ls =>
    let drop := (ls.zipIdx.filter (fun p => redundantLev nat (levsLen ls) p.1)).map Prod.snd
    if drop.length < ls.length then dropLevelPos ls drop else .ok (.multi ls)

/-- The loop of `drop_duplicate_levels`, index_fns.py:242-247: the levels seen and the positions to drop. -/
def dupLoop : List (Lev N V × Nat) → List (Lev N V) × List Nat → List (Lev N V) × List Nat
  | [], s => s
  | (l, i) :: rest, (seen, drop) =>
    if l ∉ seen then dupLoop rest (seen ++ [l], drop) else dupLoop rest (seen, drop ++ [i])

/-- `drop_duplicate_levels`, index_fns.py:220-248. -/
def dropDuplicateLevels (keep : String) (index : Idx N V) : Except Err (Idx N V) :=
  match index with
  | .single l => .ok (.single l)
  | .multi ls =>
    if keep.toLower ≠ "first" ∧ keep.toLower ≠ "last" then .error (.rejected "assert_in")
    else
      let r := if keep = "first" then ls.zipIdx else ls.zipIdx.reverse
      dropLevelPos ls (dupLoop r ([], [])).2

/-- `pd.MultiIndex.from_arrays`. -/
def fromArrays (ls : List (Lev N V)) : Except Err (Idx N V) :=
  match ls with
  | [] => .error (.valueError "Must pass non-zero number of levels/codes")
  | l :: rest =>
    if rest.all (fun l' => l'.vals.length = l.vals.length) then .ok (.multi ls)
    else .error (.valueError "all arrays must be same length")

/-- The options of `stack_indexes`; the defaults are those of `_settings.py:137-139`. -/
structure StackOpts where
  dropDuplicates : Bool := true
  keep : String := "last"
  dropRedundant : Bool := true

/-- `stack_indexes`, index_fns.py:106-140. -/
def stackIndexes (nat : Nat → V) (o : StackOpts) (indexes : List (Idx N V)) : Except Err (Idx N V) :=
  match fromArrays (indexes.flatMap Idx.levels) with
  | .error e => .error e
  | .ok i0 =>
    match (if o.dropDuplicates then dropDuplicateLevels o.keep i0 else .ok i0) with
    | .error e => .error e
    | .ok i1 => if o.dropRedundant then dropRedundantLevels nat i1 else .ok i1

/-- The loop of `combine_indexes`, index_fns.py:148-152. -/
def combineLoop (nat : Nat → V) (ignoreDefault : Bool) (o : StackOpts) :
    Idx N V → List (Idx N V) → Except Err (Idx N V)
  | acc, [] => .ok acc
  | index1, index2 :: rest =>
    match stackIndexes nat o [repeatIndex nat ignoreDefault index1 index2.len,
        tileIndex nat ignoreDefault index2 index1.len] with
    | .error e => .error e
    | .ok new => combineLoop nat ignoreDefault o new rest

/-- `combine_indexes`, index_fns.py:143-153. -/
def combineIndexes (nat : Nat → V) (ignoreDefault : Bool) (o : StackOpts) (indexes : List (Idx N V)) :
    Except Err (Idx N V) :=
  match indexes with
  | [] => .error (.indexError "list index out of range")
  | i :: rest => combineLoop nat ignoreDefault o i rest

/-! ## Data with labels -/

/-- The columns of a pandas object with their labels. -/
structure Labelled (N V A : Type) where
  labels : Idx N V
  cols : List A

/-- `repeat` of a pandas object along an axis, base/reshape_fns.py:121-140, and the accessor with `keys`,
base/accessors.py:332-358. -/
def repeatObj {A : Type} (nat : Nat → V) (x : Labelled N V A) (n : Nat) (keys : Option (Idx N V)) :
    Except Err (Labelled N V A) :=
  match keys with
  | none => .ok ⟨repeatIndex nat true x.labels n, repeatList n x.cols⟩
  | some k =>
    match combineIndexes nat true {} [x.labels, k] with
    | .error e => .error e
    | .ok labels =>
      if labels.len = (repeatList n x.cols).length then .ok ⟨labels, repeatList n x.cols⟩
      else .error (.valueError "Shape of passed values does not match")

/-- `tile` of a pandas object along an axis, base/reshape_fns.py:143-169, and the accessor with `keys`,
base/accessors.py:306-330. -/
def tileObj {A : Type} (nat : Nat → V) (x : Labelled N V A) (n : Nat) (keys : Option (Idx N V)) :
    Except Err (Labelled N V A) :=
  match keys with
  | none => .ok ⟨tileIndex nat true x.labels n, tileList n x.cols⟩
  | some k =>
    match combineIndexes nat true {} [k, x.labels] with
    | .error e => .error e
    | .ok labels =>
      if labels.len = (tileList n x.cols).length then .ok ⟨labels, tileList n x.cols⟩
      else .error (.valueError "Shape of passed values does not match")

/-! ## Renaming and picking levels -/

/-- `rename_levels`, index_fns.py:177-190: the result (or the exception) and the index of the caller afterwards.
`index.name = v` of a plain index writes to the object of the caller; `MultiIndex.rename` makes a new one.  The names of a
multi-index are different from each other where `rename(level=k)` is called (pandas raises otherwise). -/
def renameLevels (strict : Bool) : List (N × Option N) → Idx N V → Except Err (Idx N V) × Idx N V
  | [], i => (.ok i, i)
  | (k, v) :: rest, .multi ls =>
    if some k ∈ ls.map Lev.name then
      ((renameLevels strict rest
        (.multi (ls.map (fun l => if l.name = some k then ⟨v, l.vals⟩ else l)))).1, .multi ls)
    else if strict then (.error (.keyError "Level not found"), .multi ls)
    else ((renameLevels strict rest (.multi ls)).1, .multi ls)
  | (k, v) :: rest, .single l =>
    if l.name = some k then renameLevels strict rest (.single ⟨v, l.vals⟩)
    else if strict then (.error (.keyError "Level not found"), .single l)
    else renameLevels strict rest (.single l)

/-- A level given by its position or its name. -/
inductive LevelRef (N : Type) where
  | pos (p : Int)
  | name (n : N)
deriving DecidableEq

/-- The position of a level, index_fns.py:376-381. -/
def levelPos (names : List (Option N)) : LevelRef N → Except Err Int
  | .name n =>
    if some n ∈ names then .ok (names.idxOf (some n)) else .error (.valueError "not in list")
  | .pos p => .ok (if p < 0 then names.length + p else p)

/-- The loop over the optional or the required levels, index_fns.py:370-398: the levels that are left and the picked ones. -/
def pickLoop (names : List (Option N)) :
    List (Option (LevelRef N)) → List Int → Except Err (List Int × List (Option Int))
  | [], left => .ok (left, [])
  | none :: rest, left =>
    match pickLoop names rest left with
    | .error e => .error e
    | .ok (l, ps) => .ok (l, none :: ps)
  | some r :: rest, left =>
    match levelPos names r with
    | .error e => .error e
    | .ok p =>
      if p ∈ left then
        match pickLoop names rest (left.erase p) with
        | .error e => .error e
        | .ok (l, ps) => .ok (l, some p :: ps)
      else .error (.valueError "list.remove(x): x not in list")

/-- The levels that were not given, index_fns.py:399-401. -/
def fillLevels : List (Option Int) → List Int → Except Err (List Int)
  | [], _ => .ok []
  | some p :: rest, left =>
    match fillLevels rest left with
    | .error e => .error e
    | .ok ps => .ok (p :: ps)
  | none :: _, [] => .error (.indexError "pop from empty list")
  | none :: rest, q :: left =>
    match fillLevels rest left with
    | .error e => .error e
    | .ok ps => .ok (q :: ps)

/-- `pick_levels`, index_fns.py:346-403, of a multi-index with the given names. -/
def pickLevels (names : List (Option N)) (required optional : List (Option (LevelRef N))) :
    Except Err (List Int × List (Option Int)) :=
  let nOptSet : Int := (optional.filter Option.isSome).length
  let nReqSet : Int := (required.filter Option.isSome).length
  let nLevelsLeft : Int := names.length - nOptSet
  if nReqSet < required.length ∧ nLevelsLeft ≠ required.length then
    .error (.valueError "Expected other levels")
  else
    match pickLoop names optional ((List.range names.length).map (fun k : Nat => (k : Int))) with
    | .error e => .error e
    | .ok (left, opt) =>
      match pickLoop names required left with
      | .error e => .error e
      | .ok (left, req) =>
        match fillLevels req left with
        | .error e => .error e
        | .ok req => .ok (req, opt)

end Vbt
