import Verif.Model.Grouping
import Mathlib.Data.List.Dedup
import Mathlib.Data.List.Sort

/-!
# Index alignment: `vectorbt/base/index_fns.py`

An index is a list of levels.  A single index is an index with one level (index_fns.py:269-272).  A missing value of a level
is `none`.  The categories of a level (`index.levels[i]`) may contain values that do not occur, as after slicing.
-/

namespace Vbt

/-- One level of a pandas index: `names[i]`, `levels[i]` and `get_level_values(i)`. -/
structure Level (N V : Type) where
  name : Option N
  cats : List V
  vals : List (Option V)
deriving DecidableEq

/-- An index with its length. -/
structure MIndex (N V : Type) where
  levels : List (Level N V)
  len : Nat
deriving DecidableEq

/-- The index slice returned: `pd.IndexSlice[:]` or positions. -/
inductive Slice where
  | all
  | take (idxs : List Int)
deriving DecidableEq

/-- One target row of `_align_index_to_nb`, index_fns.py:256-261: `idxs[:g]` grows by the first matching position. -/
def alignStep (a : List Nat) (idxs : List Int) (x : Nat) : List Int :=
  match a.findIdx? (fun y => x = y) with
  | some j => idxs ++ [(j : Int)]
  | none => idxs

/-- `_align_index_to_nb`, index_fns.py:251-262.  `junk` is the content of the uninitialised array. -/
def alignNb (a b : List Nat) (junk : Nat → Int) : List Int :=
  let found := b.foldl (alignStep a) []
  found ++ (List.range' found.length (b.length - found.length)).map junk

/-- `set(index2.levels[j]).issubset(set(index1.levels[i]))`. -/
def levelSubset {N V : Type} [DecidableEq V] (l1 l2 : Level N V) : Bool := l2.cats.all fun x => decide (x ∈ l1.cats)

/-- One pair of levels, index_fns.py:280-289; the mapper is a list of pairs in order of insertion. -/
def mapperStep {N V : Type} [DecidableEq N] [DecidableEq V] (mapper : List (Nat × Nat))
    (p : (Level N V × Nat) × (Level N V × Nat)) : Except Err (List (Nat × Nat)) :=
  if p.1.1.name = p.2.1.name then
    if levelSubset p.1.1 p.2.1 then
      if p.1.2 ∈ mapper.map Prod.fst then
        .error (.valueError "There are multiple candidate levels with name {name1} in second index")
      else .ok (mapper ++ [(p.1.2, p.2.2)])
    else if p.1.1.name.isSome then .error (.valueError "Level {name1} in second index contains values not in first index")
    else .ok mapper
  else .ok mapper

/-- The pairs in the order of the two nested loops, index_fns.py:278-279. -/
def levelPairs {N V : Type} (i1 i2 : MIndex N V) : List ((Level N V × Nat) × (Level N V × Nat)) :=
  i1.levels.zipIdx.flatMap fun x => i2.levels.zipIdx.map fun y => (x, y)

/-- The map between levels, index_fns.py:277-289. -/
def buildMapper {N V : Type} [DecidableEq N] [DecidableEq V] (i1 i2 : MIndex N V) : Except Err (List (Nat × Nat)) :=
  loopE mapperStep [] (levelPairs i1 i2)

/-- The values of a level; only called with positions of the mapper. -/
def levelVals {N V : Type} (i : MIndex N V) (k : Nat) : List (Option V) :=
  match i.levels[k]? with
  | some l => l.vals
  | none => []

/-- Factorized columns, index_fns.py:294-300: the codes of both levels together. -/
def factorized {N V : Type} [DecidableEq V] (i1 i2 : MIndex N V) (mapper : List (Nat × Nat)) : List (List Int) :=
  mapper.map fun p => (factorize (levelVals i1 p.1 ++ levelVals i2 p.2)).2

/-- `np.transpose(np.stack(factorized))`, index_fns.py:301. -/
def stackedRows (cols : List (List Int)) (n : Nat) : List (List Int) :=
  (List.range n).map fun r => cols.map fun c => c.getD r 0

/-- Lexicographic order of rows, as used by `np.unique` along axis 0. -/
def rowLe : List Int → List Int → Bool
  | [], _ => true
  | _ :: _, [] => false
  | x :: xs, y :: ys => if x < y then true else if x = y then rowLe xs ys else false

/-- `np.unique(rows, axis=0)`. -/
def uniqueRows (rows : List (List Int)) : List (List Int) := rows.dedup.insertionSort fun a b => rowLe a b = true

/-- `np.unique(rows, axis=0, return_inverse=True)[1]`. -/
def uniqueInverse (rows : List (List Int)) : List Nat := rows.map fun r => (uniqueRows rows).idxOf r

/-- `pd.Index.equals` of two multi-indexes: the values of all levels, without names. -/
def indexEquals {N V : Type} [DecidableEq V] (i1 i2 : MIndex N V) : Bool :=
  decide (i1.levels.map Level.vals = i2.levels.map Level.vals)

/-- The tiled shortcut, index_fns.py:308-312. -/
def tileShortcut (rows1 rows2 : List (List Int)) : Option (List Int) :=
  if rows2.length % rows1.length = 0 then
    let times := rows2.length / rows1.length
    if (List.replicate times rows1).flatten = rows2 then
      some (List.replicate times ((List.range rows1.length).map fun (k : Nat) => (k : Int))).flatten
    else none
  else none

/-- The element-wise comparison, index_fns.py:315-318. -/
def alignElementwise (rows1 rows2 : List (List Int)) (junk : Nat → Int) : List Int :=
  let u := uniqueInverse (rows1 ++ rows2)
  alignNb (u.take rows1.length) (u.drop rows1.length) junk

/-- `align_index_to`, index_fns.py:265-318. -/
def alignIndexTo {N V : Type} [DecidableEq N] [DecidableEq V] (i1 i2 : MIndex N V) (junk : Nat → Int) : Except Err Slice :=
  if indexEquals i1 i2 then .ok .all
  else
    match buildMapper i1 i2 with
    | .error e => .error e
    | .ok mapper =>
      if mapper.length = 0 then .error (.valueError "Can't find common levels to align both indexes")
      else
        let stacked := stackedRows (factorized i1 i2 mapper) (i1.len + i2.len)
        let rows1 := stacked.take i1.len
        let rows2 := stacked.drop i1.len
        if (uniqueRows rows1).length ≠ rows1.length then
          .error (.valueError "Duplicated values in first index are not allowed")
        else if i1.len = 0 then .error .zeroDivision
        else
          match tileShortcut rows1 rows2 with
          | some idxs => .ok (.take idxs)
          | none => .ok (.take (alignElementwise rows1 rows2 junk))

/-- The search for a full-length index to align to, index_fns.py:329-337.  Only a `ValueError` is caught. -/
def alignSearch {N V : Type} [DecidableEq N] [DecidableEq V] (maxLen : Nat) (ii : MIndex N V) (junk : Nat → Int) :
    List (MIndex N V) → Except Err (Option Slice)
  | [] => .ok none
  | ij :: rest =>
    if ij.len = maxLen then
      match alignIndexTo ii ij junk with
      | .ok s => .ok (some s)
      | .error (.valueError _) => alignSearch maxLen ii junk rest
      | .error e => .error e
    else alignSearch maxLen ii junk rest

/-- One index of `align_indexes`, index_fns.py:325-339. -/
def alignOne {N V : Type} [DecidableEq N] [DecidableEq V] (indexes : List (MIndex N V)) (maxLen : Nat) (junk : Nat → Int)
    (out : List Slice) (ii : MIndex N V) : Except Err (List Slice) :=
  if ii.len = maxLen then .ok (out ++ [.all])
  else
    match alignSearch maxLen ii junk indexes with
    | .error e => .error e
    | .ok (some s) => .ok (out ++ [s])
    | .ok none => .error (.valueError "Index at position {i} could not be aligned")

/-- `align_indexes`, index_fns.py:321-340. -/
def alignIndexes {N V : Type} [DecidableEq N] [DecidableEq V] (indexes : List (MIndex N V)) (junk : Nat → Int) :
    Except Err (List Slice) :=
  loopE (alignOne indexes ((indexes.map MIndex.len).foldl max 0) junk) [] indexes

end Vbt
