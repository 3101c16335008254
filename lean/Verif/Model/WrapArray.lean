import Verif.Model.Float

/-!
# Wrapping arrays: `ArrayWrapper.wrap`, `wrap_reduced`, `fill`, `fill_reduced`, `vectorbt/base/array_wrapper.py`

A wrapper is given by its index and number of dimensions and by those of the wrapper it is resolved to (columns or groups,
C87).  Element types, time deltas and warnings are left out; pandas checks lengths of labels.
-/

namespace Vbt

/-- A NumPy array; the rows of a two-dimensional one have `m` elements each. -/
inductive NdArr (V : Type) where
  | d0 (v : V)
  | d1 (vs : List V)
  | d2 (m : Nat) (rows : List (List V))
  | more
deriving DecidableEq

/-- A Series or DataFrame. -/
inductive PdObj (R C V : Type) where
  | series (index : List R) (name : Option C) (values : List V)
  | frame (index : List R) (columns : List C) (rows : List (List V))
deriving DecidableEq

/-- The wrapper (`index`, `ndim`) and what `resolve(group_by)` gives (`columns`, `rndim`), base/array_wrapper.py:520-533. -/
structure WrapCtx (R C : Type) where
  index : List R
  ndim : Nat
  columns : List C
  rndim : Nat

variable {R C I V : Type}

/-- `arr[pd.isnull(arr)] = fillna`, base/array_wrapper.py:583-584, 655-656. -/
def fillNull (isNull : V → Bool) (fillna : Option V) : NdArr V → NdArr V
  | arr =>
    match fillna with
    | none => arr
    | some x =>
      let f (v : V) : V := if isNull v then x else v
      match arr with
      | .d0 v => .d0 (f v)
      | .d1 vs => .d1 (vs.map f)
      | .d2 m rows => .d2 m (rows.map fun r => r.map f)
      | .more => .more

/-- `soft_to_ndim`, base/reshape_fns.py:52-66. -/
def softNdim (n : Nat) : NdArr V → NdArr V
  | .d2 m rows => if n = 1 ∧ m = 1 then .d1 rows.flatten else .d2 m rows
  | .d1 vs => if n = 2 then .d2 1 (vs.map fun v => [v]) else .d1 vs
  | a => a

/-- The name of a Series, base/array_wrapper.py:573-578. -/
def wrapName (isZero : C → Bool) : List C → Option C
  | [c] => if isZero c then none else some c
  | _ => none

/-- The checks of shapes and the construction in `ArrayWrapper.wrap`, base/array_wrapper.py:586-595. -/
def wrapChecked (isZero : C → Bool) (rndim : Nat) (index : List R) (columns : List C) : NdArr V → Except Err (PdObj R C V)
  | .d1 vs =>
    if vs.length ≠ index.length then .error (.rejected "Axis 0 does not match")
    else .ok (.series index (wrapName isZero columns) vs)
  | .d2 m rows =>
    if rows.length ≠ index.length then .error (.rejected "Axis 0 does not match")
    else if m ≠ columns.length then .error (.rejected "Axis 1 does not match")
    else if m = 1 ∧ rndim = 1 then .ok (.series index (wrapName isZero columns) rows.flatten)
    else .ok (.frame index columns rows)
  | _ => .error (.rejected "Number of dimensions must be one of (1, 2)")

/-- `ArrayWrapper.wrap`, base/array_wrapper.py:535-597; arrays of other dimensions are rejected before they are filled. -/
def wrapArr (isNull : V → Bool) (isZero : C → Bool) (w : WrapCtx R C) (index : Option (List R)) (columns : Option (List C))
    (fillna : Option V) (arr : NdArr V) : Except Err (PdObj R C V) :=
  wrapChecked isZero w.rndim (index.getD w.index) (columns.getD w.columns) (softNdim w.ndim (fillNull isNull fillna arr))

/-- The array of the caller after `wrap` or `wrap_reduced`: `np.asarray` does not copy an array (`isArray`). -/
def callerArr (isNull : V → Bool) (fillna : Option V) (isArray : Bool) (arr : NdArr V) : NdArr V :=
  if isArray then fillNull isNull fillna arr else arr

/-- `self.index[x] if x != -1 else np.nan`, base/array_wrapper.py:601-605, 690-697; `none` is NaN. -/
def indexLabel (index : List R) : Option Int → Except Err (Option R)
  | none => .error (.indexError "only integers are valid indices")
  | some x =>
    if x = -1 then .ok none
    else
      let i := if x < 0 then x + index.length else x
      if i < 0 then .error (.indexError "index is out of bounds")
      else
        match index[i.toNat]? with
        | some l => .ok (some l)
        | none => .error (.indexError "index is out of bounds")

/-- All labels of a list, or the first error. -/
def indexLabels (index : List R) : List (Option Int) → Except Err (List (Option R))
  | [] => .ok []
  | x :: xs =>
    match indexLabel index x with
    | .error e => .error e
    | .ok l =>
      match indexLabels index xs with
      | .error e => .error e
      | .ok ls => .ok (l :: ls)

/-- `columns[0]` and `0` read as no name, base/array_wrapper.py:666-668, 678-680. -/
def firstName (isZero : C → Bool) : List C → Except Err (Option C)
  | [] => .error (.indexError "index 0 is out of bounds for axis 0 with size 0")
  | c :: _ => .ok (if isZero c then none else some c)

/-- `name_or_index`. -/
inductive NameIdx (I : Type) where
  | absent
  | name (s : String)
  | labels (ls : List I)

/-- `name_or_index` as an index, base/array_wrapper.py:669-670. -/
def NameIdx.asIndex : NameIdx I → Option (List I)
  | .labels ls => some ls
  | _ => none

/-- Results of reductions. -/
inductive RedObj (C I V : Type) where
  | scalar (v : V)
  | perColumn (name : Option String) (columns : List C) (values : List V)
  | series (index : Option (List I)) (name : Option C) (values : List V)
  | frame (index : Option (List I)) (columns : List C) (rows : List (List V))
deriving DecidableEq

/-- `pd.Series(arr, index=…)` raises for an index of another length. -/
def lenOk (index : Option (List I)) (n : Nat) : Bool :=
  match index with
  | none => true
  | some ls => ls.length == n

/-- `ArrayWrapper.wrap_reduced`, base/array_wrapper.py:611-690. -/
def wrapReducedArr (isNull : V → Bool) (isZero : C → Bool) (w : WrapCtx R C) (ni : NameIdx I) (columns : Option (List C))
    (fillna : Option V) (arr : NdArr V) : Except Err (RedObj C I V) :=
  let columns := columns.getD w.columns
  let perSeries (vs : List V) : Except Err (RedObj C I V) :=
    match firstName isZero columns with
    | .error e => .error e
    | .ok n => if lenOk ni.asIndex vs.length then .ok (.series ni.asIndex n vs) else .error (.valueError "Length of values does not match length of index")
  match fillNull isNull fillna arr with
  | .d0 v => .ok (.scalar v)
  | .d1 vs =>
    if w.rndim = 1 then
      match vs with
      | [v] => .ok (.scalar v)
      | _ => perSeries vs
    else
      match ni with
      | .labels _ => .error (.typeError "Series.name must be a hashable type")
      | .name s =>
        if vs.length = columns.length then .ok (.perColumn (some s) columns vs) else .error (.valueError "Length of values does not match length of index")
      | .absent =>
        if vs.length = columns.length then .ok (.perColumn none columns vs) else .error (.valueError "Length of values does not match length of index")
  | .d2 m rows =>
    if m = 1 ∧ w.rndim = 1 then perSeries rows.flatten
    else if m ≠ columns.length then .error (.valueError "Shape of passed values")
    else if lenOk ni.asIndex rows.length then .ok (.frame ni.asIndex columns rows)
    else .error (.valueError "Shape of passed values")
  | .more => .error (.valueError "input is not supported")

/-- The labels of all rows of positions. -/
def indexRows (index : List R) : List (List (Option Int)) → Except Err (List (List (Option R)))
  | [] => .ok []
  | x :: xs =>
    match indexLabels index x with
    | .error e => .error e
    | .ok l =>
      match indexRows index xs with
      | .error e => .error e
      | .ok ls => .ok (l :: ls)

/-- `wrap(…, to_index=True)`, base/array_wrapper.py:598-605; `none` is NaN. -/
def wrapToIndex (isZero : C → Bool) (w : WrapCtx R C) (index : Option (List R)) (columns : Option (List C))
    (fillna : Option (Option Int)) (arr : NdArr (Option Int)) : Except Err (PdObj R C (Option R)) :=
  match wrapArr Option.isNone isZero w index columns fillna arr with
  | .error e => .error e
  | .ok (.series i n vs) =>
    match indexLabels w.index vs with
    | .error e => .error e
    | .ok ls => .ok (.series i n ls)
  | .ok (.frame i c rows) =>
    match indexRows w.index rows with
    | .error e => .error e
    | .ok ls => .ok (.frame i c ls)

/-- `wrap_reduced(…, to_index=True)`, base/array_wrapper.py:645-649, 690-699. -/
def wrapReducedToIndex (isZero : C → Bool) (w : WrapCtx R C) (ni : NameIdx I) (columns : Option (List C))
    (fillna : Option (Option Int)) (arr : NdArr (Option Int)) : Except Err (RedObj C I (Option R)) :=
  match wrapReducedArr Option.isNone isZero w ni columns (fillna.or (some (some (-1)))) arr with
  | .error e => .error e
  | .ok (.scalar v) =>
    match indexLabel w.index v with
    | .error e => .error e
    | .ok l => .ok (.scalar l)
  | .ok (.perColumn n c vs) =>
    match indexLabels w.index vs with
    | .error e => .error e
    | .ok ls => .ok (.perColumn n c ls)
  | .ok (.series i n vs) =>
    match indexLabels w.index vs with
    | .error e => .error e
    | .ok ls => .ok (.series i n ls)
  | .ok (.frame i c rows) =>
    match indexRows w.index rows with
    | .error e => .error e
    | .ok ls => .ok (.frame i c ls)

/-- `ArrayWrapper.shape_2d`, base/array_wrapper.py:413-429, of a resolved wrapper. -/
def wrapShape (w : WrapCtx R C) : Nat × Nat := (w.index.length, if w.rndim = 1 then 1 else w.columns.length)

/-- The resolved wrapper. -/
def WrapCtx.resolved (w : WrapCtx R C) : WrapCtx R C := { w with ndim := w.rndim }

/-- `ArrayWrapper.fill`, base/array_wrapper.py:711-714. -/
def wrapFill (isNull : V → Bool) (isZero : C → Bool) (w : WrapCtx R C) (v : V) : Except Err (PdObj R C V) :=
  wrapArr isNull isZero w.resolved none none none
    (.d2 (wrapShape w).2 (List.replicate (wrapShape w).1 (List.replicate (wrapShape w).2 v)))

/-- `ArrayWrapper.fill_reduced`, base/array_wrapper.py:716-719. -/
def wrapFillReduced (isNull : V → Bool) (isZero : C → Bool) (w : WrapCtx R C) (v : V) : Except Err (PdObj R C V) :=
  wrapArr isNull isZero w.resolved none none none (.d1 (List.replicate (wrapShape w).2 v))

/-- `ArrayWrapper.from_obj`, base/array_wrapper.py:357-367, with `get_index`, base/index_fns.py; `zero` is the label 0. -/
def ctxOf (zero : C) : PdObj R C V → WrapCtx R C
  | .series index name _ => ⟨index, 1, [name.getD zero], 1⟩
  | .frame index columns _ => ⟨index, 2, columns, 2⟩

/-- `to_2d_array(obj)`, base/reshape_fns.py:80-103. -/
def arrOf2 : PdObj R C V → NdArr V
  | .series _ _ vs => .d2 1 (vs.map fun v => [v])
  | .frame _ columns rows => .d2 columns.length rows

/-- `to_1d_array` of a Series or the values of a DataFrame. -/
def arrOf : PdObj R C V → NdArr V
  | .series _ _ vs => .d1 vs
  | .frame _ columns rows => .d2 columns.length rows

end Vbt
