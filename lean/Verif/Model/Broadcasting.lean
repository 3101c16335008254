import Verif.Model.Flex
import Verif.Model.IndexFns

/-!
# Broadcasting of arrays with labels: `vectorbt/base/reshape_fns.py`

Modelled without the step that aligns labels (reshape_fns.py:565-587, see `Model/Align`): it does nothing with
`align_index=False` (the default) if the frames with more than one column have the same number of columns.
`np.require` changes the memory layout and not the elements.  Index objects are those of `Model/IndexFns`.

The name of a series is one label or, if it is a tuple, several.  `pd.Index([name])` of a tuple is a multi-index of one row.
-/

namespace Vbt

/-- An argument, or a result: an array, a series or a frame, with the elements by position. -/
inductive BArg (N V α : Type) where
  | arr (a : NArr α)
  | series (index : Idx N V) (name : Option (List V)) (get : Nat → α)
  | frame (index columns : Idx N V) (get : Nat → Nat → α)

/-- The position in an array of shape `d` (from the last dimension on) that `np.broadcast_to` shows at position `p`: the stride
of a dimension of length one is zero. -/
def srcRev : List Nat → List Nat → List Nat
  | d :: ds, p :: ps => (if d = 1 then 0 else p) :: srcRev ds ps
  | _, _ => []

/-- Whether shape `s` can be broadcast to `t`, both from the last dimension on. -/
def fitsRev : List Nat → List Nat → Bool
  | [], _ => true
  | _ :: _, [] => false
  | a :: s, b :: t => (decide (a = 1) || decide (a = b)) && fitsRev s t

/-- `np.broadcast_to` (NumPy). -/
def npBroadcastTo {α : Type} (a : NArr α) (t : List Nat) : Except Err (NArr α) :=
  if fitsRev a.shape.reverse t.reverse then
    .ok ⟨t, fun p => a.get (srcRev a.shape.reverse p.reverse).reverse⟩
  else .error (.valueError "operands could not be broadcast together with remapped shapes")

/-- One pair of shapes of `np.broadcast_shapes`, from the last dimension on. -/
def joinRev : List Nat → List Nat → Option (List Nat)
  | [], t => some t
  | s, [] => some s
  | a :: s, b :: t =>
    match (if a = 1 then some b else if b = 1 then some a else if a = b then some a else none), joinRev s t with
    | some d, some r => some (d :: r)
    | _, _ => none

/-- `np.broadcast_shapes` (NumPy). -/
def broadcastShapes : List (List Nat) → List Nat → Except Err (List Nat)
  | [], acc => .ok acc.reverse
  | s :: rest, acc =>
    match joinRev s.reverse acc with
    | none => .error (.valueError "shape mismatch: objects cannot be broadcast to a single shape")
    | some r => broadcastShapes rest r

section
variable {N V α : Type} [DecidableEq N] [DecidableEq V]

/-- `checks.is_pandas`. -/
def BArg.isPandas : BArg N V α → Bool
  | .arr _ => false
  | _ => true

/-- `checks.is_series`. -/
def BArg.isSeries : BArg N V α → Bool
  | .series .. => true
  | _ => false

/-- `np.asarray`. -/
def BArg.toArr : BArg N V α → NArr α
  | .arr a => a
  | .series i _ g => ⟨[i.len], fun p => g (p.getD 0 0)⟩
  | .frame i c g => ⟨[i.len, c.len], fun p => g (p.getD 0 0) (p.getD 1 0)⟩

/-- `pd.Index([name])`, with `[0]` for a series without name, index_fns.py:36-39. -/
def nameIndex (nat : Nat → V) : Option (List V) → Idx N V
  | none => .single ⟨none, [nat 0]⟩
  | some [v] => .single ⟨none, [v]⟩
  | some vs => .multi (vs.map (fun v => ⟨none, [v]⟩))

/-- `index_fns.get_index`, index_fns.py:28-41. -/
def BArg.getIndex (nat : Nat → V) (axis1 : Bool) : BArg N V α → Except Err (Idx N V)
  | .arr _ => .error (.rejected "assert_instance_of")
  | .series i name _ => .ok (if axis1 then nameIndex nat name else i)
  | .frame i c _ => .ok (if axis1 then c else i)

/-- The labels of the pandas objects along an axis, and whether the object is a series. -/
def pdIndexes (nat : Nat → V) (axis1 : Bool) (args : List (BArg N V α)) : List (Bool × Idx N V) :=
  args.filterMap fun a =>
    match a.getIndex nat axis1 with
    | .error _ => none
    | .ok i => some (a.isSeries, i)

/-- `index_from` and `columns_from`: a rule, the number of an argument, or an index.  `None` is the rule 'keep'. -/
inductive IndexFrom (N V : Type) where
  | rule (s : String)
  | pos (k : Int)
  | labels (i : Idx N V)

/-- The loop that finds whether the labels differ, reshape_fns.py:239-248. -/
def conflictLoop : List (Bool × Idx N V) → Option (Idx N V) → Bool → Option (Idx N V) × Bool
  | [], last, c => (last, c)
  | (_, i) :: rest, last, c =>
    conflictLoop rest (some i)
      (match last with
      | none => c
      | some l => if isIndexEqual true i l then c else true)

/-- The settings of broadcasting, `_settings.py:131-141`. -/
structure BcLabels where
  ignoreSrNames : Bool := true
  ignoreDefault : Bool := true
  stack : StackOpts := {}

/-- Two indexes of which one may have a single row, reshape_fns.py:277-284. -/
def stackPair (nat : Nat → V) (o : BcLabels) (new index : Idx N V) : Except Err (Idx N V) :=
  if index.len ≠ new.len then
    if index.len > 1 ∧ new.len > 1 then .error (.valueError "Indexes could not be broadcast together")
    else if index.len > new.len then
      stackIndexes nat o.stack [repeatIndex nat o.ignoreDefault new index.len, index]
    else stackIndexes nat o.stack [new, repeatIndex nat o.ignoreDefault index new.len]
  else stackIndexes nat o.stack [new, index]

/-- The loop that stacks the labels, reshape_fns.py:253-284. -/
def stackLoop (nat : Nat → V) (o : BcLabels) (axis1 strict : Bool) :
    List (Bool × Idx N V) → Option (Idx N V) → Except Err (Option (Idx N V))
  | [], new => .ok new
  | (sr, index) :: rest, new =>
    if axis1 && sr && o.ignoreSrNames then stackLoop nat o axis1 strict rest new
    else if isDefaultIndex nat index then stackLoop nat o axis1 strict rest new
    else
      match new with
      | none => stackLoop nat o axis1 strict rest (some index)
      | some n =>
        if isIndexEqual true index n then stackLoop nat o axis1 strict rest (some n)
        else if strict then .error (.valueError "Broadcasting index is not allowed when index_from=strict")
        else
          match stackPair nat o n index with
          | .error e => .error e
          | .ok n' => stackLoop nat o axis1 strict rest (some n')

/-- Python's `args[k]`. -/
def pyGet {β : Type} (l : List β) (k : Int) : Except Err β :=
  match l[(if k < 0 then k + l.length else k).toNat]? with
  | some x => if (if k < 0 then k + l.length else k) < 0 then .error (.indexError "list index out of range") else .ok x
  | none => .error (.indexError "list index out of range")

/-- `maxlen`, reshape_fns.py:221-223. -/
def axisLen (axis1 : Bool) (toShape : List Nat) : Except Err Nat :=
  match toShape with
  | [] => .error (.indexError "tuple index out of range")
  | [n] => .ok (if axis1 then 1 else n)
  | n :: m :: _ => .ok (if axis1 then m else n)

/-- The end of `broadcast_index`: labels that are too short are repeated, reshape_fns.py:289-301. -/
def fitIndex (nat : Nat → V) (o : BcLabels) (strict : Bool) (maxlen : Nat) : Option (Idx N V) → Except Err (Idx N V)
  | some n =>
    if maxlen > n.len then
      if strict then .error (.valueError "Broadcasting index is not allowed when index_from=strict")
      else if maxlen > 1 ∧ n.len > 1 then .error (.valueError "Indexes could not be broadcast together")
      else .ok (repeatIndex nat o.ignoreDefault n maxlen)
    else .ok n
  | none => .ok (rangeIndex nat maxlen)

/-- The rules 'stack' and 'strict', reshape_fns.py:237-284. -/
def ruleIndex (nat : Nat → V) (o : BcLabels) (axis1 strict : Bool) (args : List (BArg N V α)) :
    Except Err (Option (Idx N V)) :=
  if (conflictLoop (pdIndexes nat axis1 args) none false).2 then
    stackLoop nat o axis1 strict (pdIndexes nat axis1 args) none
  else .ok (conflictLoop (pdIndexes nat axis1 args) none false).1

/-- `broadcast_index`, reshape_fns.py:176-302. -/
def broadcastIndex (nat : Nat → V) (o : BcLabels) (axis1 : Bool) (args : List (BArg N V α)) (toShape : List Nat)
    (from_ : IndexFrom N V) : Except Err (Option (Idx N V)) :=
  match axisLen axis1 toShape with
  | .error e => .error e
  | .ok maxlen =>
    match from_ with
    | .labels i => (fitIndex nat o false maxlen (some i)).map some
    | .pos k =>
      match pyGet args k with
      | .error e => .error e
      | .ok a =>
        if a.isPandas then
          match a.getIndex nat axis1 with
          | .error e => .error e
          | .ok i => (fitIndex nat o false maxlen (some i)).map some
        else .error (.typeError "Argument must be a pandas object")
    | .rule s =>
      if s.toLower = "keep" then .ok none
      else if s.toLower = "reset" then (fitIndex nat o false maxlen (some (rangeIndex nat maxlen))).map some
      else if s.toLower = "stack" ∨ s.toLower = "strict" then
        match ruleIndex nat o axis1 (decide (s.toLower = "strict")) args with
        | .error e => .error e
        | .ok n => (fitIndex nat o (decide (s.toLower = "strict")) maxlen n).map some
      else .error (.valueError "Invalid value")

/-- The labels taken from the argument itself, reshape_fns.py:316-330. -/
def oldLabels (nat : Nat → V) (o : BcLabels) (old : Idx N V) (n : Nat) : Idx N V :=
  if old.len = n then old else repeatIndex nat o.ignoreDefault old n

/-- `new_columns[0]` as a name, reshape_fns.py:333-338; `0` is no name. -/
def nameOf (nat : Nat → V) : Option (Idx N V) → Option (List V)
  | none => none
  | some i =>
    if i.len = 1 then
      match i with
      | .single l => if l.vals = [nat 0] then none else some l.vals
      | .multi ls => some (ls.flatMap Lev.vals)
    else none

/-- `pd.Series(new_arg, index, name)` and `pd.DataFrame(new_arg, index, columns)`. -/
def mkPandas (nat : Nat → V) (new : NArr α) (index columns : Option (Idx N V)) : Except Err (BArg N V α) :=
  match new.shape with
  | [n] =>
    let i := index.getD (rangeIndex nat n)
    if i.len = n then .ok (.series i (nameOf nat columns) (fun r => new.get [r]))
    else .error (.valueError "Length of values does not match length of index")
  | [n, m] =>
    let i := index.getD (rangeIndex nat n)
    let c := columns.getD (rangeIndex nat m)
    if i.len = n ∧ c.len = m then .ok (.frame i c (fun r k => new.get [r, k]))
    else .error (.valueError "Shape of passed values does not match indices")
  | _ => .error (.valueError "Data must be 1-dimensional")

/-- `wrap_broadcasted`, reshape_fns.py:305-340. -/
def wrapBroadcasted (nat : Nat → V) (o : BcLabels) (old : BArg N V α) (new : NArr α) (isPd : Bool)
    (newIndex newColumns : Option (Idx N V)) : Except Err (BArg N V α) :=
  if isPd then
    match old.getIndex nat false, old.getIndex nat true with
    | .ok oi, .ok oc =>
      mkPandas nat new (some (newIndex.getD (oldLabels nat o oi (new.shape.getD 0 0))))
        (some (newColumns.getD (oldLabels nat o oc (if new.shape.length = 2 then new.shape.getD 1 0 else 1))))
    | _, _ => mkPandas nat new newIndex newColumns
  else .ok (.arr new)

/-- An option for all arguments, or one for each. -/
inductive PerArg where
  | all (b : Bool)
  | each (l : List Bool)

/-- `_keep_raw`, reshape_fns.py:602-605 and 627-630. -/
def PerArg.get : PerArg → Nat → Except Err Bool
  | .all b, _ => .ok b
  | .each l, k =>
    match l[k]? with
    | some b => .ok b
    | none => .error (.indexError "list index out of range")

/-- The options of `broadcast`; the defaults are those of `_settings.py:131-141`. -/
structure BcOpts (N V : Type) where
  toShape : Option (List Nat) := none
  toPd : Option PerArg := none
  toFrame : Option Bool := none
  indexFrom : IndexFrom N V := .rule "strict"
  columnsFrom : IndexFrom N V := .rule "stack"
  keepRaw : PerArg := .all false
  labels : BcLabels := {}

/-- `is_2d`, reshape_fns.py:523-556. -/
def bc2d (o : BcOpts N V) (args : List (BArg N V α)) : Bool :=
  match o.toFrame with
  | some b => b
  | none => args.any (fun a => decide (1 < a.toArr.shape.length)) ||
      (match o.toShape with
      | some s => decide (1 < s.length)
      | none => false)

/-- `is_pd`, reshape_fns.py:522-563. -/
def bcPd (o : BcOpts N V) (args : List (BArg N V α)) : Bool :=
  match o.toPd with
  | some (.all b) => b
  | some (.each l) => l.any id
  | none => args.any BArg.isPandas

/-- `arg.to_frame() if is_2d and checks.is_series(arg) else arg` as an array, reshape_fns.py:590. -/
def toArr2d (is2d : Bool) : BArg N V α → NArr α
  | .series i n g => if is2d then ⟨[i.len, 1], fun p => g (p.getD 0 0)⟩ else (BArg.series (N := N) (V := V) i n g).toArr
  | a => a.toArr

/-- The loop of broadcasting, reshape_fns.py:600-610. -/
def bcLoop (keepRaw : PerArg) (t : List Nat) : List (NArr α) → Nat → Except Err (List (NArr α))
  | [], _ => .ok []
  | a :: rest, k =>
    match keepRaw.get k with
    | .error e => .error e
    | .ok raw =>
      match npBroadcastTo a t with
      | .error e => .error e
      | .ok b =>
        match bcLoop keepRaw t rest (k + 1) with
        | .error e => .error e
        | .ok bs => .ok ((if raw then a else b) :: bs)

/-- `_is_pd`, reshape_fns.py:633-636. -/
def wrapPd (toPd : Option PerArg) (isPd : Bool) (k : Nat) : Except Err Bool :=
  match toPd with
  | some (.each l) => (PerArg.each l).get k
  | _ => .ok isPd

/-- One argument of the loop that brings arrays to their types, reshape_fns.py:627-643.  What is kept raw stays an array. -/
def wrapOne (nat : Nat → V) (o : BcOpts N V) (isPd : Bool) (newIndex newColumns : Option (Idx N V)) (old : BArg N V α)
    (new : NArr α) (k : Nat) : Except Err (BArg N V α) :=
  match o.keepRaw.get k with
  | .error e => .error e
  | .ok true => .ok (.arr new)
  | .ok false =>
    match wrapPd o.toPd isPd k with
    | .error e => .error e
    | .ok pd => wrapBroadcasted nat o.labels old new pd newIndex newColumns

/-- The loop that brings arrays to their types, reshape_fns.py:626-643. -/
def wrapLoop (nat : Nat → V) (o : BcOpts N V) (isPd : Bool) (newIndex newColumns : Option (Idx N V)) :
    List (BArg N V α × NArr α) → Nat → Except Err (List (BArg N V α))
  | [], _ => .ok []
  | (old, new) :: rest, k =>
    match wrapOne nat o isPd newIndex newColumns old new k with
    | .error e => .error e
    | .ok w =>
      match wrapLoop nat o isPd newIndex newColumns rest (k + 1) with
      | .error e => .error e
      | .ok ws => .ok (w :: ws)

/-- What `broadcast` returns with `return_meta=True`. -/
structure BcResult (N V α : Type) where
  args : List (BArg N V α)
  shape : List Nat
  index : Option (Idx N V)
  columns : Option (Idx N V)

/-- `to_shape`, reshape_fns.py:593-597. -/
def targetShape (o : BcOpts N V) (arrs : List (NArr α)) : Except Err (List Nat) :=
  match o.toShape with
  | some s => .ok s
  | none => broadcastShapes (arrs.map NArr.shape) []

/-- `new_index` and `new_columns`, reshape_fns.py:617-623. -/
def bcLabels (nat : Nat → V) (o : BcOpts N V) (args : List (BArg N V α)) (t : List Nat) :
    Except Err (Option (Idx N V) × Option (Idx N V)) :=
  if bcPd o args then
    match broadcastIndex nat o.labels false args t o.indexFrom with
    | .error e => .error e
    | .ok i =>
      match broadcastIndex nat o.labels true args t o.columnsFrom with
      | .error e => .error e
      | .ok c => .ok (i, c)
  else .ok (none, none)

/-- `broadcast`, reshape_fns.py:349-651. -/
def broadcast (nat : Nat → V) (o : BcOpts N V) (args : List (BArg N V α)) : Except Err (BcResult N V α) :=
  let arrs := args.map (toArr2d (bc2d o args))
  match targetShape o arrs with
  | .error e => .error e
  | .ok t =>
    match bcLoop o.keepRaw t arrs 0 with
    | .error e => .error e
    | .ok news =>
      match bcLabels nat o args t with
      | .error e => .error e
      | .ok (i, c) =>
        match wrapLoop nat o (bcPd o args) i c (args.zip news) 0 with
        | .error e => .error e
        | .ok ws => if ws.isEmpty then .error (.indexError "list index out of range") else .ok ⟨ws, t, i, c⟩

/-- The options that `broadcast_to` passes for a pandas object, reshape_fns.py:690-697. -/
def toPdOpts (t : List Nat) (i c : Idx N V) : BcOpts N V :=
  { toShape := some t, toPd := some (.all true), indexFrom := .labels i, columnsFrom := .labels c }

/-- The options that `broadcast_to` passes for an array, reshape_fns.py:697. -/
def toArrOpts (t : List Nat) : BcOpts N V := { toShape := some t, toPd := some (.all false) }

/-- `broadcast_to`, reshape_fns.py:654-697, with the labels of the second argument. -/
def broadcastToOf (nat : Nat → V) (arg1 : BArg N V α) {β : Type} (arg2 : BArg N V β) : Except Err (BArg N V α) :=
  match (if arg2.isPandas then
      match arg2.getIndex nat false, arg2.getIndex nat true with
      | .ok i, .ok c => broadcast nat (toPdOpts arg2.toArr.shape i c) [arg1]
      | _, _ => .error (.rejected "assert_instance_of")
    else broadcast nat (toArrOpts arg2.toArr.shape) [arg1]) with
  | .error e => .error e
  | .ok r => pyGet r.args 0

end

/-- `broadcast_to_array_of`, reshape_fns.py:700-732: `np.tile` of an array with dimensions of length one at its end. -/
def broadcastToArrayOf {α β : Type} (a : NArr α) (b : NArr β) : Except Err (NArr α) :=
  if a.shape.length = b.shape.length + 1 ∧ a.shape.tail = b.shape then .ok a
  else
    match a.shape with
    | [] => if b.shape = [] then .ok ⟨[1], fun _ => a.get []⟩ else .ok ⟨1 :: b.shape, fun _ => a.get []⟩
    | [n] => if b.shape = [] then .ok a else .ok ⟨n :: b.shape, fun p => a.get [p.getD 0 0]⟩
    | _ => .error (.rejected "assert_ndim")

/-- `broadcast_to_axis_of`, reshape_fns.py:735-753, with `axis ≥ 0`: a single number if the axis does not exist. -/
def broadcastToAxisOf {α β : Type} (a : NArr α) (b : NArr β) (axis : Nat) : Except Err (NArr α) :=
  if b.shape.length < axis + 1 then
    match npBroadcastTo a [1] with
    | .error e => .error e
    | .ok c => .ok ⟨[], fun _ => c.get [0]⟩
  else npBroadcastTo a [b.shape.getD axis 0]

end Vbt
