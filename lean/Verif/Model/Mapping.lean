import Verif.Model.Float

/-!
# Names for numbers: `vectorbt/utils/mapping.py`, `vectorbt/utils/enum_.py`

An enum is a named tuple of integers.  Objects are scalars, tuples and lists (nested), arrays (a series or an index is an array with
labels, which stay) and frames (a list of arrays).  Keys of Python dictionaries are compared by `==`: `1`, `1.0` and `True` are the
same key.  Not modelled: sets, the dtype of the result, `pd.NA`; strings are lowered as by `Char.toLower`, which is Python's for
ASCII.
-/

namespace Vbt
open F

/-- A scalar. -/
inductive Item where
  | none
  | str (s : String)
  | int (i : Int)
  | flt (x : F)
  | bool (b : Bool)
  deriving DecidableEq

/-- `type(x)` as far as it matters: `object` is the dtype of a mixed array and the type of `None`. -/
inductive ItemKind where
  | str | int | flt | bool | object
  deriving DecidableEq

def Item.kind : Item → ItemKind
  | .none => .object
  | .str _ => .str
  | .int _ => .int
  | .flt _ => .flt
  | .bool _ => .bool

/-- `pd.isnull` of a scalar. -/
def Item.isNull : Item → Bool
  | .none => true
  | .flt x => x.isnan
  | _ => false

/-- What Python's dictionaries compare. -/
inductive Key where
  | str (s : List Char)
  | num (q : ℚ)
  | inf (pos : Bool)
  | null
  deriving DecidableEq

/-- The key of a scalar that is not null. -/
def Item.key : Item → Key
  | .none => .null
  | .str s => .str s.toList
  | .int i => .num i
  | .flt (fin q) => .num q
  | .flt pinf => .inf true
  | .flt ninf => .inf false
  | .flt nan => .null
  | .bool b => .num (if b then 1 else 0)

/-- A dictionary as the list of its assignments. -/
abbrev PyDict := List (Item × Item)

/-- `mapping[k]`: the last assignment counts. -/
def PyDict.find (d : PyDict) (k : Key) : Option Item := (d.reverse.find? fun e => e.1.key = k).map Prod.snd

/-- `to_mapping` of a named tuple (utils/mapping.py:20-40): values to names, and -1 to `None` if it is no value. -/
def enumMapping (fields : List (String × Int)) : PyDict :=
  (fields.map fun f => (Item.int f.2, Item.str f.1)) ++
    (if fields.any (fun f => f.2 = -1) then [] else [(Item.int (-1), Item.none)])

/-- The items of a dictionary: assignments that are overwritten do not show (and the key keeps its place). -/
def PyDict.items (d : PyDict) : List (Item × Item) :=
  d.foldl (fun acc e =>
    if acc.any (fun a => a.1.key = e.1.key) then acc.map (fun a => if a.1.key = e.1.key then (a.1, e.2) else a)
    else acc ++ [e]) []

/-- `reverse_mapping`, utils/mapping.py:13-17. -/
def reverseMapping (d : PyDict) : PyDict := d.items.map fun e => (e.2, e.1)

/-- The options of `apply_mapping`, utils/mapping.py:43-52. -/
structure MapOpts where
  ignoreCase : Bool := true
  ignoreUnderscores : Bool := true
  ignoreType : List (Option ItemKind) := [none]
  ignoreMissing : Bool := false
  naSentinel : Item := .none

/-- `key_func`, utils/mapping.py:71-78. -/
def keyFunc (o : MapOpts) (s : String) : String :=
  let s := if o.ignoreCase then String.ofList (s.toList.map Char.toLower) else s
  if o.ignoreUnderscores then String.ofList (s.toList.filter fun c => c ≠ '_') else s

/-- The loop that builds `new_mapping` and finds `na_sentinel`, utils/mapping.py:84-91. -/
def newMapping (o : MapOpts) : List (Item × Item) → PyDict × Item → PyDict × Item
  | [], s => s
  | (k, v) :: rest, s =>
    if k.isNull then newMapping o rest (s.1, v)
    else newMapping o rest (s.1 ++ [((match k with | .str t => Item.str (keyFunc o t) | k => k), v)], s.2)

/-- The loop of `compatible_types` over `ignore_type`, utils/mapping.py:99-118. -/
def compatKinds (x : ItemKind) : List (Option ItemKind) → Bool
  | [] => false
  | none :: _ => false
  | some y :: rest => if x ≠ .object ∧ x = y then true else compatKinds x rest

/-- `compatible_types(dtype, first)`, utils/mapping.py:93-98: an array of objects is judged by its first element. -/
def compatArray (o : MapOpts) (dtype : ItemKind) (first : Item) : Bool :=
  if first = .none then compatKinds dtype o.ignoreType
  else compatKinds (if dtype = .object then first.kind else dtype) o.ignoreType

/-- `convert_value`, utils/mapping.py:120-130. -/
def convertValue (o : MapOpts) (m : PyDict × Item) (x : Item) : Except Err Item :=
  if x.isNull then .ok m.2
  else
    let x := match x with | .str s => Item.str (keyFunc o s) | x => x
    match m.1.find x.key with
    | some v => .ok v
    | none => if o.ignoreMissing then .ok x else .error (.keyError "key")

/-- Objects that can be mapped. -/
inductive MapObj where
  | scalar (x : Item)
  | seq (l : List MapObj)
  | array (dtype : ItemKind) (l : List Item)
  | frame (cols : List (ItemKind × List Item))

/-- All values of an array converted, or the error of the first that cannot be. -/
def convertAll (o : MapOpts) (m : PyDict × Item) : List Item → Except Err (List Item)
  | [] => .ok []
  | x :: xs =>
    match convertValue o m x with
    | .error e => .error e
    | .ok y =>
      match convertAll o m xs with
      | .error e => .error e
      | .ok ys => .ok (y :: ys)

/-- An array or a column, utils/mapping.py:147-182.  The result is an array of objects. -/
def mapArray (o : MapOpts) (m : PyDict × Item) (dtype : ItemKind) (l : List Item) : Except Err (ItemKind × List Item) :=
  match l with
  | [] => .ok (dtype, [])
  | first :: _ =>
    if compatArray o dtype first then .ok (dtype, l)
    else
      match convertAll o m l with
      | .error e => .error e
      | .ok r => .ok (.object, r)

/-- The columns of a frame, utils/mapping.py:183-195. -/
def mapCols (o : MapOpts) (m : PyDict × Item) : List (ItemKind × List Item) → Except Err (List (ItemKind × List Item))
  | [] => .ok []
  | (d, l) :: rest =>
    match mapArray o m d l with
    | .error e => .error e
    | .ok r =>
      match mapCols o m rest with
      | .error e => .error e
      | .ok rs => .ok (r :: rs)

mutual

/-- `apply_mapping` with a mapping, utils/mapping.py:43-198, after the mapping is prepared. -/
def mapObj (o : MapOpts) (m : PyDict × Item) : MapObj → Except Err MapObj
  | .scalar x =>
    if compatKinds x.kind o.ignoreType then .ok (.scalar x)
    else
      match convertValue o m x with
      | .error e => .error e
      | .ok y => .ok (.scalar y)
  | .seq l =>
    match mapObjs o m l with
    | .error e => .error e
    | .ok r => .ok (.seq r)
  | .array d l =>
    match mapArray o m d l with
    | .error e => .error e
    | .ok (d, r) => .ok (.array d r)
  | .frame cols =>
    match mapCols o m cols with
    | .error e => .error e
    | .ok r => .ok (.frame r)

/-- The elements of a tuple or list, utils/mapping.py:132-146. -/
def mapObjs (o : MapOpts) (m : PyDict × Item) : List MapObj → Except Err (List MapObj)
  | [] => .ok []
  | x :: xs =>
    match mapObj o m x with
    | .error e => .error e
    | .ok y =>
      match mapObjs o m xs with
      | .error e => .error e
      | .ok ys => .ok (y :: ys)

end

/-- `apply_mapping`, utils/mapping.py:43-198. -/
def applyMapping (o : MapOpts) (d : PyDict) (x : MapObj) : Except Err MapObj :=
  mapObj o (newMapping o d.items ([], o.naSentinel)) x

/-- `map_enum_fields`, utils/enum_.py:13-19. -/
def mapEnumFields (fields : List (String × Int)) (x : MapObj) (ignore : List (Option ItemKind) := [some .int]) : Except Err MapObj :=
  applyMapping { ignoreType := ignore } (reverseMapping (enumMapping fields)) x

/-- `map_enum_values`, utils/enum_.py:22-28. -/
def mapEnumValues (fields : List (String × Int)) (x : MapObj) (ignore : List (Option ItemKind) := [some .str]) : Except Err MapObj :=
  applyMapping { ignoreType := ignore } (enumMapping fields) x

/-- The enums of the library: labels/enums.py:16-21, generic/enums.py, signals/enums.py, portfolio/enums.py:68-600. -/
def libraryEnums : List (String × List (String × Int)) := [
  ("TrendMode", [("Binary", 0), ("BinaryCont", 1), ("BinaryContSat", 2), ("PctChange", 3), ("PctChangeNorm", 4)]),
  ("RangeStatus", [("Open", 0), ("Closed", 1)]),
  ("DrawdownStatus", [("Active", 0), ("Recovered", 1)]),
  ("StopType", [("StopLoss", 0), ("TrailStop", 1), ("TakeProfit", 2)]),
  ("FactoryMode", [("Entries", 0), ("Exits", 1), ("Both", 2), ("Chain", 3)]),
  ("InitCashMode", [("Auto", 0), ("AutoAlign", 1)]),
  ("CallSeqType", [("Default", 0), ("Reversed", 1), ("Random", 2), ("Auto", 3)]),
  ("AccumulationMode", [("Disabled", 0), ("Both", 1), ("AddOnly", 2), ("RemoveOnly", 3)]),
  ("ConflictMode", [("Ignore", 0), ("Entry", 1), ("Exit", 2), ("Adjacent", 3), ("Opposite", 4)]),
  ("DirectionConflictMode", [("Ignore", 0), ("Long", 1), ("Short", 2), ("Adjacent", 3), ("Opposite", 4)]),
  ("OppositeEntryMode", [("Ignore", 0), ("Close", 1), ("CloseReduce", 2), ("Reverse", 3), ("ReverseReduce", 4)]),
  ("StopEntryPrice", [("ValPrice", 0), ("Price", 1), ("FillPrice", 2), ("Close", 3)]),
  ("StopExitPrice", [("StopLimit", 0), ("StopMarket", 1), ("Price", 2), ("Close", 3)]),
  ("StopExitMode", [("Close", 0), ("CloseReduce", 1), ("Reverse", 2), ("ReverseReduce", 3)]),
  ("StopUpdateMode", [("Keep", 0), ("Override", 1), ("OverrideNaN", 2)]),
  ("SizeType", [("Amount", 0), ("Value", 1), ("Percent", 2), ("TargetAmount", 3), ("TargetValue", 4), ("TargetPercent", 5)]),
  ("Direction", [("LongOnly", 0), ("ShortOnly", 1), ("Both", 2)]),
  ("OrderStatus", [("Filled", 0), ("Ignored", 1), ("Rejected", 2)]),
  ("OrderSide", [("Buy", 0), ("Sell", 1)]),
  ("OrderStatusInfo", [("SizeNaN", 0), ("PriceNaN", 1), ("ValPriceNaN", 2), ("ValueNaN", 3), ("ValueZeroNeg", 4), ("SizeZero", 5),
    ("NoCashShort", 6), ("NoCashLong", 7), ("NoOpenPosition", 8), ("MaxSizeExceeded", 9), ("RandomEvent", 10), ("CantCoverFees", 11),
    ("MinSizeNotReached", 12), ("PartialFill", 13)]),
  ("TradeDirection", [("Long", 0), ("Short", 1)]),
  ("TradeStatus", [("Open", 0), ("Closed", 1)]),
  ("TradesType", [("EntryTrades", 0), ("ExitTrades", 1), ("Positions", 2)])]

end Vbt
