import Verif.Model.Double
import Verif.Model.RustSim
import Verif.Model.RustSignalGen

/-!
# Choice of the engine: `vectorbt/_engine.py`

Which engine a call runs on, when a call can run on the Rust engine, what is done with the arrays before.  One call is
modelled as a whole: `generate_stop_ex`, signals/dispatch.py:394-446.

Simplified: numbers of all dtypes are values of `F` (0 and 1 for `False` and `True`); dtypes that are neither boolean, integer
nor float are one constructor; warnings are not modelled; shapes in the texts of errors are printed as lists.
-/

namespace Vbt.Engine
open F

/-- Sizes of integers in bits. -/
inductive IntWidth where
  | w8 | w16 | w32 | w64
deriving DecidableEq, Repr

def IntWidth.bits : IntWidth → Nat
  | .w8 => 8 | .w16 => 16 | .w32 => 32 | .w64 => 64

/-- `float16`, `float32`, `float64`, `longdouble`. -/
inductive FloatWidth where
  | half | single | double | long
deriving DecidableEq, Repr

def FloatWidth.bytes : FloatWidth → Nat
  | .half => 2 | .single => 4 | .double => 8 | .long => 16

/-- NumPy dtypes. -/
inductive DType where
  | bool
  | int (w : IntWidth)
  | uint (w : IntWidth)
  | float (w : FloatWidth)
  | other (kind : Char) (name : String)
deriving DecidableEq, Repr

/-- `dtype.kind`. -/
def DType.kind : DType → Char
  | .bool => 'b' | .int _ => 'i' | .uint _ => 'u' | .float _ => 'f' | .other k _ => k

/-- `dtype.name`. -/
def DType.name : DType → String
  | .bool => "bool"
  | .int w => s!"int{w.bits}"
  | .uint w => s!"uint{w.bits}"
  | .float .long => "longdouble"
  | .float w => s!"float{8 * w.bytes}"
  | .other _ name => name

/-- The dtypes that the Rust engine takes: `np.bool_`, `np.int64`, `np.float64`. -/
inductive Target where
  | bool | int64 | float64
deriving DecidableEq, Repr

def Target.dtype : Target → DType
  | .bool => .bool | .int64 => .int .w64 | .float64 => .float .double

/-- `np.can_cast(d, t, casting="safe")`, NumPy's table for booleans, integers and floats. -/
def canCastSafe : DType → DType → Bool
  | .bool, .bool => true
  | .bool, .int _ => true
  | .bool, .uint _ => true
  | .bool, .float _ => true
  | .int w, .int w' => decide (w.bits ≤ w'.bits)
  | .uint w, .uint w' => decide (w.bits ≤ w'.bits)
  | .uint w, .int w' => decide (w.bits < w'.bits)
  | .int w, .float w' => decide (min w.bits 32 ≤ 4 * w'.bytes)
  | .uint w, .float w' => decide (min w.bits 32 ≤ 4 * w'.bytes)
  | .float w, .float w' => decide (w.bytes ≤ w'.bytes)
  | d, d' => decide (d = d')

/-- A NumPy array with its dtype. -/
structure NdArr where
  dtype : DType
  arr : NArr F

/-- What is passed as an argument: an array, a list with the array that `np.asarray` makes of it, a Python number with the
dtype that `np.asarray` gives it, or something that is no number (a string, `None`). -/
inductive PyArg where
  | arr (a : NdArr)
  | seq (a : NdArr)
  | num (dtype : DType) (v : F)
  | text

/-- Exceptions of a call; `typingError` is Numba's, `kernel` is for those that the called function
raises. -/
inductive Exc where
  | importError
  | attributeError
  | typeError
  | typingError
  | overflowError
  | valueError (msg : String)
  | kernel (e : Err)
deriving DecidableEq, Repr

/-- `RustConversion`, _engine.py:18-26. -/
structure Conversion where
  dtype : Target
  nElements : Nat
deriving DecidableEq, Repr

/-- `RustSupport`, _engine.py:29-48. -/
structure Support where
  supported : Bool
  reason : String := ""
  conversions : List Conversion := []
deriving DecidableEq, Repr

/-- `RustSupport.requires_conversion`, _engine.py:42-45. -/
def Support.requiresConversion (s : Support) : Bool := decide (s.conversions.length > 0)

/-! ## Availability -/

/-- `version.rsplit(".", 1)[0]`: what is before the last dot. -/
def beforeLastDot (v : List Char) : List Char :=
  if '.' ∈ v then ((v.reverse.dropWhile (fun c => decide (c ≠ '.'))).drop 1).reverse else v

/-- `is_rust_available`, _engine.py:51-74.  `installed` is the version of `vectorbt_rust` if importing it succeeds; `status` is
`_rust_status`. -/
def isRustAvailable (vbt : List Char) (installed : Option (List Char)) (status : Option Bool) : Bool × Option Bool :=
  match status with
  | some b => (b, some b)
  | none =>
    match installed with
    | none => (false, some false)
    | some v =>
      if beforeLastDot vbt ≠ beforeLastDot v then (false, some false) else (true, some true)

/-- `clear_engine_cache`, _engine.py:77-80. -/
def clearEngineCache (_status : Option Bool) : Option Bool := none

/-! ## Support -/

/-- `callback_unsupported_with_rust`, _engine.py:83-85. -/
def callbackUnsupported : Support :=
  { supported := false, reason := "Rust engine is not implemented for callback-accepting functions." }

/-- `combine_rust_support`, _engine.py:88-97: the loop with what it has collected. -/
def combineFrom : List Conversion → List Support → Support
  | acc, [] => { supported := true, conversions := acc }
  | acc, s :: rest => if !s.supported then s else combineFrom (acc ++ s.conversions) rest

/-- `combine_rust_support`, _engine.py:88-97. -/
def combine (l : List Support) : Support := combineFrom [] l

/-- `non_neg_int_compatible_with_rust`, _engine.py:100-104. -/
def nonNegInt (name : String) : Option Int → Support
  | none => { supported := true }
  | some v =>
    if v < 0 then { supported := false, reason := s!"Rust engine requires `{name}` to be non-negative." }
    else { supported := true }

def badDims : Support := { supported := false, reason := "Rust engine requires 1D or 2D arrays." }

/-- `array_compatible_with_rust`, _engine.py:107-124, for an array. -/
def ndCompatible (a : NdArr) (t : Target) : Support :=
  if a.dtype ≠ t.dtype then
    let sameKind := decide (a.dtype.kind = t.dtype.kind) ||
      (decide (a.dtype.kind = 'i' ∨ a.dtype.kind = 'u') && decide (t.dtype.kind = 'i' ∨ t.dtype.kind = 'u'))
    if !sameKind || !canCastSafe a.dtype t.dtype then
      { supported := false,
        reason := s!"Rust engine requires {t.dtype.name} arrays and `{a.dtype.name}` cannot be safely cast." }
    else if ¬ (a.arr.shape.length = 1 ∨ a.arr.shape.length = 2) then badDims
    else { supported := true, conversions := [⟨t, a.arr.shape.prod⟩] }
  else if ¬ (a.arr.shape.length = 1 ∨ a.arr.shape.length = 2) then badDims
  else { supported := true }

/-- `array_compatible_with_rust`, _engine.py:107-124. -/
def arrayCompatible (a : PyArg) (t : Target) : Support :=
  match a with
  | .arr a => ndCompatible a t
  | _ => { supported := false, reason := "Rust engine requires a NumPy array." }

/-- `exact_array_compatible_with_rust`, _engine.py:127-135. -/
def exactArrayCompatible (a : PyArg) (t : Target) : Support :=
  let support := arrayCompatible a t
  if !support.supported then support
  else if support.requiresConversion then
    { supported := false, reason := s!"Rust engine requires exact {t.dtype.name} arrays for mutable arguments." }
  else support

/-- A number cast by NumPy or Python: rounded for floats (an integer too large for a float raises), cut off towards zero for
integers, true unless zero for booleans. -/
def castNum : Target → F → Except Exc F
  | .bool, v => .ok (if eqb v zero then zero else one)
  | .float64, fin q =>
    match rndDouble q with
    | fin r => .ok (fin r)
    | _ => .error .overflowError
  | .float64, v => .ok v
  | .int64, nan => .error (.valueError "cannot convert float NaN to integer")
  | .int64, pinf => .error .overflowError
  | .int64, ninf => .error .overflowError
  | .int64, fin q =>
    let n : Int := if 0 ≤ q then ⌊q⌋ else ⌈q⌉
    if -2 ^ 63 ≤ n ∧ n < 2 ^ 63 then .ok (fin n) else .error .overflowError

/-- One element of an array cast by `np.asarray(a, dtype=dtype)`, which does not raise for arrays of numbers; what comes of an
element that the dtype does not have is left open (`junk`). -/
def castElem (junk : F → F) (t : Target) (v : F) : F :=
  match castNum t v with
  | .ok w => w
  | .error _ => junk v

/-- `np.asarray(a, dtype=dtype)` of an array. -/
def castArr (junk : F → F) (t : Target) (a : NdArr) : NdArr :=
  ⟨t.dtype, ⟨a.arr.shape, fun idx => castElem junk t (a.arr.get idx)⟩⟩

/-- `prepare_array_for_rust`, _engine.py:138-150. -/
def prepareArray (junk : F → F) (a : PyArg) (t : Target) : Except Exc NdArr :=
  let support := arrayCompatible a t
  if !support.supported then .error (.valueError support.reason)
  else
    match a with
    | .arr a => if a.dtype = t.dtype then .ok a else .ok (castArr junk t a)
    | _ => .error .attributeError

/-- `matching_shape_compatible_with_rust`, _engine.py:172-178. -/
def matchingShape (name : String) : PyArg → PyArg → Support
  | .arr a, .arr b =>
    if a.arr.shape ≠ b.arr.shape then
      { supported := false, reason := s!"Rust engine requires `{name}` to have the same shape as input." }
    else { supported := true }
  | _, _ => { supported := false, reason := s!"Rust engine requires `{name}` to be a NumPy array." }

/-- `np.broadcast_to` does not raise. -/
def canBroadcast (src target : List Nat) : Bool :=
  decide (src.length ≤ target.length) &&
    (List.zipWith (fun d n => decide (d = 1 ∨ d = n)) src (target.drop (target.length - src.length))).all id

/-- The shape that is broadcast in `flex_array_compatible_with_rust`, _engine.py:210-218; `reshape_fns.to_2d_array` raises for
more than two dimensions. -/
def flexShape (shape target : List Nat) (flex2d : Bool) : Option (List Nat) :=
  match shape with
  | [] => some [1, 1]
  | [n] => if target.length = 2 ∧ flex2d = true then some [1, n] else some [n, 1]
  | [r, c] => some [r, c]
  | _ => none

/-- `flex_array_compatible_with_rust`, _engine.py:190-221: the second half, the check of the shape. -/
def flexBroadcast (name : String) (shape target : List Nat) (flex2d : Bool) (support : Support) : Support :=
  let bad : Support := { supported := false, reason := s!"Rust engine requires `{name}` to broadcast to shape {target}." }
  match flexShape shape target flex2d with
  | none => bad
  | some s => if canBroadcast s target then support else bad

/-- `np.asarray(a, dtype=dtype)` of an array without dimensions or of a number is tried, _engine.py:200-208: a type or value
error makes the call unsupported, an overflow error is raised. -/
def flexScalar (name : String) (d : DType) (r : Except Exc F) (t : Target) : Except Exc Support :=
  match r with
  | .error .overflowError => .error .overflowError
  | .error _ =>
    .ok { supported := false, reason := s!"Rust engine requires `{name}` to be convertible to {t.dtype.name}." }
  | .ok _ =>
    if d ≠ t.dtype then .ok { supported := true, conversions := [⟨t, 1⟩] } else .ok { supported := true }

/-- Casting an array without dimensions raises no error if the dtype is one of numbers; simplified: it always does for other
dtypes. -/
def castZeroDim : DType → F → Except Exc F
  | .other _ _, _ => .error (.valueError "could not convert")
  | _, v => .ok v

/-- `flex_array_compatible_with_rust`, _engine.py:190-221, for the array of an argument; `r` is what casting it gives if it has
no dimensions. -/
def flexNd (name : String) (a : NdArr) (r : Except Exc F) (target : List Nat) (t : Target) (flex2d : Bool) :
    Except Exc Support :=
  if a.arr.shape = [] then
    match flexScalar name a.dtype r t with
    | .error e => .error e
    | .ok s => if !s.supported then .ok s else .ok (flexBroadcast name [] target flex2d s)
  else
    let support := ndCompatible a t
    if !support.supported then
      .ok { supported := false, reason := s!"Rust engine requires `{name}` to be {t.dtype.name}-compatible." }
    else .ok (flexBroadcast name a.arr.shape target flex2d support)

/-- `flex_array_compatible_with_rust`, _engine.py:190-221. -/
def flexCompatible (name : String) (a : PyArg) (target : List Nat) (t : Target) (flex2d : Bool) : Except Exc Support :=
  match a with
  | .arr a => flexNd name a (castZeroDim a.dtype (a.arr.get [])) target t flex2d
  | .seq a => flexNd name a (castZeroDim a.dtype (a.arr.get [])) target t flex2d
  | .num d v => flexNd name ⟨d, ⟨[], fun _ => v⟩⟩ (castNum t v) target t flex2d
  | .text => .ok { supported := false, reason := s!"Rust engine requires `{name}` to be convertible to {t.dtype.name}." }

/-- `prepare_flex_array_for_rust`, _engine.py:153-169. -/
def prepareFlex (junk : F → F) (name : String) (a : PyArg) (target : List Nat) (t : Target) (flex2d : Bool) :
    Except Exc NdArr :=
  match flexCompatible name a target t flex2d with
  | .error e => .error e
  | .ok support =>
    if !support.supported then .error (.valueError support.reason)
    else
      match a with
      | .arr a => if a.dtype = t.dtype then .ok a else .ok (castArr junk t a)
      | .seq a => if a.dtype = t.dtype then .ok a else .ok (castArr junk t a)
      | .num d v =>
        if d = t.dtype then .ok ⟨d, ⟨[], fun _ => v⟩⟩ else .ok (castArr junk t ⟨d, ⟨[], fun _ => v⟩⟩)
      | .text => .error .typeError

/-- `non_neg_array_compatible_with_rust`, _engine.py:249-256; `anyNegative` is `np.any(a < 0)`. -/
def nonNegArray (name : String) (a : PyArg) (anyNegative : Bool) : Support :=
  let support := arrayCompatible a .int64
  if !support.supported then support
  else if anyNegative then
    { supported := false, reason := s!"Rust engine requires `{name}` to contain non-negative values." }
  else { supported := true }

/-- `col_range_compatible_with_rust`, _engine.py:282-288. -/
def colRange : PyArg → Support
  | .arr a =>
    if a.arr.shape.length ≠ 2 ∨ a.arr.shape.getD 1 0 ≠ 2 then
      { supported := false, reason := "Rust engine requires `col_range` to have shape (n_cols, 2)." }
    else ndCompatible a .int64
  | _ => { supported := false, reason := "Rust engine requires `col_range` to be a NumPy array." }

/-- `col_map_compatible_with_rust`, _engine.py:291-300, for a pair. -/
def colMap (idxs lens : PyArg) (anyNegative : Bool) : Support :=
  combine [arrayCompatible idxs .int64, nonNegArray "col_lens" lens anyNegative]

/-- `mask_and_array_compatible_with_rust`, _engine.py:264-270. -/
def maskAndArray (a mask : PyArg) : Support :=
  combine [arrayCompatible a .float64, arrayCompatible mask .bool, matchingShape "mask" a mask]

/-- `mask_and_values_compatible_with_rust`, _engine.py:273-279. -/
def maskAndValues (a mask values : PyArg) : Support :=
  combine [maskAndArray a mask, arrayCompatible values .float64, matchingShape "values" a values]

/-- `rolling_compatible_with_rust`, _engine.py:303-309. -/
def rollingCompatible (a : PyArg) (window : Int) (minp : Option Int) : Support :=
  combine [arrayCompatible a .float64, nonNegInt "window" (some window), nonNegInt "minp" minp]

/-! ## Resolution -/

/-- The engine that runs a call. -/
inductive Chosen where
  | numba | rust
deriving DecidableEq, Repr

/-- What a call finds: `settings["engine"]`, the version of vectorbt, the version of `vectorbt_rust` if it can be imported. -/
structure World where
  setting : String
  vbt : List Char
  installed : Option (List Char)

/-- `resolve_engine`, _engine.py:343-370, for a `supports_rust` that is a `RustSupport`; returns `_rust_status` as well. -/
def resolveEngine (w : World) (engine : Option String) (s : Support) (status : Option Bool) :
    Except Exc Chosen × Option Bool :=
  let engine := engine.getD w.setting
  if engine = "numba" then (.ok .numba, status)
  else if engine = "rust" then
    let r := isRustAvailable w.vbt w.installed status
    if !r.1 then (.error .importError, r.2)
    else if !s.supported then (.error (.valueError s!"{s.reason} Use engine='numba'."), r.2)
    else (.ok .rust, r.2)
  else if engine ≠ "auto" then
    (.error (.valueError "Invalid engine. Expected 'auto', 'numba', or 'rust'."), status)
  else if s.supported then
    let r := isRustAvailable w.vbt w.installed status
    if r.1 then (.ok .rust, r.2) else (.ok .numba, r.2)
  else (.ok .numba, status)

/-- `resolve_random_engine`, _engine.py:326-334. -/
def resolveRandomEngine (engine : Option String) : String :=
  match engine with
  | none => "numba"
  | some e => if e = "auto" then "numba" else e

/-- `seed_for_rust`, _engine.py:337-341. -/
def seedForRust (seed : Option Int) (w : World) (engine : Option String) (s : Support) (status : Option Bool) :
    Except Exc (Option Int) × Option Bool :=
  match resolveEngine w engine s status with
  | (.error e, st) => (.error e, st)
  | (.ok .rust, st) => (.ok seed, st)
  | (.ok .numba, st) => (.ok none, st)

/-- A function of a `dispatch.py` module: the support is computed, then the engine is resolved, then one of the two is
called. -/
def dispatch {α : Type} (w : World) (engine : Option String) (support : Except Exc Support) (rust numba : Except Exc α)
    (status : Option Bool) : Except Exc α × Option Bool :=
  match support with
  | .error e => (.error e, status)
  | .ok s =>
    match resolveEngine w engine s status with
    | (.error e, st) => (.error e, st)
    | (.ok .rust, st) => (rust, st)
    | (.ok .numba, st) => (numba, st)

/-- A function of a `dispatch.py` module that draws random numbers, e.g. signals/dispatch.py:62-95. -/
def dispatchRandom {α : Type} (w : World) (engine : Option String) (support : Except Exc Support)
    (rust numba : Except Exc α) (status : Option Bool) : Except Exc α × Option Bool :=
  dispatch w (some (resolveRandomEngine engine)) support rust numba status

/-! ## `generate_stop_ex`, signals/dispatch.py:394-446 -/

/-- The arguments of `generate_stop_ex` but for the engine. -/
structure StopCall where
  entries : PyArg
  ts : PyArg
  stop : PyArg
  trailing : PyArg
  wait : Int
  untilNext : Bool
  skipUntilExit : Bool
  pickFirst : Bool
  flex2d : Bool

/-- A number taken for a truth value. -/
def truth (v : F) : Bool := !eqb v zero

/-- The array of the truth values. -/
def truths (a : NArr F) : NArr Bool := ⟨a.shape, fun idx => truth (a.get idx)⟩

/-- An array as a function of row and column.  Outside of the shape, where no engine reads, the function has the default. -/
def inside {α : Type} (n cols : Nat) (d : α) (f : Nat → Nat → α) : Nat → Nat → α :=
  fun i c => if i < n ∧ c < cols then f i c else d

/-- The support computed by `generate_stop_ex`, signals/dispatch.py:407-416: the arguments of `combine_rust_support` are
evaluated from left to right, `entries.shape` raises if there is none. -/
def StopCall.support (x : StopCall) : Except Exc Support :=
  match x.entries with
  | .arr e =>
    match flexCompatible "stop" x.stop e.arr.shape .float64 x.flex2d with
    | .error err => .error err
    | .ok sStop =>
      match flexCompatible "trailing" x.trailing e.arr.shape .bool x.flex2d with
      | .error err => .error err
      | .ok sTrailing =>
        .ok (combine [arrayCompatible x.entries .bool, arrayCompatible x.ts .float64,
          matchingShape "ts" x.entries x.ts, sStop, sTrailing])
  | _ => .error .attributeError

/-- `generate_stop_ex_nb`, signals/nb.py:647-698, with the arguments as they are passed: numbers and lists have no attribute
`ndim` for Numba (`flex_choose_i_and_col_nb`, base/reshape_fns.py:951-980), `entries` and `ts` must have two dimensions.  What it does with a negative `wait` is left open
(`negative`). -/
def StopCall.numba (A : Arith) (negative : StopCall → Except Exc (Nat → Nat → Bool)) (x : StopCall) :
    Except Exc (Nat → Nat → Bool) :=
  if x.wait < 0 then negative x
  else
    match x.entries, x.ts, x.stop, x.trailing with
    | .arr e, .arr ts, .arr stop, .arr trailing =>
      match e.arr.shape, ts.arr.shape with
      | [n, cols], [_, _] =>
        match generateStopEx A n cols
          ⟨inside n cols false (fun i c => truth (e.arr.get [i, c])),
           inside n cols nan (fun i c => ts.arr.get [i, c]),
           inside n cols nan (fun i c => flexSelectAuto stop.arr i c x.flex2d),
           inside n cols false (fun i c => truth (flexSelectAuto trailing.arr i c x.flex2d))⟩
          x.wait.toNat x.untilNext x.skipUntilExit x.pickFirst with
        | .error err => .error (.kernel err)
        | .ok r => .ok r
      | _, _ => .error .typingError
    | _, _, _, _ => .error .typingError

/-- `generate_stop_ex_rs`, signals.rs:1602-1636: PyO3 extracts the arguments (an array of another dtype or number of dimensions
is a type error, a negative `usize` an overflow error). -/
def stopRs (A : Arith) (entries ts stop trailing : NdArr) (wait : Int) (untilNext skipUntilExit pickFirst flex2d : Bool) :
    Except Exc (Nat → Nat → Bool) :=
  if entries.dtype ≠ .bool ∨ ts.dtype ≠ .float .double ∨ stop.dtype ≠ .float .double ∨ trailing.dtype ≠ .bool then
    .error .typeError
  else
    match entries.arr.shape, ts.arr.shape with
    | [n, cols], [tn, tcols] =>
      if wait < 0 then .error .overflowError
      else if ¬ (tn = n ∧ tcols = cols) then .error (.valueError "ts must match entries shape")
      else
        match Rs.fromPyarray "stop" stop.arr n cols flex2d with
        | .error e => .error (.kernel e)
        | .ok stopFlex =>
          match Rs.fromPyarray "trailing" (truths trailing.arr) n cols flex2d with
          | .error e => .error (.kernel e)
          | .ok trailingFlex =>
            match RsSig.generateStopEx A n cols
              ⟨inside n cols false (fun i c => truth (entries.arr.get [i, c])),
               inside n cols nan (fun i c => ts.arr.get [i, c]),
               inside n cols nan stopFlex.get,
               inside n cols false trailingFlex.get⟩ wait.toNat untilNext skipUntilExit pickFirst with
            | .error e => .error (.kernel e)
            | .ok r => .ok r
    | _, _ => .error .typeError

/-- The branch of `generate_stop_ex` that calls Rust, signals/dispatch.py:418-433. -/
def StopCall.rust (A : Arith) (junk : F → F) (x : StopCall) : Except Exc (Nat → Nat → Bool) :=
  match prepareArray junk x.entries .bool with
  | .error e => .error e
  | .ok entries =>
    match prepareArray junk x.ts .float64 with
    | .error e => .error e
    | .ok ts =>
      match prepareFlex junk "stop" x.stop entries.arr.shape .float64 x.flex2d with
      | .error e => .error e
      | .ok stop =>
        match prepareFlex junk "trailing" x.trailing entries.arr.shape .bool x.flex2d with
        | .error e => .error e
        | .ok trailing =>
          stopRs A entries ts stop trailing x.wait x.untilNext x.skipUntilExit x.pickFirst x.flex2d

/-- `generate_stop_ex`, signals/dispatch.py:394-446. -/
def generateStopExAny (A : Arith) (junk : F → F) (negative : StopCall → Except Exc (Nat → Nat → Bool)) (w : World)
    (engine : Option String) (x : StopCall) (status : Option Bool) : Except Exc (Nat → Nat → Bool) × Option Bool :=
  dispatch w engine x.support (x.rust A junk) (x.numba A negative) status

end Vbt.Engine
