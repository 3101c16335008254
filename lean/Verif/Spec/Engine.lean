import Verif.Model.Engine
import Verif.Spec.Broadcast

/-!
# What the choice of the engine is to do, stated without its code
-/

namespace Vbt.Engine
open F

/-- Precision, exponent of the smallest positive number and exponent of the bound of a binary float format. -/
def FloatWidth.format : FloatWidth → Nat × Int × Int
  | .half => (11, -24, 16)
  | .single => (24, -149, 128)
  | .double => (53, -1074, 1024)
  | .long => (64, -16445, 16384)

/-- The numbers that an element of an array of the dtype can be. -/
def DType.Stores : DType → F → Prop
  | .bool, v => v = fin 0 ∨ v = fin 1
  | .int w, v => ∃ n : Int, v = fin n ∧ -2 ^ (w.bits - 1) ≤ n ∧ n < 2 ^ (w.bits - 1)
  | .uint w, v => ∃ n : Int, v = fin n ∧ 0 ≤ n ∧ n < 2 ^ w.bits
  | .float w, v =>
    v = nan ∨ v = pinf ∨ v = ninf ∨
      ∃ m k : Int, v = fin (m * (2 : ℚ) ^ k) ∧ |m| < 2 ^ w.format.1 ∧ w.format.2.1 ≤ k ∧
        |m * (2 : ℚ) ^ k| < (2 : ℚ) ^ w.format.2.2
  | .other _ _, _ => True

/-- Every element is one that the dtype has. -/
def NdArr.WellTyped (a : NdArr) : Prop := ∀ idx, a.dtype.Stores (a.arr.get idx)

/-- Booleans, integers of either sign, floats: no conversion crosses these. -/
inductive SameClass : DType → Target → Prop where
  | bool : SameClass .bool .bool
  | int (w : IntWidth) : SameClass (.int w) .int64
  | uint (w : IntWidth) : SameClass (.uint w) .int64
  | float (w : FloatWidth) : SameClass (.float w) .float64

/-- An array that the Rust engine takes for the dtype: of the same class, with one or two dimensions, and no element can be lost
in the conversion. -/
def Takes (a : PyArg) (t : Target) : Prop :=
  ∃ nd, a = .arr nd ∧ SameClass nd.dtype t ∧ (∀ v, nd.dtype.Stores v → t.dtype.Stores v) ∧
    (nd.arr.shape.length = 1 ∨ nd.arr.shape.length = 2)

/-- The dtype is one of numbers. -/
def DType.Numeric (d : DType) : Prop := ∀ k n, d ≠ .other k n

/-- An array that the Rust engine reads cell by cell of the target shape: it can be broadcast to it, and its elements are kept or,
if it has no dimensions, numbers. -/
def FlexTakes (a : NdArr) (target : List Nat) (t : Target) (flex2d : Bool) : Prop :=
  ((a.arr.shape = [] ∧ a.dtype.Numeric) ∨ Takes (.arr a) t) ∧ Broadcastable (a.arr.operand flex2d).shape target

/-- Two versions differ at most in what is after the last dot. -/
def SameRelease (v w : List Char) : Prop :=
  ∃ a b c, '.' ∉ b ∧ '.' ∉ c ∧ v = a ++ '.' :: b ∧ w = a ++ '.' :: c

/-- Versions have a dot. -/
def World.Versions (w : World) : Prop := '.' ∈ w.vbt ∧ ∀ v, w.installed = some v → '.' ∈ v

/-- A `vectorbt_rust` of the same release is installed. -/
def World.Compatible (w : World) : Prop := ∃ v, w.installed = some v ∧ SameRelease w.vbt v

/-- The engine that was asked for by the argument or, without it, by the settings. -/
def Asked (w : World) (engine : Option String) (name : String) : Prop :=
  engine = some name ∨ (engine = none ∧ w.setting = name)

/-- Rust can be used: it was found when the process last looked, or it is found now. -/
def Available (w : World) (status : Option Bool) : Prop :=
  status = some true ∨ (status = none ∧ w.Compatible)

/-- What happens to the process between calls: a call asks whether Rust is there, the cache is cleared, another version of
`vectorbt_rust` is installed or it is removed. -/
inductive Event where
  | ask | clear | install (v : Option (List Char))

/-- The process runs: the installed version, `_rust_status` and the answers so far. -/
def runEvents (vbt : List Char) : List Event → Option (List Char) → Option Bool → List Bool
  | [], _, _ => []
  | .ask :: rest, inst, st =>
    (isRustAvailable vbt inst st).1 :: runEvents vbt rest inst (isRustAvailable vbt inst st).2
  | .clear :: rest, inst, st => runEvents vbt rest inst (clearEngineCache st)
  | .install v :: rest, _, st => runEvents vbt rest v st

/-- The answers: after the cache is cleared the first question is answered by what is installed then, and all others until it is
cleared again get that same answer. -/
def answers (isThere : Option (List Char) → Bool) : List Event → Option (List Char) → Option Bool → List Bool
  | [], _, _ => []
  | .ask :: rest, inst, none => isThere inst :: answers isThere rest inst (some (isThere inst))
  | .ask :: rest, inst, some b => b :: answers isThere rest inst (some b)
  | .clear :: rest, inst, _ => answers isThere rest inst none
  | .install v :: rest, _, st => answers isThere rest v st

end Vbt.Engine
