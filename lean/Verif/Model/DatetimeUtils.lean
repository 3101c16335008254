import Mathlib.Algebra.Order.Floor.Ring
import Mathlib.Data.Nat.Log
import Mathlib.Data.Rat.Floor
import Verif.Model.Float

/-!
# Dates: `vectorbt/utils/datetime_.py`

Times are rational numbers of seconds: an instant counts from 1970-01-01 UTC, a wall time is what the clocks of a time zone
show, counted from 1970-01-01 of the zone.  Rounding to microseconds and floating-point rounding are left out; strings are
parsed by `dateparser`, whose result is a naive or aware datetime.
-/

namespace Vbt

/-- A time zone: `utcoffset` of a naive datetime, in seconds. -/
structure TimeZone where
  utcoffset : ℚ → ℚ

/-- A timezone-aware datetime: its wall time, its own offset from UTC, and its zone. -/
structure AwareTime where
  wall : ℚ
  offset : ℚ
  zone : TimeZone

/-- The instant of an aware datetime. -/
def AwareTime.instant (d : AwareTime) : ℚ := d.wall - d.offset

/-- `datetime.timezone` with a fixed offset. -/
def fixedZone (offset : ℚ) : TimeZone := ⟨fun _ => offset⟩

/-- `np.datetime64`: what `astype(datetime)` makes of it. -/
inductive Dt64 where
  | date (days : Int)
  | time (wall : ℚ)
  | number

/-- The argument of `to_tzaware_datetime`; a string is given by what it is parsed to. -/
inductive DtLike where
  | float (t : ℚ)
  | int (n : Int)
  | naive (wall : ℚ)
  | aware (d : AwareTime)
  | np (d : Dt64)
  | unparsed

/-- `len(str(n))`: digits and the sign. -/
def strLen (n : Int) : Nat := Nat.log 10 n.natAbs + 1 + if n < 0 then 1 else 0

/-- The timestamp in seconds of an integer, utils/datetime_.py:133-137. -/
def intTimestamp (n : Int) : ℚ :=
  if strLen n > 10 then n / (10 : ℚ) ^ (strLen n - 10) else n

/-- `to_timezone` of a time zone object, utils/datetime_.py:103-106; `now` is the wall time of `datetime.now()`. -/
def toTimezone (toPy : Bool) (now : ℚ) (z : TimeZone) : TimeZone :=
  if toPy then fixedZone (z.utcoffset now) else z

/-- An instant in UTC. -/
def utcTime (t : ℚ) : AwareTime := ⟨t, 0, fixedZone 0⟩

/-- The start of the day of a wall time: `datetime.combine(d, time())`. -/
def dayStart (wall : ℚ) : ℚ := 86400 * ⌊wall / 86400⌋

/-- A naive or an aware datetime. -/
inductive Parsed where
  | naive (wall : ℚ)
  | aware (d : AwareTime)

/-- The first part of `to_tzaware_datetime`, utils/datetime_.py:131-147. -/
def parseDatetime : DtLike → Except Err Parsed
  | .float t => .ok (.aware (utcTime t))
  | .int n => .ok (.aware (utcTime (intTimestamp n)))
  | .naive w => .ok (.naive w)
  | .aware d => .ok (.aware d)
  | .np (.date days) => .ok (.naive (86400 * days))
  | .np (.time w) => .ok (.naive (dayStart w))
  | .np .number => .error (.typeError "combine() argument 1 must be datetime.date, not int")
  | .unparsed => .error (.valueError "Couldn't parse the datetime")

/-- `dt.replace(tzinfo=z)`: the offset becomes that of the zone for the wall time, unless the zone is that of the datetime. -/
def replaceZone (wall : ℚ) (z : TimeZone) : AwareTime := ⟨wall, z.utcoffset wall, z⟩

/-- `to_tzaware_datetime`, utils/datetime_.py:111-156.  A datetime whose zone is kept (`toPy = false`) is kept;
`dt.astimezone(z)` keeps the instant and `offsetAt` is the offset of the target zone at an instant. -/
def toTzawareDatetime (toPy : Bool) (now : ℚ) (naiveTz : TimeZone) (tz : Option (TimeZone × (ℚ → ℚ))) (x : DtLike) :
    Except Err AwareTime :=
  match parseDatetime x with
  | .error e => .error e
  | .ok p =>
    let d : AwareTime := match p with
      | .naive w => replaceZone w (toTimezone toPy now naiveTz)
      | .aware d => if toPy then replaceZone d.wall (toTimezone toPy now d.zone) else d
    match tz with
    | none => .ok d
    | some (z, offsetAt) =>
      let z' := toTimezone toPy now z
      let off := if toPy then z.utcoffset now else offsetAt d.instant
      .ok ⟨d.instant + off, off, z'⟩

/-- `datetime_to_ms`, utils/datetime_.py:159-161: truncation towards zero. -/
def datetimeToMs (d : AwareTime) : Int :=
  if 0 ≤ d.instant * 1000 then ⌊d.instant * 1000⌋ else ⌈d.instant * 1000⌉

/-- `seconds_per_unit`, utils/datetime_.py:166-171. -/
def secondsPerUnit : List (Char × Int) := [('m', 60), ('h', 60 * 60), ('d', 24 * 60 * 60), ('w', 7 * 24 * 60 * 60)]

/-- `interval_to_ms`, utils/datetime_.py:164-175; `parseInt` is Python's `int`. -/
def intervalToMs (parseInt : List Char → Option Int) (s : List Char) : Option Int :=
  match parseInt s.dropLast with
  | none => none
  | some n =>
    match s.getLast? with
    | none => none
    | some u =>
      match secondsPerUnit.lookup u with
      | none => none
      | some k => some (n * k * 1000)

end Vbt
