import Mathlib.Data.List.Basic
import Verif.Model.Float

/-!
# Arguments of `ScheduleManager.every`: `vectorbt/utils/schedule_.py`

Texts are lists of characters.  The package `schedule`, which is not part of the repository, is modelled as far as it decides
about the arguments: `Job.second`, …, `Job.monday`, … and `Job.at`.  Running jobs is left out.
-/

namespace Vbt

/-- `datetime.time`: hour, minute, second, microsecond, and the offset of its zone in minutes, if any. -/
structure ClockTime where
  hour : Nat
  minute : Nat
  second : Nat
  micro : Nat
  offset : Option Int
deriving DecidableEq

/-- An argument of `every`. -/
inductive SchedArg where
  | int (z : Int)
  | delta (seconds : Int)
  | text (s : String)
  | time (t : ClockTime)
  | other
deriving DecidableEq

/-- `ScheduleManager.units`, utils/schedule_.py:66-77. -/
def schedUnits : List String :=
  ["second", "seconds", "minute", "minutes", "hour", "hours", "day", "days", "week", "weeks"]

/-- `ScheduleManager.weekdays`, utils/schedule_.py:79-87. -/
def schedWeekdays : List String := ["monday", "tuesday", "wednesday", "thursday", "friday", "saturday", "sunday"]

/-- `_is_arg_interval`, utils/schedule_.py:176-177. -/
def SchedArg.isInterval : SchedArg → Bool
  | .int _ => true
  | .delta _ => true
  | _ => false

/-- `_is_arg_unit`, utils/schedule_.py:179-180. -/
def SchedArg.isUnit : SchedArg → Bool
  | .text s => decide (s ∈ schedUnits)
  | _ => false

/-- `_is_arg_start_day`, utils/schedule_.py:182-183. -/
def SchedArg.isStartDay : SchedArg → Bool
  | .text s => decide (s ∈ schedWeekdays)
  | _ => false

/-- `_is_arg_at`, utils/schedule_.py:185-186. -/
def SchedArg.isAt : SchedArg → Bool
  | .text s => s.toList.contains ':'
  | .time _ => true
  | _ => false

/-- The arguments found. -/
structure SchedParsed where
  interval : Option SchedArg := none
  unit : Option SchedArg := none
  startDay : Option SchedArg := none
  at_ : Option SchedArg := none
deriving DecidableEq

/-- The loop over the arguments, utils/schedule_.py:188-206.  `n` of the four names have been dropped from `expected_args`, which
is always a final part of the list. -/
def parseSched : Nat → SchedParsed → List SchedArg → Except Err SchedParsed
  | _, p, [] => .ok p
  | n, p, a :: as =>
    if n ≤ 0 ∧ a.isInterval then parseSched 1 { p with interval := some a } as
    else if n ≤ 1 ∧ a.isUnit then parseSched 2 { p with unit := some a } as
    else if n ≤ 2 ∧ a.isStartDay then parseSched 3 { p with startDay := some a } as
    else if n ≤ 3 ∧ a.isAt then parseSched 4 { p with at_ := some a } as
    else .error (.valueError "Arg at index is unexpected")

/-- Two digits. -/
def digits2 (n : Nat) : List Char := [Nat.digitChar (n / 10), Nat.digitChar (n % 10)]

/-- `time.isoformat()`. -/
def isoTime (t : ClockTime) : List Char :=
  digits2 t.hour ++ ':' :: digits2 t.minute ++ ':' :: digits2 t.second ++
    (if t.micro = 0 then [] else '.' :: digits2 (t.micro / 10000) ++ digits2 (t.micro / 100 % 100) ++ digits2 (t.micro % 100)) ++
    match t.offset with
    | none => []
    | some o => (if o < 0 then '-' else '+') :: digits2 (o.natAbs / 60) ++ ':' :: digits2 (o.natAbs % 60)

/-- What follows the first colon: `":".join(at.split(":")[1:])`. -/
def afterColon (s : List Char) : List Char := (s.dropWhile (· != ':')).drop 1

/-- `Job` of the package `schedule`. -/
structure SchedJob where
  interval : SchedArg
  unit : Option String := none
  startDay : Option String := none
  atTime : Option (Nat × Nat × Nat) := none
deriving DecidableEq

/-- The plural units. -/
def schedPlurals : List String := ["seconds", "minutes", "hours", "days", "weeks"]

/-- `getattr(job, unit)`: the singular is for an interval of one; `schedule`. -/
def SchedJob.setUnit (j : SchedJob) (u : String) : Except Err SchedJob :=
  if u ∈ schedPlurals then .ok { j with unit := some u }
  else if j.interval = .int 1 then .ok { j with unit := some (u ++ "s") }
  else .error (.rejected "Use the plural")

/-- `getattr(job, start_day)`: weekdays are for an interval of one; `schedule`. -/
def SchedJob.setDay (j : SchedJob) (d : String) : Except Err SchedJob :=
  if j.interval = .int 1 then .ok { j with unit := some "weeks", startDay := some d }
  else .error (.rejected "Scheduling on weekdays is only allowed for weekly jobs")

/-- A number of two digits below a bound. -/
def readDigits2 (bound : Nat) (a b : Char) : Option Nat :=
  if a.isDigit ∧ b.isDigit ∧ 10 * (a.toNat - 48) + (b.toNat - 48) < bound then some (10 * (a.toNat - 48) + (b.toNat - 48)) else none

/-- `Job.at`: `HH:MM` or `HH:MM:SS` for days and weekdays, `MM:SS` or `:MM` for hours, `:SS` for minutes; `schedule`. -/
def SchedJob.at (j : SchedJob) (s : List Char) : Except Err SchedJob :=
  let bad : Except Err SchedJob := .error (.rejected "Invalid time format")
  let set : Option (Nat × Nat × Nat) → Except Err SchedJob
    | none => bad
    | some x => .ok { j with atTime := some x }
  if j.unit = some "days" ∨ j.startDay.isSome then
    match s with
    | [a, b, ':', c, d] => set do some (← readDigits2 24 a b, ← readDigits2 60 c d, 0)
    | [a, b, ':', c, d, ':', e, f] => set do some (← readDigits2 24 a b, ← readDigits2 60 c d, ← readDigits2 60 e f)
    | _ => bad
  else if j.unit = some "hours" then
    match s with
    | [':', c, d] => set do some (0, ← readDigits2 60 c d, 0)
    | [a, b, ':', c, d] => set do some (0, ← readDigits2 60 a b, ← readDigits2 60 c d)
    | _ => bad
  else if j.unit = some "minutes" then
    match s with
    | [':', e, f] => set do some (0, 0, ← readDigits2 60 e f)
    | _ => bad
  else .error (.rejected "Invalid unit (valid units are `days`, `hours`, and `minutes`)")

/-- The text of a time for `Job.at`, utils/schedule_.py:220-228; `toLocal` is `tzaware_to_naive_time(at, None)`. -/
def atText (toLocal : ClockTime → ClockTime) (j : SchedJob) (t : ClockTime) : List Char :=
  let t' := if (j.unit = some "days" ∨ j.startDay.isSome) ∧ t.offset.isSome then toLocal t else t
  let s := isoTime t'
  if j.unit = some "hours" then afterColon s
  else if j.unit = some "minutes" then ':' :: (afterColon (afterColon s)).takeWhile (· != ':')
  else s

/-- The text of a text argument. -/
def SchedArg.str : SchedArg → String
  | .text s => s
  | _ => ""

/-- The job of parsed arguments, utils/schedule_.py:208-229. -/
def buildJob (toLocal : ClockTime → ClockTime) (p : SchedParsed) : Except Err SchedJob := do
  let unit := if p.unit.isNone ∧ p.startDay.isNone then some (.text (if p.at_.isSome then "days" else "seconds")) else p.unit
  let j : SchedJob := { interval := p.interval.getD (.int 1) }
  let j ← match unit with
    | none => .ok j
    | some u => j.setUnit u.str
  let j ← match p.startDay with
    | none => .ok j
    | some d => j.setDay d.str
  match p.at_ with
  | none => .ok j
  | some (.time t) => j.at (atText toLocal j t)
  | some a => j.at a.str.toList

/-- `ScheduleManager.every` without `to` and `tags`, utils/schedule_.py:108-237. -/
def schedEvery (toLocal : ClockTime → ClockTime) (args : List SchedArg) : Except Err SchedJob :=
  match parseSched 0 {} args with
  | .error e => .error e
  | .ok p => buildJob toLocal p

end Vbt
