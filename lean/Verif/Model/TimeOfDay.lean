import Mathlib.Data.Int.ModEq

/-!
# Times of day: `vectorbt/utils/datetime_.py:38-63`

A time of day is a number of microseconds since midnight.  A time zone is its offset from UTC on the day of the call, in
microseconds; zones whose offset changes during that day are left out.
-/

namespace Vbt

/-- Microseconds of a day. -/
def dayUs : ℤ := 86400000000

/-- `datetime.time`: microseconds since midnight and the offset of `tzinfo`, if set. -/
structure DayTime where
  us : ℤ
  tz : Option ℤ
deriving DecidableEq

/-- `datetime.combine(datetime.today(), t).astimezone(tz_out).timetz()` on a machine whose own offset is `here`,
`convert_tzaware_time`, utils/datetime_.py:38-42: a time without zone counts as local, and `None` stands for the local zone. -/
def convertTzawareTime (here : ℤ) (t : DayTime) (tzOut : Option ℤ) : DayTime :=
  { us := (t.us - t.tz.getD here + tzOut.getD here) % dayUs, tz := some (tzOut.getD here) }

/-- `.time()` drops the zone. -/
def dropZone (t : DayTime) : DayTime := { t with tz := none }

/-- `tzaware_to_naive_time`, utils/datetime_.py:45-49. -/
def tzawareToNaiveTime (here : ℤ) (t : DayTime) (tzOut : Option ℤ) : DayTime := dropZone (convertTzawareTime here t tzOut)

/-- `naive_to_tzaware_time`, utils/datetime_.py:52-56: the zone set is the argument itself, also if it is `None`. -/
def naiveToTzawareTime (here : ℤ) (t : DayTime) (tzOut : Option ℤ) : DayTime :=
  { dropZone (convertTzawareTime here t tzOut) with tz := tzOut }

/-- `convert_naive_time`, utils/datetime_.py:59-63. -/
def convertNaiveTime (here : ℤ) (t : DayTime) (tzOut : Option ℤ) : DayTime := dropZone (convertTzawareTime here t tzOut)

end Vbt
