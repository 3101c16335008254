import Mathlib.Tactic.FieldSimp
import Mathlib.Tactic.Linarith
import Mathlib.Tactic.NormNum
import Mathlib.Tactic.Ring
import Verif.Lemmas.Witness
import Verif.Model.DatetimeUtils

/-!
# C115: which instant a date-like argument stands for

`to_tzaware_datetime` accepts timestamps, strings, dates and datetimes; `datetime_to_ms` and `interval_to_ms` feed the
requests for data.  The theorems say for exactly which integers the guess of the unit is right, exactly when an aware datetime
keeps its instant, what is lost of a `np.datetime64`, and exactly which intervals are understood.
-/

namespace Vbt

/-! ## Characters of an integer -/

/-- The characters of a positive integer, by its size. -/
theorem strLen_pos {n : Int} (hn : 0 < n) (k : Nat) : strLen n = k + 1 ↔ (10 : Int) ^ k ≤ n ∧ n < 10 ^ (k + 1) := by
  obtain ⟨m, rfl⟩ := Int.eq_ofNat_of_zero_le hn.le
  have hm : m ≠ 0 := by rintro rfl; simp at hn
  have h0 : ¬ ((m : Int) < 0) := by omega
  unfold strLen
  rw [if_neg h0, Int.natAbs_natCast, Nat.add_zero, Nat.add_right_cancel_iff, Nat.log_eq_iff (Or.inr ⟨by norm_num, hm⟩)]
  constructor
  · rintro ⟨a, b⟩; exact ⟨by exact_mod_cast a, by exact_mod_cast b⟩
  · rintro ⟨a, b⟩; exact ⟨by exact_mod_cast a, by exact_mod_cast b⟩

/-- The characters of a negative integer: one more for the sign. -/
theorem strLen_neg {n : Int} (hn : n < 0) : strLen n = strLen (-n) + 1 := by
  unfold strLen
  rw [if_pos hn, if_neg (by omega), Int.natAbs_neg]

/-- Every positive integer has a number of digits. -/
theorem exists_strLen (n : Int) : ∃ k, strLen n = k + 1 := ⟨strLen n - 1, by unfold strLen; omega⟩

/-- Zero has one character. -/
theorem strLen_zero : strLen 0 = 1 := by simp [strLen]

/-- Powers of ten grow. -/
theorem ten_pow_lt {a b : Nat} (h : (10 : Int) ^ a < 10 ^ b) : a < b := by
  by_contra hc
  exact absurd h (not_lt.mpr (pow_le_pow_right₀ (by norm_num) (by omega)))

/-- The unit guessed for an integer other than zero: a power of ten per second. -/
theorem intTimestamp_eq (n : Int) : intTimestamp n = n / (10 : ℚ) ^ (strLen n - 10) := by
  unfold intTimestamp
  by_cases h : strLen n > 10
  · rw [if_pos h]
  · rw [if_neg h, Nat.sub_eq_zero_of_le (by omega)]; simp

/-- Quotients by powers of ten agree only for equal powers. -/
theorem div_ten_pow_inj {n : Int} (hn : n ≠ 0) {a b : Nat} : (n : ℚ) / 10 ^ a = n / 10 ^ b ↔ a = b := by
  constructor
  · intro h
    have hq : (n : ℚ) ≠ 0 := by exact_mod_cast hn
    have ha : (10 : ℚ) ^ a ≠ 0 := by positivity
    have hb : (10 : ℚ) ^ b ≠ 0 := by positivity
    rw [div_eq_div_iff ha hb] at h
    have := mul_left_cancel₀ hq h
    exact (Nat.pow_right_injective (le_refl 2 |>.trans (by norm_num : 2 ≤ 10)) (by exact_mod_cast this)).symm
  · rintro rfl; rfl

/-- What an integer becomes, whatever the settings. -/
theorem int_instant (toPy : Bool) (now : ℚ) (naiveTz : TimeZone) (tz : Option (TimeZone × (ℚ → ℚ))) (n : Int) :
    ∃ d, toTzawareDatetime toPy now naiveTz tz (.int n) = .ok d ∧ d.instant = intTimestamp n := by
  cases tz with
  | none => cases toPy <;> exact ⟨_, rfl, by simp [utcTime, replaceZone, toTimezone, fixedZone, AwareTime.instant]⟩
  | some z => cases toPy <;> exact ⟨_, rfl, by simp [utcTime, replaceZone, toTimezone, fixedZone, AwareTime.instant]⟩

/-- **C115, seconds.**  A nonnegative integer is a number of seconds since 1970 exactly when it is below ten billion; a negative
one exactly when it is above minus one billion, for its sign counts as a digit. -/
theorem C115_seconds (toPy : Bool) (now : ℚ) (naiveTz : TimeZone) (tz : Option (TimeZone × (ℚ → ℚ))) (n : Int) :
    (∃ d, toTzawareDatetime toPy now naiveTz tz (.int n) = .ok d ∧ d.instant = n) ↔
      -10 ^ 9 < n ∧ n < 10 ^ 10 := by
  obtain ⟨d, hd, hi⟩ := int_instant toPy now naiveTz tz n
  have hx : (∃ d, toTzawareDatetime toPy now naiveTz tz (.int n) = .ok d ∧ d.instant = n) ↔ intTimestamp n = n := by
    rw [← hi]
    constructor
    · rintro ⟨d', h1, h2⟩
      rw [hd] at h1; cases h1; exact h2
    · intro h; exact ⟨d, hd, h⟩
  rw [hx, intTimestamp_eq]
  rcases lt_trichotomy n 0 with hn | hn | hn
  · have h1 : ((n : ℚ) / 10 ^ (strLen n - 10) = n) ↔ strLen n - 10 = 0 := by
      have := div_ten_pow_inj (n := n) (by omega) (a := strLen n - 10) (b := 0)
      rwa [pow_zero, div_one] at this
    rw [h1]
    obtain ⟨k, hk⟩ := exists_strLen (-n)
    have hb := (strLen_pos (by omega : 0 < -n) k).mp hk
    rw [strLen_neg hn, hk]
    constructor
    · intro h
      have : (10 : Int) ^ (k + 1) ≤ 10 ^ 9 := pow_le_pow_right₀ (by norm_num) (by omega)
      constructor
      · linarith [hb.2]
      · have : (0 : Int) < 10 ^ 10 := by norm_num
        omega
    · rintro ⟨h, _⟩
      have := ten_pow_lt (a := k) (b := 9) (by linarith [hb.1])
      omega
  · subst hn
    constructor
    · intro _; exact ⟨by norm_num, by norm_num⟩
    · intro _; simp
  · have h1 : ((n : ℚ) / 10 ^ (strLen n - 10) = n) ↔ strLen n - 10 = 0 := by
      have := div_ten_pow_inj (n := n) (by omega) (a := strLen n - 10) (b := 0)
      rwa [pow_zero, div_one] at this
    rw [h1]
    obtain ⟨k, hk⟩ := exists_strLen n
    have hb := (strLen_pos hn k).mp hk
    rw [hk]
    constructor
    · intro h
      have : (10 : Int) ^ (k + 1) ≤ 10 ^ 10 := pow_le_pow_right₀ (by norm_num) (by omega)
      constructor
      · have : (0 : Int) < 10 ^ 9 := by norm_num
        omega
      · linarith [hb.2]
    · rintro ⟨_, h⟩
      have := ten_pow_lt (a := k) (b := 10) (by linarith [hb.1])
      omega

/-- **C115, milliseconds, microseconds, nanoseconds.**  A positive integer counting `10 ^ k` ticks per second (`k ≥ 1`) is read as
such exactly when its seconds have ten digits: from 2001-09-09 to 2286-11-20.  An earlier instant is read as a much later one. -/
theorem C115_units (toPy : Bool) (now : ℚ) (naiveTz : TimeZone) (tz : Option (TimeZone × (ℚ → ℚ))) (n : Int) (hn : 0 < n)
    (k : Nat) (hk : 1 ≤ k) :
    (∃ d, toTzawareDatetime toPy now naiveTz tz (.int n) = .ok d ∧ d.instant = n / (10 : ℚ) ^ k) ↔
      10 ^ 9 * 10 ^ k ≤ n ∧ n < 10 ^ 10 * 10 ^ k := by
  obtain ⟨d, hd, hi⟩ := int_instant toPy now naiveTz tz n
  have hx : (∃ d, toTzawareDatetime toPy now naiveTz tz (.int n) = .ok d ∧ d.instant = n / (10 : ℚ) ^ k) ↔
      intTimestamp n = n / (10 : ℚ) ^ k := by
    rw [← hi]
    constructor
    · rintro ⟨d', h1, h2⟩
      rw [hd] at h1; cases h1; exact h2
    · intro h; exact ⟨d, hd, h⟩
  rw [hx, intTimestamp_eq, div_ten_pow_inj (by omega)]
  have hs := strLen_pos hn (9 + k)
  rw [pow_add, show 9 + k + 1 = 10 + k by omega, pow_add] at hs
  rw [← hs]
  omega

/-- **C115, negative ticks.**  Before 1970 the window is another one, for the sign counts as a digit: the seconds must have nine
digits (1938-04-24 to 1966-10-31). -/
theorem C115_negative_units (toPy : Bool) (now : ℚ) (naiveTz : TimeZone) (tz : Option (TimeZone × (ℚ → ℚ))) (n : Int) (hn : n < 0)
    (k : Nat) (hk : 1 ≤ k) :
    (∃ d, toTzawareDatetime toPy now naiveTz tz (.int n) = .ok d ∧ d.instant = n / (10 : ℚ) ^ k) ↔
      10 ^ 8 * 10 ^ k ≤ -n ∧ -n < 10 ^ 9 * 10 ^ k := by
  obtain ⟨d, hd, hi⟩ := int_instant toPy now naiveTz tz n
  have hx : (∃ d, toTzawareDatetime toPy now naiveTz tz (.int n) = .ok d ∧ d.instant = n / (10 : ℚ) ^ k) ↔
      intTimestamp n = n / (10 : ℚ) ^ k := by
    rw [← hi]
    constructor
    · rintro ⟨d', h1, h2⟩
      rw [hd] at h1; cases h1; exact h2
    · intro h; exact ⟨d, hd, h⟩
  rw [hx, intTimestamp_eq, div_ten_pow_inj (by omega)]
  have hs := strLen_pos (by omega : 0 < -n) (8 + k)
  rw [pow_add, show 8 + k + 1 = 9 + k by omega, pow_add] at hs
  rw [← hs, strLen_neg hn]
  omega

/-- **C115, floats.**  A float is always a number of seconds since 1970, whatever the settings. -/
theorem C115_float (toPy : Bool) (now : ℚ) (naiveTz : TimeZone) (tz : Option (TimeZone × (ℚ → ℚ))) (t : ℚ) :
    ∃ d, toTzawareDatetime toPy now naiveTz tz (.float t) = .ok d ∧ d.instant = t := by
  cases tz with
  | none => cases toPy <;> exact ⟨_, rfl, by simp [utcTime, replaceZone, toTimezone, fixedZone, AwareTime.instant]⟩
  | some z => cases toPy <;> exact ⟨_, rfl, by simp [utcTime, replaceZone, toTimezone, fixedZone, AwareTime.instant]⟩

/-- **C115, aware datetimes.**  With the default settings an aware datetime keeps its wall time and takes the offset its zone has
at the time of the call, so it keeps its instant exactly when that is its own offset: a date in summer converted in winter moves
by an hour. -/
theorem C115_aware (now : ℚ) (naiveTz : TimeZone) (d : AwareTime) :
    ∃ e, toTzawareDatetime true now naiveTz none (.aware d) = .ok e ∧ e.wall = d.wall ∧
      e.instant = d.instant + (d.offset - d.zone.utcoffset now) ∧
      (e.instant = d.instant ↔ d.zone.utcoffset now = d.offset) := by
  refine ⟨_, rfl, rfl, ?_, ?_⟩
  · simp only [replaceZone, toTimezone, fixedZone, AwareTime.instant, if_true]; ring
  · simp only [replaceZone, toTimezone, fixedZone, AwareTime.instant, if_true]
    constructor <;> intro h <;> linarith

/-- **C115, zones kept.**  Without the conversion to fixed offsets an aware datetime is returned as it is. -/
theorem C115_aware_kept (now : ℚ) (naiveTz : TimeZone) (d : AwareTime) :
    toTzawareDatetime false now naiveTz none (.aware d) = .ok d := rfl

/-- **C115, naive datetimes.**  A naive datetime keeps its wall time and takes the offset of `naive_tz`: with the default settings
that of the time of the call, otherwise that of the datetime. -/
theorem C115_naive (toPy : Bool) (now : ℚ) (naiveTz : TimeZone) (w : ℚ) :
    ∃ e, toTzawareDatetime toPy now naiveTz none (.naive w) = .ok e ∧ e.wall = w ∧
      e.offset = naiveTz.utcoffset (if toPy then now else w) := by
  cases toPy <;> exact ⟨_, rfl, rfl, by simp [replaceZone, toTimezone, fixedZone]⟩

/-- **C115, conversion.**  `tz` never changes the instant, nor whether the call raises; the offset is that of the target zone,
with the default settings at the time of the call. -/
theorem C115_convert (toPy : Bool) (now : ℚ) (naiveTz z : TimeZone) (offsetAt : ℚ → ℚ) (x : DtLike) :
    (∀ e, toTzawareDatetime toPy now naiveTz (some (z, offsetAt)) x = .error e ↔
      toTzawareDatetime toPy now naiveTz none x = .error e) ∧
    (∀ d, toTzawareDatetime toPy now naiveTz none x = .ok d →
      ∃ e, toTzawareDatetime toPy now naiveTz (some (z, offsetAt)) x = .ok e ∧ e.instant = d.instant ∧
        e.offset = if toPy then z.utcoffset now else offsetAt d.instant) := by
  unfold toTzawareDatetime
  cases hp : parseDatetime x with
  | error e0 => exact ⟨fun e => Iff.rfl, fun d h => (by cases h)⟩
  | ok p =>
    refine ⟨fun e => ⟨fun h => (by cases h), fun h => (by cases h)⟩, fun d h => ?_⟩
    cases h
    refine ⟨_, rfl, ?_, rfl⟩
    simp only [AwareTime.instant]; ring

/-- **C115, `np.datetime64`.**  Of a `np.datetime64` with a time of day only the day is kept: the result is midnight, at most a
day before, and equals the argument only at midnight.  One with nanoseconds raises. -/
theorem C115_datetime64 (toPy : Bool) (now : ℚ) (naiveTz : TimeZone) (tz : Option (TimeZone × (ℚ → ℚ))) :
    (∀ w, ∃ (day : Int), 86400 * (day : ℚ) ≤ w ∧ w < 86400 * day + 86400 ∧
      toTzawareDatetime toPy now naiveTz tz (.np (.time w)) = toTzawareDatetime toPy now naiveTz tz (.np (.date day)) ∧
      toTzawareDatetime toPy now naiveTz tz (.np (.date day)) =
        toTzawareDatetime toPy now naiveTz tz (.naive (86400 * day))) ∧
    ∃ msg, toTzawareDatetime toPy now naiveTz tz (.np .number) = .error (.typeError msg) := by
  refine ⟨fun w => ⟨⌊w / 86400⌋, ?_, ?_, rfl, rfl⟩, _, rfl⟩
  · have := Int.floor_le (w / 86400)
    rw [le_div_iff₀ (by norm_num)] at this
    linarith
  · have := Int.lt_floor_add_one (w / 86400)
    rw [div_lt_iff₀ (by norm_num)] at this
    linarith

/-- **C115, failures.**  Only a string that is not understood and a `np.datetime64` in nanoseconds raise. -/
theorem C115_raises (toPy : Bool) (now : ℚ) (naiveTz : TimeZone) (tz : Option (TimeZone × (ℚ → ℚ))) (x : DtLike) :
    (∃ e, toTzawareDatetime toPy now naiveTz tz x = .error e) ↔ x = .unparsed ∨ x = .np .number := by
  cases tz with
  | none =>
    cases x with
    | np d => cases d <;> simp [toTzawareDatetime, parseDatetime]
    | _ => simp [toTzawareDatetime, parseDatetime]
  | some z =>
    cases x with
    | np d => cases d <;> simp [toTzawareDatetime, parseDatetime]
    | _ => simp [toTzawareDatetime, parseDatetime]

/-! ## Milliseconds -/

/-- **C115, truncation.**  `datetime_to_ms` is within a millisecond of the instant, on the side of 1970. -/
theorem C115_ms (d : AwareTime) :
    |d.instant * 1000 - datetimeToMs d| < 1 ∧ (0 ≤ d.instant → (datetimeToMs d : ℚ) ≤ d.instant * 1000 ∧ 0 ≤ datetimeToMs d) ∧
      (d.instant ≤ 0 → d.instant * 1000 ≤ datetimeToMs d ∧ datetimeToMs d ≤ 0) := by
  unfold datetimeToMs
  by_cases h : 0 ≤ d.instant * 1000
  · rw [if_pos h]
    have h1 := Int.floor_le (d.instant * 1000)
    have h2 := Int.lt_floor_add_one (d.instant * 1000)
    refine ⟨by rw [abs_lt]; constructor <;> linarith, fun _ => ⟨h1, Int.floor_nonneg.mpr h⟩, fun h3 => ?_⟩
    have h4 : d.instant = 0 := by linarith
    rw [h4]; simp
  · rw [if_neg h]
    have h1 := Int.le_ceil (d.instant * 1000)
    have h2 := Int.ceil_lt_add_one (d.instant * 1000)
    refine ⟨by rw [abs_lt]; constructor <;> linarith, fun h3 => absurd (by linarith) h, fun _ => ⟨h1, ?_⟩⟩
    exact Int.ceil_le.mpr (by push_cast; linarith)

/-- **C115, round trip.**  Milliseconds from 2001-09-09 to 2286-11-20 are given back by `datetime_to_ms`, whatever the settings. -/
theorem C115_round_trip (toPy : Bool) (now : ℚ) (naiveTz : TimeZone) (tz : Option (TimeZone × (ℚ → ℚ))) (n : Int)
    (h1 : 10 ^ 12 ≤ n) (h2 : n < 10 ^ 13) :
    ∃ d, toTzawareDatetime toPy now naiveTz tz (.int n) = .ok d ∧ datetimeToMs d = n := by
  have hn : 0 < n := lt_of_lt_of_le (by norm_num) h1
  obtain ⟨d, hd, hi⟩ := (C115_units toPy now naiveTz tz n hn 3 (by norm_num)).mpr ⟨by linarith, by linarith⟩
  refine ⟨d, hd, ?_⟩
  have hx : d.instant * 1000 = n := by rw [hi]; norm_num
  unfold datetimeToMs
  rw [hx, if_pos (by exact_mod_cast hn.le)]
  exact Int.floor_intCast n

/-! ## Intervals -/

/-- The milliseconds of a unit of an interval. -/
inductive UnitMs : Char → Int → Prop
  | minute : UnitMs 'm' 60000
  | hour : UnitMs 'h' 3600000
  | day : UnitMs 'd' 86400000
  | week : UnitMs 'w' 604800000

/-- The table of units. -/
theorem lookup_unit (u : Char) (k : Int) : secondsPerUnit.lookup u = some k ↔ UnitMs u (k * 1000) := by
  constructor
  · intro h
    unfold secondsPerUnit at h
    simp only [List.lookup] at h
    by_cases h1 : u = 'm'
    · subst h1; simp at h; subst h; exact .minute
    · by_cases h2 : u = 'h'
      · subst h2; simp at h; subst h; exact .hour
      · by_cases h3 : u = 'd'
        · subst h3; simp at h; subst h; exact .day
        · by_cases h4 : u = 'w'
          · subst h4; simp at h; subst h; exact .week
          · simp [h1, h2, h3, h4, beq_eq_false_iff_ne.mpr] at h
  · intro h
    generalize hm : k * 1000 = m at h
    cases h with
    | minute => have : k = 60 := by omega
                subst this; decide
    | hour => have : k = 3600 := by omega
              subst this; decide
    | day => have : k = 86400 := by omega
             subst this; decide
    | week => have : k = 604800 := by omega
              subst this; decide

/-- **C115, intervals.**  An interval is understood exactly when it is an integer followed by one of `m`, `h`, `d`, `w`; then it
is that many units.  Other units (`s`, `M`) give `None`, without raising. -/
theorem C115_interval (parseInt : List Char → Option Int) (s : List Char) (ms : Int) :
    intervalToMs parseInt s = some ms ↔
      ∃ (digits : List Char) (u : Char) (n k : Int), s = digits ++ [u] ∧ parseInt digits = some n ∧ UnitMs u k ∧ ms = n * k := by
  constructor
  · intro h
    unfold intervalToMs at h
    cases hp : parseInt s.dropLast with
    | none => rw [hp] at h; cases h
    | some n =>
      rw [hp] at h
      cases hl : s.getLast? with
      | none => rw [hl] at h; cases h
      | some u =>
        rw [hl] at h
        cases hk : secondsPerUnit.lookup u with
        | none => simp only [hk] at h; cases h
        | some k =>
          simp only [hk, Option.some.injEq] at h
          refine ⟨s.dropLast, u, n, k * 1000, ?_, hp, (lookup_unit u k).mp hk, by rw [← h]; ring⟩
          exact (List.dropLast_append_getLast? u hl).symm
  · rintro ⟨ds, u, n, k, rfl, hp, hu, rfl⟩
    have : ∃ j, k = j * 1000 := by
      cases hu
      · exact ⟨60, by norm_num⟩
      · exact ⟨3600, by norm_num⟩
      · exact ⟨86400, by norm_num⟩
      · exact ⟨604800, by norm_num⟩
    obtain ⟨j, rfl⟩ := this
    unfold intervalToMs
    rw [List.dropLast_concat, hp]
    simp only [List.getLast?_concat, (lookup_unit u j).mpr hu]
    congr 1; ring

/-! ## Findings -/

/-- **C115, finding.**  946684800000, the first millisecond of 2000, is read as 9466848000 seconds: the year 2269. -/
theorem C115_early_ms_counterexample :
    (∃ d, toTzawareDatetime true 0 (fixedZone 0) none (.int 946684800000) = .ok d ∧ d.instant = 9466848000) := by
  refine ⟨_, rfl, ?_⟩
  have h : strLen 946684800000 = 11 + 1 := (strLen_pos (by norm_num) 11).mpr ⟨by norm_num, by norm_num⟩
  simp only [utcTime, replaceZone, toTimezone, fixedZone, AwareTime.instant, intTimestamp, h, if_true]
  norm_num

/-- **C115, finding.**  -1500000000 seconds (1922) are read as -150000000 seconds (1965). -/
theorem C115_negative_counterexample :
    (∃ d, toTzawareDatetime true 0 (fixedZone 0) none (.int (-1500000000)) = .ok d ∧ d.instant = -150000000) := by
  refine ⟨_, rfl, ?_⟩
  have h : strLen (-1500000000) = 11 := by
    rw [strLen_neg (by norm_num), (strLen_pos (by norm_num) 9).mpr ⟨by norm_num, by norm_num⟩]
  simp only [utcTime, replaceZone, toTimezone, fixedZone, AwareTime.instant, intTimestamp, h, if_true]
  norm_num

/-- A zone that is an hour ahead of UTC, and two from one time on. -/
def summerZone : TimeZone := ⟨fun w => if w < 1000 then 3600 else 7200⟩

/-- **C115, finding.**  A date in summer, converted in winter, moves by an hour. -/
theorem C115_dst_counterexample : ∃ (d : AwareTime) (now : ℚ), d.offset = d.zone.utcoffset d.wall ∧
    ∃ e, toTzawareDatetime true now (fixedZone 0) none (.aware d) = .ok e ∧ e.instant = d.instant + 3600 := by
  refine ⟨⟨5000, 7200, summerZone⟩, 0, by norm_num [summerZone], _, rfl, ?_⟩
  norm_num [replaceZone, toTimezone, fixedZone, AwareTime.instant, summerZone]

/-! ## The hypotheses can be met -/

example : ∃ d, toTzawareDatetime true 0 (fixedZone 0) none (.int 1577836800000) = .ok d ∧ d.instant = 1577836800 := by
  have := (C115_units true 0 (fixedZone 0) none 1577836800000 (by norm_num) 3 (by norm_num)).mpr ⟨by norm_num, by norm_num⟩
  norm_num at this
  exact this

example : ∃ d, toTzawareDatetime true 0 (fixedZone 0) none (.int (-500000000000)) = .ok d ∧ d.instant = -500000000 := by
  have := (C115_negative_units true 0 (fixedZone 0) none (-500000000000) (by norm_num) 3 (by norm_num)).mpr
    ⟨by norm_num, by norm_num⟩
  norm_num at this
  exact this

example : ∃ d, toTzawareDatetime true 0 (fixedZone 0) none (.int (-500000000)) = .ok d ∧ d.instant = ((-500000000 : Int) : ℚ) :=
  (C115_seconds true 0 (fixedZone 0) none (-500000000)).mpr ⟨by norm_num, by norm_num⟩

example : ∃ d, toTzawareDatetime true 0 (fixedZone 0) (some (fixedZone 3600, fun _ => 3600)) (.int 1577836800123) = .ok d ∧
    datetimeToMs d = 1577836800123 :=
  C115_round_trip _ _ _ _ _ (by norm_num) (by norm_num)

/-- Digits to an integer, for the examples. -/
def parseDigits (s : List Char) : Option Int :=
  if s ≠ [] ∧ s.all Char.isDigit then some (s.foldl (fun n c => 10 * n + (c.toNat - 48 : Nat)) 0) else none

example : intervalToMs parseDigits ['1', '5', 'm'] = some 900000 ∧ intervalToMs parseDigits ['1', 'M'] = none ∧
    intervalToMs parseDigits ['m'] = none ∧ intervalToMs parseDigits [] = none := by decide +kernel

end Vbt
