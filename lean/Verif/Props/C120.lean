import Mathlib.Data.Int.ModEq
import Mathlib.Tactic.Linarith
import Mathlib.Tactic.Ring
import Verif.Model.TimeOfDay

/-!
# C120: times of day are moved between time zones without changing the moment

A moment of the day is a time of day in UTC, up to whole days.
-/

namespace Vbt

/-- A clock: the time it shows lies within a day. -/
def IsClock (us : ℤ) : Prop := 0 ≤ us ∧ us < 86400000000

/-- Clocks at two offsets show the same moment, up to whole days. -/
def SameMoment (us off us' off' : ℤ) : Prop := ∃ k : ℤ, us - off = us' - off' + 86400000000 * k

theorem same_clock {us us' off : ℤ} (h : IsClock us) (h' : IsClock us') (hs : SameMoment us off us' off) : us = us' := by
  obtain ⟨k, hk⟩ := hs
  unfold IsClock at h h'
  omega

theorem convert_clock (here : ℤ) (t : DayTime) (o : Option ℤ) : IsClock (convertTzawareTime here t o).us := by
  unfold convertTzawareTime IsClock dayUs
  dsimp only
  omega

theorem convert_moment (here : ℤ) (t : DayTime) (o : Option ℤ) :
    SameMoment (convertTzawareTime here t o).us (o.getD here) t.us (t.tz.getD here) := by
  refine ⟨-((t.us - t.tz.getD here + o.getD here) / dayUs), ?_⟩
  unfold convertTzawareTime
  dsimp only
  have := Int.emod_add_mul_ediv (t.us - t.tz.getD here + o.getD here) dayUs
  unfold dayUs at *
  linarith

/-- **C120, moment.**  A conversion gives the one time of day that a clock in the new zone shows at the moment of the old time; a
time without zone and a zone not given are those of the machine.  The result of `convert_tzaware_time` carries the new zone, those
of `tzaware_to_naive_time` and `convert_naive_time` carry none. -/
theorem C120_convert (here : ℤ) (t r : DayTime) (o : Option ℤ) :
    (convertTzawareTime here t o = r ↔
      r.tz = some (o.getD here) ∧ IsClock r.us ∧ SameMoment r.us (o.getD here) t.us (t.tz.getD here)) ∧
    (tzawareToNaiveTime here t o = r ↔
      r.tz = none ∧ IsClock r.us ∧ SameMoment r.us (o.getD here) t.us (t.tz.getD here)) ∧
    (convertNaiveTime here t o = r ↔
      r.tz = none ∧ IsClock r.us ∧ SameMoment r.us (o.getD here) t.us (t.tz.getD here)) ∧
    (naiveToTzawareTime here t o = r ↔
      r.tz = o ∧ IsClock r.us ∧ SameMoment r.us (o.getD here) t.us (t.tz.getD here)) := by
  have hc := convert_clock here t o
  have hm := convert_moment here t o
  have key : ∀ z : Option ℤ, (({ us := (convertTzawareTime here t o).us, tz := z } : DayTime) = r ↔
      r.tz = z ∧ IsClock r.us ∧ SameMoment r.us (o.getD here) t.us (t.tz.getD here)) := by
    intro z
    constructor
    · rintro rfl
      exact ⟨rfl, hc, hm⟩
    · rintro ⟨h1, h2, k, hk⟩
      obtain ⟨k', hk'⟩ := hm
      have hu : (convertTzawareTime here t o).us = r.us :=
        same_clock (off := o.getD here) hc h2 ⟨k' - k, by linarith⟩
      cases r
      simp_all
  exact ⟨key _, key _, key _, key _⟩

/-- **C120, there and back.**  A naive time moved to a zone and back to the local zone is the same; so is an aware time made naive
in the local zone and aware again in its own. -/
theorem C120_round_trip (here z us : ℤ) (h : IsClock us) :
    tzawareToNaiveTime here (naiveToTzawareTime here ⟨us, none⟩ (some z)) none = ⟨us, none⟩ ∧
    naiveToTzawareTime here (tzawareToNaiveTime here ⟨us, some z⟩ none) (some z) = ⟨us, some z⟩ := by
  constructor
  · rw [(C120_convert _ _ _ _).2.1]
    obtain ⟨e, _, k, hk⟩ := ((C120_convert here ⟨us, none⟩ _ (some z)).2.2.2).mp rfl
    refine ⟨rfl, h, -k, ?_⟩
    rw [e]
    simp only [Option.getD_some, Option.getD_none] at hk ⊢
    linarith
  · rw [(C120_convert _ _ _ _).2.2.2]
    obtain ⟨e, _, k, hk⟩ := ((C120_convert here ⟨us, some z⟩ _ none).2.1).mp rfl
    refine ⟨rfl, h, -k, ?_⟩
    rw [e]
    simp only [Option.getD_some, Option.getD_none] at hk ⊢
    linarith

/-- **C120, by way of.**  A conversion through another zone is the direct one. -/
theorem C120_through (here : ℤ) (t : DayTime) (m o : Option ℤ) :
    convertTzawareTime here (convertTzawareTime here t m) o = convertTzawareTime here t o := by
  rw [(C120_convert _ _ _ _).1]
  obtain ⟨e, _, k, hk⟩ := ((C120_convert here t _ m).1).mp rfl
  obtain ⟨e', c', k', hk'⟩ := ((C120_convert here t _ o).1).mp rfl
  refine ⟨e', c', k' - k, ?_⟩
  rw [e]
  simp only [Option.getD_some]
  linarith

/-- **C120, finding.**  Without a zone `naive_to_tzaware_time`, which is to return an aware time, returns the naive time it was
given. -/
theorem C120_no_zone (here us : ℤ) (h : IsClock us) : naiveToTzawareTime here ⟨us, none⟩ none = ⟨us, none⟩ :=
  ((C120_convert _ _ _ _).2.2.2).mpr ⟨rfl, h, 0, by simp⟩

/-- **C120, finding.**  The day is lost: between any two zones with different times of day there are times `a < b` whose order
is exchanged, so an interval of the day may end before it begins. -/
theorem C120_order (here z z' : ℤ) (hd : ¬ (86400000000 : ℤ) ∣ z' - z) :
    ∃ a b : ℤ, IsClock a ∧ IsClock b ∧ a < b ∧
      (convertTzawareTime here ⟨b, some z⟩ (some z')).us < (convertTzawareTime here ⟨a, some z⟩ (some z')).us := by
  have h0 : 0 < (z' - z) % 86400000000 := by omega
  refine ⟨0, 86400000000 - (z' - z) % 86400000000, ?_, ?_, ?_, ?_⟩
  · unfold IsClock; omega
  · unfold IsClock; omega
  · omega
  · unfold convertTzawareTime dayUs
    simp only [Option.getD_some]
    omega

/-! ## The hypotheses can be met -/

/-- 23:30 at UTC+1 is 22:30 in UTC and 07:30 at UTC+9. -/
example : convertTzawareTime 0 ⟨84600000000, some 3600000000⟩ (some 32400000000) = ⟨27000000000, some 32400000000⟩ :=
  ((C120_convert _ _ _ _).1).mpr ⟨rfl, ⟨by decide, by decide⟩, -1, by simp⟩

example : tzawareToNaiveTime 3600000000 (naiveToTzawareTime 3600000000 ⟨84600000000, none⟩ (some 32400000000)) none =
    ⟨84600000000, none⟩ := (C120_round_trip 3600000000 32400000000 84600000000 (by unfold IsClock; omega)).1

example : naiveToTzawareTime 3600000000 ⟨5, none⟩ none = ⟨5, none⟩ := C120_no_zone _ _ (by unfold IsClock; omega)

example : ∃ a b : ℤ, IsClock a ∧ IsClock b ∧ a < b ∧
    (convertTzawareTime 0 ⟨b, some 0⟩ (some 3600000000)).us < (convertTzawareTime 0 ⟨a, some 0⟩ (some 3600000000)).us :=
  C120_order 0 0 3600000000 (by omega)

end Vbt
