import Mathlib.Data.List.Basic
import Mathlib.Tactic.Common
import Verif.Model.Schedule

/-!
# C117: which jobs `ScheduleManager.every` creates

The arguments are an interval, a unit, a weekday and a time, each optional, in this order.  The theorems say exactly which lists
of arguments are understood and exactly which times of day a unit accepts.
-/

namespace Vbt

/-- An interval. -/
inductive IntervalArg : SchedArg → Prop
  | int (z : Int) : IntervalArg (.int z)
  | delta (d : Int) : IntervalArg (.delta d)

/-- A unit, singular or plural. -/
inductive UnitArg : SchedArg → Prop
  | mk (u : String) (h : u = "second" ∨ u = "seconds" ∨ u = "minute" ∨ u = "minutes" ∨ u = "hour" ∨ u = "hours" ∨ u = "day" ∨
      u = "days" ∨ u = "week" ∨ u = "weeks") : UnitArg (.text u)

/-- A weekday. -/
inductive WeekdayArg : SchedArg → Prop
  | mk (d : String) (h : d = "monday" ∨ d = "tuesday" ∨ d = "wednesday" ∨ d = "thursday" ∨ d = "friday" ∨ d = "saturday" ∨
      d = "sunday") : WeekdayArg (.text d)

/-- A time: a `datetime.time` or a text with a colon. -/
inductive AtArg : SchedArg → Prop
  | time (t : ClockTime) : AtArg (.time t)
  | text (s : String) (h : ':' ∈ s.toList) : AtArg (.text s)

/-! ## Kinds of arguments -/

theorem isInterval_iff (a : SchedArg) : a.isInterval = true ↔ IntervalArg a := by
  cases a with
  | int z => exact ⟨fun _ => .int z, fun _ => rfl⟩
  | delta z => exact ⟨fun _ => .delta z, fun _ => rfl⟩
  | text s => exact ⟨fun h => (by cases h), fun h => (by cases h)⟩
  | time s => exact ⟨fun h => (by cases h), fun h => (by cases h)⟩
  | other => exact ⟨fun h => (by cases h), fun h => (by cases h)⟩

theorem isUnit_iff (a : SchedArg) : a.isUnit = true ↔ UnitArg a := by
  cases a with
  | text s =>
    constructor
    · intro h
      exact .mk s (by simpa [SchedArg.isUnit, schedUnits] using h)
    · intro h
      cases h with
      | mk _ h => simpa [SchedArg.isUnit, schedUnits] using h
  | int z => exact ⟨fun h => (by cases h), fun h => (by cases h)⟩
  | delta z => exact ⟨fun h => (by cases h), fun h => (by cases h)⟩
  | time s => exact ⟨fun h => (by cases h), fun h => (by cases h)⟩
  | other => exact ⟨fun h => (by cases h), fun h => (by cases h)⟩

theorem isStartDay_iff (a : SchedArg) : a.isStartDay = true ↔ WeekdayArg a := by
  cases a with
  | text s =>
    constructor
    · intro h
      exact .mk s (by simpa [SchedArg.isStartDay, schedWeekdays] using h)
    · intro h
      cases h with
      | mk _ h => simpa [SchedArg.isStartDay, schedWeekdays] using h
  | int z => exact ⟨fun h => (by cases h), fun h => (by cases h)⟩
  | delta z => exact ⟨fun h => (by cases h), fun h => (by cases h)⟩
  | time s => exact ⟨fun h => (by cases h), fun h => (by cases h)⟩
  | other => exact ⟨fun h => (by cases h), fun h => (by cases h)⟩

theorem isAt_iff (a : SchedArg) : a.isAt = true ↔ AtArg a := by
  cases a with
  | text s =>
    constructor
    · intro h
      exact .text s (by simpa [SchedArg.isAt] using h)
    · intro h
      cases h with
      | text _ h => simpa [SchedArg.isAt] using h
  | time t => exact ⟨fun _ => .time t, fun _ => rfl⟩
  | int z => exact ⟨fun h => (by cases h), fun h => (by cases h)⟩
  | delta z => exact ⟨fun h => (by cases h), fun h => (by cases h)⟩
  | other => exact ⟨fun h => (by cases h), fun h => (by cases h)⟩

theorem units_plain : ∀ s ∈ schedUnits, s.toList.contains ':' = false ∧ s ∉ schedWeekdays := by decide

theorem weekdays_plain : ∀ s ∈ schedWeekdays, s.toList.contains ':' = false := by decide

theorem isUnit_excl {a : SchedArg} (h : a.isUnit = true) : a.isInterval = false := by
  cases a <;> first | rfl | cases h

theorem isStartDay_excl {a : SchedArg} (h : a.isStartDay = true) : a.isInterval = false ∧ a.isUnit = false := by
  cases a with
  | text s =>
    refine ⟨rfl, ?_⟩
    have h' : s ∈ schedWeekdays := by simpa [SchedArg.isStartDay] using h
    have : s ∉ schedUnits := fun hu => (units_plain s hu).2 h'
    simpa [SchedArg.isUnit] using this
  | _ => cases h

theorem isAt_excl {a : SchedArg} (h : a.isAt = true) : a.isInterval = false ∧ a.isUnit = false ∧ a.isStartDay = false := by
  cases a with
  | text s =>
    have h' : s.toList.contains ':' = true := h
    refine ⟨rfl, ?_, ?_⟩
    · have : s ∉ schedUnits := fun hu => by rw [(units_plain s hu).1] at h'; cases h'
      simpa [SchedArg.isUnit] using this
    · have : s ∉ schedWeekdays := fun hu => by rw [weekdays_plain s hu] at h'; cases h'
      simpa [SchedArg.isStartDay] using this
  | time => exact ⟨rfl, rfl, rfl⟩
  | _ => cases h

/-! ## Parsing -/

theorem parse4 (p q : SchedParsed) (as : List SchedArg) : parseSched 4 p as = .ok q ↔ as = [] ∧ q = p := by
  cases as with
  | nil => simp [parseSched, eq_comm]
  | cons a as => simp [parseSched]

theorem parse3 (p q : SchedParsed) (hp : p.at_ = none) (as : List SchedArg) : parseSched 3 p as = .ok q ↔
    ∃ t : Option SchedArg, as = t.toList ∧ (∀ a ∈ t, a.isAt = true) ∧ q = { p with at_ := t } := by
  cases as with
  | nil =>
    constructor
    · intro h; cases h
      exact ⟨none, rfl, (by simp), by cases p; simp_all⟩
    · rintro ⟨t, h1, _, h3⟩
      cases t with
      | none => subst h3; cases p; simp_all [parseSched]
      | some => simp at h1
  | cons a as =>
    by_cases ha : a.isAt = true
    · have : parseSched 3 p (a :: as) = parseSched 4 { p with at_ := some a } as := by simp [parseSched, ha]
      rw [this, parse4]
      constructor
      · rintro ⟨rfl, rfl⟩; exact ⟨some a, rfl, by simpa using ha, rfl⟩
      · rintro ⟨t, h1, _, h3⟩
        cases t with
        | none => simp at h1
        | some b => simp only [Option.toList_some, List.cons.injEq] at h1; obtain ⟨rfl, rfl⟩ := h1; exact ⟨rfl, h3⟩
    · have : parseSched 3 p (a :: as) = .error (.valueError "Arg at index is unexpected") := by simp [parseSched, ha]
      rw [this]
      constructor
      · intro h; cases h
      · rintro ⟨t, h1, h2, _⟩
        cases t with
        | none => simp at h1
        | some b => simp only [Option.toList_some, List.cons.injEq] at h1; obtain ⟨rfl, rfl⟩ := h1; exact absurd (h2 a rfl) ha

theorem parse2 (p q : SchedParsed) (hp : p.at_ = none) (hd : p.startDay = none) (as : List SchedArg) : parseSched 2 p as = .ok q ↔
    ∃ d t : Option SchedArg, as = d.toList ++ t.toList ∧ (∀ a ∈ d, a.isStartDay = true) ∧ (∀ a ∈ t, a.isAt = true) ∧
      q = { p with startDay := d, at_ := t } := by
  cases as with
  | nil =>
    constructor
    · intro h; cases h
      exact ⟨none, none, rfl, (by simp), (by simp), by cases p; simp_all⟩
    · rintro ⟨d, t, h1, _, _, h3⟩
      cases d with
      | some => simp at h1
      | none =>
        cases t with
        | none => subst h3; cases p; simp_all [parseSched]
        | some => simp at h1
  | cons a as =>
    by_cases ha : a.isStartDay = true
    · have : parseSched 2 p (a :: as) = parseSched 3 { p with startDay := some a } as := by simp [parseSched, ha]
      rw [this, parse3 _ _ (by simpa using hp)]
      constructor
      · rintro ⟨t, rfl, h2, rfl⟩; exact ⟨some a, t, rfl, by simpa using ha, h2, rfl⟩
      · rintro ⟨d, t, h1, h2, h3, h4⟩
        cases d with
        | none =>
          cases t with
          | none => simp at h1
          | some b =>
            simp only [Option.toList_none, List.nil_append, Option.toList_some, List.cons.injEq] at h1
            obtain ⟨rfl, rfl⟩ := h1
            rw [(isAt_excl (h3 a rfl)).2.2] at ha; cases ha
        | some b =>
          simp only [Option.toList_some, List.cons_append, List.nil_append, List.cons.injEq] at h1
          obtain ⟨rfl, rfl⟩ := h1
          exact ⟨t, rfl, h3, h4⟩
    · have : parseSched 2 p (a :: as) = parseSched 3 p (a :: as) := by simp [parseSched, ha]
      rw [this, parse3 _ _ hp]
      constructor
      · rintro ⟨t, h1, h2, rfl⟩; exact ⟨none, t, h1, (by simp), h2, by cases p; simp_all⟩
      · rintro ⟨d, t, h1, h2, h3, h4⟩
        cases d with
        | none => exact ⟨t, h1, h3, by subst h4; cases p; simp_all⟩
        | some b =>
          simp only [Option.toList_some, List.cons_append, List.nil_append, List.cons.injEq] at h1
          obtain ⟨rfl, _⟩ := h1
          exact absurd (h2 a rfl) ha

theorem parse1 (p q : SchedParsed) (hp : p.at_ = none) (hd : p.startDay = none) (hu : p.unit = none) (as : List SchedArg) :
    parseSched 1 p as = .ok q ↔
    ∃ u d t : Option SchedArg, as = u.toList ++ (d.toList ++ t.toList) ∧ (∀ a ∈ u, a.isUnit = true) ∧
      (∀ a ∈ d, a.isStartDay = true) ∧ (∀ a ∈ t, a.isAt = true) ∧ q = { p with unit := u, startDay := d, at_ := t } := by
  cases as with
  | nil =>
    constructor
    · intro h; cases h
      exact ⟨none, none, none, rfl, (by simp), (by simp), (by simp), by cases p; simp_all⟩
    · rintro ⟨u, d, t, h1, _, _, _, h3⟩
      cases u with
      | some => simp at h1
      | none =>
        cases d with
        | some => simp at h1
        | none =>
          cases t with
          | none => subst h3; cases p; simp_all [parseSched]
          | some => simp at h1
  | cons a as =>
    by_cases ha : a.isUnit = true
    · have : parseSched 1 p (a :: as) = parseSched 2 { p with unit := some a } as := by simp [parseSched, ha]
      rw [this, parse2 _ _ (by simpa using hp) (by simpa using hd)]
      constructor
      · rintro ⟨d, t, rfl, h2, h3, rfl⟩; exact ⟨some a, d, t, rfl, by simpa using ha, h2, h3, rfl⟩
      · rintro ⟨u, d, t, h1, h2, h3, h4, h5⟩
        cases u with
        | none =>
          exfalso
          cases d with
          | none =>
            cases t with
            | none => simp at h1
            | some b =>
              simp only [Option.toList_none, List.nil_append, Option.toList_some, List.cons.injEq] at h1
              obtain ⟨rfl, rfl⟩ := h1
              rw [(isAt_excl (h4 a rfl)).2.1] at ha; cases ha
          | some b =>
            simp only [Option.toList_none, List.nil_append, Option.toList_some, List.cons_append, List.cons.injEq] at h1
            obtain ⟨rfl, _⟩ := h1
            rw [(isStartDay_excl (h3 a rfl)).2] at ha; cases ha
        | some b =>
          simp only [Option.toList_some, List.cons_append, List.nil_append, List.cons.injEq] at h1
          obtain ⟨rfl, rfl⟩ := h1
          exact ⟨d, t, rfl, h3, h4, h5⟩
    · have : parseSched 1 p (a :: as) = parseSched 2 p (a :: as) := by simp [parseSched, ha]
      rw [this, parse2 _ _ hp hd]
      constructor
      · rintro ⟨d, t, h1, h2, h3, rfl⟩; exact ⟨none, d, t, h1, (by simp), h2, h3, by cases p; simp_all⟩
      · rintro ⟨u, d, t, h1, h2, h3, h4, h5⟩
        cases u with
        | none => exact ⟨d, t, h1, h3, h4, by subst h5; cases p; simp_all⟩
        | some b =>
          simp only [Option.toList_some, List.cons_append, List.nil_append, List.cons.injEq] at h1
          obtain ⟨rfl, _⟩ := h1
          exact absurd (h2 a rfl) ha

theorem parse0 (q : SchedParsed) (as : List SchedArg) :
    parseSched 0 {} as = .ok q ↔ as = q.interval.toList ++ (q.unit.toList ++ (q.startDay.toList ++ q.at_.toList)) ∧
      (∀ a ∈ q.interval, a.isInterval = true) ∧ (∀ a ∈ q.unit, a.isUnit = true) ∧ (∀ a ∈ q.startDay, a.isStartDay = true) ∧
      (∀ a ∈ q.at_, a.isAt = true) := by
  obtain ⟨i, u, d, t⟩ := q
  by_cases h : ∃ a as', as = a :: as' ∧ a.isInterval = true
  · obtain ⟨a, as', rfl, ha⟩ := h
    have : parseSched 0 {} (a :: as') = parseSched 1 { interval := some a } as' := by simp [parseSched, ha]
    rw [this, parse1 _ _ rfl rfl rfl]
    constructor
    · rintro ⟨u', d', t', rfl, h2, h3, h4, h5⟩
      cases h5
      exact ⟨rfl, by simpa using ha, h2, h3, h4⟩
    · rintro ⟨h1, h2, h3, h4, h5⟩
      cases i with
      | some b =>
        simp only [Option.toList_some, List.cons_append, List.nil_append, List.cons.injEq] at h1
        obtain ⟨rfl, rfl⟩ := h1
        exact ⟨u, d, t, rfl, h3, h4, h5, rfl⟩
      | none =>
        exfalso
        cases u with
        | some b =>
          simp only [Option.toList_none, List.nil_append, Option.toList_some, List.cons_append, List.cons.injEq] at h1
          obtain ⟨rfl, _⟩ := h1
          rw [isUnit_excl (h3 a rfl)] at ha; cases ha
        | none =>
          cases d with
          | some b =>
            simp only [Option.toList_none, List.nil_append, Option.toList_some, List.cons_append, List.cons.injEq] at h1
            obtain ⟨rfl, _⟩ := h1
            rw [(isStartDay_excl (h4 a rfl)).1] at ha; cases ha
          | none =>
            cases t with
            | some b =>
              simp only [Option.toList_none, List.nil_append, Option.toList_some, List.cons.injEq] at h1
              obtain ⟨rfl, _⟩ := h1
              rw [(isAt_excl (h5 a rfl)).1] at ha; cases ha
            | none => simp at h1
  · have : parseSched 0 {} as = parseSched 1 {} as := by
      cases as with
      | nil => rfl
      | cons a as' =>
        have ha : ¬ a.isInterval = true := fun e => h ⟨a, as', rfl, e⟩
        simp [parseSched, ha]
    rw [this, parse1 _ _ rfl rfl rfl]
    constructor
    · rintro ⟨u', d', t', rfl, h2, h3, h4, h5⟩
      cases h5
      exact ⟨rfl, (by simp), h2, h3, h4⟩
    · rintro ⟨h1, h2, h3, h4, h5⟩
      cases i with
      | some b => exact absurd ⟨b, _, h1, h2 b rfl⟩ h
      | none => exact ⟨u, d, t, h1, h3, h4, h5, rfl⟩

/-- **C117, arguments.**  A list of arguments is understood exactly if it consists of an interval, a unit, a weekday and a time,
each optional, in this order; and then as these. -/
theorem C117_parse (args : List SchedArg) (i u d t : Option SchedArg) :
    parseSched 0 {} args = .ok ⟨i, u, d, t⟩ ↔
      args = i.toList ++ u.toList ++ d.toList ++ t.toList ∧ (∀ a, i = some a → IntervalArg a) ∧ (∀ a, u = some a → UnitArg a) ∧
        (∀ a, d = some a → WeekdayArg a) ∧ (∀ a, t = some a → AtArg a) := by
  rw [parse0]
  simp only [isInterval_iff, isUnit_iff, isStartDay_iff, isAt_iff, Option.mem_def, List.append_assoc]

/-- **C117, other arguments.**  Otherwise `every` raises `ValueError`. -/
theorem C117_unexpected (toLocal : ClockTime → ClockTime) (args : List SchedArg)
    (h : ¬ ∃ i u d t : Option SchedArg, args = i.toList ++ u.toList ++ d.toList ++ t.toList ∧ (∀ a, i = some a → IntervalArg a) ∧
      (∀ a, u = some a → UnitArg a) ∧ (∀ a, d = some a → WeekdayArg a) ∧ (∀ a, t = some a → AtArg a)) :
    ∃ msg, schedEvery toLocal args = .error (.valueError msg) := by
  have key : ∀ (as : List SchedArg) (n : Nat) (p : SchedParsed) (e : Err), parseSched n p as = .error e → ∃ msg, e = .valueError msg := by
    intro as
    induction as with
    | nil => intro n p e h; cases h
    | cons a as ih =>
      intro n p e h
      unfold parseSched at h
      split at h
      · exact ih _ _ _ h
      · split at h
        · exact ih _ _ _ h
        · split at h
          · exact ih _ _ _ h
          · split at h
            · exact ih _ _ _ h
            · cases h; exact ⟨_, rfl⟩
  unfold schedEvery
  cases hp : parseSched 0 {} args with
  | error e =>
    obtain ⟨msg, rfl⟩ := key _ _ _ _ hp
    exact ⟨msg, rfl⟩
  | ok q =>
    obtain ⟨i, u, d, t⟩ := q
    exact absurd ⟨i, u, d, t, (C117_parse args i u d t).mp hp⟩ h

/-! ## Units -/

/-- The plural of a unit. -/
inductive PluralOf : String → String → Prop
  | seconds : PluralOf "second" "seconds"
  | minutes : PluralOf "minute" "minutes"
  | hours : PluralOf "hour" "hours"
  | days : PluralOf "day" "days"
  | weeks : PluralOf "week" "weeks"

/-- Setting a unit: the plural always works, the singular for an interval of one. -/
theorem setUnit_ok {u : String} (hu : UnitArg (.text u)) (j j' : SchedJob) : j.setUnit u = .ok j' ↔
    ((∃ x, PluralOf x u) ∧ j' = { j with unit := some u }) ∨
      (∃ pl, PluralOf u pl ∧ j.interval = .int 1 ∧ j' = { j with unit := some pl }) := by
  have hpl : ∀ u, (∃ x, PluralOf x u) ↔ u ∈ schedPlurals := by
    intro u
    constructor
    · rintro ⟨x, h⟩; cases h <;> decide
    · intro h
      simp only [schedPlurals, List.mem_cons, List.not_mem_nil, or_false] at h
      rcases h with rfl | rfl | rfl | rfl | rfl
      · exact ⟨_, .seconds⟩
      · exact ⟨_, .minutes⟩
      · exact ⟨_, .hours⟩
      · exact ⟨_, .days⟩
      · exact ⟨_, .weeks⟩
  unfold SchedJob.setUnit
  by_cases hp : u ∈ schedPlurals
  · rw [if_pos hp, hpl]
    have hn : ¬ ∃ pl, PluralOf u pl := by
      rintro ⟨pl, h⟩
      cases h <;> revert hp <;> decide
    constructor
    · intro h; cases h; exact Or.inl ⟨hp, rfl⟩
    · rintro (⟨_, rfl⟩ | ⟨pl, h, _⟩)
      · rfl
      · exact absurd ⟨pl, h⟩ hn
  · rw [if_neg hp, hpl]
    have hs : PluralOf u (u ++ "s") := by
      cases hu with
      | mk _ h =>
        rcases h with rfl | rfl | rfl | rfl | rfl | rfl | rfl | rfl | rfl | rfl
        · exact .seconds
        · exact absurd (by decide) hp
        · exact .minutes
        · exact absurd (by decide) hp
        · exact .hours
        · exact absurd (by decide) hp
        · exact .days
        · exact absurd (by decide) hp
        · exact .weeks
        · exact absurd (by decide) hp
    have hfun : ∀ pl, PluralOf u pl → pl = u ++ "s" := by
      intro pl h; cases h <;> decide
    by_cases h1 : j.interval = .int 1
    · rw [if_pos h1]
      constructor
      · intro h; cases h; exact Or.inr ⟨_, hs, h1, rfl⟩
      · rintro (⟨h, _⟩ | ⟨pl, h, _, rfl⟩)
        · exact absurd h hp
        · rw [hfun pl h]
    · rw [if_neg h1]
      constructor
      · intro h; cases h
      · rintro (⟨h, _⟩ | ⟨_, _, h, _⟩)
        · exact absurd h hp
        · exact absurd h h1

/-- Setting a weekday. -/
theorem setDay_ok (d : String) (j j' : SchedJob) : j.setDay d = .ok j' ↔
    j.interval = .int 1 ∧ j' = { j with unit := some "weeks", startDay := some d } := by
  unfold SchedJob.setDay
  by_cases h1 : j.interval = .int 1
  · rw [if_pos h1]
    constructor
    · intro h; cases h; exact ⟨h1, rfl⟩
    · rintro ⟨_, rfl⟩; rfl
  · rw [if_neg h1]
    constructor
    · intro h; cases h
    · rintro ⟨h, _⟩; exact absurd h h1

/-- The job before the time is set. -/
theorem build_no_time (toLocal : ClockTime → ClockTime) (i u d t : Option SchedArg) (hud : u ≠ none ∨ d ≠ none) :
    buildJob toLocal ⟨i, u, d, t⟩ =
      match buildJob toLocal ⟨i, u, d, none⟩ with
      | .error e => .error e
      | .ok j =>
        match t with
        | none => .ok j
        | some (.time t) => j.at (atText toLocal j t)
        | some a => j.at a.str.toList := by
  have hc : ¬ (u.isNone = true ∧ d.isNone = true) := by
    rintro ⟨h1, h2⟩
    rw [Option.isNone_iff_eq_none] at h1 h2
    rcases hud with h | h
    · exact h h1
    · exact h h2
  unfold buildJob
  simp only [hc, if_false]
  cases u with
  | none =>
    cases d with
    | none => exact absurd ⟨rfl, rfl⟩ hc
    | some b =>
      simp only [bind, Except.bind]
      cases SchedJob.setDay { interval := i.getD (.int 1) } b.str with
      | error e => rfl
      | ok j => cases t with
        | none => rfl
        | some a => cases a <;> rfl
  | some a =>
    simp only [bind, Except.bind]
    cases SchedJob.setUnit { interval := i.getD (.int 1) } a.str with
    | error e => rfl
    | ok j =>
      cases d with
      | none =>
        cases t with
        | none => rfl
        | some a => cases a <;> rfl
      | some b =>
        simp only
        cases j.setDay b.str with
        | error e => rfl
        | ok j => cases t with
          | none => rfl
          | some a => cases a <;> rfl

/-- **C117, plain jobs.**  Without a time, a weekday or a singular unit needs an interval of one, and there is nothing else to
fail; the unit is weeks with a weekday, else the one given, else seconds. -/
theorem C117_plain (toLocal : ClockTime → ClockTime) (i u d : Option SchedArg) (hi : ∀ a, i = some a → IntervalArg a)
    (hu : ∀ a, u = some a → UnitArg a) (hd : ∀ a, d = some a → WeekdayArg a) (j : SchedJob) :
    schedEvery toLocal (i.toList ++ u.toList ++ d.toList) = .ok j ↔
      j.interval = i.getD (.int 1) ∧ j.atTime = none ∧
      (∀ x pl, u = some (.text x) → PluralOf x pl → j.interval = .int 1) ∧
      (d ≠ none → j.interval = .int 1) ∧
      j.startDay = d.map SchedArg.str ∧
      (d ≠ none → j.unit = some "weeks") ∧
      (d = none → u = none → j.unit = some "seconds") ∧
      (d = none → ∀ x pl, u = some (.text x) → (PluralOf x pl ∨ x = pl ∧ ∃ y, PluralOf y pl) → j.unit = some pl) := by
  have hp : parseSched 0 {} (i.toList ++ u.toList ++ d.toList) = .ok ⟨i, u, d, none⟩ :=
    (C117_parse _ _ _ _ _).mpr ⟨by simp, hi, hu, hd, by simp⟩
  unfold schedEvery
  rw [hp]
  obtain ⟨ji, ju, jd, ja⟩ := j
  cases u with
  | none =>
    cases d with
    | none =>
      have : buildJob toLocal ⟨i, none, none, none⟩ = .ok { interval := i.getD (.int 1), unit := some "seconds" } := by
        unfold buildJob
        have := (setUnit_ok (.mk "seconds" (by simp)) { interval := i.getD (.int 1) }
          { interval := i.getD (.int 1), unit := some "seconds" }).mpr (Or.inl ⟨⟨_, .seconds⟩, rfl⟩)
        simp [SchedArg.str, this, bind, Except.bind]
      simp only [this, Except.ok.injEq, SchedJob.mk.injEq]
      simp
      constructor
      · rintro ⟨rfl, rfl, rfl, rfl⟩; simp
      · rintro ⟨rfl, rfl, rfl, rfl⟩; simp
    | some b =>
      have : buildJob toLocal ⟨i, none, some b, none⟩ = SchedJob.setDay { interval := i.getD (.int 1) } b.str := by
        unfold buildJob
        simp only [Option.isNone_none, Option.isNone_some, Bool.false_eq_true, and_false, if_false, bind, Except.bind]
        cases SchedJob.setDay { interval := i.getD (.int 1) } b.str <;> rfl
      simp only [this, setDay_ok, SchedJob.mk.injEq]
      simp
      constructor
      · rintro ⟨h, rfl, rfl, rfl, rfl⟩; simp [h]
      · rintro ⟨rfl, rfl, h, rfl, rfl⟩; simp [h]
  | some a =>
    have ha := hu a rfl
    obtain ⟨x, hx⟩ : ∃ x, a = .text x := by cases ha with | mk x _ => exact ⟨x, rfl⟩
    subst hx
    have hpl : (∃ y, PluralOf y x) ∨ ∃ pl, PluralOf x pl := by
      cases ha with
      | mk _ h =>
        rcases h with rfl | rfl | rfl | rfl | rfl | rfl | rfl | rfl | rfl | rfl
        · exact Or.inr ⟨_, .seconds⟩
        · exact Or.inl ⟨_, .seconds⟩
        · exact Or.inr ⟨_, .minutes⟩
        · exact Or.inl ⟨_, .minutes⟩
        · exact Or.inr ⟨_, .hours⟩
        · exact Or.inl ⟨_, .hours⟩
        · exact Or.inr ⟨_, .days⟩
        · exact Or.inl ⟨_, .days⟩
        · exact Or.inr ⟨_, .weeks⟩
        · exact Or.inl ⟨_, .weeks⟩
    have hnb : ∀ {x : String}, (∃ y, PluralOf y x) → ∀ pl, ¬ PluralOf x pl := by
      rintro x ⟨y, h⟩ pl h2
      have a : x ∈ schedPlurals := by cases h <;> decide
      have b : x ∉ schedPlurals := by cases h2 <;> decide
      exact b a
    have hfun : ∀ {x p q : String}, PluralOf x p → PluralOf x q → p = q := by
      intro x p q h1 h2
      have a : p = x ++ "s" := by cases h1 <;> decide
      have b : q = x ++ "s" := by cases h2 <;> decide
      rw [a, b]
    cases d with
    | none =>
      have : buildJob toLocal ⟨i, some (.text x), none, none⟩ = SchedJob.setUnit { interval := i.getD (.int 1) } x := by
        unfold buildJob
        simp only [Option.isNone_none, Option.isNone_some, Bool.false_eq_true, false_and, if_false, bind, Except.bind, SchedArg.str]
        cases SchedJob.setUnit { interval := i.getD (.int 1) } x <;> rfl
      simp only [this, setUnit_ok ha, SchedJob.mk.injEq]
      constructor
      · rintro (⟨h, rfl, rfl, rfl, rfl⟩ | ⟨pl, h, h1, rfl, rfl, rfl, rfl⟩)
        · refine ⟨rfl, rfl, ?_, by simp, rfl, by simp, by simp, ?_⟩
          · rintro x' pl e h'; cases e; exact absurd h' (hnb h pl)
          · rintro _ x' pl e (h' | ⟨rfl, _⟩)
            · cases e; exact absurd h' (hnb h pl)
            · cases e; rfl
        · refine ⟨rfl, rfl, ?_, by simp, rfl, by simp, by simp, ?_⟩
          · intro _ _ _ _; exact h1
          · rintro _ x' pl' e (h' | ⟨rfl, h'⟩)
            · cases e; rw [hfun h h']
            · cases e; exact absurd h (hnb h' pl)
      · rintro ⟨rfl, rfl, h3, _, rfl, _, _, h8⟩
        rcases hpl with h | ⟨pl, h⟩
        · exact Or.inl ⟨h, rfl, h8 trivial x x rfl (Or.inr ⟨rfl, h⟩), rfl, rfl⟩
        · exact Or.inr ⟨pl, h, h3 x pl rfl h, rfl, h8 trivial x pl rfl (Or.inl h), rfl, rfl⟩
    | some b =>
      obtain ⟨y, hy⟩ : ∃ y, b = .text y := by cases hd b rfl with | mk y _ => exact ⟨y, rfl⟩
      subst hy
      have : buildJob toLocal ⟨i, some (.text x), some (.text y), none⟩ =
          match SchedJob.setUnit { interval := i.getD (.int 1) } x with
          | .error e => .error e
          | .ok j => j.setDay y := by
        unfold buildJob
        simp only [Option.isNone_some, Bool.false_eq_true, false_and, if_false, bind, Except.bind, SchedArg.str]
        cases SchedJob.setUnit { interval := i.getD (.int 1) } x with
        | error e => rfl
        | ok j => cases h : j.setDay y <;> simp [h]
      simp only [this]
      cases hs : SchedJob.setUnit { interval := i.getD (.int 1) } x with
      | error e =>
        constructor
        · intro h; cases h
        · rintro ⟨h1, _, h3, _⟩
          exfalso
          rcases hpl with h | ⟨pl, h⟩
          · have := (setUnit_ok ha { interval := i.getD (.int 1) } _).mpr (Or.inl ⟨h, rfl⟩)
            rw [hs] at this; cases this
          · have h4 := h3 x pl rfl h
            rw [h1] at h4
            have := (setUnit_ok ha { interval := i.getD (.int 1) } _).mpr (Or.inr ⟨pl, h, h4, rfl⟩)
            rw [hs] at this; cases this
      | ok j =>
        have hj : ∃ un, j = { interval := i.getD (.int 1), unit := un } := by
          rcases (setUnit_ok ha _ _).mp hs with ⟨_, rfl⟩ | ⟨_, _, _, rfl⟩
          · exact ⟨_, rfl⟩
          · exact ⟨_, rfl⟩
        obtain ⟨un, rfl⟩ := hj
        simp only [setDay_ok, SchedJob.mk.injEq]
        simp
        constructor
        · rintro ⟨h, rfl, rfl, rfl, rfl⟩; simp [h, SchedArg.str]
        · rintro ⟨rfl, rfl, _, h, rfl, rfl⟩; simp [h, SchedArg.str]

/-! ## Times of day -/

theorem digitChar_facts : ∀ n < 10, (Nat.digitChar n).isDigit = true ∧ (Nat.digitChar n).toNat - 48 = n ∧ Nat.digitChar n ≠ ':' := by
  decide

theorem digit_ne_colon (n : Nat) : (Nat.digitChar n != ':') = true := by simp

theorem readDigits2_digits {n bound : Nat} (h : n < bound) (hb : bound ≤ 60) :
    readDigits2 bound (Nat.digitChar (n / 10)) (Nat.digitChar (n % 10)) = some n := by
  obtain ⟨a1, a2, _⟩ := digitChar_facts (n / 10) (by omega)
  obtain ⟨b1, b2, _⟩ := digitChar_facts (n % 10) (by omega)
  unfold readDigits2
  rw [a2, b2]
  have : 10 * (n / 10) + n % 10 = n := by omega
  rw [this, if_pos ⟨a1, b1, h⟩]

/-- A time of day. -/
def ClockTime.Valid (t : ClockTime) : Prop := t.hour < 24 ∧ t.minute < 60 ∧ t.second < 60

instance (t : ClockTime) : Decidable t.Valid := inferInstanceAs (Decidable (_ ∧ _))

/-- What follows the seconds. -/
def isoRest (t : ClockTime) : List Char :=
  (if t.micro = 0 then [] else '.' :: digits2 (t.micro / 10000) ++ digits2 (t.micro / 100 % 100) ++ digits2 (t.micro % 100)) ++
    match t.offset with
    | none => []
    | some o => (if o < 0 then '-' else '+') :: digits2 (o.natAbs / 60) ++ ':' :: digits2 (o.natAbs % 60)

theorem isoRest_nil (t : ClockTime) : isoRest t = [] ↔ t.micro = 0 ∧ t.offset = none := by
  unfold isoRest
  by_cases h : t.micro = 0
  · cases ho : t.offset with
    | none => simp [h]
    | some o => simp [h]
  · simp [h]

/-- What follows the seconds does not begin with a colon. -/
theorem isoRest_head (t : ClockTime) (c : Char) (l : List Char) (h : isoRest t = c :: l) : (c != ':') = true := by
  unfold isoRest at h
  by_cases hm : t.micro = 0
  · cases ho : t.offset with
    | none => simp [hm, ho] at h
    | some o =>
      simp [hm, ho] at h
      rw [← h.1]
      by_cases ho : o < 0
      · simp [ho]
      · simp [ho]
  · simp [hm] at h
    rw [← h.1]; decide

theorem isoTime_eq (t : ClockTime) : isoTime t =
    Nat.digitChar (t.hour / 10) :: Nat.digitChar (t.hour % 10) :: ':' :: Nat.digitChar (t.minute / 10) ::
      Nat.digitChar (t.minute % 10) :: ':' :: Nat.digitChar (t.second / 10) :: Nat.digitChar (t.second % 10) :: isoRest t := by
  unfold isoTime isoRest digits2
  cases t.offset <;> simp

theorem afterColon_iso (t : ClockTime) (ht : t.Valid) : afterColon (isoTime t) =
    Nat.digitChar (t.minute / 10) :: Nat.digitChar (t.minute % 10) :: ':' :: Nat.digitChar (t.second / 10) ::
      Nat.digitChar (t.second % 10) :: isoRest t := by
  obtain ⟨h1, h2, h3⟩ := ht
  rw [isoTime_eq]
  unfold afterColon
  rw [List.dropWhile_cons_of_pos (p := (· != ':')) (digit_ne_colon _),
    List.dropWhile_cons_of_pos (p := (· != ':')) (digit_ne_colon _),
    List.dropWhile_cons_of_neg (by simp)]
  rfl

theorem secondsText_iso (t : ClockTime) (ht : t.Valid) : (afterColon (afterColon (isoTime t))).takeWhile (· != ':') =
    Nat.digitChar (t.second / 10) :: Nat.digitChar (t.second % 10) :: (isoRest t).takeWhile (· != ':') := by
  rw [afterColon_iso t ht]
  obtain ⟨h1, h2, h3⟩ := ht
  unfold afterColon
  rw [List.dropWhile_cons_of_pos (p := (· != ':')) (digit_ne_colon _),
    List.dropWhile_cons_of_pos (p := (· != ':')) (digit_ne_colon _),
    List.dropWhile_cons_of_neg (by simp), List.drop_one, List.tail_cons,
    List.takeWhile_cons_of_pos (p := (· != ':')) (digit_ne_colon _),
    List.takeWhile_cons_of_pos (p := (· != ':')) (digit_ne_colon _)]

theorem takeRest_nil (t : ClockTime) : (isoRest t).takeWhile (· != ':') = [] ↔ isoRest t = [] := by
  cases h : isoRest t with
  | nil => simp
  | cons c l =>
    have := isoRest_head t c l h
    simp [this]

/-- The text of a time for days and weekdays. -/
theorem at_days (toLocal : ClockTime → ClockTime) (hl : ∀ t, (toLocal t).Valid ∧ (toLocal t).offset = none) (j j' : SchedJob)
    (t : ClockTime) (ht : t.Valid) (hd : j.unit = some "days" ∨ j.startDay ≠ none) (h2 : j.unit ≠ some "hours")
    (h3 : j.unit ≠ some "minutes") : j.at (atText toLocal j t) = .ok j' ↔
      ∃ t', t' = (if t.offset = none then t else toLocal t) ∧ t'.micro = 0 ∧
        j' = { j with atTime := some (t'.hour, t'.minute, t'.second) } := by
  have hs : j.unit = some "days" ∨ j.startDay.isSome = true := by
    rcases hd with h | h
    · exact Or.inl h
    · exact Or.inr (Option.isSome_iff_ne_none.mpr h)
  have hx : atText toLocal j t = isoTime (if t.offset = none then t else toLocal t) := by
    unfold atText
    cases ho : t.offset with
    | none => simp [h2, h3]
    | some o => simp only [hs, Option.isSome_some, h2, h3]; simp
  have hv : ∀ t', t' = (if t.offset = none then t else toLocal t) → t'.Valid ∧ t'.offset = none := by
    rintro t' rfl
    by_cases ho : t.offset = none
    · rw [if_pos ho]; exact ⟨ht, ho⟩
    · rw [if_neg ho]; exact hl t
  rw [hx]
  generalize (if t.offset = none then t else toLocal t) = t' at hv
  obtain ⟨⟨v1, v2, v3⟩, v4⟩ := hv t' rfl
  rw [isoTime_eq]
  by_cases hm : t'.micro = 0
  · have hr : isoRest t' = [] := (isoRest_nil t').mpr ⟨hm, v4⟩
    rw [hr]
    unfold SchedJob.at
    dsimp only
    rw [if_pos hs]
    simp [readDigits2_digits v1 (by omega), readDigits2_digits v2 (by omega), readDigits2_digits v3 (by omega), hm, eq_comm]
  · have hr : isoRest t' ≠ [] := fun h => hm ((isoRest_nil t').mp h).1
    obtain ⟨c, l, hcl⟩ := List.exists_cons_of_ne_nil hr
    rw [hcl]
    unfold SchedJob.at
    dsimp only
    rw [if_pos hs]
    simp [hm]

/-- The text of a time for hours. -/
theorem at_hours (toLocal : ClockTime → ClockTime) (j j' : SchedJob) (t : ClockTime) (ht : t.Valid) (hd : j.startDay = none)
    (h2 : j.unit = some "hours") : j.at (atText toLocal j t) = .ok j' ↔
      t.micro = 0 ∧ t.offset = none ∧ j' = { j with atTime := some (0, t.minute, t.second) } := by
  have hx : atText toLocal j t = afterColon (isoTime t) := by
    unfold atText
    simp [h2, hd]
  rw [hx, afterColon_iso t ht]
  obtain ⟨v1, v2, v3⟩ := ht
  by_cases hr : isoRest t = []
  · obtain ⟨r1, r2⟩ := (isoRest_nil t).mp hr
    rw [hr]
    unfold SchedJob.at
    simp [h2, hd, readDigits2_digits v2 (by omega), readDigits2_digits v3 (by omega), r1, r2, eq_comm]
  · obtain ⟨c, l, hcl⟩ := List.exists_cons_of_ne_nil hr
    have hno : ¬ (t.micro = 0 ∧ t.offset = none) := fun h => hr ((isoRest_nil t).mpr h)
    rw [hcl]
    constructor
    · intro h
      unfold SchedJob.at at h
      simp [h2, hd] at h
    · rintro ⟨h3, h4, _⟩; exact absurd ⟨h3, h4⟩ hno

/-- The text of a time for minutes. -/
theorem at_minutes (toLocal : ClockTime → ClockTime) (j j' : SchedJob) (t : ClockTime) (ht : t.Valid) (hd : j.startDay = none)
    (h3 : j.unit = some "minutes") : j.at (atText toLocal j t) = .ok j' ↔
      t.micro = 0 ∧ t.offset = none ∧ j' = { j with atTime := some (0, 0, t.second) } := by
  have hx : atText toLocal j t = ':' :: (afterColon (afterColon (isoTime t))).takeWhile (· != ':') := by
    unfold atText
    simp [h3, hd]
  rw [hx, secondsText_iso t ht]
  obtain ⟨v1, v2, v3⟩ := ht
  by_cases hr : isoRest t = []
  · obtain ⟨r1, r2⟩ := (isoRest_nil t).mp hr
    rw [hr]
    unfold SchedJob.at
    simp [h3, hd, readDigits2_digits v3 (by omega), r1, r2, eq_comm]
  · have hr' : (isoRest t).takeWhile (· != ':') ≠ [] := fun h => hr ((takeRest_nil t).mp h)
    obtain ⟨c, l, hcl⟩ := List.exists_cons_of_ne_nil hr'
    have hno : ¬ (t.micro = 0 ∧ t.offset = none) := fun h => hr ((isoRest_nil t).mpr h)
    rw [hcl]
    constructor
    · intro h
      unfold SchedJob.at at h
      simp [h3, hd] at h
    · rintro ⟨h3, h4, _⟩; exact absurd ⟨h3, h4⟩ hno

/-- **C117, times of day.**  Let `args` be an interval, a unit and a weekday, each optional but not both of the last two missing,
for which `every` gives the job `j`.  With a `datetime.time` after them it succeeds exactly if the time has no microseconds and
the unit is days, hours or minutes or a weekday is given; the job runs at this hour, minute and second (days, weekdays; a time with
a zone is converted to local time), minute and second (hours), or second (minutes).  For hours and minutes a time with a zone
raises. -/
theorem C117_time (toLocal : ClockTime → ClockTime) (hl : ∀ t, (toLocal t).Valid ∧ (toLocal t).offset = none)
    (i u d : Option SchedArg) (hi : ∀ a, i = some a → IntervalArg a) (hu : ∀ a, u = some a → UnitArg a)
    (hd : ∀ a, d = some a → WeekdayArg a) (hud : u ≠ none ∨ d ≠ none) (j : SchedJob)
    (hj : schedEvery toLocal (i.toList ++ u.toList ++ d.toList) = .ok j) (t : ClockTime) (ht : t.Valid) (j' : SchedJob) :
    schedEvery toLocal (i.toList ++ u.toList ++ d.toList ++ [.time t]) = .ok j' ↔
      ((j.unit = some "days" ∨ j.startDay ≠ none) ∧
        ∃ t', t' = (if t.offset = none then t else toLocal t) ∧ t'.micro = 0 ∧
          j' = { j with atTime := some (t'.hour, t'.minute, t'.second) }) ∨
      (j.unit = some "hours" ∧ t.micro = 0 ∧ t.offset = none ∧ j' = { j with atTime := some (0, t.minute, t.second) }) ∨
      (j.unit = some "minutes" ∧ t.micro = 0 ∧ t.offset = none ∧ j' = { j with atTime := some (0, 0, t.second) }) := by
  obtain ⟨_, _, _, _, hsd, hw, _, _⟩ := (C117_plain toLocal i u d hi hu hd j).mp hj
  have hp0 : parseSched 0 {} (i.toList ++ u.toList ++ d.toList) = .ok ⟨i, u, d, none⟩ :=
    (C117_parse _ _ _ _ _).mpr ⟨by simp, hi, hu, hd, by simp⟩
  have hp1 : parseSched 0 {} (i.toList ++ u.toList ++ d.toList ++ [.time t]) = .ok ⟨i, u, d, some (.time t)⟩ :=
    (C117_parse _ _ _ _ _).mpr ⟨by simp, hi, hu, hd, by rintro a h; cases h; exact .time t⟩
  have hb : buildJob toLocal ⟨i, u, d, none⟩ = .ok j := by
    unfold schedEvery at hj
    rw [hp0] at hj
    exact hj
  have he : schedEvery toLocal (i.toList ++ u.toList ++ d.toList ++ [.time t]) = j.at (atText toLocal j t) := by
    unfold schedEvery
    rw [hp1]
    simp only
    rw [build_no_time toLocal i u d _ hud, hb]
  rw [he]
  by_cases hsd' : j.startDay = none
  · by_cases h1 : j.unit = some "days"
    · rw [at_days toLocal hl j j' t ht (Or.inl h1) (by rw [h1]; decide) (by rw [h1]; decide)]
      simp [h1]
    · by_cases h2 : j.unit = some "hours"
      · rw [at_hours toLocal j j' t ht hsd' h2]
        simp [h2, hsd']
      · by_cases h3 : j.unit = some "minutes"
        · rw [at_minutes toLocal j j' t ht hsd' h3]
          simp [h3, hsd']
        · unfold SchedJob.at
          simp [h1, h2, h3, hsd']
  · have hdn : d ≠ none := by
      rintro rfl
      exact hsd' hsd
    have hun := hw hdn
    rw [at_days toLocal hl j j' t ht (Or.inr hsd') (by rw [hun]; decide) (by rw [hun]; decide)]
    simp [hun, hsd']

/-- **C117, time alone.**  A time without unit and weekday means days. -/
theorem C117_time_alone (toLocal : ClockTime → ClockTime) (i : Option SchedArg) (hi : ∀ a, i = some a → IntervalArg a)
    (a : SchedArg) (ha : AtArg a) :
    schedEvery toLocal (i.toList ++ [a]) = schedEvery toLocal (i.toList ++ [.text "days", a]) := by
  have hp0 : parseSched 0 {} (i.toList ++ [a]) = .ok ⟨i, none, none, some a⟩ :=
    (C117_parse _ _ _ _ _).mpr ⟨by simp, hi, by simp, by simp, by rintro b h; cases h; exact ha⟩
  have hp1 : parseSched 0 {} (i.toList ++ [.text "days", a]) = .ok ⟨i, some (.text "days"), none, some a⟩ :=
    (C117_parse _ _ _ _ _).mpr ⟨by simp, hi, (by rintro b h; cases h; exact .mk _ (by simp)), by simp,
      by rintro b h; cases h; exact ha⟩
  unfold schedEvery
  rw [hp0, hp1]
  rfl

/-! ## The hypotheses can be met -/

/-- No conversion, for the examples. -/
def localNoon (_ : ClockTime) : ClockTime := ⟨12, 0, 0, 0, none⟩

example : schedEvery localNoon [.int 10, .text "minutes"] = .ok { interval := .int 10, unit := some "minutes" } := by decide
example : schedEvery localNoon [.text "wednesday", .text "13:15"] =
    .ok { interval := .int 1, unit := some "weeks", startDay := some "wednesday", atTime := some (13, 15, 0) } := by decide
example : schedEvery localNoon [.text "minute", .text ":17"] =
    .ok { interval := .int 1, unit := some "minutes", atTime := some (0, 0, 17) } := by decide
example : schedEvery localNoon [.time ⟨10, 30, 15, 0, none⟩] =
    .ok { interval := .int 1, unit := some "days", atTime := some (10, 30, 15) } := by decide
example : ∃ e, schedEvery localNoon [.text "hour", .time ⟨10, 30, 15, 0, some 60⟩] = .error e := ⟨_, rfl⟩
example : ∃ e, schedEvery localNoon [.text "monday", .int 1] = .error e := ⟨_, rfl⟩

example : schedEvery localNoon ([.text "hours"] ++ [.time ⟨10, 30, 15, 0, none⟩]) =
    .ok { interval := .int 1, unit := some "hours", atTime := some (0, 30, 15) } :=
  (C117_time localNoon (fun _ => ⟨(by decide : ClockTime.Valid ⟨12, 0, 0, 0, none⟩), rfl⟩) none (some (.text "hours")) none (by simp)
    (by rintro a h; cases h; exact .mk _ (by simp)) (by simp) (Or.inl (by simp)) { interval := .int 1, unit := some "hours" } rfl
    ⟨10, 30, 15, 0, none⟩ (by decide) _).mpr (Or.inr (Or.inl ⟨rfl, rfl, rfl, rfl⟩))

end Vbt
