import Verif.Spec.Conflicts
import Verif.Model.SignalSim
import Verif.Lemmas.Float

/-!
# C26  Signal conflicts resolve to at most one action

Modes are arbitrary integers, as in the code: an unknown mode acts as `Ignore` (`ReverseReduce` for opposite entries).
A NaN position with `Direction.Both` keeps both signals (`C26_nan_counterexample`); the simulators never pass
`Direction.Both`, so `C26_settled_partial` needs no hypothesis.
-/

namespace Vbt
open F

theorem Holds.tests {p : F} {h : Held} (hp : Holds p h) :
    gt p zero = decide (h = .long) ∧ lt p zero = decide (h = .short) ∧ eqb p zero = decide (h = .flat) := by
  cases hp with
  | flat => decide +kernel
  | long h => simp [h, h.le, h.ne']
  | longInf => decide +kernel
  | short h => simp [h, h.le, h.ne]
  | shortInf => decide +kernel

/-- A mode is one of the four named ones or none of them. -/
theorem mode_cases (m : Int) : m = 1 ∨ m = 2 ∨ m = 3 ∨ m = 4 ∨ (m ≠ 1 ∧ m ≠ 2 ∧ m ≠ 3 ∧ m ≠ 4) := by omega

theorem survivor_other {m : Int} (h : m ≠ 1 ∧ m ≠ 2 ∧ m ≠ 3 ∧ m ≠ 4) (x : Held) : survivor m x = none := by
  unfold survivor; split <;> simp_all

theorem survivorBoth_other {m : Int} (h : m ≠ 1 ∧ m ≠ 2 ∧ m ≠ 3 ∧ m ≠ 4) (x : Held) : survivorBoth m x = none := by
  unfold survivorBoth; split <;> simp_all

theorem entrySurvivor_other {m : Int} (h : m ≠ 1 ∧ m ≠ 2 ∧ m ≠ 3 ∧ m ≠ 4) (x : Held) : entrySurvivor m x = none := by
  unfold entrySurvivor; split <;> simp_all

/-- **C26** (entry against exit, signals of one direction). -/
theorem C26_conflict {p : F} {held : Held} (hp : Holds p held) {dir : Int} (hd : dir ≠ Direction.Both) (mode : Int) :
    resolveSignalConflict p true true dir mode =
      (decide (survivor mode held = some .entry), decide (survivor mode held = some .exit)) := by
  obtain ⟨-, -, h0⟩ := hp.tests
  unfold resolveSignalConflict
  rw [h0, if_neg hd, if_neg hd]
  rcases mode_cases mode with h | h | h | h | h
  · subst h; cases held <;> rfl
  · subst h; cases held <;> rfl
  · subst h; cases held <;> rfl
  · subst h; cases held <;> rfl
  · rw [survivor_other h]; simp [h]

/-- **C26** (entry against exit, signals of both directions). -/
theorem C26_conflict_both {p : F} {held : Held} (hp : Holds p held) (mode : Int) :
    resolveSignalConflict p true true Direction.Both mode =
      (decide (survivorBoth mode held = some .entry), decide (survivorBoth mode held = some .exit)) := by
  obtain ⟨h1, h2, h0⟩ := hp.tests
  unfold resolveSignalConflict
  rw [h0, h1, h2]
  rcases mode_cases mode with h | h | h | h | h
  · subst h; cases held <;> rfl
  · subst h; cases held <;> rfl
  · subst h; cases held <;> rfl
  · subst h; cases held <;> rfl
  · rw [survivorBoth_other h]; simp [h]

/-- **C26** (long against short entry). -/
theorem C26_entries {p : F} {held : Held} (hp : Holds p held) (mode : Int) :
    resolveDirConflict p true true mode =
      (decide (entrySurvivor mode held = some .long), decide (entrySurvivor mode held = some .short)) := by
  obtain ⟨h1, h2, -⟩ := hp.tests
  unfold resolveDirConflict
  rw [h1, h2]
  rcases mode_cases mode with h | h | h | h | h
  · subst h; cases held <;> rfl
  · subst h; cases held <;> rfl
  · subst h; cases held <;> rfl
  · subst h; cases held <;> rfl
  · rw [entrySurvivor_other h]; simp [h]

/-- **C26** (opposite entry while long): outcome, exit and accumulation; nothing else changes. -/
theorem C26_opposite_short {p : F} (hp : Holds p .long) (le lx sx : Bool) (mode acc : Int) :
    resolveOppositeEntry p ⟨le, lx, true, sx⟩ mode acc =
      (⟨le, lx || decide ((oppositeOutcome mode).1 = some .exit), decide ((oppositeOutcome mode).1 = some .entry), sx⟩,
        if (oppositeOutcome mode).2 then AccumulationMode.Disabled else acc) := by
  obtain ⟨h1, h2, -⟩ := hp.tests
  have hm : mode = 0 ∨ mode = 1 ∨ mode = 2 ∨ mode = 3 ∨ (mode ≠ 0 ∧ mode ≠ 1 ∧ mode ≠ 2 ∧ mode ≠ 3) := by omega
  unfold resolveOppositeEntry oppositeShort oppositeLong
  simp only [h1, h2]
  rcases hm with h | h | h | h | h
  · subst h; cases lx <;> rfl
  · subst h; cases lx <;> rfl
  · subst h; cases lx <;> rfl
  · subst h; cases lx <;> rfl
  · have : oppositeOutcome mode = (some .entry, false) := by unfold oppositeOutcome; split <;> simp_all
    rw [this]; simp [h]

/-- **C26** (opposite entry while short). -/
theorem C26_opposite_long {p : F} (hp : Holds p .short) (lx se sx : Bool) (mode acc : Int) :
    resolveOppositeEntry p ⟨true, lx, se, sx⟩ mode acc =
      (⟨decide ((oppositeOutcome mode).1 = some .entry), lx, se, sx || decide ((oppositeOutcome mode).1 = some .exit)⟩,
        if (oppositeOutcome mode).2 then AccumulationMode.Disabled else acc) := by
  obtain ⟨h1, h2, -⟩ := hp.tests
  have hm : mode = 0 ∨ mode = 1 ∨ mode = 2 ∨ mode = 3 ∨ (mode ≠ 0 ∧ mode ≠ 1 ∧ mode ≠ 2 ∧ mode ≠ 3) := by omega
  unfold resolveOppositeEntry oppositeShort oppositeLong
  simp only [h1, h2]
  rcases hm with h | h | h | h | h
  · subst h; cases sx <;> rfl
  · subst h; cases sx <;> rfl
  · subst h; cases sx <;> rfl
  · subst h; cases sx <;> rfl
  · have : oppositeOutcome mode = (some .entry, false) := by unfold oppositeOutcome; split <;> simp_all
    rw [this]; simp [h]

/-- **C26** (no conflict): without entry and exit together, nothing changes. -/
theorem C26_no_conflict (p : F) (e x : Bool) (dir mode : Int) (h : ¬ (e = true ∧ x = true)) :
    resolveSignalConflict p e x dir mode = (e, x) := by
  unfold resolveSignalConflict
  cases e <;> cases x <;> simp_all

/-- **C26** (no conflict): without two entries together, nothing changes. -/
theorem C26_no_dir_conflict (p : F) (l s : Bool) (mode : Int) (h : ¬ (l = true ∧ s = true)) :
    resolveDirConflict p l s mode = (l, s) := by
  unfold resolveDirConflict
  cases l <;> cases s <;> simp_all

/-- **C26** (pass through): settled signals that contain no entry opposite to what is held, are used as they are. -/
theorem C26_unchanged {p : F} {s : Signals} (hs : AtMostOne s)
    (h1 : Holds p .long → s.shortEntry = false) (h2 : Holds p .short → s.longEntry = false)
    (lm sm dm om acc : Int) : resolveSignals p s lm sm dm om acc = (s, acc) := by
  have a1 : (gt p zero && s.shortEntry) = false := by
    cases hg : gt p zero
    · rfl
    · rw [h1 (by cases p <;> simp_all [gt, lt] <;> constructor <;> assumption)]; rfl
  have a2 : (lt p zero && s.longEntry) = false := by
    cases hg : lt p zero
    · rfl
    · rw [h2 (by cases p <;> simp_all [lt] <;> constructor <;> assumption)]; rfl
  unfold resolveSignals
  rw [C26_no_conflict _ _ _ _ _ hs.long, C26_no_conflict _ _ _ _ _ hs.short]
  dsimp only
  rw [C26_no_dir_conflict _ _ _ _ hs.entries]
  unfold resolveOppositeEntry oppositeShort oppositeLong
  simp [a1, a2]

/-- With `LongOnly` or `ShortOnly` at most one of entry and exit survives, whatever the position. -/
theorem conflict_settled (p : F) (e x : Bool) {dir : Int} (hd : dir ≠ Direction.Both) (mode : Int) :
    ¬ ((resolveSignalConflict p e x dir mode).1 = true ∧ (resolveSignalConflict p e x dir mode).2 = true) := by
  unfold resolveSignalConflict
  rw [if_neg hd, if_neg hd]
  split_ifs <;> simp_all

theorem dir_settled (p : F) (l s : Bool) (mode : Int) :
    ¬ ((resolveDirConflict p l s mode).1 = true ∧ (resolveDirConflict p l s mode).2 = true) := by
  unfold resolveDirConflict
  split_ifs <;> simp_all

theorem dir_subset (p : F) (l s : Bool) (mode : Int) :
    ((resolveDirConflict p l s mode).1 = true → l = true) ∧ ((resolveDirConflict p l s mode).2 = true → s = true) := by
  unfold resolveDirConflict
  split_ifs <;> simp_all

theorem conflict_subset (p : F) (e x : Bool) (dir mode : Int) :
    ((resolveSignalConflict p e x dir mode).1 = true → e = true) ∧
      ((resolveSignalConflict p e x dir mode).2 = true → x = true) := by
  unfold resolveSignalConflict
  split_ifs <;> simp_all

theorem oppositeShort_settled {p : F} {s : Signals} (hs : AtMostOne s) (mode acc : Int) :
    AtMostOne (oppositeShort p s mode acc).1 := by
  obtain ⟨h1, h2, h3⟩ := hs
  obtain ⟨le, lx, se, sx⟩ := s
  unfold oppositeShort
  split_ifs <;> constructor <;> simp_all

theorem oppositeLong_settled {p : F} {s : Signals} (hs : AtMostOne s) (mode acc : Int) :
    AtMostOne (oppositeLong p s mode acc).1 := by
  obtain ⟨h1, h2, h3⟩ := hs
  obtain ⟨le, lx, se, sx⟩ := s
  unfold oppositeLong
  split_ifs <;> constructor <;> simp_all

/-- **C26** (at most one action).  Whatever the position, the signals and the modes, the signals used by the simulators
never contain an entry and an exit of one direction, nor two entries. -/
theorem C26_settled_partial (p : F) (s : Signals) (lm sm dm om acc : Int) :
    AtMostOne (resolveSignals p s lm sm dm om acc).1 := by
  unfold resolveSignals
  split
  · refine oppositeLong_settled (oppositeShort_settled ⟨?_, ?_, dir_settled _ _ _ _⟩ _ _) _ _
    · rintro ⟨h1, h2⟩
      exact conflict_settled _ _ _ (by decide) _ ⟨(dir_subset _ _ _ _).1 h1, h2⟩
    · rintro ⟨h1, h2⟩
      exact conflict_settled _ _ _ (by decide) _ ⟨(dir_subset _ _ _ _).2 h1, h2⟩
  · rename_i h
    have h1 : s.longEntry = false ∧ s.shortEntry = false := by simpa using h
    constructor <;> simp [h1]

/-- **C26** (nothing is invented).  Entries used were given; an exit used was given, or an opposite entry was. -/
theorem C26_from_input (p : F) (s : Signals) (lm sm dm om acc : Int) :
    let x := (resolveSignals p s lm sm dm om acc).1
    (x.longEntry = true → s.longEntry = true) ∧ (x.shortEntry = true → s.shortEntry = true) ∧
      (x.longExit = true → s.longExit = true ∨ (Holds p .long ∧ s.shortEntry = true)) ∧
      (x.shortExit = true → s.shortExit = true ∨ (Holds p .short ∧ s.longEntry = true)) := by
  have hl := conflict_subset p s.longEntry s.longExit Direction.LongOnly lm
  have hs := conflict_subset p s.shortEntry s.shortExit Direction.ShortOnly sm
  have hd := dir_subset p (resolveSignalConflict p s.longEntry s.longExit Direction.LongOnly lm).1
    (resolveSignalConflict p s.shortEntry s.shortExit Direction.ShortOnly sm).1 dm
  have g1 : gt p zero = true → Holds p .long := by
    intro h; cases p <;> simp_all [gt, lt] <;> constructor <;> assumption
  have g2 : lt p zero = true → Holds p .short := by
    intro h; cases p <;> simp_all [lt] <;> constructor <;> assumption
  intro x
  simp only [x]
  unfold resolveSignals
  split
  · dsimp only
    generalize resolveDirConflict p _ _ dm = d at *
    generalize resolveSignalConflict p s.longEntry s.longExit _ lm = l at *
    generalize resolveSignalConflict p s.shortEntry s.shortExit _ sm = k at *
    unfold resolveOppositeEntry oppositeShort oppositeLong
    dsimp only
    split_ifs <;> simp_all
  · simp +contextual

/-- With a NaN position and `Direction.Both` both signals survive. -/
theorem C26_nan_counterexample :
    resolveSignalConflict nan true true Direction.Both ConflictMode.Adjacent = (true, true) := by decide +kernel

/-- Read over both directions the claim fails: a long entry and a short exit pass through together.  What is missing from
`C26_settled_partial` is exactly this pair (and its mirror image); the two do not contend, since at most one of them can
act on a given position (see `C27_order`). -/
theorem C26_cross_counterexample :
    resolveSignals (fin 2) ⟨true, false, false, true⟩ 0 0 0 0 0 = (⟨true, false, false, true⟩, 0) := by decide +kernel

example : Holds (fin (-3)) .short := .short (by norm_num)
example : resolveSignalConflict (fin 2) true true Direction.LongOnly ConflictMode.Opposite = (false, true) :=
  C26_conflict (.long (by norm_num)) (by decide) _
example : resolveSignalConflict (fin (-2)) true true Direction.Both ConflictMode.Adjacent = (false, true) :=
  C26_conflict_both (.short (by norm_num)) _
example : resolveDirConflict (fin (-2)) true true DirectionConflictMode.Opposite = (true, false) :=
  C26_entries (.short (by norm_num)) _
example : resolveOppositeEntry (fin 2) ⟨false, false, true, false⟩ OppositeEntryMode.Close AccumulationMode.Both =
    (⟨false, true, false, false⟩, AccumulationMode.Disabled) := C26_opposite_short (.long (by norm_num)) _ _ _ _ _
example : resolveOppositeEntry (fin (-2)) ⟨true, false, false, false⟩ OppositeEntryMode.Reverse AccumulationMode.Both =
    (⟨true, false, false, false⟩, AccumulationMode.Disabled) := C26_opposite_long (.short (by norm_num)) _ _ _ _ _
example : resolveSignals (fin 2) ⟨true, false, false, true⟩ 0 0 0 0 1 = (⟨true, false, false, true⟩, 1) :=
  C26_unchanged ⟨by decide, by decide, by decide⟩ (fun _ => rfl) (fun h => by cases h; norm_num at *) _ _ _ _ _
example : AtMostOne (resolveSignals (fin 2) ⟨true, true, true, true⟩ 3 4 2 1 1).1 := C26_settled_partial _ _ _ _ _ _ _

end Vbt
