import Verif.Model.Signals
import Verif.Spec.Signals

/-!
# C31  Cleaned signals alternate
-/

namespace Vbt

section
variable (en ex : Nat → Bool) (entryFirst : Bool)

/-- The phase before row `i`. -/
def phaseAt : Nat → Int
  | 0 => -1
  | i + 1 =>
    if en i && !ex i && decide (phaseAt i ≠ 1) then 1
    else if ex i && !en i && (decide (phaseAt i = 1) || (!entryFirst && decide (phaseAt i = -1))) then 0
    else phaseAt i

def keptEntry (i : Nat) : Bool := en i && !ex i && decide (phaseAt en ex entryFirst i ≠ 1)

def keptExit (i : Nat) : Bool :=
  ex i && !en i && (decide (phaseAt en ex entryFirst i = 1) || (!entryFirst && decide (phaseAt en ex entryFirst i = -1)))

theorem phaseAt_succ (i : Nat) : phaseAt en ex entryFirst (i + 1) =
    if keptEntry en ex entryFirst i then 1 else if keptExit en ex entryFirst i then 0 else phaseAt en ex entryFirst i := rfl

theorem phaseAt_range (i : Nat) : phaseAt en ex entryFirst i = -1 ∨ phaseAt en ex entryFirst i = 0 ∨
    phaseAt en ex entryFirst i = 1 := by
  induction i with
  | zero => exact Or.inl rfl
  | succ i ih =>
    rw [phaseAt_succ]
    split
    · exact Or.inr (Or.inr rfl)
    · split
      · exact Or.inr (Or.inl rfl)
      · exact ih

theorem cleanStep_phase {s : CleanState} {i : Nat} (hs : s.phase = phaseAt en ex entryFirst i)
    (he : s.entries i = false) (hx : s.exits i = false) :
    cleanStep en ex entryFirst s i = ⟨phaseAt en ex entryFirst (i + 1),
      setAt s.entries i (keptEntry en ex entryFirst i), setAt s.exits i (keptExit en ex entryFirst i)⟩ := by
  have hset : ∀ (a : Nat → Bool), a i = false → setAt a i false = a := by
    intro a ha; funext k; unfold setAt; split
    · rename_i h; rw [h, ha]
    · rfl
  obtain ⟨ph, E, X⟩ := s
  simp only at hs he hx
  subst hs
  have hr := phaseAt_range en ex entryFirst i
  rw [phaseAt_succ]
  unfold cleanStep keptEntry keptExit
  generalize phaseAt en ex entryFirst i = ph at *
  cases h1 : en i <;> cases h2 : ex i
  · simp [hset, he, hx]
  · rcases hr with rfl | rfl | rfl <;> cases entryFirst <;> simp [hset, he, hx]
  · rcases hr with rfl | rfl | rfl <;> simp [hset, he, hx]
  · simp [hset, he, hx]

theorem cleanFold (n : Nat) :
    (List.range n).foldl (cleanStep en ex entryFirst) ⟨-1, fun _ => false, fun _ => false⟩ =
      ⟨phaseAt en ex entryFirst n, fun j => decide (j < n) && keptEntry en ex entryFirst j,
        fun j => decide (j < n) && keptExit en ex entryFirst j⟩ := by
  induction n with
  | zero => simp [phaseAt]
  | succ n ih =>
    rw [List.range_succ, List.foldl_append, ih, List.foldl_cons, List.foldl_nil]
    rw [cleanStep_phase en ex entryFirst rfl (by simp) (by simp)]
    congr 1
    · funext j
      simp only [setAt]
      split
      · rename_i h; subst h; simp
      · rename_i h
        have : decide (j < n + 1) = decide (j < n) := by rw [decide_eq_decide]; omega
        rw [this]
    · funext j
      simp only [setAt]
      split
      · rename_i h; subst h; simp
      · rename_i h
        have : decide (j < n + 1) = decide (j < n) := by rw [decide_eq_decide]; omega
        rw [this]

/-- What the phase remembers. -/
theorem phaseAt_meaning (i : Nat) :
    (phaseAt en ex entryFirst i = 1 → ∃ k, k < i ∧ keptEntry en ex entryFirst k = true ∧
      ∀ m, k < m → m < i → keptExit en ex entryFirst m = false) ∧
    (phaseAt en ex entryFirst i = 0 → ∃ k, k < i ∧ keptExit en ex entryFirst k = true ∧
      ∀ m, k < m → m < i → keptEntry en ex entryFirst m = false) ∧
    (phaseAt en ex entryFirst i = -1 → ∀ k, k < i → keptEntry en ex entryFirst k = false ∧
      keptExit en ex entryFirst k = false) := by
  induction i with
  | zero => exact ⟨(fun h => by cases h), (fun h => by cases h), fun _ k hk => absurd hk (Nat.not_lt_zero k)⟩
  | succ i ih =>
    obtain ⟨a, b, c⟩ := ih
    rw [phaseAt_succ]
    cases h1 : keptEntry en ex entryFirst i
    · cases h2 : keptExit en ex entryFirst i
      · simp only [Bool.false_eq_true, if_false]
        refine ⟨fun h => ?_, fun h => ?_, fun h k hk => ?_⟩
        · obtain ⟨k, k1, k2, k3⟩ := a h
          refine ⟨k, by omega, k2, fun m m1 m2 => ?_⟩
          rcases Nat.lt_succ_iff_lt_or_eq.mp m2 with h | rfl
          · exact k3 m m1 h
          · exact h2
        · obtain ⟨k, k1, k2, k3⟩ := b h
          refine ⟨k, by omega, k2, fun m m1 m2 => ?_⟩
          rcases Nat.lt_succ_iff_lt_or_eq.mp m2 with h | rfl
          · exact k3 m m1 h
          · exact h1
        · rcases Nat.lt_succ_iff_lt_or_eq.mp hk with h' | rfl
          · exact c h k h'
          · exact ⟨h1, h2⟩
      · simp only [Bool.false_eq_true, if_false, if_true]
        exact ⟨(fun h => by cases h), fun _ => ⟨i, Nat.lt_succ_self i, h2, fun m m1 m2 => by omega⟩, (fun h => by cases h)⟩
    · simp only [if_true]
      exact ⟨fun _ => ⟨i, Nat.lt_succ_self i, h1, fun m m1 m2 => by omega⟩, (fun h => by cases h), (fun h => by cases h)⟩

/-- A kept entry leaves phase 1, until an exit is kept. -/
theorem phase_after_entry {i : Nat} (h : keptEntry en ex entryFirst i = true) :
    ∀ d, (∀ k, i < k → k < i + 1 + d → keptExit en ex entryFirst k = false) → phaseAt en ex entryFirst (i + 1 + d) = 1 := by
  intro d
  induction d with
  | zero => intro _; rw [Nat.add_zero, phaseAt_succ, if_pos h]
  | succ d ih =>
    intro hk
    have h1 := ih (fun k k1 k2 => hk k k1 (by omega))
    rw [← Nat.add_assoc, phaseAt_succ, h1, hk (i + 1 + d) (by omega) (by omega)]
    split
    · rfl
    · rfl

theorem phase_after_exit {i : Nat} (h : keptExit en ex entryFirst i = true) :
    ∀ d, (∀ k, i < k → k < i + 1 + d → keptEntry en ex entryFirst k = false) → phaseAt en ex entryFirst (i + 1 + d) = 0 := by
  intro d
  induction d with
  | zero =>
    intro _
    have : keptEntry en ex entryFirst i = false := by
      unfold keptExit at h; unfold keptEntry
      simp only [Bool.and_eq_true, Bool.not_eq_true'] at h
      simp [h.1.1]
    rw [Nat.add_zero, phaseAt_succ, this, if_neg (by simp), if_pos h]
  | succ d ih =>
    intro hk
    have h1 := ih (fun k k1 k2 => hk k k1 (by omega))
    rw [← Nat.add_assoc, phaseAt_succ, h1, hk (i + 1 + d) (by omega) (by omega), if_neg (by simp)]
    split
    · rfl
    · rfl

end

/-- **C31** (cleaning).  The cleaned arrays are subsets of the inputs, never both true, strictly alternate and start with
an entry if asked to; a signal that is not accompanied by one of the other kind is dropped only if it would break
the alternation. -/
theorem C31_cleaned (n : Nat) (en ex : Nat → Bool) (entryFirst : Bool) :
    Cleaned n en ex entryFirst (cleanEnex n en ex entryFirst).1 (cleanEnex n en ex entryFirst).2 := by
  unfold cleanEnex
  rw [cleanFold]
  constructor
  · intro i h
    simp only [keptEntry, Bool.and_eq_true, decide_eq_true_eq, Bool.not_eq_true'] at h
    exact ⟨h.1, h.2.1⟩
  · intro i h
    simp only [keptExit, Bool.and_eq_true, decide_eq_true_eq, Bool.not_eq_true'] at h
    exact ⟨h.1, h.2.1⟩
  · intro i j hij hi hj
    simp only [Bool.and_eq_true, decide_eq_true_eq] at hi hj ⊢
    by_contra hno
    push Not at hno
    have hp := phase_after_entry en ex entryFirst hi.2 (j - (i + 1)) (fun k k1 k2 => by
      have := hno k k1 (by omega) (by omega)
      simpa using this)
    rw [show i + 1 + (j - (i + 1)) = j by omega] at hp
    have hj2 := hj.2
    unfold keptEntry at hj2
    simp [hp] at hj2
  · intro i j hij hi hj
    simp only [Bool.and_eq_true, decide_eq_true_eq] at hi hj ⊢
    by_contra hno
    push Not at hno
    have hp := phase_after_exit en ex entryFirst hi.2 (j - (i + 1)) (fun k k1 k2 => by
      have := hno k k1 (by omega) (by omega)
      simpa using this)
    rw [show i + 1 + (j - (i + 1)) = j by omega] at hp
    have hj2 := hj.2
    unfold keptExit at hj2
    simp [hp] at hj2
  · intro hf j hj
    simp only [Bool.and_eq_true, decide_eq_true_eq] at hj ⊢
    have hp : phaseAt en ex entryFirst j = 1 := by
      have hj2 := hj.2
      unfold keptExit at hj2
      simp only [hf, Bool.not_true, Bool.false_and, Bool.or_false, Bool.and_eq_true, decide_eq_true_eq] at hj2
      rw [hf]; exact hj2.2
    obtain ⟨k, k1, k2, -⟩ := (phaseAt_meaning en ex entryFirst j).1 hp
    exact ⟨k, k1, by omega, k2⟩
  · intro i hi h1 h2 h3
    simp only [decide_eq_true hi, Bool.true_and] at h3
    have hp : phaseAt en ex entryFirst i = 1 := by
      unfold keptEntry at h3
      simpa [h1, h2] using h3
    obtain ⟨k, k1, k2, k3⟩ := (phaseAt_meaning en ex entryFirst i).1 hp
    refine ⟨k, k1, by simp [k2]; omega, fun m m1 m2 => by simp [k3 m m1 m2]⟩
  · intro i hi h1 h2 h3
    simp only [decide_eq_true hi, Bool.true_and] at h3
    unfold keptExit at h3
    simp only [h1, h2, Bool.not_false, Bool.true_and, Bool.or_eq_false_iff, decide_eq_false_iff_not] at h3
    rcases phaseAt_range en ex entryFirst i with hp | hp | hp
    · right
      refine ⟨by have := h3.2; rw [hp] at this; simpa using this, fun k hk => ?_⟩
      have := ((phaseAt_meaning en ex entryFirst i).2.2 hp k hk).1
      simp [this]
    · left
      obtain ⟨k, k1, k2, k3⟩ := (phaseAt_meaning en ex entryFirst i).2.1 hp
      exact ⟨k, k1, by simp [k2]; omega, fun m m1 m2 => by simp [k3 m m1 m2]⟩
    · exact absurd hp h3.1

/-- The specification leaves no choice. -/
theorem Cleaned.unique {n en ex f E X E' X'} (h : Cleaned n en ex f E X) (h' : Cleaned n en ex f E' X') :
    E = E' ∧ X = X' := by
  have key : ∀ j, E j = E' j ∧ X j = X' j := by
    intro j
    induction j using Nat.strong_induction_on with
    | _ j ih =>
      have aux : ∀ {E X E' X' : Nat → Bool}, Cleaned n en ex f E X → Cleaned n en ex f E' X' →
          (∀ k, k < j → E k = E' k ∧ X k = X' k) → (E j = true → E' j = true) ∧ (X j = true → X' j = true) := by
        intro E X E' X' h h' ih
        constructor
        · intro hj
          by_contra hn
          obtain ⟨a, b, c⟩ := h.entry_of j hj
          obtain ⟨k, k1, k2, k3⟩ := h'.entry_dropped j a b c (by simpa using hn)
          obtain ⟨m, m1, m2, m3⟩ := h.entries_apart k j k1 ((ih k k1).1.trans k2) hj
          rw [(ih m m2).2, k3 m m1 m2] at m3
          cases m3
        · intro hj
          by_contra hn
          obtain ⟨a, b, c⟩ := h.exit_of j hj
          rcases h'.exit_dropped j a b c (by simpa using hn) with ⟨k, k1, k2, k3⟩ | ⟨hf, hk⟩
          · obtain ⟨m, m1, m2, m3⟩ := h.exits_apart k j k1 ((ih k k1).2.trans k2) hj
            rw [(ih m m2).1, k3 m m1 m2] at m3
            cases m3
          · obtain ⟨i, i1, i2⟩ := h.first hf j hj
            rw [(ih i i1).1, hk i i1] at i2
            cases i2
      obtain ⟨a1, a2⟩ := aux h h' ih
      obtain ⟨b1, b2⟩ := aux h' h (fun k hk => ⟨(ih k hk).1.symm, (ih k hk).2.symm⟩)
      exact ⟨Bool.eq_iff_iff.mpr ⟨a1, b1⟩, Bool.eq_iff_iff.mpr ⟨a2, b2⟩⟩
  exact ⟨funext fun j => (key j).1, funext fun j => (key j).2⟩

/-- Cleaned signals are clean. -/
theorem Cleaned.again {n en ex f E X} (h : Cleaned n en ex f E X) : Cleaned n E X f E X where
  entry_of := fun i hi => ⟨(h.entry_of i hi).1, hi, by
    by_contra hx
    have := (h.exit_of i (by simpa using hx)).2.2
    rw [(h.entry_of i hi).2.1] at this; cases this⟩
  exit_of := fun i hi => ⟨(h.exit_of i hi).1, hi, by
    by_contra hx
    have := (h.entry_of i (by simpa using hx)).2.2
    rw [(h.exit_of i hi).2.1] at this; cases this⟩
  entries_apart := h.entries_apart
  exits_apart := h.exits_apart
  first := h.first
  entry_dropped := fun i _ h1 _ h2 => by rw [h1] at h2; cases h2
  exit_dropped := fun i _ h1 _ h2 => by rw [h1] at h2; cases h2

/-- **C31** (never both). -/
theorem C31_never_both (n : Nat) (en ex : Nat → Bool) (entryFirst : Bool) (i : Nat) :
    ¬ ((cleanEnex n en ex entryFirst).1 i = true ∧ (cleanEnex n en ex entryFirst).2 i = true) := by
  rintro ⟨h1, h2⟩
  have h := C31_cleaned n en ex entryFirst
  have := (h.entry_of i h1).2.1
  rw [(h.exit_of i h2).2.2] at this
  cases this

/-- **C31** (idempotence).  Cleaning twice is the same as cleaning once. -/
theorem C31_idempotent (n : Nat) (en ex : Nat → Bool) (entryFirst : Bool) :
    cleanEnex n (cleanEnex n en ex entryFirst).1 (cleanEnex n en ex entryFirst).2 entryFirst =
      cleanEnex n en ex entryFirst := by
  have h := (C31_cleaned n _ _ entryFirst).unique (C31_cleaned n en ex entryFirst).again
  exact Prod.ext h.1 h.2

/-- Non-vacuity: exit, entry, entry, both, exit, exit, entry. -/
example :
    let en := fun i => [false, true, true, true, false, false, true].getD i false
    let ex := fun i => [true, false, false, true, true, true, false].getD i false
    (List.range 7).map (cleanEnex 7 en ex true).1 = [false, true, false, false, false, false, true] ∧
    (List.range 7).map (cleanEnex 7 en ex true).2 = [false, false, false, false, true, false, false] ∧
    (List.range 7).map (cleanEnex 7 en ex false).2 = [true, false, false, false, true, false, false] := by decide +kernel

end Vbt
