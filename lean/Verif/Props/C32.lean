import Verif.Lemmas.Signals
import Verif.Lemmas.Witness

/-!
# C32  Generated exits respect their entry window
-/

namespace Vbt

theorem exTo_window {n : Nat} {entries : Nat → Bool} {untilNext : Bool} {pre rest : List Nat} {e : Nat}
    (h : flatnonzero n entries = pre ++ e :: rest) : WindowEnd n entries untilNext e (exTo n untilNext rest) := by
  obtain ⟨he, -, hr, hs⟩ := flatnonzero_split h
  unfold WindowEnd exTo
  cases untilNext
  · simp only [Bool.false_eq_true, if_false]
    split <;> rfl
  · simp only [if_true]
    cases rest with
    | nil =>
      refine ⟨he.1, fun k k1 k2 => ?_, Or.inr rfl⟩
      by_contra hk
      exact absurd ((hr k).mpr ⟨k1, k2, by simpa using hk⟩) (by simp)
    | cons f rest =>
      have hf := (hr f).mp (by simp)
      refine ⟨hf.1, fun k k1 k2 => ?_, Or.inl hf.2⟩
      by_contra hk
      have := (hr k).mpr ⟨k1, k2.trans hf.2.1, by simpa using hk⟩
      rw [List.mem_cons] at this
      rcases this with rfl | h
      · exact absurd k2 (lt_irrefl _)
      · exact absurd (List.rel_of_pairwise_cons hs h) (not_lt.mpr (le_of_lt k2))

/-- The picks of the rest of the loop. -/
structure LoopPicks (n : Nat) (entries : Nat → Bool) (wait : Nat) (untilNext skip pickFirst : Bool) (choice : Choice)
    (l : List Nat) (s s' : ExState) (picks : List (Nat × List Int)) : Prop where
  sorted : picks.Pairwise fun p q => p.1 < q.1
  mem : ∀ p ∈ picks, p.1 ∈ l
  pick : ∀ p ∈ picks, ∃ stop, WindowEnd n entries untilNext p.1 stop ∧
    p.2 = (if pickFirst then (choice (p.1 + wait : Nat) stop).take 1 else choice (p.1 + wait : Nat) stop) ∧ p.2 ≠ [] ∧
    ∀ x ∈ p.2, ((p.1 + wait : Nat) : Int) ≤ x ∧ x < stop
  skips : skip = true → (picks.Pairwise fun p q => ∀ x, p.2.getLast? = some x → x < q.1) ∧
    ∀ p ∈ picks, s.lastExit < p.1
  complete : ∀ e ∈ l, (∀ p ∈ picks, p.1 ≠ e) →
    (skip = true ∧ ((e : Int) ≤ s.lastExit ∨ ∃ p ∈ picks, p.1 < e ∧ ∃ x, p.2.getLast? = some x ∧ (e : Int) ≤ x)) ∨
    ∃ stop, WindowEnd n entries untilNext e stop ∧ (stop ≤ e + wait ∨ choice (e + wait : Nat) stop = [])
  exits : ∀ j, s'.exits j = true ↔ s.exits j = true ∨ ∃ p ∈ picks, (j : Int) ∈ p.2

section
variable {n : Nat} {entries : Nat → Bool} {wait : Nat} {untilNext skip pickFirst : Bool} {choice : Choice}

/-- An entry without exits in front of the rest. -/
theorem LoopPicks.pass {e : Nat} {rest : List Nat} {s s' : ExState} {picks : List (Nat × List Int)}
    (h : LoopPicks n entries wait untilNext skip pickFirst choice rest s s' picks)
    (he : (skip = true ∧ (e : Int) ≤ s.lastExit) ∨
      ∃ stop, WindowEnd n entries untilNext e stop ∧ (stop ≤ e + wait ∨ choice (e + wait : Nat) stop = [])) :
    LoopPicks n entries wait untilNext skip pickFirst choice (e :: rest) s s' picks where
  sorted := h.sorted
  mem := fun p hp => List.mem_cons_of_mem _ (h.mem p hp)
  pick := h.pick
  skips := h.skips
  complete := fun f hf hn => by
    rcases List.mem_cons.mp hf with rfl | hf
    · rcases he with ⟨a, b⟩ | he
      · exact Or.inl ⟨a, Or.inl b⟩
      · exact Or.inr he
    · exact h.complete f hf hn
  exits := h.exits

/-- An entry with exits in front of the rest. -/
theorem LoopPicks.take {e stop : Nat} {rest : List Nat} {s s' : ExState} {picks : List (Nat × List Int)}
    {idxs : List Int} {last : Int} (hlt : ∀ f ∈ rest, e < f)
    (h : LoopPicks n entries wait untilNext skip pickFirst choice rest ⟨setRows s.exits idxs, last⟩ s' picks)
    (hsk : ¬ (skip = true ∧ (e : Int) ≤ s.lastExit))
    (hlast : idxs.getLast? = some last)
    (hw : WindowEnd n entries untilNext e stop)
    (hidx : idxs = (if pickFirst then (choice (e + wait : Nat) stop).take 1 else choice (e + wait : Nat) stop))
    (hb : ∀ x ∈ idxs, ((e + wait : Nat) : Int) ≤ x ∧ x < stop) :
    LoopPicks n entries wait untilNext skip pickFirst choice (e :: rest) s s' ((e, idxs) :: picks) := by
  have hne : idxs ≠ [] := by rintro rfl; simp at hlast
  have hel : (e : Int) ≤ last := by
    have := (hb last (List.mem_of_getLast? hlast)).1
    omega
  constructor
  · rw [List.pairwise_cons]
    exact ⟨fun q hq => hlt _ (h.mem q hq), h.sorted⟩
  · intro p hp
    rcases List.mem_cons.mp hp with rfl | hp
    · exact List.mem_cons_self
    · exact List.mem_cons_of_mem _ (h.mem p hp)
  · intro p hp
    rcases List.mem_cons.mp hp with rfl | hp
    · exact ⟨stop, hw, hidx, hne, hb⟩
    · exact h.pick p hp
  · intro hs
    obtain ⟨a, b⟩ := h.skips hs
    have hse : s.lastExit < e := by
      by_contra hc
      exact hsk ⟨hs, by omega⟩
    refine ⟨?_, fun p hp => ?_⟩
    · rw [List.pairwise_cons]
      refine ⟨fun q hq x hx => ?_, a⟩
      rw [hlast] at hx
      cases hx
      exact b q hq
    · rcases List.mem_cons.mp hp with rfl | hp
      · exact hse
      · have := b p hp
        simp only at this
        omega
  · intro f hf hn
    rcases List.mem_cons.mp hf with rfl | hf
    · exact absurd rfl (hn (f, idxs) List.mem_cons_self)
    · rcases h.complete f hf (fun p hp => hn p (List.mem_cons_of_mem _ hp)) with ⟨a, b | ⟨p, hp, c⟩⟩ | h'
      · exact Or.inl ⟨a, Or.inr ⟨(e, idxs), List.mem_cons_self, hlt f hf, last, hlast, b⟩⟩
      · exact Or.inl ⟨a, Or.inr ⟨p, List.mem_cons_of_mem _ hp, c⟩⟩
      · exact Or.inr h'
  · intro j
    rw [h.exits j, setRows_true]
    simp only [List.mem_cons, exists_eq_or_imp]
    tauto

theorem exLoop_picks : ∀ (l pre : List Nat) (s s' : ExState), flatnonzero n entries = pre ++ l →
    exLoop n wait untilNext skip pickFirst choice l s = .ok s' →
    ∃ picks, LoopPicks n entries wait untilNext skip pickFirst choice l s s' picks := by
  intro l
  induction l with
  | nil =>
    intro pre s s' _ h
    unfold exLoop at h
    cases h
    exact ⟨[], List.Pairwise.nil, (fun p hp => by cases hp), (fun p hp => by cases hp),
      (fun _ => ⟨List.Pairwise.nil, fun p hp => by cases hp⟩), (fun e he => by cases he), (fun j => by simp)⟩
  | cons e rest ih =>
    intro pre s s' hl h
    have hl' : flatnonzero n entries = (pre ++ [e]) ++ rest := by rw [hl]; simp
    have hw := exTo_window (untilNext := untilNext) hl
    have hlt : ∀ f ∈ rest, e < f := fun f hf => ((flatnonzero_split hl).2.2.1 f).mp hf |>.1
    unfold exLoop at h
    by_cases hsk : skip = true ∧ (e : Int) ≤ s.lastExit
    · rw [if_pos (by simp [hsk.1, hsk.2])] at h
      obtain ⟨picks, hp⟩ := ih _ _ _ hl' h
      exact ⟨picks, hp.pass (Or.inl hsk)⟩
    · rw [if_neg (by simpa using hsk)] at h
      dsimp only at h
      by_cases hto : exTo n untilNext rest > e + wait
      · rw [if_pos hto] at h
        cases hc : choice (e + wait : Nat) (exTo n untilNext rest) with
        | nil =>
          rw [hc] at h
          obtain ⟨picks, hp⟩ := ih _ _ _ hl' h
          exact ⟨picks, hp.pass (Or.inr ⟨_, hw, Or.inr hc⟩)⟩
        | cons first more =>
          rw [hc] at h
          dsimp only at h
          cases pickFirst with
          | true =>
            rw [if_pos rfl] at h
            by_cases hb : first < (e + wait : Nat) ∨ first ≥ (exTo n untilNext rest : Nat)
            · rw [if_pos hb] at h; cases h
            · rw [if_neg hb] at h
              obtain ⟨picks, hp⟩ := ih _ _ _ hl' h
              refine ⟨_, hp.take hlt hsk rfl hw (by rw [hc]; rfl) (fun x hx => ?_)⟩
              simp only [List.mem_singleton] at hx
              subst hx
              push Not at hb
              exact hb
          | false =>
            rw [if_neg (by simp)] at h
            split at h
            · cases h
            · rename_i hb
              obtain ⟨picks, hp⟩ := ih _ _ _ hl' h
              refine ⟨_, hp.take hlt hsk (List.getLast?_eq_getLast_of_ne_nil _) hw (by rw [hc]; rfl) (fun x hx => ?_)⟩
              simp only [Bool.or_eq_true, List.any_eq_true, decide_eq_true_eq, not_or, not_exists, not_and] at hb
              have h1 := hb.1 x hx
              have h2 := hb.2 x hx
              omega
      · rw [if_neg hto] at h
        obtain ⟨picks, hp⟩ := ih _ _ _ hl' h
        exact ⟨picks, hp.pass (Or.inr ⟨_, hw, Or.inl (by omega)⟩)⟩

/-- **C32** (exits are what was chosen in the windows of the entries).  For every array of entries, every choice function
and every setting, the exits are exactly the rows chosen for some entries; these lie in the window of their entry, that
is at least `wait` rows after it and, with `until_next`, before the next entry. -/
theorem C32_windows {E : Nat → Bool} (h : generateEx n entries wait untilNext skip pickFirst choice = .ok E) :
    ∃ picks, ExitPicks n entries wait untilNext skip pickFirst choice picks ∧
      ∀ j, E j = true ↔ ∃ p ∈ picks, (j : Int) ∈ p.2 := by
  unfold generateEx at h
  split at h
  · cases h
  · rename_i s hs
    cases h
    obtain ⟨picks, hp⟩ := exLoop_picks (flatnonzero n entries) [] _ _ rfl hs
    refine ⟨picks, ⟨hp.sorted, fun p hpm => ?_, fun h => (hp.skips h).1, fun e h1 h2 h3 => ?_⟩, fun j => ?_⟩
    · have hm := mem_flatnonzero.mp (hp.mem p hpm)
      exact ⟨hm.1, hm.2, hp.pick p hpm⟩
    · rcases hp.complete e (mem_flatnonzero.mpr ⟨h1, h2⟩) h3 with ⟨a, b | b⟩ | h
      · exact absurd b (by simp only; omega)
      · exact Or.inl ⟨a, b⟩
      · exact Or.inr h
    · rw [hp.exits j]
      simp

/-- **C32** (every exit has its entry).  An exit comes at least `wait` rows after an entry, with no entry after this one up
to the exit if the choice stops at the next entry. -/
theorem C32_exit_after_entry {E : Nat → Bool} (h : generateEx n entries wait untilNext skip pickFirst choice = .ok E)
    {j : Nat} (hj : E j = true) :
    ∃ e, entries e = true ∧ e + wait ≤ j ∧ j < n ∧ (untilNext = true → ∀ k, e < k → k ≤ j → entries k = false) := by
  obtain ⟨picks, hp, hE⟩ := C32_windows h
  obtain ⟨p, hpm, hjp⟩ := (hE j).mp hj
  obtain ⟨h1, h2, stop, hw, -, -, hb⟩ := hp.pick p hpm
  obtain ⟨b1, b2⟩ := hb _ hjp
  unfold WindowEnd at hw
  cases untilNext
  · simp only [Bool.false_eq_true, if_false] at hw
    exact ⟨p.1, h2, by omega, by omega, fun h => by cases h⟩
  · simp only [if_true] at hw
    obtain ⟨w1, w2, w3⟩ := hw
    refine ⟨p.1, h2, by omega, ?_, fun _ k k1 k2 => w2 k k1 (by omega)⟩
    rcases w3 with ⟨w, -⟩ | w <;> omega

/-- **C32** (nothing goes wrong with a proper choice function).  If the choice function answers every nonempty range with
rows of the range, no error is raised. -/
theorem C32_no_error (hc : ∀ (f t : Int), f < t → ∀ x ∈ choice f t, f ≤ x ∧ x < t) :
    ∃ E, generateEx n entries wait untilNext skip pickFirst choice = .ok E := by
  have key : ∀ (l : List Nat) (s : ExState), ∃ s', exLoop n wait untilNext skip pickFirst choice l s = .ok s' := by
    intro l
    induction l with
    | nil => exact fun s => ⟨s, rfl⟩
    | cons e rest ih =>
      intro s
      unfold exLoop
      split
      · exact ih s
      · dsimp only
        split
        · rename_i hto
          have hcc := hc (e + wait : Nat) (exTo n untilNext rest : Nat) (by exact_mod_cast hto)
          split
          · exact ih s
          · rename_i first more hm
            rw [hm] at hcc
            have hf := hcc first (by simp)
            split
            · rw [if_neg (by push Not; exact hf)]
              exact ih _
            · rw [if_neg]
              · exact ih _
              · simp only [Bool.or_eq_true, List.any_eq_true, decide_eq_true_eq, not_or, not_exists, not_and, not_lt,
                  ge_iff_le, not_le]
                exact ⟨fun x hx => (hcc x hx).1, fun x hx => (hcc x hx).2⟩
        · exact ih s
  obtain ⟨s, hs⟩ := key (flatnonzero n entries) ⟨fun _ => false, -1⟩
  unfold generateEx
  rw [hs]
  exact ⟨_, rfl⟩

/-- **C32** (skipping until the exit), for choice functions that return rows in ascending order or of which only the first
row is used.  With `skip_until_exit`, if an exit chosen for an entry comes after (or at) another later entry, then nothing is
chosen for this other entry: exits of different entries do not interleave.  For an unsorted answer the code takes its last
element for the exit: `C32_skip_counterexample`. -/
theorem C32_skip_partial {E : Nat → Bool} (h : generateEx n entries wait untilNext true pickFirst choice = .ok E)
    (hsorted : pickFirst = true ∨ ∀ f t : Int, (choice f t).Pairwise (· ≤ ·)) :
    ∃ picks, ExitPicks n entries wait untilNext true pickFirst choice picks ∧
      (∀ j, E j = true ↔ ∃ p ∈ picks, (j : Int) ∈ p.2) ∧
      picks.Pairwise fun p q => ∀ x ∈ p.2, x < (q.1 : Int) := by
  obtain ⟨picks, hp, hE⟩ := C32_windows h
  refine ⟨picks, hp, hE, (hp.skip rfl).imp_of_mem ?_⟩
  intro p q hpm _ hpq x hx
  obtain ⟨-, -, stop, -, hidx, hne, -⟩ := hp.pick p hpm
  have hmax : ∀ l : List Int, l.Pairwise (· ≤ ·) → x ∈ l → ∃ y, l.getLast? = some y ∧ x ≤ y := by
    intro l hl hx
    have hne : l ≠ [] := List.ne_nil_of_mem hx
    refine ⟨l.getLast hne, List.getLast?_eq_getLast_of_ne_nil hne, ?_⟩
    have := List.dropLast_append_getLast hne
    rw [← this, List.pairwise_append] at hl
    rw [← this, List.mem_append] at hx
    rcases hx with hx | hx
    · exact hl.2.2 x hx _ (by simp)
    · simp only [List.mem_singleton] at hx; omega
  have hs : p.2.Pairwise (· ≤ ·) := by
    rw [hidx]
    rcases hsorted with h | h
    · rw [if_pos h]
      cases choice (p.1 + wait : Nat) stop <;> simp
    · split
      · exact (h _ _).sublist (List.take_sublist _ _)
      · exact h _ _
  obtain ⟨y, hy, hxy⟩ := hmax p.2 hs hx
  exact lt_of_le_of_lt hxy (hpq y hy)

end

/-- **C32** fails for unsorted answers: entries at rows 0 and 2, answers `[3, 1]` for row 0 and `[4]` for row 2.  The entry
at row 2 lies before the exit at row 3 but gets its own exit. -/
theorem C32_skip_counterexample :
    ∃ E, generateEx 5 (fun i => i == 0 || i == 2) 1 false true false
        (fun f _ => if f = 1 then [3, 1] else [4]) = .ok E ∧ E 3 = true ∧ E 4 = true := by
  have h := okAnd_iff (x := generateEx 5 (fun i => i == 0 || i == 2) 1 false true false
    (fun f _ => if f = 1 then [3, 1] else [4])) (f := fun E => decide (E 3 = true ∧ E 4 = true)) (by decide +kernel)
  obtain ⟨E, h1, h2⟩ := h
  exact ⟨E, h1, of_decide_eq_true h2⟩

/-- Non-vacuity: entries at rows 0, 2 and 5; the choice function takes the second and third row of its range. -/
example : ∃ E, generateEx 8 (fun i => i == 0 || i == 2 || i == 5) 1 false true false
    (fun f t => if f + 2 < t then [f + 1, f + 2] else [f]) = .ok E ∧
      (List.range 8).map E = [false, false, true, true, false, false, true, false] := by
  have h := okAnd_iff (x := generateEx 8 (fun i => i == 0 || i == 2 || i == 5) 1 false true false
    (fun f t => if f + 2 < t then [f + 1, f + 2] else [f]))
    (f := fun E => decide ((List.range 8).map E = [false, false, true, true, false, false, true, false])) (by decide +kernel)
  obtain ⟨E, h1, h2⟩ := h
  exact ⟨E, h1, of_decide_eq_true h2⟩

end Vbt
