import Verif.Lemmas.Signals
import Verif.Lemmas.Witness

/-!
# C33  Generated entry/exit pairs alternate
-/

namespace Vbt

theorem setWrapped_true {n : Nat} {a : Nat → Bool} {l : List Int} {j : Nat} :
    setWrapped n a l j = true ↔ a j = true ∨ HitsRow n l j := by
  unfold setWrapped HitsRow
  simp

/-- The first row that can be chosen in the next turn. -/
theorem enexFrom_eq (x : EnexInputs) {s : EnexState} (h : s.i ≠ 0) : enexFrom x s = s.prev + x.wait s.i := by
  unfold enexFrom EnexInputs.wait
  rw [if_neg h]
  split <;> rfl

/-- One turn, with the answer written out. -/
theorem enexStep_eq (x : EnexInputs) (s : EnexState) :
    enexStep x s =
      if enexFrom x s ≥ (x.n : Int) then .ok none
      else
        match x.answer s.i (enexFrom x s) with
        | [] => .ok none
        | first :: more =>
          if first = s.prev ∧ s.prev = s.prevPrev then .error (.valueError "Infinite loop detected")
          else if first < enexFrom x s then .error (.valueError "First index is out of bounds")
          else if x.pickFirst s.i then
            if first ≥ (x.n : Int) then .error (.valueError "First index is out of bounds")
            else
              .ok (some ⟨if s.i % 2 = 0 then setWrapped x.n s.entries [first] else s.entries,
                if s.i % 2 = 0 then s.exits else setWrapped x.n s.exits [first], s.prev, first, s.i + 1⟩)
          else if (first :: more).getLast (List.cons_ne_nil _ _) ≥ (x.n : Int) then
            .error (.valueError "Last index is out of bounds")
          else
            .ok (some ⟨if s.i % 2 = 0 then setWrapped x.n s.entries (first :: more) else s.entries,
              if s.i % 2 = 0 then s.exits else setWrapped x.n s.exits (first :: more), s.prev,
              (first :: more).getLast (List.cons_ne_nil _ _), s.i + 1⟩) := by
  unfold enexStep EnexInputs.answer EnexInputs.pickFirst
  by_cases h : s.i % 2 = 0
  · simp only [h, decide_true, if_true]
    rfl
  · simp only [h, decide_false, if_false, Bool.false_eq_true]
    rfl

/-- What a turn that goes on does. -/
theorem enexStep_some {x : EnexInputs} {s s' : EnexState} (h : enexStep x s = .ok (some s')) :
    enexFrom x s < x.n ∧ s'.i = s.i + 1 ∧ s'.prevPrev = s.prev ∧
    ∃ a, (x.picked s.i (enexFrom x s)).head? = some a ∧ (x.picked s.i (enexFrom x s)).getLast? = some s'.prev ∧
      enexFrom x s ≤ a ∧ s'.prev < x.n ∧
      s'.entries = (if s.i % 2 = 0 then setWrapped x.n s.entries (x.picked s.i (enexFrom x s)) else s.entries) ∧
      s'.exits = (if s.i % 2 = 0 then s.exits else setWrapped x.n s.exits (x.picked s.i (enexFrom x s))) := by
  rw [enexStep_eq] at h
  by_cases h1 : enexFrom x s ≥ (x.n : Int)
  · rw [if_pos h1] at h; cases h
  · rw [if_neg h1] at h
    unfold EnexInputs.picked
    cases hans : x.answer s.i (enexFrom x s) with
    | nil => rw [hans] at h; cases h
    | cons first more =>
      rw [hans] at h
      dsimp only at h
      by_cases h2 : first = s.prev ∧ s.prev = s.prevPrev
      · rw [if_pos h2] at h; cases h
      rw [if_neg h2] at h
      by_cases h3 : first < enexFrom x s
      · rw [if_pos h3] at h; cases h
      rw [if_neg h3] at h
      by_cases h4 : x.pickFirst s.i = true
      · rw [if_pos h4] at h
        by_cases h5 : first ≥ (x.n : Int)
        · rw [if_pos h5] at h; cases h
        rw [if_neg h5] at h
        cases h
        rw [if_pos h4]
        exact ⟨by omega, rfl, rfl, first, rfl, rfl, by omega, by simpa using h5, rfl, rfl⟩
      · rw [if_neg h4] at h
        by_cases h6 : (first :: more).getLast (List.cons_ne_nil _ _) ≥ (x.n : Int)
        · rw [if_pos h6] at h; cases h
        rw [if_neg h6] at h
        cases h
        rw [if_neg h4]
        exact ⟨by omega, rfl, rfl, first, rfl, List.getLast?_eq_getLast_of_ne_nil _, by omega, by simpa using h6, rfl, rfl⟩

theorem enexStep_none {x : EnexInputs} {s : EnexState} (h : enexStep x s = .ok none) :
    (x.n : Int) ≤ enexFrom x s ∨ x.answer s.i (enexFrom x s) = [] := by
  rw [enexStep_eq] at h
  by_cases h1 : enexFrom x s ≥ (x.n : Int)
  · exact Or.inl h1
  · rw [if_neg h1] at h
    cases hans : x.answer s.i (enexFrom x s) with
    | nil => exact Or.inr rfl
    | cons first more =>
      rw [hans] at h
      dsimp only at h
      split_ifs at h <;> cases h

theorem enexLoop_turns {x : EnexInputs} : ∀ (fuel : Nat) (s s' : EnexState), enexLoop x fuel s = some (.ok s') →
    ∃ ts, x.TurnsFrom s.i (enexFrom x s) ts ∧
      (∀ j, s'.entries j = true ↔ s.entries j = true ∨
        ∃ k < ts.length, (s.i + k) % 2 = 0 ∧ HitsRow x.n (ts.getD k []) j) ∧
      (∀ j, s'.exits j = true ↔ s.exits j = true ∨
        ∃ k < ts.length, (s.i + k) % 2 = 1 ∧ HitsRow x.n (ts.getD k []) j) := by
  intro fuel
  induction fuel with
  | zero => intro s s' h; cases h
  | succ fuel ih =>
    intro s s' h
    unfold enexLoop at h
    split at h
    · cases h
    · rename_i hst
      cases h
      exact ⟨[], enexStep_none hst, fun j => by simp, fun j => by simp⟩
    · rename_i s1 hst
      obtain ⟨h1, h2, h3, a, h4, h5, h6, h7, h8, h9⟩ := enexStep_some hst
      obtain ⟨ts, t1, t2, t3⟩ := ih s1 s' h
      rw [enexFrom_eq x (by omega : s1.i ≠ 0), h2] at t1
      have hshift : ∀ (Q : Nat → Prop) (P : Nat → List Int → Prop),
          (∃ k < (x.picked s.i (enexFrom x s) :: ts).length, Q (s.i + k) ∧
            P k ((x.picked s.i (enexFrom x s) :: ts).getD k [])) ↔
          (Q s.i ∧ P 0 (x.picked s.i (enexFrom x s))) ∨
            ∃ k < ts.length, Q (s1.i + k) ∧ P (k + 1) (ts.getD k []) := by
        intro Q P
        constructor
        · rintro ⟨k, k1, k2, k3⟩
          cases k with
          | zero => exact Or.inl ⟨k2, k3⟩
          | succ k =>
            refine Or.inr ⟨k, by simpa using k1, ?_, k3⟩
            rwa [h2, show s.i + 1 + k = s.i + (k + 1) by omega]
        · rintro (⟨k2, k3⟩ | ⟨k, k1, k2, k3⟩)
          · exact ⟨0, by simp, k2, k3⟩
          · refine ⟨k + 1, by simpa using k1, ?_, k3⟩
            rwa [h2, show s.i + 1 + k = s.i + (k + 1) by omega] at k2
      refine ⟨x.picked s.i (enexFrom x s) :: ts, ⟨h1, rfl, a, s1.prev, h4, h5, h6, h7, t1⟩, fun j => ?_, fun j => ?_⟩
      · rw [hshift (fun k => k % 2 = 0) (fun _ l => HitsRow x.n l j), t2 j, h8]
        by_cases he : s.i % 2 = 0
        · rw [if_pos he, setWrapped_true]; tauto
        · rw [if_neg he]; tauto
      · rw [hshift (fun k => k % 2 = 1) (fun _ l => HitsRow x.n l j), t3 j, h9]
        by_cases he : s.i % 2 = 0
        · rw [if_pos he]
          have : ¬ s.i % 2 = 1 := by omega
          tauto
        · rw [if_neg he, setWrapped_true]
          have : s.i % 2 = 1 := by omega
          tauto

/-- **C33** (turns), for every choice function.  The generated entries are the rows chosen in the even turns and the exits
the rows chosen in the odd turns; each turn chooses among the rows that are at least the wait after the last row of the
turn before, and the generation stops only if no row is left or nothing is chosen. -/
theorem C33_turns {x : EnexInputs} {fuel : Nat} {E X : Nat → Bool} (h : generateEnex x fuel = some (.ok (E, X))) :
    (x.entryWait ≠ 0 ∨ x.exitWait ≠ 0) ∧ ∃ ts, x.TurnsFrom 0 0 ts ∧
      (∀ j, E j = true ↔ ∃ k < ts.length, k % 2 = 0 ∧ HitsRow x.n (ts.getD k []) j) ∧
      (∀ j, X j = true ↔ ∃ k < ts.length, k % 2 = 1 ∧ HitsRow x.n (ts.getD k []) j) := by
  unfold generateEnex at h
  split at h
  · cases h
  · rename_i hw
    split at h
    · cases h
    · cases h
    · rename_i s hs
      cases h
      obtain ⟨ts, h1, h2, h3⟩ := enexLoop_turns fuel _ _ hs
      refine ⟨by tauto, ts, h1, fun j => ?_, fun j => ?_⟩
      · simpa using h2 j
      · simpa using h3 j

/-! ## Ascending answers -/

section
variable {x : EnexInputs}

theorem picked_ascending (hx : x.Ascending) (k : Nat) (f : Int) : (x.picked k f).Pairwise (· ≤ ·) := by
  unfold EnexInputs.picked
  split
  · cases x.answer k f <;> simp
  · rename_i h
    rcases hx k f with h' | h'
    · exact absurd h' h
    · exact h'

theorem ascending_bounds {l : List Int} (hl : l.Pairwise (· ≤ ·)) {a b : Int} (ha : l.head? = some a)
    (hb : l.getLast? = some b) : ∀ r ∈ l, a ≤ r ∧ r ≤ b := by
  intro r hr
  have hne : l ≠ [] := List.ne_nil_of_mem hr
  constructor
  · cases l with
    | nil => cases hr
    | cons c l =>
      simp only [List.head?_cons, Option.some.injEq] at ha
      subst ha
      rcases List.mem_cons.mp hr with rfl | hr
      · exact le_refl _
      · exact List.rel_of_pairwise_cons hl hr
  · rw [List.getLast?_eq_getLast_of_ne_nil hne, Option.some.injEq] at hb
    have := List.dropLast_append_getLast hne
    rw [← this, List.pairwise_append] at hl
    rw [← this, List.mem_append] at hr
    rcases hr with hr | hr
    · rw [← hb]; exact hl.2.2 r hr _ (by simp)
    · simp only [List.mem_singleton] at hr; omega

/-- The turns of a proper generation. -/
theorem turns_ascending (hx : x.Ascending) : ∀ (ts : List (List Int)) (k : Nat) (f : Int), 0 ≤ f → x.TurnsFrom k f ts →
    (∀ m < ts.length, ts.getD m [] ≠ [] ∧ (x.pickFirst (k + m) = true → (ts.getD m []).length = 1) ∧
      ∀ r ∈ ts.getD m [], f ≤ r ∧ r < x.n) ∧
    (∀ m, m + 1 < ts.length → ∀ r ∈ ts.getD m [], ∀ q ∈ ts.getD (m + 1) [], r + x.wait (k + m + 1) ≤ q) := by
  intro ts
  induction ts with
  | nil => intro k f _ _; exact ⟨(fun m hm => by cases hm), (fun m hm => by cases hm)⟩
  | cons t ts ih =>
    intro k f hf h
    obtain ⟨h1, h2, a, b, h3, h4, h5, h6, h7⟩ := h
    have hs : t.Pairwise (· ≤ ·) := h2 ▸ picked_ascending hx k f
    have hb := ascending_bounds hs h3 h4
    have hab : a ≤ b := (hb a (List.mem_of_mem_head? h3)).2
    obtain ⟨i1, i2⟩ := ih (k + 1) (b + x.wait (k + 1)) (by omega) h7
    constructor
    · intro m hm
      cases m with
      | zero =>
        have hne : t ≠ [] := fun h => by rw [h] at h3; cases h3
        refine ⟨hne, fun hp => ?_, fun r hr => ?_⟩
        · simp only [List.getD_cons_zero]
          rw [h2] at h3 ⊢
          unfold EnexInputs.picked at h3 ⊢
          rw [if_pos (by simpa using hp)] at h3 ⊢
          cases hl : x.answer k f with
          | nil => rw [hl] at h3; cases h3
          | cons c l => simp
        · simp only [List.getD_cons_zero] at hr
          have := hb r hr
          omega
      | succ m =>
        simp only [List.getD_cons_succ]
        obtain ⟨j1, j2, j3⟩ := i1 m (by simpa using hm)
        refine ⟨j1, fun hp => j2 (by rwa [show k + 1 + m = k + (m + 1) by omega]), fun r hr => ?_⟩
        have := j3 r hr
        omega
    · intro m hm r hr q hq
      cases m with
      | zero =>
        simp only [List.getD_cons_zero, List.getD_cons_succ] at hr hq
        have := (i1 0 (by simpa using hm)).2.2 q hq
        have := hb r hr
        simp only [Nat.add_zero]
        omega
      | succ m =>
        simp only [List.getD_cons_succ] at hr hq
        have := i2 m (by simpa using hm) r hr q hq
        rwa [show k + (m + 1) + 1 = k + 1 + m + 1 by omega]

end

/-- **C33** (alternation), for every choice function of which only the first row is used and for every choice function that
answers in ascending order; otherwise see `C33_coincide_counterexample`.  The generated signals are blocks of rows `b 0`,
`b 1`, ..., `b (m - 1)`: entries, exits, entries, and so on, beginning with entries; every row of a block comes at least
the wait after every row of the block before.  Blocks are single rows if only the first row is used. -/
theorem C33_alternate_partial {x : EnexInputs} (hx : x.Ascending) {fuel : Nat} {E X : Nat → Bool}
    (h : generateEnex x fuel = some (.ok (E, X))) :
    ∃ (m : Nat) (b : Nat → List Nat),
      (∀ k < m, b k ≠ [] ∧ (x.pickFirst k = true → (b k).length = 1) ∧ ∀ r ∈ b k, r < x.n) ∧
      (∀ k, k + 1 < m → ∀ r ∈ b k, ∀ q ∈ b (k + 1), r + x.wait (k + 1) ≤ q) ∧
      (∀ j, E j = true ↔ ∃ k < m, k % 2 = 0 ∧ j ∈ b k) ∧
      (∀ j, X j = true ↔ ∃ k < m, k % 2 = 1 ∧ j ∈ b k) := by
  obtain ⟨-, ts, h1, h2, h3⟩ := C33_turns h
  obtain ⟨t1, t2⟩ := turns_ascending hx ts 0 0 (le_refl _) h1
  have hmem : ∀ k < ts.length, ∀ j : Nat, HitsRow x.n (ts.getD k []) j ↔ j ∈ (ts.getD k []).map Int.toNat := by
    intro k hk j
    unfold HitsRow
    rw [List.mem_map]
    constructor
    · rintro ⟨r, r1, r2 | r2⟩
      · exact ⟨r, r1, by omega⟩
      · have := (t1 k hk).2.2 r r1; omega
    · rintro ⟨r, r1, r2⟩
      have := (t1 k hk).2.2 r r1
      exact ⟨r, r1, Or.inl (by omega)⟩
  refine ⟨ts.length, fun k => (ts.getD k []).map Int.toNat, fun k hk => ?_, fun k hk r hr q hq => ?_, fun j => ?_, fun j => ?_⟩
  · obtain ⟨a, b, c⟩ := t1 k hk
    refine ⟨by simpa using a, fun hp => by rw [List.length_map]; exact b (by simpa using hp), fun r hr => ?_⟩
    obtain ⟨q, q1, q2⟩ := List.mem_map.mp hr
    have := c q q1
    omega
  · obtain ⟨r', r1, r2⟩ := List.mem_map.mp hr
    obtain ⟨q', q1, q2⟩ := List.mem_map.mp hq
    have := t2 k hk r' r1 q' q1
    have h4 := (t1 k (by omega)).2.2 r' r1
    have h5 := (t1 (k + 1) hk).2.2 q' q1
    simp only [Nat.zero_add] at this
    omega
  · rw [h2 j]
    exact ⟨fun ⟨k, k1, k2, k3⟩ => ⟨k, k1, k2, (hmem k k1 j).mp k3⟩, fun ⟨k, k1, k2, k3⟩ => ⟨k, k1, k2, (hmem k k1 j).mpr k3⟩⟩
  · rw [h3 j]
    exact ⟨fun ⟨k, k1, k2, k3⟩ => ⟨k, k1, k2, (hmem k k1 j).mp k3⟩, fun ⟨k, k1, k2, k3⟩ => ⟨k, k1, k2, (hmem k k1 j).mpr k3⟩⟩

/-- Rows of later blocks come after rows of earlier blocks. -/
theorem blocks_apart {m : Nat} {b : Nat → List Nat} {w : Nat} (hne : ∀ k < m, b k ≠ [])
    (hb : ∀ k, k + 1 < m → ∀ r ∈ b k, ∀ q ∈ b (k + 1), r + w ≤ q) :
    ∀ d k, k + 1 + d < m → ∀ r ∈ b k, ∀ q ∈ b (k + 1 + d), r + w ≤ q := by
  intro d
  induction d with
  | zero => exact fun k hk r hr q hq => hb k hk r hr q hq
  | succ d ih =>
    intro k hk r hr q hq
    obtain ⟨c, hc⟩ := List.exists_mem_of_ne_nil _ (hne (k + 1 + d) (by omega))
    have h1 := ih k (by omega) r hr c hc
    have h2 := hb (k + 1 + d) (by omega) c hc q hq
    omega

/-- **C33** (entries and exits never coincide) if both waits are positive, for the same choice functions. -/
theorem C33_never_coincide_partial {x : EnexInputs} (hx : x.Ascending) (h1 : 0 < x.entryWait) (h2 : 0 < x.exitWait)
    {fuel : Nat} {E X : Nat → Bool} (h : generateEnex x fuel = some (.ok (E, X))) (j : Nat) :
    ¬ (E j = true ∧ X j = true) := by
  rintro ⟨hE, hX⟩
  obtain ⟨m, b, b1, b2, b3, b4⟩ := C33_alternate_partial hx h
  obtain ⟨k, k1, k2, k3⟩ := (b3 j).mp hE
  obtain ⟨l, l1, l2, l3⟩ := (b4 j).mp hX
  have hw : ∀ k, 1 ≤ x.wait k := fun k => by unfold EnexInputs.wait; split <;> omega
  have hap := blocks_apart (w := 1) (fun k hk => (b1 k hk).1)
    (fun k hk r hr q hq => le_trans (Nat.add_le_add_left (hw _) r) (b2 k hk r hr q hq))
  rcases Nat.lt_trichotomy k l with hlt | heq | hlt
  · have := hap (l - (k + 1)) k (by omega) j k3 j (by rwa [show k + 1 + (l - (k + 1)) = l by omega])
    omega
  · omega
  · have := hap (k - (l + 1)) l (by omega) j l3 j (by rwa [show l + 1 + (k - (l + 1)) = k by omega])
    omega

/-- **C33** (alternation of the arrays), if only first rows are used: between two entries there is an exit and between two
exits there is an entry, and every exit comes after an entry, always with the waits in between. -/
theorem C33_alternate_first {x : EnexInputs} (h1 : x.entryPickFirst = true) (h2 : x.exitPickFirst = true)
    {fuel : Nat} {E X : Nat → Bool} (h : generateEnex x fuel = some (.ok (E, X))) :
    (∀ i j, i < j → E i = true → E j = true → ∃ k, i + x.exitWait ≤ k ∧ k + x.entryWait ≤ j ∧ X k = true) ∧
    (∀ i j, i < j → X i = true → X j = true → ∃ k, i + x.entryWait ≤ k ∧ k + x.exitWait ≤ j ∧ E k = true) ∧
    (∀ j, X j = true → ∃ i, i + x.exitWait ≤ j ∧ E i = true) := by
  have hp : ∀ k, x.pickFirst k = true := fun k => by unfold EnexInputs.pickFirst; rw [h1, h2]; simp
  obtain ⟨m, b, b1, b2, b3, b4⟩ := C33_alternate_partial (fun k f => Or.inl (hp k)) h
  -- the blocks are single rows
  have hv : ∀ k < m, ∃ v, b k = [v] := fun k hk => List.length_eq_one_iff.mp ((b1 k hk).2.1 (hp k))
  have mono := blocks_apart (w := 0) (fun k hk => (b1 k hk).1)
    (fun k hk r hr q hq => by have := b2 k hk r hr q hq; omega)
  -- the index of the smaller row is smaller
  have hidx : ∀ k l i j, k < m → l < m → i ∈ b k → j ∈ b l → i < j → k < l := by
    intro k l i j hk hl hi hj hij
    by_contra hc
    rcases Nat.lt_or_ge l k with hlk | hlk
    · have := mono (k - (l + 1)) l (by omega) j hj i (by rwa [show l + 1 + (k - (l + 1)) = k by omega])
      omega
    · have : k = l := by omega
      subst this
      obtain ⟨v, hv⟩ := hv k hk
      rw [hv, List.mem_singleton] at hi hj
      omega
  have hwe : ∀ k, k % 2 = 0 → x.wait k = x.entryWait := fun k hk => by unfold EnexInputs.wait; rw [if_pos hk]
  have hwx : ∀ k, k % 2 = 1 → x.wait k = x.exitWait := fun k hk => by
    unfold EnexInputs.wait; rw [if_neg (by omega)]
  have hmono : ∀ k l, k ≤ l → l < m → ∀ i ∈ b k, ∀ j ∈ b l, i ≤ j := by
    intro k l hkl hl i hi j hj
    rcases Nat.eq_or_lt_of_le hkl with rfl | hlt
    · obtain ⟨v, hv⟩ := hv k hl
      rw [hv, List.mem_singleton] at hi hj
      omega
    · have := mono (l - (k + 1)) k (by omega) i hi j (by rwa [show k + 1 + (l - (k + 1)) = l by omega])
      omega
  refine ⟨fun i j hij hi hj => ?_, fun i j hij hi hj => ?_, fun j hj => ?_⟩
  · obtain ⟨k, k1, k2, k3⟩ := (b3 i).mp hi
    obtain ⟨l, l1, l2, l3⟩ := (b3 j).mp hj
    have hkl := hidx k l i j k1 l1 k3 l3 hij
    obtain ⟨v, hv⟩ := hv (k + 1) (by omega)
    have a1 := b2 k (by omega) i k3 v (by rw [hv]; simp)
    rw [hwx _ (by omega)] at a1
    obtain ⟨u, hu⟩ := List.exists_mem_of_ne_nil _ (b1 (k + 2) (by omega)).1
    have a2 := b2 (k + 1) (by omega) v (by rw [hv]; simp) u hu
    rw [hwe _ (by omega)] at a2
    have a3 := hmono (k + 2) l (by omega) l1 u hu j l3
    exact ⟨v, a1, by omega, (b4 v).mpr ⟨k + 1, by omega, by omega, by rw [hv]; simp⟩⟩
  · obtain ⟨k, k1, k2, k3⟩ := (b4 i).mp hi
    obtain ⟨l, l1, l2, l3⟩ := (b4 j).mp hj
    have hkl := hidx k l i j k1 l1 k3 l3 hij
    obtain ⟨v, hv⟩ := hv (k + 1) (by omega)
    have a1 := b2 k (by omega) i k3 v (by rw [hv]; simp)
    rw [hwe _ (by omega)] at a1
    obtain ⟨u, hu⟩ := List.exists_mem_of_ne_nil _ (b1 (k + 2) (by omega)).1
    have a2 := b2 (k + 1) (by omega) v (by rw [hv]; simp) u hu
    rw [hwx _ (by omega)] at a2
    have a3 := hmono (k + 2) l (by omega) l1 u hu j l3
    exact ⟨v, a1, by omega, (b3 v).mpr ⟨k + 1, by omega, by omega, by rw [hv]; simp⟩⟩
  · obtain ⟨l, l1, l2, l3⟩ := (b4 j).mp hj
    obtain ⟨v, hv⟩ := hv (l - 1) (by omega)
    have a1 := b2 (l - 1) (by omega) v (by rw [hv]; simp) j (by rwa [show l - 1 + 1 = l by omega])
    rw [hwx _ (by omega)] at a1
    exact ⟨v, a1, (b3 v).mpr ⟨l - 1, by omega, by omega, by rw [hv]; simp⟩⟩

/-! ## Termination -/

section
variable {x : EnexInputs}

/-- Rounds left. -/
def enexMeasure (x : EnexInputs) (s : EnexState) : Int :=
  2 * (x.n - s.prev) + (if x.wait s.i = 0 then 1 else 0)

/-- A turn does not end before it starts. -/
def Forward (x : EnexInputs) : Prop := ∀ k f a b, f < (x.n : Int) → (x.picked k f).head? = some a →
  (x.picked k f).getLast? = some b → f ≤ a → f ≤ b

theorem picked_mem {k : Nat} {f r : Int} (h : r ∈ x.picked k f) : r ∈ x.answer k f := by
  unfold EnexInputs.picked at h
  split at h
  · exact List.mem_of_mem_take h
  · exact h

theorem forward_of (h : x.Ascending ∨ x.InRange) : Forward x := by
  intro k f a b hf ha hb hfa
  rcases h with h | h
  · exact le_trans hfa (ascending_bounds (picked_ascending h k f) ha hb a (List.mem_of_mem_head? ha)).2
  · exact (h k f hf b (picked_mem (List.mem_of_getLast? hb))).1

theorem enexStep_advance (hx : Forward x) {s s' : EnexState} (h : enexStep x s = .ok (some s'))
    (hp : s.i = 0 → s.prev = -1) : s'.i = s.i + 1 ∧ s'.prevPrev = s.prev ∧ s'.prev < x.n ∧
    (s.i = 0 → s.prev < s'.prev) ∧ s.prev + (if s.i = 0 then 0 else x.wait s.i : Nat) ≤ s'.prev := by
  obtain ⟨h1, h2, h3, a, h4, h5, h6, h7, -, -⟩ := enexStep_some h
  have := hx _ _ a _ h1 h4 h5 h6
  refine ⟨h2, h3, h7, fun h0 => ?_, ?_⟩
  · have hf : enexFrom x s = 0 := by unfold enexFrom; simp [h0]
    rw [hp h0]; omega
  · by_cases h0 : s.i = 0
    · have hf : enexFrom x s = 0 := by unfold enexFrom; simp [h0]
      rw [if_pos h0, hp h0]; omega
    · rw [enexFrom_eq x h0] at this
      rw [if_neg h0]; omega

theorem wait_alternate (hw : x.entryWait ≠ 0 ∨ x.exitWait ≠ 0) (k : Nat) : x.wait k ≠ 0 ∨ x.wait (k + 1) ≠ 0 := by
  unfold EnexInputs.wait
  by_cases h : k % 2 = 0
  · rw [if_pos h, if_neg (by omega)]; exact hw
  · rw [if_neg h, if_pos (by omega)]; exact hw.symm

theorem enexMeasure_step (hx : Forward x) (hw : x.entryWait ≠ 0 ∨ x.exitWait ≠ 0) {s s' : EnexState}
    (h : enexStep x s = .ok (some s')) (hp : s.i = 0 → s.prev = -1) :
    enexMeasure x s' + 1 ≤ enexMeasure x s + (if s.i = 0 then 1 else 0) := by
  obtain ⟨h1, h2, h3, h4, h5⟩ := enexStep_advance hx h hp
  have hwa := wait_alternate hw s.i
  unfold enexMeasure
  rw [h1]
  by_cases h0 : s.i = 0
  · have := h4 h0
    rw [if_pos h0]
    split <;> split <;> omega
  · rw [if_neg h0] at h5 ⊢
    by_cases hz : x.wait s.i = 0
    · rw [if_pos hz, if_neg (by tauto)]; omega
    · rw [if_neg hz]
      split <;> omega

theorem enexLoop_terminates (hx : Forward x) (hw : x.entryWait ≠ 0 ∨ x.exitWait ≠ 0) :
    ∀ (fuel : Nat) (s : EnexState), (s.i = 0 → s.prev = -1) → s.prev < x.n →
      enexMeasure x s + (if s.i = 0 then 1 else 0) < fuel → enexLoop x fuel s ≠ none := by
  intro fuel
  induction fuel with
  | zero =>
    intro s h0 hn hm
    exfalso
    unfold enexMeasure at hm
    split at hm <;> split at hm <;> omega
  | succ fuel ih =>
    intro s h0 hn hm
    unfold enexLoop
    split
    · simp
    · simp
    · rename_i s1 hs
      obtain ⟨h1, h2, h3, h4, h5⟩ := enexStep_advance hx hs h0
      have h6 := enexMeasure_step hx hw hs h0
      refine ih s1 (fun h => by omega) h3 ?_
      rw [if_neg (by omega : ¬ s1.i = 0)]
      push_cast at hm
      omega

end

/-- **C33** (termination), for choice functions of which only the first row is used, that answer in ascending order or with
rows of the range; otherwise see `C33_endless_counterexample`.  The generation ends after at most `2 * n + 5` turns, with
a result or an error. -/
theorem C33_terminates_partial {x : EnexInputs} (hx : x.Ascending ∨ x.InRange) {fuel : Nat} (hf : 2 * x.n + 5 ≤ fuel) :
    generateEnex x fuel ≠ none := by
  unfold generateEnex
  split
  · simp
  · rename_i hw
    have := enexLoop_terminates (forward_of hx) (by tauto) fuel ⟨fun _ => false, fun _ => false, -2, -1, 0⟩
      (fun _ => rfl) (by simp only; omega) (by
        unfold enexMeasure
        simp only [if_true]
        split <;> omega)
    split
    · rename_i h; exact absurd h this
    · simp
    · simp

/-- More turns do not change the result. -/
theorem C33_fuel {x : EnexInputs} {fuel : Nat} {r : Except Err ((Nat → Bool) × (Nat → Bool))}
    (h : generateEnex x fuel = some r) (d : Nat) : generateEnex x (fuel + d) = some r := by
  have key : ∀ (fuel : Nat) (s : EnexState) (r : Except Err EnexState), enexLoop x fuel s = some r →
      enexLoop x (fuel + d) s = some r := by
    intro fuel
    induction fuel with
    | zero => intro s r h; cases h
    | succ fuel ih =>
      intro s r h
      rw [Nat.add_right_comm]
      unfold enexLoop at h ⊢
      split at h
      · exact h
      · exact h
      · rename_i s1 _
        exact ih s1 r h
  unfold generateEnex at h ⊢
  split
  · rename_i hw; rw [if_pos hw] at h; exact h
  · rename_i hw
    rw [if_neg hw] at h
    split at h
    · cases h
    · rename_i e he; rw [key _ _ _ he]; exact h
    · rename_i s he; rw [key _ _ _ he]; exact h

/-- The part of the state that the check for infinite loops looks at. -/
def LoopInv (x : EnexInputs) (s : EnexState) : Prop :=
  (s.i = 0 → s.prev = -1 ∧ s.prevPrev = -2) ∧ (s.i = 1 → s.prevPrev < s.prev) ∧
  (2 ≤ s.i → s.prevPrev + x.wait (s.i - 1) ≤ s.prev)

theorem enexStep_no_error {x : EnexInputs} (hx : x.InRange) (hw : x.entryWait ≠ 0 ∨ x.exitWait ≠ 0) {s : EnexState}
    (hs : LoopInv x s) : ∃ r, enexStep x s = .ok r ∧ ∀ s', r = some s' → LoopInv x s' := by
  cases hst : enexStep x s with
  | error e =>
    exfalso
    rw [enexStep_eq] at hst
    by_cases h1 : enexFrom x s ≥ (x.n : Int)
    · rw [if_pos h1] at hst; cases hst
    · rw [if_neg h1] at hst
      have hr := hx s.i (enexFrom x s) (by omega)
      cases hans : x.answer s.i (enexFrom x s) with
      | nil => rw [hans] at hst; cases hst
      | cons first more =>
        rw [hans] at hst hr
        have hf := hr first (by simp)
        have hl := hr _ (List.getLast_mem (List.cons_ne_nil first more))
        dsimp only at hst
        rw [if_neg, if_neg (by omega)] at hst
        · split at hst
          · rw [if_neg (by omega)] at hst; cases hst
          · rw [if_neg (by omega)] at hst; cases hst
        · rintro ⟨e1, e2⟩
          obtain ⟨i0, i1, i2⟩ := hs
          rcases Nat.lt_trichotomy s.i 1 with h | h | h
          · have := i0 (by omega); omega
          · have := i1 h; omega
          · have := i2 (by omega)
            have hfrom := enexFrom_eq x (by omega : s.i ≠ 0)
            have hwa := wait_alternate hw (s.i - 1)
            rw [show s.i - 1 + 1 = s.i by omega] at hwa
            omega
  | ok r =>
    refine ⟨r, rfl, fun s' h => ?_⟩
    subst h
    obtain ⟨h1, h2, h3, h4, h5⟩ := enexStep_advance (forward_of (Or.inr hx)) hst (fun h => (hs.1 h).1)
    refine ⟨fun h => by omega, fun h => ?_, fun h => ?_⟩
    · rw [h2]; exact h4 (by omega)
    · rw [if_neg (by omega)] at h5
      rw [h1, h2]
      exact h5

/-- **C33** (no error), for choice functions that answer with rows of the range they are asked about: the generation
succeeds; in particular the check for infinite loops never fires. -/
theorem C33_succeeds {x : EnexInputs} (hx : x.InRange) (hw : x.entryWait ≠ 0 ∨ x.exitWait ≠ 0) {fuel : Nat}
    (hf : 2 * x.n + 5 ≤ fuel) : ∃ E X, generateEnex x fuel = some (.ok (E, X)) := by
  have key : ∀ (fuel : Nat) (s : EnexState) (e : Err), LoopInv x s → enexLoop x fuel s ≠ some (.error e) := by
    intro fuel
    induction fuel with
    | zero => intro s e _ h; cases h
    | succ fuel ih =>
      intro s e hs h
      obtain ⟨r, hr, hr'⟩ := enexStep_no_error hx hw hs
      unfold enexLoop at h
      rw [hr] at h
      cases r with
      | none => cases h
      | some s1 => exact ih s1 e (hr' s1 rfl) h
  have ht := C33_terminates_partial (Or.inr hx) hf
  have hk := fun e => key fuel ⟨fun _ => false, fun _ => false, -2, -1, 0⟩ e
    ⟨fun _ => ⟨rfl, rfl⟩, (fun h => by cases h), (fun h => by simp only at h; omega)⟩
  unfold generateEnex at ht ⊢
  rw [if_neg (by tauto)] at ht ⊢
  split at ht
  · exact absurd rfl ht
  · rename_i e he; exact absurd he (hk e)
  · rename_i s hs; exact ⟨_, _, rfl⟩

/-! ## Counterexamples -/

/-- Run, and both arrays are true at row 3. -/
def bothAt3 (r : Option (Except Err ((Nat → Bool) × (Nat → Bool)))) : Bool :=
  match r with
  | some (.ok p) => p.1 3 && p.2 3
  | _ => false

theorem bothAt3_true {r : Option (Except Err ((Nat → Bool) × (Nat → Bool)))} (h : bothAt3 r = true) :
    ∃ E X, r = some (.ok (E, X)) ∧ E 3 = true ∧ X 3 = true := by
  unfold bothAt3 at h
  split at h
  · rename_i p
    rw [Bool.and_eq_true] at h
    exact ⟨p.1, p.2, rfl, h⟩
  · cases h

/-- A choice function that always answers with the rows 1 and 0 in this order. -/
def endlessInputs : EnexInputs := ⟨3, 1, 1, false, false, fun _ _ _ => [1, 0], fun _ _ _ => [1, 0]⟩

/-- **C33** (termination) fails for some choice functions if all rows of an answer are used: the answer `[1, 0]` passes
both checks (the first row is in the range, the last row is below its end) and the last row is the one the next turn
starts after, so the loop never ends and never raises. -/
theorem C33_endless_counterexample (fuel : Nat) : generateEnex endlessInputs fuel = none := by
  have hstep : ∀ s : EnexState, s.i ≠ 0 → s.prev = 0 →
      ∃ s', enexStep endlessInputs s = .ok (some s') ∧ s'.i ≠ 0 ∧ s'.prev = 0 := by
    intro s h0 hp
    have hf : enexFrom endlessInputs s = 1 := by
      rw [enexFrom_eq _ h0, hp]; unfold EnexInputs.wait endlessInputs; split <;> rfl
    have ha : endlessInputs.answer s.i 1 = [1, 0] := by
      unfold EnexInputs.answer endlessInputs; split <;> rfl
    have hpf : endlessInputs.pickFirst s.i = false := by
      unfold EnexInputs.pickFirst endlessInputs; split <;> rfl
    rw [enexStep_eq, hf, ha, hpf, hp]
    exact ⟨_, rfl, Nat.succ_ne_zero _, rfl⟩
  have hloop : ∀ (fuel : Nat) (s : EnexState), s.i ≠ 0 → s.prev = 0 → enexLoop endlessInputs fuel s = none := by
    intro fuel
    induction fuel with
    | zero => intros; rfl
    | succ fuel ih =>
      intro s h0 hp
      obtain ⟨s', h1, h2, h3⟩ := hstep s h0 hp
      unfold enexLoop
      rw [h1]
      exact ih s' h2 h3
  have hl : enexLoop endlessInputs fuel ⟨fun _ => false, fun _ => false, -2, -1, 0⟩ = none := by
    cases fuel with
    | zero => rfl
    | succ fuel =>
      unfold enexLoop
      rw [enexStep_eq]
      exact hloop fuel _ (Nat.succ_ne_zero _) rfl
  unfold generateEnex
  rw [hl]
  rfl

/-- **C33** (alternation) fails for some choice functions if all rows of an answer are used: the entries `[3, 0]` are
followed by the exit 3, although both waits are 1. -/
theorem C33_coincide_counterexample :
    ∃ x : EnexInputs, x.entryWait = 1 ∧ x.exitWait = 1 ∧ x.InRange ∧
      ∃ E X, generateEnex x 20 = some (.ok (E, X)) ∧ E 3 = true ∧ X 3 = true := by
  refine ⟨⟨5, 1, 1, false, false, fun k f _ => if k = 0 ∧ f ≤ 0 then [3, 0] else [], fun k f t => if k = 1 ∧ f ≤ 3 ∧ 3 < t then [3] else []⟩,
    rfl, rfl, ?_, ?_⟩
  · intro k f hf r hr
    simp only [EnexInputs.answer] at hr
    split at hr
    · split at hr
      · rename_i h
        simp only [List.mem_cons, List.not_mem_nil, or_false] at hr
        simp only at hf ⊢
        omega
      · cases hr
    · split at hr
      · rename_i h
        simp only [List.mem_cons, List.not_mem_nil, or_false] at hr
        simp only at hf h ⊢
        omega
      · cases hr
  · exact bothAt3_true (by decide +kernel)

/-- Non-vacuity: the first row of the range for entries and the second for exits, entry wait 2 and exit wait 0. -/
example : let x : EnexInputs := ⟨7, 2, 0, true, true, fun _ f _ => [f], fun _ f t => if f + 1 < t then [f + 1] else []⟩
    (match generateEnex x 19 with
      | some (.ok (E, X)) => some ((List.range 7).map E, (List.range 7).map X)
      | _ => none) =
    some ([true, false, false, true, false, false, true], [false, true, false, false, true, false, false]) := by
  decide +kernel

end Vbt
