import Verif.Lemmas.Signals
import Verif.Lemmas.FloatOrder
import Verif.Lemmas.Witness
import Verif.Spec.StopExits

/-!
# C61  Stop-exit generation finds the first hit
-/

namespace Vbt
open F

/-! ## Extremes -/

/-- The lowest value after `d` rows. -/
def lowAfter (init : F) (v : Nat → F) (start : Nat) : Nat → F
  | 0 => init
  | d + 1 => if lt (v (start + d)) (lowAfter init v start d) then v (start + d) else lowAfter init v start d

/-- The highest value after `d` rows. -/
def highAfter (init : F) (v : Nat → F) (start : Nat) : Nat → F
  | 0 => init
  | d + 1 => if lt (highAfter init v start d) (v (start + d)) then v (start + d) else highAfter init v start d

theorem lowAfter_spec (init : F) (v : Nat → F) (start d : Nat) :
    IsLowest init v start (start + d) (lowAfter init v start d) := by
  induction d with
  | zero => exact ⟨Or.inl rfl, lt_irrefl' _, fun k h1 h2 => by omega, Iff.rfl⟩
  | succ d ih =>
    obtain ⟨h1, h2, h3, h4⟩ := ih
    rw [lowAfter]
    split
    · rename_i h
      have hn := lt_nan h
      refine ⟨Or.inr ⟨start + d, by omega, by omega, rfl⟩, ?_, fun k k1 k2 => ?_, ?_⟩
      · by_contra hc
        rw [lt_trans' (by simpa using hc) h] at h2; cases h2
      · rcases Nat.lt_or_ge k (start + d) with hk | hk
        · by_contra hc
          have := h3 k k1 hk
          rw [lt_trans' (by simpa using hc) h] at this; cases this
        · rw [show k = start + d by omega]; exact lt_irrefl' _
      · rw [← h4, hn.1, hn.2]
    · rename_i h
      refine ⟨?_, h2, fun k k1 k2 => ?_, h4⟩
      · rcases h1 with h1 | ⟨k, k1, k2, k3⟩
        · exact Or.inl h1
        · exact Or.inr ⟨k, k1, by omega, k3⟩
      · rcases Nat.lt_or_ge k (start + d) with hk | hk
        · exact h3 k k1 hk
        · rw [show k = start + d by omega]; simpa using h

theorem highAfter_spec (init : F) (v : Nat → F) (start d : Nat) :
    IsHighest init v start (start + d) (highAfter init v start d) := by
  induction d with
  | zero => exact ⟨Or.inl rfl, lt_irrefl' _, fun k h1 h2 => by omega, Iff.rfl⟩
  | succ d ih =>
    obtain ⟨h1, h2, h3, h4⟩ := ih
    rw [highAfter]
    split
    · rename_i h
      have hn := lt_nan h
      refine ⟨Or.inr ⟨start + d, by omega, by omega, rfl⟩, ?_, fun k k1 k2 => ?_, ?_⟩
      · by_contra hc
        rw [lt_trans' h (by simpa using hc)] at h2; cases h2
      · rcases Nat.lt_or_ge k (start + d) with hk | hk
        · by_contra hc
          have := h3 k k1 hk
          rw [lt_trans' h (by simpa using hc)] at this; cases this
        · rw [show k = start + d by omega]; exact lt_irrefl' _
      · rw [← h4, hn.1, hn.2]
    · rename_i h
      refine ⟨?_, h2, fun k k1 k2 => ?_, h4⟩
      · rcases h1 with h1 | ⟨k, k1, k2, k3⟩
        · exact Or.inl h1
        · exact Or.inr ⟨k, k1, by omega, k3⟩
      · rcases Nat.lt_or_ge k (start + d) with hk | hk
        · exact h3 k k1 hk
        · rw [show k = start + d by omega]; simpa using h

theorem nan_unique {x y : F} (hx : x.isnan = true) (hy : y.isnan = true) : x = y := by
  cases x <;> cases y <;> simp [isnan] at hx hy ⊢

theorem IsLowest.unique {init : F} {v : Nat → F} {start i : Nat} {m m' : F} (h : IsLowest init v start i m)
    (h' : IsLowest init v start i m') : m = m' := by
  cases hn : init.isnan
  · have hm : m.isnan = false := by
      by_contra hc; rw [h.nan.mp (by simpa using hc)] at hn; cases hn
    have hm' : m'.isnan = false := by
      by_contra hc; rw [h'.nan.mp (by simpa using hc)] at hn; cases hn
    have aux : ∀ {m m' : F}, m.isnan = false → m'.isnan = false → IsLowest init v start i m → IsLowest init v start i m' →
        le m' m = true := by
      intro m m' hm hm' h h'
      rw [← not_lt_iff hm hm']
      rcases h.attained with rfl | ⟨k, k1, k2, rfl⟩
      · exact h'.init_not_lower
      · exact h'.not_lower k k1 k2
    exact le_antisymm' (aux hm' hm h' h) (aux hm hm' h h')
  · exact nan_unique (h.nan.mpr hn) (h'.nan.mpr hn)

theorem IsHighest.unique {init : F} {v : Nat → F} {start i : Nat} {m m' : F} (h : IsHighest init v start i m)
    (h' : IsHighest init v start i m') : m = m' := by
  cases hn : init.isnan
  · have hm : m.isnan = false := by
      by_contra hc; rw [h.nan.mp (by simpa using hc)] at hn; cases hn
    have hm' : m'.isnan = false := by
      by_contra hc; rw [h'.nan.mp (by simpa using hc)] at hn; cases hn
    have aux : ∀ {m m' : F}, m.isnan = false → m'.isnan = false → IsHighest init v start i m → IsHighest init v start i m' →
        le m m' = true := by
      intro m m' hm hm' h h'
      rw [← not_lt_iff hm' hm]
      rcases h.attained with rfl | ⟨k, k1, k2, rfl⟩
      · exact h'.init_not_higher
      · exact h'.not_higher k k1 k2
    exact le_antisymm' (aux hm hm' h h') (aux hm' hm h' h)
  · exact nan_unique (h.nan.mpr hn) (h'.nan.mpr hn)

/-! ## Recorded hits -/

/-- The hits that are recorded in `d` rows. -/
def recorded (hit : Nat → Bool) (pickFirst : Bool) (start d : Nat) : List Nat :=
  if pickFirst then ((List.range' start d).filter hit).take 1 else (List.range' start d).filter hit

theorem recorded_succ (hit : Nat → Bool) (pickFirst : Bool) (start d : Nat) :
    recorded hit pickFirst start (d + 1) =
      if pickFirst && decide (recorded hit pickFirst start d ≠ []) then recorded hit pickFirst start d
      else if hit (start + d) then recorded hit pickFirst start d ++ [start + d] else recorded hit pickFirst start d := by
  unfold recorded
  rw [List.range'_concat, List.filter_append, Nat.one_mul]
  cases pickFirst
  · simp only [Bool.false_eq_true, if_false, Bool.false_and]
    cases hh : hit (start + d) <;> simp [hh]
  · simp only [if_true, Bool.true_and, decide_eq_true_eq]
    cases hl : (List.range' start d).filter hit with
    | nil => cases hh : hit (start + d) <;> simp [hh]
    | cons a l => simp

theorem mem_recorded_all {hit : Nat → Bool} {start d i : Nat} :
    i ∈ recorded hit false start d ↔ start ≤ i ∧ i < start + d ∧ hit i = true := by
  unfold recorded
  simp only [Bool.false_eq_true, if_false, List.mem_filter, List.mem_range'_1, and_assoc]

theorem mem_recorded_first {hit : Nat → Bool} {start : Nat} : ∀ {d i : Nat},
    i ∈ recorded hit true start d ↔ start ≤ i ∧ i < start + d ∧ hit i = true ∧ ∀ k, start ≤ k → k < i → hit k = false := by
  intro d
  induction d with
  | zero =>
    intro i
    constructor
    · intro h; simp [recorded] at h
    · rintro ⟨h1, h2, -⟩; omega
  | succ d ih =>
    intro i
    rw [recorded_succ]
    by_cases hne : recorded hit true start d = []
    · rw [if_neg (by simp [hne]), hne]
      have hno : ∀ k, start ≤ k → k < start + d → hit k = false := by
        intro k
        induction k using Nat.strong_induction_on with
        | _ k ihk =>
          intro k1 k2
          by_contra hc
          have := ih.mpr ⟨k1, k2, by simpa using hc, fun m m1 m2 => ihk m m2 m1 (by omega)⟩
          rw [hne] at this; cases this
      by_cases hh : hit (start + d) = true
      · rw [if_pos hh, List.nil_append, List.mem_singleton]
        constructor
        · rintro rfl; exact ⟨by omega, by omega, hh, hno⟩
        · rintro ⟨h1, h2, h3, h4⟩
          by_contra hc
          rw [hno i h1 (by omega)] at h3; cases h3
      · rw [if_neg hh]
        constructor
        · intro h; cases h
        · rintro ⟨h1, h2, h3, h4⟩
          rcases Nat.lt_or_ge i (start + d) with hlt | hge
          · rw [hno i h1 hlt] at h3; cases h3
          · rw [show i = start + d by omega] at h3; exact absurd h3 hh
    · rw [if_pos (by simpa using hne), ih]
      constructor
      · rintro ⟨h1, h2, h3⟩; exact ⟨h1, by omega, h3⟩
      · rintro ⟨h1, h2, h3, h4⟩
        refine ⟨h1, ?_, h3, h4⟩
        obtain ⟨j, hj⟩ := List.exists_mem_of_ne_nil _ hne
        obtain ⟨j1, j2, j3, -⟩ := ih.mp hj
        by_contra hc
        rw [h4 j j1 (by omega)] at j3; cases j3

theorem recorded_first_length (hit : Nat → Bool) (start d : Nat) : (recorded hit true start d).length ≤ 1 := by
  unfold recorded
  simp

theorem recorded_sorted (hit : Nat → Bool) (pickFirst : Bool) (start d : Nat) :
    (recorded hit pickFirst start d).Pairwise (· < ·) := by
  unfold recorded
  have h : ((List.range' start d).filter hit).Pairwise (· < ·) := (List.pairwise_lt_range' (s := start) (n := d) (step := 1) (by omega)).filter _
  split
  · exact h.sublist (List.take_sublist _ _)
  · exact h

/-- A recorded list is what a hit predicate says: the first hit only or all hits in order. -/
def FirstOrAll (pickFirst : Bool) (start stop : Nat) (Hit : Nat → Prop) (l : List Nat) : Prop :=
  if pickFirst then
    (l = [] ∧ ∀ k, start ≤ k → k < stop → ¬ Hit k) ∨
    ∃ i, l = [i] ∧ start ≤ i ∧ i < stop ∧ Hit i ∧ ∀ k, start ≤ k → k < i → ¬ Hit k
  else (∀ i, i ∈ l ↔ start ≤ i ∧ i < stop ∧ Hit i) ∧ l.Pairwise (· < ·)

theorem recorded_firstOrAll {hit : Nat → Bool} {Hit : Nat → Prop} {pickFirst : Bool} {start stop : Nat}
    (h : ∀ i, start ≤ i → (hit i = true ↔ Hit i)) :
    FirstOrAll pickFirst start stop Hit (recorded hit pickFirst start (stop - start)) := by
  unfold FirstOrAll
  have hf : ∀ k, start ≤ k → (hit k = false ↔ ¬ Hit k) := fun k hk => by rw [← h k hk]; simp
  cases pickFirst
  · simp only [Bool.false_eq_true, if_false]
    refine ⟨fun i => ?_, recorded_sorted _ _ _ _⟩
    rw [mem_recorded_all]
    constructor
    · rintro ⟨h1, h2, h3⟩; exact ⟨h1, by omega, (h i h1).mp h3⟩
    · rintro ⟨h1, h2, h3⟩; exact ⟨h1, by omega, (h i h1).mpr h3⟩
  · simp only [if_true]
    have hm := fun i => mem_recorded_first (hit := hit) (start := start) (d := stop - start) (i := i)
    have hlen := recorded_first_length hit start (stop - start)
    cases hl : recorded hit true start (stop - start) with
    | nil =>
      left
      refine ⟨rfl, fun k => ?_⟩
      induction k using Nat.strong_induction_on with
      | _ k ih =>
        intro k1 k2 hk
        have := (hm k).mpr ⟨k1, by omega, (h k k1).mpr hk, fun m m1 m2 => (hf m m1).mpr (ih m m2 m1 (by omega))⟩
        rw [hl] at this; cases this
    | cons i l =>
      right
      rw [hl] at hlen
      have hnil : l = [] := by
        cases l with
        | nil => rfl
        | cons b l => simp at hlen
      subst hnil
      obtain ⟨h1, h2, h3, h4⟩ := (hm i).mp (by rw [hl]; simp)
      exact ⟨i, rfl, h1, by omega, (h i h1).mp h3, fun k k1 k2 => (hf k k1).mp (h4 k k1 k2)⟩

/-! ## First signal -/

/-- **C61** (first signal).  The first signal of the range, if any, is chosen. -/
theorem C61_first (a : Nat → Bool) (fromI toI : Nat) :
    FirstOrAll true fromI toI (fun i => a i = true) (firstChoice a fromI toI) := by
  have : firstChoice a fromI toI = recorded a true fromI (toI - fromI) := by
    unfold firstChoice recorded
    simp only [if_true]
    generalize List.range' fromI (toI - fromI) = l
    induction l with
    | nil => rfl
    | cons b l ih =>
      rw [List.find?_cons, List.filter_cons]
      cases hb : a b
      · simp only [Bool.false_eq_true, if_false]; exact ih
      · simp
  rw [this]
  exact recorded_firstOrAll fun i _ => Iff.rfl

/-! ## Stops -/

section
variable (A : Arith) (ts : Nat → F) (init stop : F) (trailing pickFirst : Bool) (start : Nat)

/-- Whether the stop is hit in row `i`, from the extremes so far. -/
def stopHitB (i : Nat) : Bool :=
  !stop.isnan && (if ge stop zero then
      ge (ts i) (stopLevelAt A init stop trailing ⟨highAfter init ts start (i - start), lowAfter init ts start (i - start), [], false⟩)
    else le (ts i) (stopLevelAt A init stop trailing
      ⟨highAfter init ts start (i - start), lowAfter init ts start (i - start), [], false⟩))

theorem stopHitB_iff {i : Nat} (hi : start ≤ i) :
    stopHitB A ts init stop trailing start i = true ↔ StopReached A ts init stop trailing start i := by
  have hlow := lowAfter_spec init ts start (i - start)
  have hhigh := highAfter_spec init ts start (i - start)
  rw [show start + (i - start) = i by omega] at hlow hhigh
  have hlev : ∀ level, StopLevel A ts init stop trailing start i level ↔ level = stopLevelAt A init stop trailing
      ⟨highAfter init ts start (i - start), lowAfter init ts start (i - start), [], false⟩ := by
    intro level
    unfold StopLevel stopLevelAt
    cases trailing
    · simp
    · simp only [if_true]
      split
      · constructor
        · rintro ⟨m, m1, m2⟩; rw [m2, m1.unique hlow]
        · intro h; exact ⟨_, hlow, h⟩
      · constructor
        · rintro ⟨m, m1, m2⟩; rw [m2, m1.unique hhigh]
        · intro h; exact ⟨_, hhigh, h⟩
  unfold stopHitB StopReached
  simp only [hlev, exists_eq_left, Bool.and_eq_true, Bool.not_eq_true']
  refine and_congr Iff.rfl ?_
  split <;> rfl

/-- The state after `d` rows. -/
structure StopInv (d : Nat) (s : StopState) : Prop where
  hits : s.hits = recorded (stopHitB A ts init stop trailing start) pickFirst start d
  done : s.done = (pickFirst && decide (s.hits ≠ []))
  ext : s.done = false → trailing = true → s.maxHigh = highAfter init ts start d ∧ s.minLow = lowAfter init ts start d

theorem stopInv (d : Nat) : StopInv A ts init stop trailing pickFirst start d
    ((List.range' start d).foldl (stopStep A ts init stop trailing pickFirst) ⟨init, init, [], false⟩) := by
  induction d with
  | zero => exact ⟨by simp [recorded], by simp, fun _ _ => ⟨rfl, rfl⟩⟩
  | succ d ih =>
    rw [List.range'_concat, List.foldl_append, List.foldl_cons, List.foldl_nil, Nat.one_mul]
    generalize (List.range' start d).foldl (stopStep A ts init stop trailing pickFirst) ⟨init, init, [], false⟩ = s at ih
    obtain ⟨h1, h2, h3⟩ := ih
    unfold stopStep
    rcases Bool.eq_false_or_eq_true s.done with hd | hd
    rotate_left
    · rw [if_neg (by rw [hd]; simp)]
      have hrec : recorded (stopHitB A ts init stop trailing start) pickFirst start (d + 1) =
          if stopHitB A ts init stop trailing start (start + d) then s.hits ++ [start + d] else s.hits := by
        rw [recorded_succ, ← h1, if_neg]
        rw [← h2, hd]; simp
      have hhit : (!stop.isnan && (if ge stop zero then ge (ts (start + d)) (stopLevelAt A init stop trailing s)
          else le (ts (start + d)) (stopLevelAt A init stop trailing s))) = stopHitB A ts init stop trailing start (start + d) := by
        unfold stopHitB
        have : stopLevelAt A init stop trailing s = stopLevelAt A init stop trailing
            ⟨highAfter init ts start (start + d - start), lowAfter init ts start (start + d - start), [], false⟩ := by
          unfold stopLevelAt
          cases htr : trailing
          · rfl
          · obtain ⟨e1, e2⟩ := h3 hd htr
            simp only [if_true]
            rw [e1, e2, show start + d - start = d by omega]
        rw [this]
      dsimp only
      rw [hhit]
      -- the extremes
      have hext : ∀ s1 : StopState, s1.maxHigh = s.maxHigh → s1.minLow = s.minLow → trailing = true →
          (if lt (ts (start + d)) s1.minLow then ({ s1 with minLow := ts (start + d) } : StopState)
            else if gt (ts (start + d)) s1.maxHigh then { s1 with maxHigh := ts (start + d) } else s1) =
          { s1 with maxHigh := highAfter init ts start (d + 1), minLow := lowAfter init ts start (d + 1) } := by
        intro s1 e1 e2 htr
        obtain ⟨e3, e4⟩ := h3 hd htr
        have hlow := lowAfter_spec init ts start d
        have hhigh := highAfter_spec init ts start d
        rw [highAfter, lowAfter, ← e3, ← e4, ← e1, ← e2]
        rw [← e4, ← e2] at hlow
        rw [← e3, ← e1] at hhigh
        unfold gt
        by_cases hl : lt (ts (start + d)) s1.minLow = true
        · rw [if_pos hl, if_pos hl, if_neg]
          intro hg
          -- lower than the lowest and higher than the highest
          have hlt := lt_trans' hg hl
          have hn := lt_nan hlt
          have hin : init.isnan = false := by
            by_contra hc; rw [hlow.nan.mpr (by simpa using hc)] at hn; cases hn.2
          have a1 := (not_lt_iff hn.1 hin).mp hhigh.init_not_higher
          have a2 := (not_lt_iff hin hn.2).mp hlow.init_not_lower
          have := lt_of_lt_of_le' hlt (le_trans' a2 a1)
          rw [lt_irrefl'] at this; cases this
        · rw [if_neg hl, if_neg hl]
          split
          · rfl
          · rfl
      cases hh : stopHitB A ts init stop trailing start (start + d)
      · rw [hh] at hrec
        simp only [Bool.false_and, Bool.false_eq_true, if_false] at hrec ⊢
        cases htr : trailing
        · rw [if_neg (by simp)]
          rw [htr] at hrec
          exact ⟨hrec.symm, h2, fun _ h => by cases h⟩
        · rw [if_pos rfl, hext s rfl rfl htr]
          rw [htr] at hrec
          exact ⟨hrec.symm, h2, fun _ _ => ⟨rfl, rfl⟩⟩
      · rw [hh] at hrec
        simp only [if_true, Bool.true_and] at hrec ⊢
        cases hp : pickFirst
        · rw [if_neg (by simp)]
          rw [hp] at hrec
          cases htr : trailing
          · rw [if_neg (by simp)]
            rw [htr] at hrec
            exact ⟨hrec.symm, by simpa using hd, fun _ h => by cases h⟩
          · rw [if_pos rfl, hext { s with hits := s.hits ++ [start + d] } rfl rfl htr]
            rw [htr] at hrec
            exact ⟨hrec.symm, by simpa using hd, fun _ _ => ⟨rfl, rfl⟩⟩
        · rw [if_pos rfl]
          rw [hp] at hrec
          exact ⟨hrec.symm, by simp, fun h => by cases h⟩
    · rw [if_pos hd]
      refine ⟨?_, h2, fun h => by rw [hd] at h; cases h⟩
      rw [recorded_succ, ← h1, if_pos]
      rw [← h2, hd]

end

/-- **C61** (stops).  The stop choice function returns the first row of the range in which the stop that was placed `wait` rows
before the range is hit, or with `pick_first = False` all such rows in order. -/
theorem C61_stop (A : Arith) (ts stop : Nat → F) (trailing : Nat → Bool) (wait : Nat) (pickFirst : Bool) (fromI toI : Nat) :
    FirstOrAll pickFirst fromI toI
      (StopReached A ts (ts (fromI - wait)) (stop (fromI - wait)) (trailing (fromI - wait)) fromI)
      (stopChoice A ts stop trailing wait pickFirst fromI toI) := by
  unfold stopChoice
  dsimp only
  rw [(stopInv A ts _ _ _ pickFirst fromI (toI - fromI)).hits]
  exact recorded_firstOrAll fun i hi => stopHitB_iff A ts _ _ _ fromI hi

/-! ## Stops on bars -/

section
variable (A : Arith) (x : OhlcInputs) (entry start : Nat)

theorem ohlcRange_eq (i : Nat) : ohlcRange x entry i = (usableHigh x entry i, usableLow x entry i) := by
  unfold ohlcRange ohlcBar usableHigh usableLow barOpen
  dsimp only
  by_cases h : i ≤ entry ∧ x.isOpenSafe = false
  · rw [if_neg, if_pos h, if_pos h]
    simp [h.1, h.2]
  · rw [if_pos, if_neg h, if_neg h]
    simp only [Bool.or_eq_true, decide_eq_true_eq]
    by_contra hc
    push Not at hc
    exact h ⟨hc.1, by simpa using hc.2⟩

/-- The level of the stop loss in row `i`. -/
def lossLevelAt (i : Nat) : F :=
  slLevel A x entry (highAfter (x.open_ entry) (usableHigh x entry) start (i - start))
    (lowAfter (x.open_ entry) (usableLow x entry) start (i - start))

def lossHitB (i : Nat) : Bool :=
  !(x.slStop entry).isnan && (if x.reverse entry then ge (usableHigh x entry i) (lossLevelAt A x entry start i)
    else le (usableLow x entry i) (lossLevelAt A x entry start i))

def profitHitB (i : Nat) : Bool :=
  !(x.tpStop entry).isnan && (if x.reverse entry then le (usableLow x entry i) (tpLevel A x entry)
    else ge (usableHigh x entry i) (tpLevel A x entry))

theorem lossLevel_iff {i : Nat} (hi : start ≤ i) (level : F) :
    LossLevel A x entry start i level ↔ level = lossLevelAt A x entry start i := by
  have hlow := lowAfter_spec (x.open_ entry) (usableLow x entry) start (i - start)
  have hhigh := highAfter_spec (x.open_ entry) (usableHigh x entry) start (i - start)
  rw [show start + (i - start) = i by omega] at hlow hhigh
  unfold LossLevel lossLevelAt slLevel
  dsimp only
  by_cases htr : x.slTrail entry = true
  · rw [if_pos htr, if_pos htr]
    split
    · constructor
      · rintro ⟨m, m1, m2⟩; rw [m2, m1.unique hlow]
      · intro h; exact ⟨_, hlow, h⟩
    · constructor
      · rintro ⟨m, m1, m2⟩; rw [m2, m1.unique hhigh]
      · intro h; exact ⟨_, hhigh, h⟩
  · rw [if_neg htr, if_neg htr]
    split <;> rfl

theorem lossHit_iff {i : Nat} (hi : start ≤ i) (level : F) :
    LossHit A x entry start i level ↔ level = lossLevelAt A x entry start i ∧ lossHitB A x entry start i = true := by
  unfold LossHit lossHitB
  rw [lossLevel_iff A x entry start hi]
  simp only [Bool.and_eq_true, Bool.not_eq_true']
  constructor
  · rintro ⟨h1, rfl, h3⟩
    refine ⟨rfl, h1, ?_⟩
    split <;> rename_i h
    · rw [if_pos h] at h3; exact h3
    · rw [if_neg h] at h3; exact h3
  · rintro ⟨rfl, h1, h3⟩
    refine ⟨h1, rfl, ?_⟩
    split <;> rename_i h
    · rw [if_pos h] at h3; exact h3
    · rw [if_neg h] at h3; exact h3

theorem profitHit_iff (i : Nat) (level : F) :
    ProfitHit A x entry i level ↔ level = tpLevel A x entry ∧ profitHitB A x entry i = true := by
  unfold ProfitHit profitHitB tpLevel
  simp only [Bool.and_eq_true, Bool.not_eq_true']
  by_cases h : x.reverse entry = true
  · simp only [if_pos h]
    constructor
    · rintro ⟨h1, rfl, h3⟩; exact ⟨rfl, h1, h3⟩
    · rintro ⟨rfl, h1, h3⟩; exact ⟨h1, rfl, h3⟩
  · simp only [if_neg h]
    constructor
    · rintro ⟨h1, rfl, h3⟩; exact ⟨rfl, h1, h3⟩
    · rintro ⟨rfl, h1, h3⟩; exact ⟨h1, rfl, h3⟩

def anyHitB (i : Nat) : Bool := lossHitB A x entry start i || profitHitB A x entry i

theorem anyHit_iff {i : Nat} (hi : start ≤ i) : anyHitB A x entry start i = true ↔ AnyHit A x entry start i := by
  unfold anyHitB AnyHit
  rw [Bool.or_eq_true]
  constructor
  · rintro (h | h)
    · exact ⟨_, Or.inl ((lossHit_iff A x entry start hi _).mpr ⟨rfl, h⟩)⟩
    · exact ⟨_, Or.inr ((profitHit_iff A x entry i _).mpr ⟨rfl, h⟩)⟩
  · rintro ⟨level, h | h⟩
    · exact Or.inl ((lossHit_iff A x entry start hi _).mp h).2
    · exact Or.inr ((profitHit_iff A x entry i _).mp h).2

/-- The price and type recorded for a hit in row `i`. -/
def hitPrice (i : Nat) : F := if lossHitB A x entry start i then lossLevelAt A x entry start i else tpLevel A x entry

def hitType (i : Nat) : Int :=
  if lossHitB A x entry start i then (if x.slTrail entry then StopType.TrailStop else StopType.StopLoss)
  else StopType.TakeProfit

/-- The state after `d` rows. -/
structure OhlcInv (price : Nat → F) (type : Nat → Int) (d : Nat) (s : OhlcState) : Prop where
  hits : s.hits = recorded (anyHitB A x entry start) x.pickFirst start d
  done : s.done = (x.pickFirst && decide (s.hits ≠ []))
  ext : s.done = false → x.slTrail entry = true → s.maxP = highAfter (x.open_ entry) (usableHigh x entry) start d ∧
    s.minP = lowAfter (x.open_ entry) (usableLow x entry) start d
  price : ∀ j, s.price j = if j ∈ s.hits then hitPrice A x entry start j else price j
  type : ∀ j, s.type j = if j ∈ s.hits then hitType A x entry start j else type j

theorem ohlcInv (price : Nat → F) (type : Nat → Int) (d : Nat) : OhlcInv A x entry start price type d
    ((List.range' start d).foldl (ohlcStep A x entry) ⟨x.open_ entry, x.open_ entry, [], price, type, false⟩) := by
  induction d with
  | zero => exact ⟨by simp [recorded], by simp, fun _ _ => ⟨rfl, rfl⟩, fun j => by simp, fun j => by simp⟩
  | succ d ih =>
    rw [List.range'_concat, List.foldl_append, List.foldl_cons, List.foldl_nil, Nat.one_mul]
    generalize (List.range' start d).foldl (ohlcStep A x entry)
      ⟨x.open_ entry, x.open_ entry, [], price, type, false⟩ = s at ih
    obtain ⟨h1, h2, h3, h4, h5⟩ := ih
    unfold ohlcStep
    rcases Bool.eq_false_or_eq_true s.done with hd | hd
    rotate_left
    · rw [if_neg (by rw [hd]; simp)]
      have hrec : recorded (anyHitB A x entry start) x.pickFirst start (d + 1) =
          if anyHitB A x entry start (start + d) then s.hits ++ [start + d] else s.hits := by
        rw [recorded_succ, ← h1, if_neg]
        rw [← h2, hd]; simp
      have hsl : slLevel A x entry s.maxP s.minP = lossLevelAt A x entry start (start + d) := by
        unfold lossLevelAt
        rw [show start + d - start = d by omega]
        by_cases htr : x.slTrail entry = true
        · obtain ⟨e1, e2⟩ := h3 hd htr
          rw [e1, e2]
        · unfold slLevel
          dsimp only
          rw [if_neg htr, if_neg htr]
      dsimp only
      rw [ohlcRange_eq, hsl]
      dsimp only
      have e1 : (!(x.slStop entry).isnan && (if x.reverse entry = true then
          ge (usableHigh x entry (start + d)) (lossLevelAt A x entry start (start + d))
          else le (usableLow x entry (start + d)) (lossLevelAt A x entry start (start + d)))) =
          lossHitB A x entry start (start + d) := rfl
      have e2 : ∀ b : Bool, (!b && !(x.tpStop entry).isnan && (if x.reverse entry = true then
          le (usableLow x entry (start + d)) (tpLevel A x entry)
          else ge (usableHigh x entry (start + d)) (tpLevel A x entry))) = (!b && profitHitB A x entry (start + d)) := by
        intro b; unfold profitHitB; rw [Bool.and_assoc]
      rw [e1, e2]
      -- the recorded row
      have hany : (lossHitB A x entry start (start + d) ||
          (!lossHitB A x entry start (start + d) && profitHitB A x entry (start + d))) =
          anyHitB A x entry start (start + d) := by
        unfold anyHitB
        cases lossHitB A x entry start (start + d) <;> simp
      rw [hany]
      have hs1 : (if lossHitB A x entry start (start + d) = true then
          ({ s with price := setAt s.price (start + d) (lossLevelAt A x entry start (start + d)),
                    type := setAt s.type (start + d) (if x.slTrail entry = true then StopType.TrailStop
                      else StopType.StopLoss) } : OhlcState)
          else if (!lossHitB A x entry start (start + d) && profitHitB A x entry (start + d)) = true then
            { s with price := setAt s.price (start + d) (tpLevel A x entry),
                     type := setAt s.type (start + d) StopType.TakeProfit }
          else s) = if anyHitB A x entry start (start + d) then
            { s with price := setAt s.price (start + d) (hitPrice A x entry start (start + d)),
                     type := setAt s.type (start + d) (hitType A x entry start (start + d)) } else s := by
        unfold anyHitB hitPrice hitType
        cases lossHitB A x entry start (start + d) <;> cases profitHitB A x entry (start + d) <;> simp
      rw [hs1]
      have hpnew : ∀ j, setAt s.price (start + d) (hitPrice A x entry start (start + d)) j =
          if j ∈ s.hits ++ [start + d] then hitPrice A x entry start j else price j := by
        intro j
        unfold setAt
        by_cases hj : j = start + d
        · subst hj; simp
        · rw [if_neg hj, h4 j]; simp [hj]
      have htnew : ∀ j, setAt s.type (start + d) (hitType A x entry start (start + d)) j =
          if j ∈ s.hits ++ [start + d] then hitType A x entry start j else type j := by
        intro j
        unfold setAt
        by_cases hj : j = start + d
        · subst hj; simp
        · rw [if_neg hj, h5 j]; simp [hj]
      -- the extremes
      have hext : ∀ s1 : OhlcState, s1.maxP = s.maxP → s1.minP = s.minP → x.slTrail entry = true →
          (if gt (usableHigh x entry (start + d)) s1.maxP = true then usableHigh x entry (start + d) else s1.maxP) =
            highAfter (x.open_ entry) (usableHigh x entry) start (d + 1) ∧
          (if lt (usableLow x entry (start + d)) s1.minP = true then usableLow x entry (start + d) else s1.minP) =
            lowAfter (x.open_ entry) (usableLow x entry) start (d + 1) := by
        intro s1 g1 g2 htr
        obtain ⟨g3, g4⟩ := h3 hd htr
        rw [highAfter, lowAfter, g1, g2, g3, g4]
        exact ⟨rfl, rfl⟩
      cases hh : anyHitB A x entry start (start + d)
      · rw [hh] at hrec
        simp only [Bool.false_and, Bool.false_eq_true, if_false] at hrec ⊢
        by_cases htr : x.slTrail entry = true
        · rw [if_pos htr]
          exact ⟨hrec.symm, h2, fun _ _ => hext s rfl rfl htr, h4, h5⟩
        · rw [if_neg htr]
          exact ⟨hrec.symm, h2, fun _ h => absurd h htr, h4, h5⟩
      · rw [hh] at hrec
        simp only [if_true, Bool.true_and] at hrec ⊢
        cases hp : x.pickFirst
        · rw [if_neg (by simp)]
          rw [hp] at hrec
          by_cases htr : x.slTrail entry = true
          · rw [if_pos htr]
            refine ⟨?_, by rw [hp]; simpa using hd, fun _ _ => ?_, hpnew, htnew⟩
            · rw [hp]; exact hrec.symm
            · exact hext { s with price := setAt s.price (start + d) (hitPrice A x entry start (start + d)),
                                  type := setAt s.type (start + d) (hitType A x entry start (start + d)),
                                  hits := s.hits ++ [start + d] } rfl rfl htr
          · rw [if_neg htr]
            refine ⟨?_, by rw [hp]; simpa using hd, fun _ h => absurd h htr, hpnew, htnew⟩
            rw [hp]; exact hrec.symm
        · rw [if_pos rfl]
          rw [hp] at hrec
          refine ⟨?_, by rw [hp]; simp, (fun h => by cases h), hpnew, htnew⟩
          rw [hp]; exact hrec.symm
    · rw [if_pos hd]
      refine ⟨?_, h2, (fun h => by rw [hd] at h; cases h), h4, h5⟩
      rw [recorded_succ, ← h1, if_pos]
      rw [← h2, hd]

end

/-- **C61** (stops on bars).  If no stop is negative, the choice function returns the first row of the range in which the stop
loss or the take profit of the entry `wait` rows before the range is hit, or with `pick_first = False` all such rows.  For
each returned row it records the level of the stop loss if that is hit and otherwise the level of the take profit,
together with its type; nothing else is recorded. -/
theorem C61_ohlc (A : Arith) (x : OhlcInputs) (price : Nat → F) (type : Nat → Int) (fromI toI : Nat)
    {l : List Nat} {price' : Nat → F} {type' : Nat → Int}
    (h : ohlcStopChoice A x price type fromI toI = .ok (l, price', type')) :
    FirstOrAll x.pickFirst fromI toI (AnyHit A x (fromI - x.wait) fromI) l ∧
    (∀ i ∈ l, ∀ level, LossHit A x (fromI - x.wait) fromI i level → price' i = level ∧
      type' i = if x.slTrail (fromI - x.wait) then StopType.TrailStop else StopType.StopLoss) ∧
    (∀ i ∈ l, (∀ level, ¬ LossHit A x (fromI - x.wait) fromI i level) → ∀ level, ProfitHit A x (fromI - x.wait) i level →
      price' i = level ∧ type' i = StopType.TakeProfit) ∧
    (∀ i, i ∉ l → price' i = price i ∧ type' i = type i) := by
  unfold ohlcStopChoice at h
  dsimp only at h
  split at h
  · cases h
  split at h
  · cases h
  obtain ⟨h1, -, -, h4, h5⟩ := ohlcInv A x (fromI - x.wait) fromI price type (toI - fromI)
  generalize (List.range' fromI (toI - fromI)).foldl (ohlcStep A x (fromI - x.wait)) _ = s at h h1 h4 h5
  cases h
  have hfa : FirstOrAll x.pickFirst fromI toI (AnyHit A x (fromI - x.wait) fromI) s.hits := by
    rw [h1]
    exact recorded_firstOrAll fun i hi => anyHit_iff A x _ fromI hi
  have hge : ∀ i ∈ s.hits, fromI ≤ i := by
    intro i hi
    unfold FirstOrAll at hfa
    split at hfa
    · rcases hfa with ⟨e, -⟩ | ⟨j, e, j1, -⟩
      · rw [e] at hi; cases hi
      · rw [e, List.mem_singleton] at hi; omega
    · exact ((hfa.1 i).mp hi).1
  refine ⟨hfa, fun i hi level hl => ?_, fun i hi hno level hl => ?_, fun i hi => ?_⟩
  · obtain ⟨e1, e2⟩ := (lossHit_iff A x _ fromI (hge i hi) level).mp hl
    rw [h4 i, if_pos hi, h5 i, if_pos hi]
    unfold hitPrice hitType
    rw [if_pos e2, if_pos e2]
    exact ⟨e1.symm, rfl⟩
  · obtain ⟨e1, e2⟩ := (profitHit_iff A x _ i level).mp hl
    have hnb : ¬ lossHitB A x (fromI - x.wait) fromI i = true := fun hb =>
      hno _ ((lossHit_iff A x _ fromI (hge i hi) _).mpr ⟨rfl, hb⟩)
    rw [h4 i, if_pos hi, h5 i, if_pos hi]
    unfold hitPrice hitType
    rw [if_neg hnb, if_neg hnb]
    exact ⟨e1.symm, rfl⟩
  · rw [h4 i, if_neg hi, h5 i, if_neg hi]
    exact ⟨rfl, rfl⟩

/-- Stops are rejected exactly if one of them is negative. -/
theorem C61_ohlc_error (A : Arith) (x : OhlcInputs) (price : Nat → F) (type : Nat → Int) (fromI toI : Nat) :
    (∃ e, ohlcStopChoice A x price type fromI toI = .error e) ↔
      (lt (x.slStop (fromI - x.wait)) zero = true ∨ lt (x.tpStop (fromI - x.wait)) zero = true) := by
  unfold ohlcStopChoice
  dsimp only
  split
  · rename_i h; simp [h]
  · rename_i h
    split
    · rename_i h'; simp [h']
    · rename_i h'
      constructor
      · rintro ⟨e, he⟩; cases he
      · rintro (h'' | h'')
        · exact absurd h'' h
        · exact absurd h'' h'

/-- Bars for the examples: entry at 100, then a bar from 80 to 85. -/
def gapBars : OhlcInputs where
  open_ := fun i => if i = 0 then .fin 100 else .fin 80
  high := fun i => if i = 0 then .fin 105 else .fin 85
  low := fun i => if i = 0 then .fin 95 else .fin 70
  close := fun i => if i = 0 then .fin 100 else .fin 75
  slStop := fun _ => .fin (1 / 10)
  slTrail := fun _ => false
  tpStop := fun _ => .fin (1 / 10)
  reverse := fun _ => false
  isOpenSafe := true
  wait := 1
  pickFirst := true

/-- An observation: the recorded price is the level itself even if the bar opens beyond it, so the exit at 90 lies outside of
the bar from 70 to 85. -/
theorem C61_gap : ∃ l p t, ohlcStopChoice Arith.std gapBars (fun _ => .nan) (fun _ => -1) 1 4 = .ok (l, p, t) ∧
    l = [1] ∧ p 1 = .fin 90 ∧ lt (gapBars.high 1) (p 1) = true ∧ t 1 = StopType.StopLoss := by
  have h := okAnd_iff (x := ohlcStopChoice Arith.std gapBars (fun _ => .nan) (fun _ => -1) 1 4)
    (f := fun r => decide (r.1 = [1] ∧ r.2.1 1 = .fin 90 ∧ lt (gapBars.high 1) (r.2.1 1) = true ∧
      r.2.2 1 = StopType.StopLoss)) (by decide +kernel)
  obtain ⟨r, h1, h2⟩ := h
  exact ⟨r.1, r.2.1, r.2.2, h1, of_decide_eq_true h2⟩

/-- Non-vacuity: trailing stop of 10 percent on 100, 120, 110, 107. -/
example : stopChoice Arith.std (fun i => [F.fin 100, .fin 120, .fin 110, .fin 107, .fin 90].getD i .nan)
    (fun _ => .fin (-1 / 10)) (fun _ => true) 1 true 1 5 = [3] ∧
    stopChoice Arith.std (fun i => [F.fin 100, .fin 120, .fin 110, .fin 107, .fin 90].getD i .nan)
    (fun _ => .fin (-1 / 10)) (fun _ => true) 1 false 1 5 = [3, 4] := by decide +kernel

end Vbt
