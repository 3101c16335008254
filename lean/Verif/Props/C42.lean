import Verif.Lemmas.Scan

/-!
# C42  Crossovers are detected once, when they happen
-/

namespace Vbt
open F

/-- One of the values of row `i` is missing. -/
def MissingRow (a b : Nat → F) (i : Nat) : Prop := (a i).isnan = true ∨ (b i).isnan = true

/-- The first series crossed above the second one `w` rows before row `i`: it has been above for exactly the last `w + 1`
rows, in the row before both are observed and it is not above, and it was strictly below at some row before without a
missing value since. -/
def CrossedAgo (a b : Nat → F) (w i : Nat) : Prop :=
  ∃ p, p + w + 1 = i ∧ (∀ k, p < k → k ≤ i → lt (b k) (a k) = true) ∧ lt (b p) (a p) = false ∧ ¬ MissingRow a b p ∧
    ∃ k ≤ p, lt (a k) (b k) = true ∧ ∀ j, k ≤ j → j ≤ p → ¬ MissingRow a b j

theorem CrossedAgo.unique {a b : Nat → F} {w w' i : Nat} (h : CrossedAgo a b w i) (h' : CrossedAgo a b w' i) : w = w' := by
  obtain ⟨p, p1, p2, p3, -⟩ := h
  obtain ⟨q, q1, q2, q3, -⟩ := h'
  rcases Nat.lt_trichotomy p q with h | h | h
  · rw [p2 q h (by omega)] at q3; cases q3
  · omega
  · rw [q2 p h (by omega)] at p3; cases p3

/-- The state before row `i`. -/
structure CrossInv (a b : Nat → F) (i : Nat) (s : Bool × Int) : Prop where
  below : s.1 = true ↔ ∃ k < i, lt (a k) (b k) = true ∧ ∀ j, k ≤ j → j < i → ¬ MissingRow a b j
  notBelow : s.1 = false → s.2 = -1
  ago : s.1 = true → ∃ m p : Nat, s.2 = (m : Int) - 1 ∧ p + m + 1 = i ∧ (∀ k, p < k → k < i → lt (b k) (a k) = true) ∧
    lt (b p) (a p) = false ∧ ¬ MissingRow a b p ∧
    ∃ k ≤ p, lt (a k) (b k) = true ∧ ∀ j, k ≤ j → j ≤ p → ¬ MissingRow a b j

theorem lt_not_missing {a b : Nat → F} {i : Nat} (h : lt (b i) (a i) = true) : ¬ MissingRow a b i := by
  have := lt_nan h
  rintro (h' | h')
  · rw [this.2] at h'; cases h'
  · rw [this.1] at h'; cases h'

theorem lt_not_missing' {a b : Nat → F} {i : Nat} (h : lt (a i) (b i) = true) : ¬ MissingRow a b i := by
  have := lt_nan h
  rintro (h' | h')
  · rw [this.1] at h'; cases h'
  · rw [this.2] at h'; cases h'

theorem cross_next {a b : Nat → F} {wait : Int} {i : Nat} {s : Bool × Int} (h : CrossInv a b i s) :
    CrossInv a b (i + 1) (crossStep a b wait s i).1 ∧
    ((crossStep a b wait s i).2 = true ↔ ∃ w : Nat, (w : Int) = wait ∧ CrossedAgo a b w i) := by
  unfold crossStep
  by_cases hm : ((a i).isnan || (b i).isnan) = true
  · rw [if_pos hm]
    have hmiss : MissingRow a b i := by unfold MissingRow; simpa using hm
    refine ⟨⟨⟨(fun h => by cases h), ?_⟩, fun _ => rfl, fun h => by cases h⟩, ⟨(fun h => by cases h), ?_⟩⟩
    · rintro ⟨k, k1, k2, k3⟩
      exact absurd hmiss (k3 i (by omega) (by omega))
    · rintro ⟨w, -, p, p1, p2, -⟩
      exact absurd hmiss (lt_not_missing (p2 i (by omega) (le_refl _)))
  · rw [if_neg hm]
    have hmiss : ¬ MissingRow a b i := by unfold MissingRow; simpa using hm
    have hna : (a i).isnan = false := by
      by_contra hc; exact hmiss (Or.inl (by simpa using hc))
    have hnb : (b i).isnan = false := by
      by_contra hc; exact hmiss (Or.inr (by simpa using hc))
    -- what `below` becomes
    have hbelow : (∃ k < i + 1, lt (a k) (b k) = true ∧ ∀ j, k ≤ j → j < i + 1 → ¬ MissingRow a b j) ↔
        s.1 = true ∨ lt (a i) (b i) = true := by
      rw [h.below]
      constructor
      · rintro ⟨k, k1, k2, k3⟩
        by_cases hk : k = i
        · subst hk; exact Or.inr k2
        · exact Or.inl ⟨k, by omega, k2, fun j j1 j2 => k3 j j1 (by omega)⟩
      · rintro (⟨k, k1, k2, k3⟩ | h1)
        · refine ⟨k, by omega, k2, fun j j1 j2 => ?_⟩
          by_cases hj : j = i
          · rw [hj]; exact hmiss
          · exact k3 j j1 (by omega)
        · exact ⟨i, by omega, h1, fun j j1 j2 => by rw [show j = i by omega]; exact hmiss⟩
    by_cases hgt : gt (a i) (b i) = true
    · rw [if_pos hgt]
      have hgt' : lt (b i) (a i) = true := hgt
      have hnlt : lt (a i) (b i) = false := by
        by_contra hc
        have := lt_trans' hgt' (by simpa using hc)
        rw [lt_irrefl'] at this; cases this
      by_cases hs : s.1 = true
      · rw [if_pos hs]
        obtain ⟨m, p, m1, m2, m3, m4, m5, m6⟩ := h.ago hs
        have hc : CrossedAgo a b m i := by
          refine ⟨p, by omega, fun k k1 k2 => ?_, m4, m5, m6⟩
          by_cases hk : k = i
          · rw [hk]; exact hgt'
          · exact m3 k k1 (by omega)
        refine ⟨⟨by rw [hbelow]; simp [hs], (fun h => by rw [hs] at h; cases h), fun _ => ?_⟩, ?_⟩
        · refine ⟨m + 1, p, ?_, by omega, fun k k1 k2 => ?_, m4, m5, m6⟩
          · dsimp only; rw [m1]; omega
          · by_cases hk : k = i
            · rw [hk]; exact hgt'
            · exact m3 k k1 (by omega)
        · rw [decide_eq_true_eq, m1]
          constructor
          · intro hw; exact ⟨m, by omega, hc⟩
          · rintro ⟨w, w1, w2⟩
            have := w2.unique hc
            omega
      · rw [if_neg hs]
        refine ⟨⟨by rw [hbelow]; simp [hs, hnlt], h.notBelow, fun h => absurd h hs⟩, ⟨(fun h => by cases h), ?_⟩⟩
        rintro ⟨w, -, p, p1, p2, p3, p4, k, k1, k2, k3⟩
        refine absurd (h.below.mpr ⟨k, by omega, k2, fun j j1 j2 => ?_⟩) hs
        by_cases hj : j ≤ p
        · exact k3 j j1 hj
        · exact lt_not_missing (p2 j (by omega) (by omega))
    · rw [if_neg hgt]
      have hgt' : lt (b i) (a i) = false := by
        have : ¬ lt (b i) (a i) = true := hgt
        simpa using this
      have hno : ¬ ∃ w : Nat, (w : Int) = wait ∧ CrossedAgo a b w i := by
        rintro ⟨w, -, p, p1, p2, -⟩
        rw [p2 i (by omega) (le_refl _)] at hgt'; cases hgt'
      by_cases heq : eqb (a i) (b i) = true
      · rw [if_pos heq]
        have hnlt : lt (a i) (b i) = false := by
          rw [(eqb_iff.mp heq).1]; exact lt_irrefl' _
        refine ⟨⟨by rw [hbelow]; simp [hnlt], fun _ => rfl, fun hs => ?_⟩, ⟨(fun h => by cases h), fun h => absurd h hno⟩⟩
        obtain ⟨m, p, m1, m2, m3, m4, m5, k, k1, k2, k3⟩ := h.ago hs
        refine ⟨0, i, rfl, rfl, fun k k1 k2 => by omega, hgt', hmiss, k, by omega, k2, fun j j1 j2 => ?_⟩
        by_cases hj : j ≤ p
        · exact k3 j j1 hj
        · by_cases hj' : j = i
          · rw [hj']; exact hmiss
          · exact lt_not_missing (m3 j (by omega) (by omega))
      · rw [if_neg heq]
        have hlt : lt (a i) (b i) = true := by
          have hle := (not_lt_iff hnb hna).mp hgt'
          rcases le_cases hle with h | h
          · exact h
          · exfalso; apply heq; rw [eqb_iff]; exact ⟨h, hna⟩
        refine ⟨⟨by rw [hbelow]; simp [hlt], (fun h => by cases h), fun _ => ?_⟩, ⟨(fun h => by cases h), fun h => absurd h hno⟩⟩
        exact ⟨0, i, rfl, rfl, fun k k1 k2 => by omega, hgt', hmiss, i, le_refl _, hlt,
          fun j j1 j2 => by rw [show j = i by omega]; exact hmiss⟩

theorem cross_inv (a b : Nat → F) (wait : Int) (i : Nat) : CrossInv a b i (scanState (crossStep a b wait) (false, -1) i) :=
  scanState_inv (P := CrossInv a b)
    ⟨⟨(fun h => by cases h), fun ⟨k, k1, _⟩ => by omega⟩, fun _ => rfl, fun h => by cases h⟩
    (fun _ _ h => (cross_next h).1) i

/-- **C42**.  A crossing is flagged in row `i` exactly if the first series crossed above the second one `wait` rows ago. -/
theorem C42_crossed (a b : Nat → F) (wait : Nat) (junk : Nat → Bool) (len i : Nat) (hi : i < len) :
    crossedAbove a b wait junk len i = true ↔ CrossedAgo a b wait i := by
  unfold crossedAbove
  rw [scanRows_out _ _ _ hi, (cross_next (cross_inv a b wait i)).2]
  constructor
  · rintro ⟨w, w1, w2⟩
    rw [← Int.ofNat_inj.mp w1]; exact w2
  · intro h; exact ⟨wait, rfl, h⟩

/-- **C42** (`wait = 0`).  Spelled out: flagged exactly if the first series is above in row `i`, both are observed and the
first is not above in the row before, and the first was strictly below at some row before without a missing value since. -/
theorem C42_now (a b : Nat → F) (junk : Nat → Bool) (len i : Nat) (hi : i < len) :
    crossedAbove a b 0 junk len i = true ↔
      lt (b i) (a i) = true ∧ ∃ p, p + 1 = i ∧ lt (b p) (a p) = false ∧ ¬ MissingRow a b p ∧
        ∃ k ≤ p, lt (a k) (b k) = true ∧ ∀ j, k ≤ j → j ≤ p → ¬ MissingRow a b j := by
  have := C42_crossed a b 0 junk len i hi
  rw [Nat.cast_zero] at this
  rw [this]
  constructor
  · rintro ⟨p, p1, p2, p3⟩
    exact ⟨p2 i (by omega) (le_refl _), p, by omega, p3⟩
  · rintro ⟨h1, p, p1, p2⟩
    exact ⟨p, by omega, fun k k1 k2 => by rw [show k = i by omega]; exact h1, p2⟩

/-- A crossing is flagged once: with different waits in the same row at most one flag, and with a given wait the flags of one
crossing do not repeat while the first series stays above. -/
theorem C42_once (a b : Nat → F) (wait : Nat) (junk : Nat → Bool) (len i j : Nat) (hij : i < j) (hj : j < len)
    (h1 : crossedAbove a b wait junk len i = true) (h2 : crossedAbove a b wait junk len j = true) :
    ∃ k, i < k ∧ k < j ∧ lt (b k) (a k) = false := by
  obtain ⟨p, p1, p2, -⟩ := (C42_crossed a b wait junk len i (by omega)).mp h1
  obtain ⟨q, q1, q2, q3, -⟩ := (C42_crossed a b wait junk len j hj).mp h2
  have hpq : p < q := by omega
  refine ⟨q, ?_, by omega, q3⟩
  by_contra hc
  rw [p2 q hpq (by omega)] at q3; cases q3

/-- A negative wait never flags anything. -/
theorem C42_negative (a b : Nat → F) (wait : Int) (hw : wait < 0) (junk : Nat → Bool) (len i : Nat) (hi : i < len) :
    crossedAbove a b wait junk len i = false := by
  unfold crossedAbove
  rw [scanRows_out _ _ _ hi]
  by_contra hc
  obtain ⟨w, w1, -⟩ := (cross_next (wait := wait) (cross_inv a b wait i)).2.mp (by simpa using hc)
  omega

/-- Non-vacuity: below, equal, above, above, missing, above. -/
example : (List.range 6).map (crossedAbove (fun i => [fin 1, fin 2, fin 3, fin 3, nan, fin 3].getD i nan)
      (fun _ => fin 2) 0 (fun _ => true) 6) = [false, false, true, false, false, false] ∧
    (List.range 6).map (crossedAbove (fun i => [fin 1, fin 2, fin 3, fin 3, nan, fin 3].getD i nan)
      (fun _ => fin 2) 1 (fun _ => true) 6) = [false, false, false, true, false, false] := by decide +kernel

end Vbt
