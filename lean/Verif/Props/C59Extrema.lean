import Verif.Spec.Labels
import Verif.Lemmas.FloatOrder
import Verif.Lemmas.Scan
import Verif.Lemmas.Witness

/-!
# C59: local extrema alternate and differ by the threshold
-/

namespace Vbt
open F

section order
variable {A : Arith} {close posTh negTh : Nat → F} {d : Int} {e p i k : Nat}

theorem rev_of_beyond (hd : d = 1 ∨ d = -1) (h : TurnsBack A close posTh negTh d e p) (h' : Beyond close (-d) p i) :
    TurnsBack A close posTh negTh d e i := by
  rcases hd with rfl | rfl
  · unfold TurnsBack at h ⊢
    unfold Beyond at h'
    rw [if_neg (by decide)] at h h' ⊢
    exact le_trans' (lt_le h') h
  · unfold TurnsBack at h ⊢
    unfold Beyond at h'
    rw [if_pos (by decide)] at h h' ⊢
    exact le_trans' h (lt_le h')

theorem exceeds_of_beyond (h' : Beyond close d p i) (h : ¬ Beyond close d p k) : Exceeds close d i k := by
  unfold Exceeds
  unfold Beyond at h h'
  split
  · rename_i hd
    rw [if_pos hd] at h h'
    exact Bool.eq_false_iff.mpr fun hc => h (lt_of_lt_of_le' h' hc)
  · rename_i hd
    rw [if_neg hd] at h h'
    exact Bool.eq_false_iff.mpr fun hc => h (lt_of_le_of_lt' hc h')

theorem not_beyond_self : ¬ Beyond close d p p := by
  unfold Beyond
  split <;> · rw [lt_irrefl']; decide

theorem exceeds_trans (h : Exceeds close d p k) (h' : Beyond close d p i) : Exceeds close d i k := by
  unfold Exceeds at h ⊢
  unfold Beyond at h'
  split
  · rename_i hd
    rw [if_pos hd] at h h'
    exact Bool.eq_false_iff.mpr fun hc => by rw [lt_le (lt_of_lt_of_le' h' hc)] at h; exact absurd h (by decide)
  · rename_i hd
    rw [if_neg hd] at h h'
    exact Bool.eq_false_iff.mpr fun hc => by rw [lt_le (lt_of_le_of_lt' hc h')] at h; exact absurd h (by decide)

theorem exceeds_of_rev (hd : d = 1 ∨ d = -1) (h : TurnsBack A close posTh negTh d p i)
    (h' : ¬ TurnsBack A close posTh negTh d p k) : Exceeds close (-d) i k := by
  rcases hd with rfl | rfl
  · unfold TurnsBack at h h'
    unfold Exceeds
    rw [if_neg (by decide)] at h h' ⊢
    exact Bool.eq_false_iff.mpr fun hc => h' (le_trans' hc h)
  · unfold TurnsBack at h h'
    unfold Exceeds
    rw [if_pos (by decide)] at h h' ⊢
    exact Bool.eq_false_iff.mpr fun hc => h' (le_trans' h hc)

end order

section branch
variable {A : Arith} {close posTh negTh : Nat → F} {s : ExtState} {i : Nat}

theorem extBranch_dir (hd : s.dir = 1 ∨ s.dir = -1) :
    (Beyond close (-s.dir) s.prev i → extBranch A close posTh negTh s i = { s with prev := i }) ∧
    (¬ Beyond close (-s.dir) s.prev i → TurnsBack A close posTh negTh (-s.dir) s.prev i →
      extBranch A close posTh negTh s i = ⟨setAt s.out s.prev (-s.dir), i, -s.dir⟩) ∧
    (¬ Beyond close (-s.dir) s.prev i → ¬ TurnsBack A close posTh negTh (-s.dir) s.prev i →
      extBranch A close posTh negTh s i = s) := by
  obtain ⟨out, prev, dir⟩ := s
  dsimp only at hd ⊢
  unfold extBranch
  dsimp only
  rcases hd with rfl | rfl
  · have hb : Beyond close (-1) prev i ↔ lt (close i) (close prev) = true := Iff.rfl
    have hr : TurnsBack A close posTh negTh (-1) prev i ↔ ge (close i) (thrUp A close posTh prev) = true := Iff.rfl
    rw [if_pos rfl, hb, hr]
    refine ⟨fun h => by rw [if_pos h], fun h h2 => ?_, fun h h2 => ?_⟩
    · rw [if_neg h, if_pos h2]
    · rw [if_neg h, if_neg h2]
  · have hb : Beyond close (- -1) prev i ↔ gt (close i) (close prev) = true := Iff.rfl
    have hr : TurnsBack A close posTh negTh (- -1) prev i ↔ le (close i) (thrDown A close negTh prev) = true := Iff.rfl
    rw [if_neg (by decide), if_pos rfl, hb, hr]
    refine ⟨fun h => by rw [if_pos h], fun h h2 => ?_, fun h h2 => ?_⟩
    · rw [if_neg h, if_pos h2]; rfl
    · rw [if_neg h, if_neg h2]

theorem extBranch_zero (hd : s.dir = 0) :
    (TurnsBack A close posTh negTh (-1) s.prev i → extBranch A close posTh negTh s i = ⟨setAt s.out s.prev (-1), i, -1⟩) ∧
    (¬ TurnsBack A close posTh negTh (-1) s.prev i → TurnsBack A close posTh negTh 1 s.prev i →
      extBranch A close posTh negTh s i = ⟨setAt s.out s.prev 1, i, 1⟩) ∧
    (¬ TurnsBack A close posTh negTh (-1) s.prev i → ¬ TurnsBack A close posTh negTh 1 s.prev i →
      extBranch A close posTh negTh s i = s) := by
  obtain ⟨out, prev, dir⟩ := s
  dsimp only at hd ⊢
  subst hd
  unfold extBranch
  dsimp only
  have hr1 : TurnsBack A close posTh negTh (-1) prev i ↔ ge (close i) (thrUp A close posTh prev) = true := Iff.rfl
  have hr2 : TurnsBack A close posTh negTh 1 prev i ↔ le (close i) (thrDown A close negTh prev) = true := Iff.rfl
  rw [if_neg (by decide), if_neg (by decide), hr1, hr2]
  refine ⟨fun h => by rw [if_pos h], fun h h2 => ?_, fun h h2 => ?_⟩
  · rw [if_neg h, if_pos h2]
  · rw [if_neg h, if_neg h2]

end branch

/-- Row `m` ends the wait for a reversal of the extremum `p` with label `l`: it is the first row after `p` that reverses it,
and no row before is beyond `p`.  At row 0, where the direction is not yet known, no row before `m` reverses row 0 either
way, and an upward reversal comes first. -/
def TurnsAt (A : Arith) (close posTh negTh : Nat → F) (l : Int) (p m : Nat) : Prop :=
  p < m ∧ TurnsBack A close posTh negTh l p m ∧
    (∀ k, p < k → k < m → ¬ TurnsBack A close posTh negTh l p k) ∧
    (p ≠ 0 → ¬ Beyond close l p m ∧ ∀ k, p < k → k < m → ¬ Beyond close l p k) ∧
    (p = 0 → (∀ k, p < k → k < m → ¬ TurnsBack A close posTh negTh (-l) p k) ∧
      (l = 1 → ¬ TurnsBack A close posTh negTh (-1) p m))

/-- What holds of two neighbouring extrema: the labels alternate, the second is beyond the threshold counted from the first,
it is more extreme than everything between them, and the search for it began at the row that reversed the first. -/
def GoodPair (A : Arith) (close posTh negTh : Nat → F) (out : Nat → Int) (p q : Nat) : Prop :=
  out q = -out p ∧ TurnsBack A close posTh negTh (out p) p q ∧ (∀ k, p < k → k < q → Exceeds close (out q) q k) ∧
    ∃ m ≤ q, TurnsAt A close posTh negTh (out p) p m

/-- The state before row `i` once there is a direction; `e` is the last extremum found. -/
structure ExtInv (A : Arith) (close posTh negTh : Nat → F) (i : Nat) (s : ExtState) (e : Nat) : Prop where
  dir : s.dir = 1 ∨ s.dir = -1
  lt : e < s.prev
  bound : s.prev < i
  last : s.out e = s.dir
  after : ∀ k, e < k → s.out k = 0
  rev : TurnsBack A close posTh negTh s.dir e s.prev
  exc : ∀ k, e < k → k < s.prev → Exceeds close (-s.dir) s.prev k
  turn : ∃ m ≤ s.prev, TurnsAt A close posTh negTh s.dir e m
  quiet : ∀ k, s.prev < k → k < i →
    ¬ Beyond close (-s.dir) s.prev k ∧ ¬ TurnsBack A close posTh negTh (-s.dir) s.prev k
  pairs : ∀ p q, Neighbours s.out p q → GoodPair A close posTh negTh s.out p q
  first : s.out 0 ≠ 0
  vals : ∀ k, s.out k = 0 ∨ s.out k = 1 ∨ s.out k = -1

/-- The state before row `i`. -/
def ExtState.Ok (A : Arith) (close posTh negTh : Nat → F) (i : Nat) (s : ExtState) : Prop :=
  (s.dir = 0 ∧ s.prev = 0 ∧ (∀ k, s.out k = 0) ∧ ∀ k, 0 < k → k < i →
    ¬ TurnsBack A close posTh negTh (-1) 0 k ∧ ¬ TurnsBack A close posTh negTh 1 0 k) ∨
  ∃ e, ExtInv A close posTh negTh i s e

/-- Placing the candidate as an extremum keeps the pairs in order. -/
theorem place_pairs {A : Arith} {close posTh negTh : Nat → F} {i : Nat} {s : ExtState} {e : Nat}
    (h : ExtInv A close posTh negTh i s e) :
    ∀ p q, Neighbours (setAt s.out s.prev (-s.dir)) p q → GoodPair A close posTh negTh (setAt s.out s.prev (-s.dir)) p q := by
  intro p q ⟨hpq, hp, hq, hb⟩
  have hne : s.dir ≠ 0 := by rcases h.dir with h | h <;> rw [h] <;> decide
  by_cases hqp : q = s.prev
  · subst hqp
    have hpe : p = e := by
      have h1 : setAt s.out s.prev (-s.dir) p = s.out p := by unfold setAt; rw [if_neg (by omega)]
      rw [h1] at hp
      rcases Nat.lt_trichotomy p e with hlt | heq | hgt
      · have := hb e hlt h.lt
        have h2 : setAt s.out s.prev (-s.dir) e = s.out e := by unfold setAt; rw [if_neg (by have := h.lt; omega)]
        rw [h2, h.last] at this
        exact absurd this hne
      · exact heq
      · exact absurd (h.after p hgt) hp
    subst hpe
    have e1 : setAt s.out s.prev (-s.dir) s.prev = -s.dir := by unfold setAt; rw [if_pos rfl]
    have e2 : setAt s.out s.prev (-s.dir) p = s.dir := by
      unfold setAt; rw [if_neg (by omega), h.last]
    unfold GoodPair
    rw [e1, e2]
    exact ⟨rfl, h.rev, h.exc, h.turn⟩
  · have hqe : q ≤ e := by
      by_contra hc
      unfold setAt at hq
      rw [if_neg hqp] at hq
      exact hq (h.after q (by omega))
    have hlt := h.lt
    have same : ∀ k ≤ q, setAt s.out s.prev (-s.dir) k = s.out k := by
      intro k hk
      unfold setAt
      rw [if_neg (by omega)]
    have hg := h.pairs p q ⟨hpq, by rw [← same p (by omega)]; exact hp, by rw [← same q le_rfl]; exact hq,
      fun k h1 h2 => by rw [← same k (by omega)]; exact hb k h1 h2⟩
    unfold GoodPair at hg ⊢
    rw [same p (by omega), same q le_rfl]
    exact hg

theorem place_vals {out : Nat → Int} {p : Nat} {d : Int} (hd : d = 1 ∨ d = -1) (h : ∀ k, out k = 0 ∨ out k = 1 ∨ out k = -1) :
    ∀ k, setAt out p (-d) k = 0 ∨ setAt out p (-d) k = 1 ∨ setAt out p (-d) k = -1 := by
  intro k
  unfold setAt
  split
  · rcases hd with rfl | rfl <;> decide
  · exact h k

/-- One turn from no direction. -/
theorem ext_first {A : Arith} {close posTh negTh : Nat → F} {i : Nat} (hi : 0 < i) {s : ExtState} {l : Int}
    (hl : l = 1 ∨ l = -1) (hp : s.prev = 0) (ho : ∀ k, s.out k = 0)
    (hq : ∀ k, 0 < k → k < i → ¬ TurnsBack A close posTh negTh (-1) 0 k ∧ ¬ TurnsBack A close posTh negTh 1 0 k)
    (hr : TurnsBack A close posTh negTh l 0 i) (hup : l = 1 → ¬ TurnsBack A close posTh negTh (-1) 0 i) :
    ExtInv A close posTh negTh (i + 1) ⟨setAt s.out s.prev l, i, l⟩ 0 := by
  have hq' : ∀ k, 0 < k → k < i → ¬ TurnsBack A close posTh negTh l 0 k ∧ ¬ TurnsBack A close posTh negTh (-l) 0 k := by
    intro k h1 h2
    obtain ⟨a, b⟩ := hq k h1 h2
    rcases hl with rfl | rfl
    · exact ⟨b, a⟩
    · exact ⟨a, b⟩
  have h0 : setAt s.out s.prev l 0 = l := by unfold setAt; rw [if_pos hp.symm]
  have h1 : ∀ k, 0 < k → setAt s.out s.prev l k = 0 := by
    intro k hk
    unfold setAt
    rw [if_neg (by omega)]
    exact ho k
  refine ⟨hl, hi, Nat.lt_succ_self _, h0, h1, hr, fun k a b => exceeds_of_rev hl hr (hq' k a b).1,
    ⟨i, le_rfl, hi, hr, fun k a b => (hq' k a b).1, fun h => absurd rfl h,
      fun _ => ⟨fun k a b => (hq' k a b).2, hup⟩⟩,
    fun k a b => by dsimp only at a; omega, ?_, ?_, ?_⟩
  · rintro p q ⟨a, b, c, -⟩
    exact absurd (h1 q (by omega)) c
  · show setAt s.out s.prev l 0 ≠ 0
    rw [h0]
    rcases hl with rfl | rfl <;> decide
  · intro k
    show setAt s.out s.prev l k = 0 ∨ setAt s.out s.prev l k = 1 ∨ setAt s.out s.prev l k = -1
    rcases Nat.eq_zero_or_pos k with rfl | hk
    · right; rw [h0]; exact hl
    · left; exact h1 k hk

theorem extBranch_ok {A : Arith} {close posTh negTh : Nat → F} {i : Nat} (hi : 0 < i) {s : ExtState}
    (h : s.Ok A close posTh negTh i) : (extBranch A close posTh negTh s i).Ok A close posTh negTh (i + 1) := by
  rcases h with ⟨hd, hp, ho, hq⟩ | ⟨e, h⟩
  · obtain ⟨b1, b2, b3⟩ := extBranch_zero (A := A) (close := close) (posTh := posTh) (negTh := negTh) (i := i) hd
    by_cases r1 : TurnsBack A close posTh negTh (-1) s.prev i
    · rw [b1 r1]
      rw [hp] at r1
      exact Or.inr ⟨0, ext_first hi (Or.inr rfl) hp ho hq r1 (fun h => absurd h (by decide))⟩
    · by_cases r2 : TurnsBack A close posTh negTh 1 s.prev i
      · rw [b2 r1 r2]
        rw [hp] at r1 r2
        exact Or.inr ⟨0, ext_first hi (Or.inl rfl) hp ho hq r2 (fun _ => r1)⟩
      · rw [b3 r1 r2]
        rw [hp] at r1 r2
        refine Or.inl ⟨hd, hp, ho, fun k h1 h2 => ?_⟩
        rcases Nat.lt_succ_iff_lt_or_eq.mp h2 with h2 | rfl
        · exact hq k h1 h2
        · exact ⟨r1, r2⟩
  · obtain ⟨b1, b2, b3⟩ := extBranch_dir (A := A) (close := close) (posTh := posTh) (negTh := negTh) (i := i) h.dir
    have hb := h.bound
    have hlt := h.lt
    by_cases c1 : Beyond close (-s.dir) s.prev i
    · rw [b1 c1]
      refine Or.inr ⟨e, h.dir, ?_, Nat.lt_succ_self _, h.last, h.after, rev_of_beyond h.dir h.rev c1, ?_, ?_, ?_, h.pairs,
        h.first, h.vals⟩
      · show e < i
        omega
      · intro k k1 k2
        show Exceeds close (-s.dir) i k
        have k2 : k < i := k2
        rcases Nat.lt_trichotomy k s.prev with hk | rfl | hk
        · exact exceeds_trans (h.exc k k1 hk) c1
        · exact exceeds_of_beyond c1 not_beyond_self
        · exact exceeds_of_beyond c1 (h.quiet k hk k2).1
      · obtain ⟨m, hm, ht⟩ := h.turn
        exact ⟨m, by show m ≤ i; omega, ht⟩
      · intro k k1 k2
        have k1 : i < k := k1
        omega
    · by_cases c2 : TurnsBack A close posTh negTh (-s.dir) s.prev i
      · rw [b2 c1 c2]
        have hd' : -s.dir = 1 ∨ -s.dir = -1 := by rcases h.dir with h | h <;> rw [h] <;> decide
        have h0 : setAt s.out s.prev (-s.dir) s.prev = -s.dir := by unfold setAt; rw [if_pos rfl]
        refine Or.inr ⟨s.prev, hd', hb, Nat.lt_succ_self _, h0, ?_, c2, ?_, ?_, ?_, place_pairs h, ?_, place_vals h.dir h.vals⟩
        · intro k hk
          show setAt s.out s.prev (-s.dir) k = 0
          unfold setAt
          rw [if_neg (by omega)]
          exact h.after k (by omega)
        · intro k k1 k2
          exact exceeds_of_rev hd' c2 (h.quiet k k1 k2).2
        · refine ⟨i, le_rfl, hb, c2, fun k k1 k2 => (h.quiet k k1 k2).2, fun _ => ⟨c1, fun k k1 k2 => (h.quiet k k1 k2).1⟩,
            fun h0 => by omega⟩
        · intro k k1 k2
          have k1 : i < k := k1
          omega
        · show setAt s.out s.prev (-s.dir) 0 ≠ 0
          unfold setAt
          rw [if_neg (by omega)]
          exact h.first
      · rw [b3 c1 c2]
        refine Or.inr ⟨e, h.dir, h.lt, by omega, h.last, h.after, h.rev, h.exc, h.turn, ?_, h.pairs, h.first, h.vals⟩
        intro k k1 k2
        rcases Nat.lt_succ_iff_lt_or_eq.mp k2 with k2 | rfl
        · exact h.quiet k k1 k2
        · exact ⟨c1, c2⟩

/-- The outcome: no extremum and nothing reverses row 0; or the pairs are in order and the last extremum is not reversed nor
exceeded. -/
def ExtremaOk (A : Arith) (close posTh negTh : Nat → F) (len : Nat) (out : Nat → Int) : Prop :=
  (∀ k, out k = 0 ∨ out k = 1 ∨ out k = -1) ∧ (∀ k, len ≤ k → out k = 0) ∧
  (∀ p q, Neighbours out p q → GoodPair A close posTh negTh out p q) ∧
  (((∀ k, out k = 0) ∧ ∀ k, 0 < k → k < len →
      ¬ TurnsBack A close posTh negTh (-1) 0 k ∧ ¬ TurnsBack A close posTh negTh 1 0 k) ∨
    (out 0 ≠ 0 ∧ ∃ q, 0 < q ∧ out q ≠ 0 ∧ ∀ k, q < k → out k = 0 ∧
      (k < len → ¬ Beyond close (out q) q k ∧ ¬ TurnsBack A close posTh negTh (out q) q k)))

theorem ext_final {A : Arith} {close posTh negTh : Nat → F} {len : Nat} {s : ExtState}
    (h : s.Ok A close posTh negTh len) (out : Nat → Int)
    (ho : out = if s.dir ≠ 0 then setAt s.out s.prev (-s.dir) else s.out) : ExtremaOk A close posTh negTh len out := by
  rcases h with ⟨hd, hp, hz, hq⟩ | ⟨e, h⟩
  · rw [if_neg (by simp [hd])] at ho
    subst ho
    refine ⟨fun k => Or.inl (hz k), fun k _ => hz k, ?_, Or.inl ⟨hz, hq⟩⟩
    rintro p q ⟨-, b, -⟩
    exact absurd (hz p) b
  · have hne : s.dir ≠ 0 := by rcases h.dir with h | h <;> rw [h] <;> decide
    rw [if_pos hne] at ho
    have hlt := h.lt
    have hb := h.bound
    have haft : ∀ k, s.prev < k → out k = 0 := by
      intro k hk
      rw [ho]
      unfold setAt
      rw [if_neg (by omega)]
      exact h.after k (by omega)
    have hout : out s.prev = -s.dir := by rw [ho]; unfold setAt; rw [if_pos rfl]
    refine ⟨?_, fun k hk => haft k (by omega), ?_, Or.inr ⟨?_, s.prev, by omega, ?_, fun k hk => ⟨haft k hk, fun hk' => ?_⟩⟩⟩
    · rw [ho]; exact place_vals h.dir h.vals
    · rw [ho]; exact place_pairs h
    · rw [ho]
      unfold setAt
      rw [if_neg (by omega)]
      exact h.first
    · rw [hout]; omega
    · rw [hout]; exact h.quiet k hk hk'

theorem extLoop_ok {A : Arith} {close posTh negTh : Nat → F} {len : Nat} :
    ∀ (n a : Nat) (s s' : ExtState), 0 < a → a + n ≤ len - 1 → s.Ok A close posTh negTh a →
      loopE (extStep A close posTh negTh len) s (List.range' a n) = .ok s' → s'.Ok A close posTh negTh (a + n) := by
  intro n
  induction n with
  | zero =>
    intro a s s' _ _ hs h
    rw [List.range'_zero] at h
    cases h
    exact hs
  | succ n ih =>
    intro a s s' ha hn hs h
    rw [List.range'_succ] at h
    obtain ⟨b, h1, h2⟩ := loopE_cons_ok h
    unfold extStep at h1
    by_cases e1 : eqb (abs (posTh s.prev)) zero = true
    · rw [if_pos e1] at h1; cases h1
    · rw [if_neg e1] at h1
      by_cases e2 : eqb (abs (negTh s.prev)) zero = true
      · rw [if_pos e2] at h1; cases h1
      · rw [if_neg e2] at h1
        dsimp only at h1
        rw [if_neg (by omega)] at h1
        cases h1
        have := ih (a + 1) _ _ (by omega) (by omega) (extBranch_ok ha hs) h2
        rwa [show a + (n + 1) = a + 1 + n by omega]

/-- **C59** (local extrema).  If the function returns, labels are 1, -1 or 0; neighbouring extrema alternate between peak
and trough, the later is beyond the threshold counted from the earlier (`TurnsBack`) and strictly more extreme than every row
between them; the first extremum is row 0; after the last one no row is beyond it or reverses it; and there is no extremum
only if no row reverses row 0. -/
theorem C59_extrema (A : Arith) (close posTh negTh : Nat → F) {len : Nat} {out : Nat → Int}
    (h : localExtrema A close posTh negTh len = .ok out) : ExtremaOk A close posTh negTh len out := by
  unfold localExtrema at h
  have h0 : ExtState.Ok A close posTh negTh 1 ⟨fun _ => 0, 0, 0⟩ :=
    Or.inl ⟨rfl, rfl, fun _ => rfl, fun k h1 h2 => by omega⟩
  by_cases hlen : len ≤ 1
  · rw [show len - 1 = 0 by omega, List.range'_zero] at h
    cases h
    refine ⟨fun _ => Or.inl rfl, fun _ _ => rfl, ?_, Or.inl ⟨fun _ => rfl, fun k h1 h2 => by omega⟩⟩
    rintro p q ⟨-, b, -⟩
    exact absurd rfl b
  · rw [show len - 1 = (len - 2) + 1 by omega, List.range'_concat, loopE_append] at h
    cases h1 : loopE (extStep A close posTh negTh len) ⟨fun _ => 0, 0, 0⟩ (List.range' 1 (len - 2)) with
    | error e => rw [h1] at h; cases h
    | ok s =>
      rw [h1] at h
      dsimp only at h
      have hs := extLoop_ok (len - 2) 1 _ _ (by omega) (by omega) h0 h1
      rw [show 1 + (len - 2) = len - 1 by omega] at hs
      cases h2 : loopE (extStep A close posTh negTh len) s [1 + 1 * (len - 2)] with
      | error e => rw [h2] at h; cases h
      | ok s2 =>
        rw [h2] at h
        cases h
        obtain ⟨b, h3, h4⟩ := loopE_cons_ok h2
        cases h4
        rw [show 1 + 1 * (len - 2) = len - 1 by omega] at h3
        unfold extStep at h3
        by_cases e1 : eqb (abs (posTh s.prev)) zero = true
        · rw [if_pos e1] at h3; cases h3
        · rw [if_neg e1] at h3
          by_cases e2 : eqb (abs (negTh s.prev)) zero = true
          · rw [if_pos e2] at h3; cases h3
          · rw [if_neg e2] at h3
            dsimp only at h3
            have hs' := extBranch_ok (show 0 < len - 1 by omega) hs
            rw [show len - 1 + 1 = len by omega] at hs'
            simp only [Except.ok.injEq] at h3
            refine ext_final hs' _ ?_
            rw [← h3]
            by_cases hd : (extBranch A close posTh negTh s (len - 1)).dir ≠ 0
            · rw [if_pos ⟨trivial, hd⟩, if_pos hd]
            · rw [if_neg (fun h => hd h.2), if_neg hd]

/-- **C59** (local extrema).  The function returns unless a threshold is 0. -/
theorem C59_extrema_returns (A : Arith) (close posTh negTh : Nat → F) (len : Nat)
    (h : ∀ k < len, eqb (abs (posTh k)) zero = false ∧ eqb (abs (negTh k)) zero = false) :
    ∃ out, localExtrema A close posTh negTh len = .ok out := by
  have key : ∀ (n a : Nat) (s : ExtState), a + n ≤ len → s.prev < a →
      ∃ s', loopE (extStep A close posTh negTh len) s (List.range' a n) = .ok s' := by
    intro n
    induction n with
    | zero => intro a s _ _; exact ⟨s, rfl⟩
    | succ n ih =>
      intro a s hn hs
      obtain ⟨e1, e2⟩ := h s.prev (by omega)
      have hp : (extBranch A close posTh negTh s a).prev < a + 1 := by
        unfold extBranch
        split_ifs <;> (try dsimp only) <;> omega
      rw [List.range'_succ, loopE]
      unfold extStep
      rw [if_neg (by rw [e1]; decide), if_neg (by rw [e2]; decide)]
      dsimp only
      refine ih (a + 1) _ (by omega) ?_
      split <;> exact hp
  unfold localExtrema
  by_cases hl : len ≤ 1
  · rw [show len - 1 = 0 by omega]; exact ⟨_, rfl⟩
  · obtain ⟨s', hs'⟩ := key (len - 1) 1 ⟨fun _ => 0, 0, 0⟩ (by omega) (by show 0 < 1; omega)
    rw [hs']
    exact ⟨_, rfl⟩

/-- Rows between two neighbouring extrema may lie beyond the earlier one: with thresholds of 1% up and 50% down, row 2 is
below the trough at row 0. -/
theorem C59_counterexample_between :
    ∃ (close : Nat → F) (out : Nat → Int),
      localExtrema (Arith.exact 0 0) close (fun _ => fin (1/100)) (fun _ => fin (1/2)) 4 = .ok out ∧
      Neighbours out 0 3 ∧ out 0 = -1 ∧ lt (close 2) (close 0) = true := by
  obtain ⟨o, h1, h2⟩ := okAnd_iff
    (x := localExtrema (Arith.exact 0 0) (fun i => [fin 100, fin 102, fin 90, fin 110].getD i nan)
      (fun _ => fin (1/100)) (fun _ => fin (1/2)) 4)
    (f := fun o => decide ((List.range 4).map o = [-1, 0, 0, 1])) (by decide +kernel)
  have h3 : [o 0, o 1, o 2, o 3] = [-1, 0, 0, 1] := of_decide_eq_true h2
  simp only [List.cons.injEq, and_true] at h3
  obtain ⟨a, b, c, d⟩ := h3
  refine ⟨_, o, h1, ⟨by omega, by omega, by omega, fun k k1 k2 => ?_⟩, a, by decide +kernel⟩
  have : k = 1 ∨ k = 2 := by omega
  rcases this with rfl | rfl
  · exact b
  · exact c

/-- Non-vacuity: 10, 12, 9, 11 with thresholds of 10%. -/
example : ((localExtrema (Arith.exact 0 0) (fun i => [fin 10, fin 12, fin 9, fin 11, fin 11].getD i nan)
    (fun _ => fin (1/10)) (fun _ => fin (1/10)) 5).map fun o => (List.range 5).map o).toOption = some [-1, 1, -1, 1, 0] := by
  decide +kernel

end Vbt
