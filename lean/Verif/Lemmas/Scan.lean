import Verif.Model.Generic
import Verif.Lemmas.Sim
import Verif.Lemmas.FloatOrder

/-! # Loops that write one row per turn -/

namespace Vbt
open F

section
variable {σ β : Type}

theorem scanState_succ (step : σ → Nat → σ × β) (s0 : σ) (i : Nat) :
    scanState step s0 (i + 1) = (step (scanState step s0 i) i).1 := by
  unfold scanState
  rw [List.range_succ, List.foldl_append]
  rfl

theorem scanRows_eq (step : σ → Nat → σ × β) (s0 : σ) (junk : Nat → β) (n : Nat) :
    (scanRows step s0 junk n).1 = scanState step s0 n ∧
    ∀ i, (scanRows step s0 junk n).2 i = if i < n then (step (scanState step s0 i) i).2 else junk i := by
  induction n with
  | zero => exact ⟨rfl, fun i => by simp [scanRows]⟩
  | succ n ih =>
    have h : scanRows step s0 junk (n + 1) =
        ((step (scanRows step s0 junk n).1 n).1, setAt (scanRows step s0 junk n).2 n (step (scanRows step s0 junk n).1 n).2) := by
      unfold scanRows
      rw [List.range_succ, List.foldl_append]
      rfl
    rw [h]
    refine ⟨by rw [scanState_succ, ← ih.1], fun i => ?_⟩
    unfold setAt
    dsimp only
    by_cases hi : i = n
    · subst hi
      rw [if_pos rfl, if_pos (by omega), ih.1]
    · rw [if_neg hi, ih.2 i]
      by_cases hlt : i < n
      · rw [if_pos hlt, if_pos (by omega)]
      · rw [if_neg hlt, if_neg (by omega)]

theorem scanRows_out (step : σ → Nat → σ × β) (s0 : σ) (junk : Nat → β) {n i : Nat} (hi : i < n) :
    (scanRows step s0 junk n).2 i = (step (scanState step s0 i) i).2 := by
  rw [(scanRows_eq step s0 junk n).2 i, if_pos hi]

/-- Invariants of the state. -/
theorem scanState_inv {step : σ → Nat → σ × β} {s0 : σ} {P : Nat → σ → Prop} (h0 : P 0 s0)
    (hstep : ∀ i s, P i s → P (i + 1) (step s i).1) (i : Nat) : P i (scanState step s0 i) := by
  induction i with
  | zero => exact h0
  | succ i ih => rw [scanState_succ]; exact hstep i _ ih

theorem scanState_congr {step step' : σ → Nat → σ × β} {s0 : σ} {i : Nat} (h : ∀ k < i, ∀ s, step s k = step' s k) :
    scanState step s0 i = scanState step' s0 i := by
  induction i with
  | zero => rfl
  | succ i ih => rw [scanState_succ, scanState_succ, ih fun k hk => h k (by omega), h i (by omega)]

/-- Row `i` only depends on the turns up to `i`. -/
theorem scanRows_congr {step step' : σ → Nat → σ × β} {s0 : σ} {junk junk' : Nat → β} {n n' i : Nat}
    (h : ∀ k ≤ i, ∀ s, step s k = step' s k) (hn : i < n) (hn' : i < n') :
    (scanRows step s0 junk n).2 i = (scanRows step' s0 junk' n').2 i := by
  rw [scanRows_out _ _ _ hn, scanRows_out _ _ _ hn', scanState_congr fun k hk => h k (by omega), h i (le_refl _)]

/-- The state of a loop with errors before turn `i`. -/
def scanStateE (step : σ → Nat → Except Err (σ × β)) (s0 : σ) : Nat → Except Err σ
  | 0 => .ok s0
  | i + 1 =>
    match scanStateE step s0 i with
    | .error e => .error e
    | .ok s =>
      match step s i with
      | .error e => .error e
      | .ok r => .ok r.1

theorem loopE_append (f : σ → α → Except Err σ) (s : σ) (l1 l2 : List α) :
    loopE f s (l1 ++ l2) = match loopE f s l1 with | .error e => .error e | .ok s' => loopE f s' l2 := by
  induction l1 generalizing s with
  | nil => rfl
  | cons x xs ih =>
    simp only [List.cons_append, loopE]
    cases f s x with
    | error e => rfl
    | ok s' => exact ih s'

theorem scanRowsE_succ (step : σ → Nat → Except Err (σ × β)) (s0 : σ) (junk : Nat → β) (n : Nat) :
    scanRowsE step s0 junk (n + 1) = match scanRowsE step s0 junk n with
      | .error e => .error e
      | .ok s => match step s.1 n with
        | .error e => .error e
        | .ok r => .ok (r.1, setAt s.2 n r.2) := by
  unfold scanRowsE
  rw [List.range_succ, loopE_append]
  cases loopE _ (s0, junk) (List.range n) with
  | error e => rfl
  | ok s =>
    simp only [loopE]
    cases step s.1 n <;> rfl

/-- A successful run: every row is the output of its turn. -/
theorem scanRowsE_ok {step : σ → Nat → Except Err (σ × β)} {s0 : σ} {junk : Nat → β} {n : Nat} {s : σ} {out : Nat → β}
    (h : scanRowsE step s0 junk n = .ok (s, out)) :
    scanStateE step s0 n = .ok s ∧
    (∀ i < n, ∃ si si', scanStateE step s0 i = .ok si ∧ step si i = .ok (si', out i)) := by
  induction n generalizing s out with
  | zero =>
    unfold scanRowsE at h
    cases h
    exact ⟨rfl, fun i hi => by omega⟩
  | succ n ih =>
    rw [scanRowsE_succ] at h
    cases hr : scanRowsE step s0 junk n with
    | error e => rw [hr] at h; cases h
    | ok p =>
      rw [hr] at h
      dsimp only at h
      cases hs : step p.1 n with
      | error e => rw [hs] at h; cases h
      | ok r =>
        rw [hs] at h
        cases h
        obtain ⟨h1, h2⟩ := ih (s := p.1) (out := p.2) hr
        refine ⟨by rw [scanStateE, h1]; dsimp only; rw [hs], fun i hi => ?_⟩
        by_cases hin : i = n
        · subst hin
          refine ⟨p.1, r.1, h1, ?_⟩
          simp [setAt, hs]
        · obtain ⟨si, si', a1, a2⟩ := h2 i (by omega)
          refine ⟨si, si', a1, ?_⟩
          simp [setAt, hin, a2]

theorem scanStateE_inv {step : σ → Nat → Except Err (σ × β)} {s0 : σ} {P : Nat → σ → Prop} (h0 : P 0 s0)
    (hstep : ∀ i s r, P i s → step s i = .ok r → P (i + 1) r.1) {i : Nat} {s : σ} (h : scanStateE step s0 i = .ok s) :
    P i s := by
  induction i generalizing s with
  | zero => cases h; exact h0
  | succ i ih =>
    rw [scanStateE] at h
    cases hi : scanStateE step s0 i with
    | error e => rw [hi] at h; cases h
    | ok s1 =>
      rw [hi] at h
      dsimp only at h
      cases hs : step s1 i with
      | error e => rw [hs] at h; cases h
      | ok r => rw [hs] at h; cases h; exact hstep i s1 r (ih hi) hs

theorem scanStateE_congr {step step' : σ → Nat → Except Err (σ × β)} {s0 : σ} {i : Nat}
    (h : ∀ k < i, ∀ s, step s k = step' s k) : scanStateE step s0 i = scanStateE step' s0 i := by
  induction i with
  | zero => rfl
  | succ i ih =>
    rw [scanStateE, scanStateE, ih fun k hk => h k (by omega)]
    cases scanStateE step' s0 i with
    | error e => rfl
    | ok s => dsimp only; rw [h i (by omega)]

/-- Row `i` of two successful runs only depends on the turns up to `i`. -/
theorem scanRowsE_congr {step step' : σ → Nat → Except Err (σ × β)} {s0 : σ} {junk junk' : Nat → β} {n n' i : Nat}
    (h : ∀ k ≤ i, ∀ s, step s k = step' s k) (hn : i < n) (hn' : i < n') {r r' : σ × (Nat → β)}
    (h1 : scanRowsE step s0 junk n = .ok r) (h2 : scanRowsE step' s0 junk' n' = .ok r') : r.2 i = r'.2 i := by
  obtain ⟨s1, s1', a1, a2⟩ := (scanRowsE_ok h1).2 i hn
  obtain ⟨s2, s2', b1, b2⟩ := (scanRowsE_ok h2).2 i hn'
  rw [scanStateE_congr fun k hk => h k (by omega)] at a1
  rw [a1] at b1
  cases b1
  rw [h i (le_refl _), b2] at a2
  simp only [Except.ok.injEq, Prod.mk.injEq] at a2
  exact a2.2.symm

/-- A run succeeds if every turn does under an invariant. -/
theorem scanRowsE_succeeds {step : σ → Nat → Except Err (σ × β)} {s0 : σ} {junk : Nat → β} {n : Nat} {P : Nat → σ → Prop}
    (h0 : P 0 s0) (hstep : ∀ i s, i < n → P i s → ∃ r, step s i = .ok r ∧ P (i + 1) r.1) :
    ∃ r, scanRowsE step s0 junk n = .ok r ∧ P n r.1 := by
  induction n with
  | zero => exact ⟨(s0, junk), rfl, h0⟩
  | succ n ih =>
    obtain ⟨r, h1, h2⟩ := ih fun i s hi => hstep i s (by omega)
    obtain ⟨r', h3, h4⟩ := hstep n r.1 (by omega) h2
    refine ⟨(r'.1, setAt r.2 n r'.2), ?_, h4⟩
    rw [scanRowsE_succ, h1]
    dsimp only
    rw [h3]

end

end Vbt
