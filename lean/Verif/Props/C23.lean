import Verif.Model.Trades

/-!
# C23: streaks count consecutive wins and losses

The winning (losing) streak at record `i` is the length of the longest run of records ending at `i` all of which have
positive (negative) PnL, and 0 if record `i` does not.
-/

namespace Vbt
open F

/-- The last `n` of the records up to `i` all satisfy `hit`. -/
def Run (hit : F → Bool) (pnl : List F) (i n : Nat) : Prop := n ≤ i + 1 ∧ ∀ j, i + 1 - n ≤ j → j ≤ i → ∃ x, pnl[j]? = some x ∧ hit x = true

theorem streaks_length (hit : F → Bool) (rank : Nat) (l : List F) : (streaks hit rank l).length = l.length := by
  induction l generalizing rank with
  | nil => rfl
  | cons x xs ih => simp [streaks, ih]

/-- Value of the counter after the records. -/
def rankAfter (hit : F → Bool) (l : List F) : Nat := l.foldl (fun r x => if hit x then r + 1 else 0) 0

theorem streaks_get (hit : F → Bool) (rank : Nat) (l : List F) (i : Nat) (hi : i < l.length) :
    (streaks hit rank l)[i]? = some ((l.take (i + 1)).foldl (fun r x => if hit x then r + 1 else 0) rank) := by
  induction l generalizing rank i with
  | nil => simp at hi
  | cons x xs ih =>
    cases i with
    | zero => simp [streaks]
    | succ i =>
      simp only [streaks, List.getElem?_cons_succ]
      rw [ih _ i (by simpa using hi)]
      simp

theorem rank_run (hit : F → Bool) (l : List F) (i : Nat) (hi : i < l.length) :
    Run hit l i (rankAfter hit (l.take (i + 1))) ∧ ∀ n, Run hit l i n → n ≤ rankAfter hit (l.take (i + 1)) := by
  induction i with
  | zero =>
    have e : l.take 1 = [l[0]] := by
      cases l with
      | nil => simp at hi
      | cons x xs => simp
    rw [Nat.zero_add, e]
    cases hx : hit l[0]
    · simp only [rankAfter, List.foldl_cons, List.foldl_nil, hx, Bool.false_eq_true, if_false]
      refine ⟨⟨by omega, fun j _ _ => by omega⟩, ?_⟩
      intro n ⟨h1, h2⟩
      by_contra hn
      obtain ⟨x, e, hh⟩ := h2 0 (by omega) le_rfl
      rw [List.getElem?_eq_getElem hi] at e
      cases e
      rw [hx] at hh; cases hh
    · simp only [rankAfter, List.foldl_cons, List.foldl_nil, hx, if_true]
      refine ⟨⟨by omega, fun j _ h => ?_⟩, fun n h => by have := h.1; omega⟩
      have : j = 0 := by omega
      subst this
      exact ⟨_, List.getElem?_eq_getElem hi, hx⟩
  | succ i ih =>
    obtain ⟨⟨h1, h2⟩, h3⟩ := ih (by omega)
    have e : l.take (i + 1 + 1) = l.take (i + 1) ++ [l[i + 1]] := by
      rw [List.take_add_one, List.getElem?_eq_getElem hi]; rfl
    have er : rankAfter hit (l.take (i + 1 + 1)) =
        if hit l[i + 1] then rankAfter hit (l.take (i + 1)) + 1 else 0 := by
      rw [rankAfter, e, List.foldl_append]; rfl
    rw [er]
    cases hx : hit l[i + 1]
    · simp only [Bool.false_eq_true, if_false]
      refine ⟨⟨by omega, fun j _ _ => by omega⟩, ?_⟩
      intro n ⟨g1, g2⟩
      by_contra hn
      obtain ⟨x, e, hh⟩ := g2 (i + 1) (by omega) le_rfl
      rw [List.getElem?_eq_getElem hi] at e
      cases e
      rw [hx] at hh; cases hh
    · simp only [if_true]
      refine ⟨⟨by omega, ?_⟩, ?_⟩
      · intro j g1 g2
        by_cases hj : j = i + 1
        · subst hj; exact ⟨_, List.getElem?_eq_getElem hi, hx⟩
        · exact h2 j (by omega) (by omega)
      · intro n ⟨g1, g2⟩
        cases n with
        | zero => omega
        | succ n =>
          have := h3 n ⟨by omega, fun j a b => g2 j (by omega) (by omega)⟩
          omega

theorem streak_run (hit : F → Bool) (l : List F) (i : Nat) (hi : i < l.length) :
    ∃ n, (streaks hit 0 l)[i]? = some n ∧ Run hit l i n ∧ ∀ m, Run hit l i m → m ≤ n :=
  ⟨_, streaks_get hit 0 l i hi, rank_run hit l i hi⟩

/-- **C23**: winning streaks. -/
theorem C23_winning (pnl : List F) : (winningStreak pnl).length = pnl.length ∧ ∀ i < pnl.length,
    ∃ n, (winningStreak pnl)[i]? = some n ∧ Run (fun x => F.lt (fin 0) x) pnl i n ∧
      ∀ m, Run (fun x => F.lt (fin 0) x) pnl i m → m ≤ n :=
  ⟨streaks_length _ _ _, fun i hi => streak_run _ pnl i hi⟩

/-- **C23**: losing streaks. -/
theorem C23_losing (pnl : List F) : (losingStreak pnl).length = pnl.length ∧ ∀ i < pnl.length,
    ∃ n, (losingStreak pnl)[i]? = some n ∧ Run (fun x => F.lt x (fin 0)) pnl i n ∧
      ∀ m, Run (fun x => F.lt x (fin 0)) pnl i m → m ≤ n :=
  ⟨streaks_length _ _ _, fun i hi => streak_run _ pnl i hi⟩

/-- No streak where the record is no win: neither zero nor NaN counts. -/
theorem C23_no_win (pnl : List F) (i : Nat) (x : F) (hx : pnl[i]? = some x) :
    (F.lt (fin 0) x = false → (winningStreak pnl)[i]? = some 0) ∧ (F.lt x (fin 0) = false → (losingStreak pnl)[i]? = some 0) := by
  have hi : i < pnl.length := by
    by_contra h
    rw [List.getElem?_eq_none (by omega)] at hx; cases hx
  refine ⟨fun hf => ?_, fun hf => ?_⟩
  · obtain ⟨n, e, h, -⟩ := (C23_winning pnl).2 i hi
    cases n with
    | zero => exact e
    | succ n =>
      obtain ⟨y, ey, hy⟩ := h.2 i (by omega) le_rfl
      rw [hx] at ey; cases ey
      simp only [hf] at hy; cases hy
  · obtain ⟨n, e, h, -⟩ := (C23_losing pnl).2 i hi
    cases n with
    | zero => exact e
    | succ n =>
      obtain ⟨y, ey, hy⟩ := h.2 i (by omega) le_rfl
      rw [hx] at ey; cases ey
      simp only [hf] at hy; cases hy

example : winningStreak [fin 1, fin 2, nan, fin 3, fin 0, fin (-1), fin (-2)] = [1, 2, 0, 1, 0, 0, 0] ∧
    losingStreak [fin 1, fin 2, nan, fin 3, fin 0, fin (-1), fin (-2)] = [0, 0, 0, 0, 0, 1, 2] := by decide +kernel

end Vbt
