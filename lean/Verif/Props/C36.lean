import Verif.Lemmas.Scan

/-!
# C36  Shifts are inverse up to fill
-/

namespace Vbt
open F

/-- **C36** (forward).  Every element moves down by exactly `n` rows; the first `n` rows are filled. -/
theorem C36_forward {α : Type} (a : Nat → α) (n : Nat) (fill : α) (junk : Nat → α) (len : Nat) :
    (∀ i, i + n < len → fshift a n fill junk len (i + n) = a i) ∧
    (∀ i, i < len → i < n → fshift a n fill junk len i = fill) := by
  unfold fshift
  refine ⟨fun i hi => ?_, fun i hi hn => ?_⟩
  · rw [scanRows_out _ _ _ hi]
    dsimp only
    rw [if_pos (by omega), show i + n - n = i by omega]
  · rw [scanRows_out _ _ _ hi]
    dsimp only
    rw [if_neg (by omega)]

/-- **C36** (backward).  Every element moves up by exactly `n` rows; the last `n` rows are filled. -/
theorem C36_backward {α : Type} (a : Nat → α) (n : Nat) (fill : α) (junk : Nat → α) (len : Nat) :
    (∀ i, i + n < len → bshift a n fill junk len i = a (i + n)) ∧
    (∀ i, i < len → len ≤ i + n → bshift a n fill junk len i = fill) := by
  unfold bshift
  refine ⟨fun i hi => ?_, fun i hi hn => ?_⟩
  · rw [scanRows_out _ _ _ (by omega)]
    dsimp only
    rw [if_pos (by omega)]
  · rw [scanRows_out _ _ _ hi]
    dsimp only
    rw [if_neg (by omega)]

/-- **C36** (inverse).  Shifting forward and back restores all rows that did not fall off the end and fills the others. -/
theorem C36_forward_backward {α : Type} (a : Nat → α) (n : Nat) (fill fill' : α) (junk junk' : Nat → α) (len i : Nat)
    (hi : i < len) :
    bshift (fshift a n fill junk len) n fill' junk' len i = if i + n < len then a i else fill' := by
  by_cases h : i + n < len
  · rw [if_pos h, (C36_backward _ n fill' junk' len).1 i h, (C36_forward a n fill junk len).1 i h]
  · rw [if_neg h, (C36_backward _ n fill' junk' len).2 i hi (by omega)]

/-- Shifting back and forward restores all rows from `n` on. -/
theorem C36_backward_forward {α : Type} (a : Nat → α) (n : Nat) (fill fill' : α) (junk junk' : Nat → α) (len i : Nat)
    (hi : i < len) :
    fshift (bshift a n fill junk len) n fill' junk' len i = if n ≤ i then a i else fill' := by
  by_cases h : n ≤ i
  · have := (C36_forward (bshift a n fill junk len) n fill' junk' len).1 (i - n) (by omega)
    rw [show i - n + n = i by omega] at this
    rw [if_pos h, this, (C36_backward a n fill junk len).1 (i - n) (by omega), show i - n + n = i by omega]
  · rw [if_neg h, (C36_forward _ n fill' junk' len).2 i hi (by omega)]

/-- **C36** (shifting out).  A shift by at least the length fills everything. -/
theorem C36_all {α : Type} (a : Nat → α) (n : Nat) (fill : α) (junk : Nat → α) (len i : Nat) (hi : i < len)
    (hn : len ≤ n) : fshift a n fill junk len i = fill ∧ bshift a n fill junk len i = fill :=
  ⟨(C36_forward a n fill junk len).2 i hi (by omega), (C36_backward a n fill junk len).2 i hi (by omega)⟩

/-- Two shifts are one shift by the sum. -/
theorem C36_add {α : Type} (a : Nat → α) (n m : Nat) (fill : α) (junk junk' junk'' : Nat → α) (len i : Nat) (hi : i < len) :
    fshift (fshift a n fill junk len) m fill junk' len i = fshift a (n + m) fill junk'' len i ∧
    bshift (bshift a n fill junk len) m fill junk' len i = bshift a (n + m) fill junk'' len i := by
  constructor
  · by_cases h : i < m
    · rw [(C36_forward _ m fill junk' len).2 i hi h, (C36_forward a (n + m) fill junk'' len).2 i hi (by omega)]
    · have h1 := (C36_forward (fshift a n fill junk len) m fill junk' len).1 (i - m) (by omega)
      rw [show i - m + m = i by omega] at h1
      rw [h1]
      by_cases h' : i - m < n
      · rw [(C36_forward a n fill junk len).2 _ (by omega) h', (C36_forward a (n + m) fill junk'' len).2 i hi (by omega)]
      · have h2 := (C36_forward a n fill junk len).1 (i - m - n) (by omega)
        have h3 := (C36_forward a (n + m) fill junk'' len).1 (i - m - n) (by omega)
        rw [show i - m - n + n = i - m by omega] at h2
        rw [show i - m - n + (n + m) = i by omega] at h3
        rw [h2, h3]
  · by_cases h : i + m < len
    · rw [(C36_backward (bshift a n fill junk len) m fill junk' len).1 i h]
      by_cases h' : i + m + n < len
      · rw [(C36_backward a n fill junk len).1 _ h', (C36_backward a (n + m) fill junk'' len).1 i (by omega)]
        congr 1; omega
      · rw [(C36_backward a n fill junk len).2 _ h (by omega), (C36_backward a (n + m) fill junk'' len).2 i hi (by omega)]
    · rw [(C36_backward _ m fill junk' len).2 i hi (by omega), (C36_backward a (n + m) fill junk'' len).2 i hi (by omega)]

/-- Non-vacuity: 1, 2, 3 shifted by one. -/
example : (List.range 3).map (fshift (fun i => (i : Int) + 1) 1 0 (fun _ => 9) 3) = [0, 1, 2] ∧
    (List.range 3).map (bshift (fun i => (i : Int) + 1) 1 0 (fun _ => 9) 3) = [2, 3, 0] := by decide

end Vbt
