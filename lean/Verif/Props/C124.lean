import Mathlib.Algebra.Order.Field.Basic
import Mathlib.Algebra.Order.Ring.Rat
import Mathlib.Tactic.FieldSimp
import Mathlib.Tactic.Linarith
import Mathlib.Tactic.NormNum
import Mathlib.Tactic.Positivity
import Mathlib.Tactic.Ring
import Verif.Lemmas.Float
import Verif.Model.Labels
import Verif.Model.SymThresholds

/-!
# C124: symmetric thresholds

A fall by one threshold is made up by a rise by the other, and with both, local extrema do not prefer a direction: they are exchanged
if every price is replaced by its reciprocal (the price of money in units of the asset).
-/

namespace Vbt
open F

/-- **C124, level.**  After a fall by `n` the rise that leads back to the initial price is the one computed, and only that; likewise
the fall after a rise by `p`. -/
theorem C124_level (x n p y : ℚ) (hx : x ≠ 0) (hn : n ≠ 1) (hp : p ≠ -1) :
    (x * (1 - n) * (1 + y) = x ↔ y = symPosTh n) ∧ (x * (1 + p) * (1 - y) = x ↔ y = symNegTh p) := by
  have h1 : (1 - n) ≠ 0 := fun h => hn (by linarith)
  have h2 : (1 + p) ≠ 0 := fun h => hp (by linarith)
  unfold symPosTh symNegTh
  constructor
  · rw [eq_div_iff h1]
    constructor
    · intro h
      have : x * ((1 - n) * (1 + y)) = x * 1 := by linarith
      have := mul_left_cancel₀ hx this
      linarith
    · intro h
      have : (1 - n) * (1 + y) = 1 := by linarith
      rw [mul_assoc, this, mul_one]
  · rw [eq_div_iff h2]
    constructor
    · intro h
      have : x * ((1 + p) * (1 - y)) = x * 1 := by linarith
      have := mul_left_cancel₀ hx this
      linarith
    · intro h
      have : (1 + p) * (1 - y) = 1 := by linarith
      rw [mul_assoc, this, mul_one]

/-- **C124, inverse.**  The two functions undo each other. -/
theorem C124_inverse (n p : ℚ) (hn : n ≠ 1) (hp : p ≠ -1) : symNegTh (symPosTh n) = n ∧ symPosTh (symNegTh p) = p := by
  have h1 : (1 - n) ≠ 0 := fun h => hn (by linarith)
  have h2 : (1 + p) ≠ 0 := fun h => hp (by linarith)
  unfold symPosTh symNegTh
  constructor
  · have e : 1 + n / (1 - n) = 1 / (1 - n) := by field_simp; ring
    rw [e]
    field_simp
  · have e : 1 - p / (1 + p) = 1 / (1 + p) := by field_simp; ring
    rw [e]
    field_simp

/-! ## Extrema of reciprocal prices -/

theorem up_inv {a b p : ℚ} (ha : 0 < a) (hb : 0 < b) (hp : 0 < p) :
    (1 / a * (1 + p) ≤ 1 / b) ↔ b ≤ a * (1 - symNegTh p) := by
  have e : a * (1 - symNegTh p) = a / (1 + p) := by
    unfold symNegTh
    field_simp
    ring
  have e2 : 1 / a * (1 + p) = 1 / (a / (1 + p)) := by field_simp
  rw [e, e2, one_div_le_one_div (by positivity) hb]

theorem down_inv {a b p : ℚ} (ha : 0 < a) (hb : 0 < b) (hp : 0 < p) :
    (1 / b ≤ 1 / a * (1 - symNegTh p)) ↔ a * (1 + p) ≤ b := by
  have e : 1 / a * (1 - symNegTh p) = 1 / (a * (1 + p)) := by
    unfold symNegTh
    field_simp
    ring
  rw [e, one_div_le_one_div hb (by positivity)]

/-- Peaks and troughs exchanged. -/
def flipped (s : ExtState) : ExtState := ⟨fun i => -s.out i, s.prev, -s.dir⟩

theorem flip_set (o : Nat → Int) (p : Nat) (v : Int) : (fun i => -(setAt o p v) i) = setAt (fun i => -o i) p (-v) := by
  funext i
  unfold setAt
  split <;> rfl

variable {c p : Nat → ℚ}

theorem abs_fin_pos {q : ℚ} (h : 0 < q) : abs (fin q) = fin q := by
  simp [F.abs, abs_of_pos h]

theorem sym_pos {q : ℚ} (h : 0 < q) : 0 < symNegTh q := by
  unfold symNegTh
  positivity

/-- The branches on the direction with the comparisons as arguments. -/
def branchBy (l g u d : Bool) (s : ExtState) (i : Nat) : ExtState :=
  if s.dir = 1 then
    if l then { s with prev := i }
    else if u then ⟨setAt s.out s.prev (-1), i, -1⟩
    else s
  else if s.dir = -1 then
    if g then { s with prev := i }
    else if d then ⟨setAt s.out s.prev 1, i, 1⟩
    else s
  else
    if u then ⟨setAt s.out s.prev (-1), i, -1⟩
    else if d then ⟨setAt s.out s.prev 1, i, 1⟩
    else s

theorem branchBy_flip (l g u d : Bool) (s : ExtState) (i : Nat) (hex : u = true → d = true → False) :
    branchBy g l d u (flipped s) i = flipped (branchBy l g u d s i) := by
  have f1 := flip_set s.out s.prev 1
  have f2 := flip_set s.out s.prev (-1)
  by_cases h1 : s.dir = 1
  · cases g <;> cases u <;> cases l <;> cases d <;> simp_all [branchBy, flipped]
  · by_cases h2 : s.dir = -1
    · cases g <;> cases u <;> cases l <;> cases d <;> simp_all [branchBy, flipped]
    · have h3 : -s.dir ≠ 1 := by omega
      have h4 : -s.dir ≠ -1 := by omega
      cases g <;> cases u <;> cases l <;> cases d <;> simp_all [branchBy, flipped]

theorem branch_flip (r a : ℚ) (hc : ∀ i, 0 < c i) (hp : ∀ i, 0 < p i) (s : ExtState) (i : Nat) :
    extBranch (Arith.exact r a) (fun i => fin (1 / c i)) (fun i => fin (p i)) (fun i => fin (symNegTh (p i))) (flipped s) i =
      flipped (extBranch (Arith.exact r a) (fun i => fin (c i)) (fun i => fin (p i)) (fun i => fin (symNegTh (p i))) s i) := by
  have hU : ge (fin (1 / c i)) (thrUp (Arith.exact r a) (fun i => fin (1 / c i)) (fun i => fin (p i)) s.prev) =
      le (fin (c i)) (thrDown (Arith.exact r a) (fun i => fin (c i)) (fun i => fin (symNegTh (p i))) s.prev) := by
    unfold thrUp thrDown
    rw [abs_fin_pos (hp _), abs_fin_pos (sym_pos (hp _))]
    simp only [Arith.exact, add, sub, F.neg, mul, ge, le]
    rw [decide_eq_decide, ← sub_eq_add_neg]
    exact up_inv (hc _) (hc _) (hp _)
  have hD : le (fin (1 / c i)) (thrDown (Arith.exact r a) (fun i => fin (1 / c i)) (fun i => fin (symNegTh (p i))) s.prev) =
      ge (fin (c i)) (thrUp (Arith.exact r a) (fun i => fin (c i)) (fun i => fin (p i)) s.prev) := by
    unfold thrUp thrDown
    rw [abs_fin_pos (hp _), abs_fin_pos (sym_pos (hp _))]
    simp only [Arith.exact, add, sub, F.neg, mul, ge, le]
    rw [decide_eq_decide, ← sub_eq_add_neg]
    exact down_inv (hc _) (hc _) (hp _)
  have hlt : lt (fin (1 / c i)) (fin (1 / c s.prev)) = gt (fin (c i)) (fin (c s.prev)) := by
    simp only [gt, lt]
    rw [decide_eq_decide]
    exact one_div_lt_one_div (hc _) (hc _)
  have hgt : gt (fin (1 / c i)) (fin (1 / c s.prev)) = lt (fin (c i)) (fin (c s.prev)) := by
    simp only [gt, lt]
    rw [decide_eq_decide]
    exact one_div_lt_one_div (hc _) (hc _)
  have hex : ge (fin (c i)) (thrUp (Arith.exact r a) (fun i => fin (c i)) (fun i => fin (p i)) s.prev) = true →
      le (fin (c i)) (thrDown (Arith.exact r a) (fun i => fin (c i)) (fun i => fin (symNegTh (p i))) s.prev) = true → False := by
    unfold thrUp thrDown
    rw [abs_fin_pos (hp _), abs_fin_pos (sym_pos (hp _))]
    simp only [Arith.exact, add, sub, F.neg, mul, ge, le, decide_eq_true_eq]
    intro h1 h2
    have q1 := mul_pos (hc s.prev) (hp s.prev)
    have q2 := mul_pos (hc s.prev) (sym_pos (hp s.prev))
    linarith
  have e1 : extBranch (Arith.exact r a) (fun i => fin (1 / c i)) (fun i => fin (p i)) (fun i => fin (symNegTh (p i))) (flipped s) i =
      branchBy (lt (fin (1 / c i)) (fin (1 / c s.prev))) (gt (fin (1 / c i)) (fin (1 / c s.prev)))
        (ge (fin (1 / c i)) (thrUp (Arith.exact r a) (fun i => fin (1 / c i)) (fun i => fin (p i)) s.prev))
        (le (fin (1 / c i)) (thrDown (Arith.exact r a) (fun i => fin (1 / c i)) (fun i => fin (symNegTh (p i))) s.prev))
        (flipped s) i := rfl
  have e2 : extBranch (Arith.exact r a) (fun i => fin (c i)) (fun i => fin (p i)) (fun i => fin (symNegTh (p i))) s i =
      branchBy (lt (fin (c i)) (fin (c s.prev))) (gt (fin (c i)) (fin (c s.prev)))
        (ge (fin (c i)) (thrUp (Arith.exact r a) (fun i => fin (c i)) (fun i => fin (p i)) s.prev))
        (le (fin (c i)) (thrDown (Arith.exact r a) (fun i => fin (c i)) (fun i => fin (symNegTh (p i))) s.prev)) s i := rfl
  rw [e1, e2, hU, hD, hlt, hgt]
  exact branchBy_flip _ _ _ _ s i hex

theorem step_flip (r a : ℚ) (hc : ∀ i, 0 < c i) (hp : ∀ i, 0 < p i) (len : Nat) (s : ExtState) (i : Nat) :
    ∃ t, extStep (Arith.exact r a) (fun i => fin (c i)) (fun i => fin (p i)) (fun i => fin (symNegTh (p i))) len s i = .ok t ∧
      extStep (Arith.exact r a) (fun i => fin (1 / c i)) (fun i => fin (p i)) (fun i => fin (symNegTh (p i))) len (flipped s) i =
        .ok (flipped t) := by
  have z1 : ∀ j, eqb (abs (fin (p j))) zero = false := fun j => by
    rw [abs_fin_pos (hp j)]
    simpa [eqb] using (hp j).ne'
  have z2 : ∀ j, eqb (abs (fin (symNegTh (p j)))) zero = false := fun j => by
    rw [abs_fin_pos (sym_pos (hp j))]
    simpa [eqb] using (sym_pos (hp j)).ne'
  unfold extStep
  simp only [z1, z2, Bool.false_eq_true, if_false]
  refine ⟨_, rfl, ?_⟩
  rw [branch_flip r a hc hp s i]
  generalize extBranch (Arith.exact r a) (fun i => fin (c i)) (fun i => fin (p i)) (fun i => fin (symNegTh (p i))) s i = t
  congr 1
  have hd : (flipped t).dir ≠ 0 ↔ t.dir ≠ 0 := by
    unfold flipped
    simp
  by_cases h : i = len - 1 ∧ t.dir ≠ 0
  · rw [if_pos h, if_pos ⟨h.1, hd.mpr h.2⟩]
    unfold flipped
    rw [ExtState.mk.injEq]
    exact ⟨(flip_set _ _ _).symm, rfl, rfl⟩
  · rw [if_neg h, if_neg (fun e => h ⟨e.1, hd.mp e.2⟩)]

theorem loop_flip (r a : ℚ) (hc : ∀ i, 0 < c i) (hp : ∀ i, 0 < p i) (len : Nat) (l : List Nat) (s : ExtState) :
    ∃ t, loopE (extStep (Arith.exact r a) (fun i => fin (c i)) (fun i => fin (p i)) (fun i => fin (symNegTh (p i))) len) s l = .ok t ∧
      loopE (extStep (Arith.exact r a) (fun i => fin (1 / c i)) (fun i => fin (p i)) (fun i => fin (symNegTh (p i))) len) (flipped s) l =
        .ok (flipped t) := by
  induction l generalizing s with
  | nil => exact ⟨s, rfl, rfl⟩
  | cons i l ih =>
    obtain ⟨t, h1, h2⟩ := step_flip r a hc hp len s i
    obtain ⟨u, h3, h4⟩ := ih t
    refine ⟨u, ?_, ?_⟩
    · rw [loopE, h1]
      exact h3
    · rw [loopE, h2]
      exact h4

/-- **C124, no preferred direction.**  For positive prices and thresholds, given for each row, with symmetric negative ones, the local
extrema of the reciprocal prices are those of the prices with peaks and troughs exchanged. -/
theorem C124_mirror (r a : ℚ) (c p : Nat → ℚ) (hc : ∀ i, 0 < c i) (hp : ∀ i, 0 < p i) (len : Nat) :
    ∃ out : Nat → Int,
      localExtrema (Arith.exact r a) (fun i => fin (c i)) (fun i => fin (p i)) (fun i => fin (symNegTh (p i))) len = .ok out ∧
      localExtrema (Arith.exact r a) (fun i => fin (1 / c i)) (fun i => fin (p i)) (fun i => fin (symNegTh (p i))) len =
        .ok (fun i => -out i) := by
  obtain ⟨t, h1, h2⟩ := loop_flip r a hc hp len (List.range' 1 (len - 1)) ⟨fun _ => 0, 0, 0⟩
  refine ⟨t.out, ?_, ?_⟩
  · unfold localExtrema
    rw [h1]
  · unfold localExtrema
    have hz : flipped ⟨fun _ => 0, 0, 0⟩ = ⟨fun _ => 0, 0, 0⟩ := by simp [flipped]
    rw [hz] at h2
    rw [h2]
    rfl

/-! ## The hypotheses can be met -/

/-- Half down needs all of it up. -/
example : symPosTh (1 / 2) = 1 := by norm_num [symPosTh]

/-- The extrema of 1, 2, 1 are there: a peak in the middle, troughs at the ends. -/
example : ((localExtrema (Arith.exact 0 0) (fun i => fin (if i = 1 then 2 else 1)) (fun _ => fin 1) (fun _ => fin (symNegTh 1)) 3).toOption.map
    fun o => [o 0, o 1, o 2]) = some [-1, 1, -1] := by decide +kernel

example : ∃ out : Nat → Int,
    localExtrema (Arith.exact 0 0) (fun i => fin ((i : ℚ) + 1)) (fun _ => fin 1) (fun _ => fin (symNegTh 1)) 9 = .ok out ∧
    localExtrema (Arith.exact 0 0) (fun i => fin (1 / ((i : ℚ) + 1))) (fun _ => fin 1) (fun _ => fin (symNegTh 1)) 9 =
      .ok (fun i => -out i) :=
  C124_mirror 0 0 (fun i => (i : ℚ) + 1) (fun _ => 1) (fun i => by positivity) (fun _ => by norm_num) 9

end Vbt
