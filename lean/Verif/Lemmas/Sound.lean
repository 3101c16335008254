import Verif.Lemmas.Double
import Verif.Lemmas.Float

/-! # Order facts of sound rounded arithmetic -/

namespace Vbt
open F

/-- NaN or not negative. -/
def F.NN (x : F) : Prop := x.isnan = true ∨ le zero x = true

/-- The number is a value of the arithmetic: rounding does not change it. -/
def F.Rep (A : Arith) (x : F) : Prop := ∀ q, x = fin q → A.rnd q = fin q

section
variable {A : Arith} (hA : A.Sound)
include hA

theorem Arith.Sound.zero' : A.rnd 0 = fin 0 := by
  have := hA.int 0 (by norm_num)
  exact_mod_cast this

theorem Arith.Sound.nat' (n : ℕ) (h : n ≤ 2 ^ 53) : A.rnd n = fin n := by
  have := hA.int n (by rw [abs_of_nonneg (by positivity)]; exact_mod_cast h)
  exact_mod_cast this

theorem rnd_nonneg {q : ℚ} (h : 0 ≤ q) : le zero (A.rnd q) = true := by
  have := hA.mono 0 q h
  rw [hA.zero'] at this
  exact this

theorem rnd_nonpos {q : ℚ} (h : q ≤ 0) : le (A.rnd q) zero = true := by
  have := hA.mono q 0 h
  rw [hA.zero'] at this
  exact this

theorem rep_rnd (q : ℚ) : Rep A (A.rnd q) := fun _ h => hA.idem _ _ h

theorem rep_zero : Rep A zero := by
  intro q h
  cases h
  exact hA.zero'

theorem rep_one : Rep A one := by
  intro q h
  cases h
  exact_mod_cast hA.nat' 1 (by norm_num)

theorem rep_infMul (q : ℚ) : Rep A (infMul q) := by
  unfold infMul
  intro r h
  split_ifs at h

theorem rep_add (x y : F) : Rep A (add A x y) := by
  cases x <;> cases y <;> first | exact rep_rnd hA _ | (intro r h; simp only [add] at h; cases h)

theorem rep_div (x y : F) : Rep A (div A x y) := by
  cases x <;> cases y <;> simp only [div] <;> (try split) <;>
    first | exact rep_rnd hA _ | exact rep_zero hA | exact rep_infMul hA _ | (intro r h; cases h)

theorem add_nonneg' {x y : F} (hx : le zero x = true) (hy : le zero y = true) : le zero (add A x y) = true := by
  cases x <;> cases y <;> simp only [le, add, decide_eq_true_eq] at * <;> first | exact rnd_nonneg hA (by linarith) | contradiction | rfl

theorem le_add_self {x y : F} (hr : Rep A x) (hx : le zero x = true) (hy : le zero y = true) : le x (add A x y) = true := by
  cases x <;> cases y <;> simp only [le, decide_eq_true_eq] at hx hy <;> try contradiction
  · rename_i a b
    have := hA.mono a (a + b) (by linarith)
    rw [hr a rfl] at this
    exact this
  · rfl
  · rfl
  · rfl

/-- Adding something that is not negative does not lower a number. -/
theorem le_add_nn {x y : F} (hr : Rep A x) (hy : y.NN) : (add A x y).isnan = true ∨ le x (add A x y) = true := by
  rcases hy with hy | hy
  · left
    cases y <;> simp [isnan] at hy
    cases x <;> rfl
  · cases x <;> cases y <;> simp only [le, decide_eq_true_eq] at hy <;> first | contradiction | (right; rfl) | (left; rfl) | skip
    rename_i a b
    right
    have := hA.mono a (a + b) (by linarith)
    rw [hr a rfl] at this
    exact this

theorem sub_le_nn {x y : F} (hr : Rep A x) (hy : y.NN) : (sub A x y).isnan = true ∨ le (sub A x y) x = true := by
  rcases hy with hy | hy
  · left
    cases y <;> simp [isnan] at hy
    cases x <;> rfl
  · cases x <;> cases y <;> simp only [le, decide_eq_true_eq] at hy <;> first | contradiction | (right; rfl) | (left; rfl) | skip
    rename_i a b
    right
    have := hA.mono (a + -b) a (by linarith)
    rw [hr a rfl] at this
    exact this

theorem sub_nn {x y : F} (h : le y x = true) : (sub A x y).NN := by
  cases x <;> cases y <;> simp only [le, decide_eq_true_eq] at h <;> first | contradiction | (right; rfl) | (left; rfl) | skip
  right
  exact rnd_nonneg hA (by linarith)

theorem mul_nn {x y : F} (hx : x.NN) (hy : y.NN) : (mul A x y).NN := by
  rcases hx with hx | hx
  · cases x <;> simp [isnan] at hx
    left; cases y <;> rfl
  rcases hy with hy | hy
  · cases y <;> simp [isnan] at hy
    left; cases x <;> rfl
  cases x <;> cases y <;> simp only [le, decide_eq_true_eq] at hx hy <;> first | contradiction | (right; rfl) | skip
  · right; exact rnd_nonneg hA (mul_nonneg hx hy)
  · simp only [mul, infMul]
    split_ifs
    · linarith
    · right; rfl
    · left; rfl
  · simp only [mul, infMul]
    split_ifs
    · linarith
    · right; rfl
    · left; rfl

theorem div_nn {x y : F} (hx : x.NN) (hy : y.NN) : (div A x y).NN := by
  rcases hx with hx | hx
  · cases x <;> simp [isnan] at hx
    left; cases y <;> rfl
  rcases hy with hy | hy
  · cases y <;> simp [isnan] at hy
    left; cases x <;> rfl
  cases x <;> cases y <;> simp only [le, decide_eq_true_eq] at hx hy <;> first | contradiction | (right; rfl) | (left; rfl) | skip
  · simp only [div, infMul]
    split_ifs
    · linarith
    · right; rfl
    · left; rfl
    · right; exact rnd_nonneg hA (div_nonneg hx hy)
  · simp only [div]
    split_ifs
    · linarith
    · right; rfl

end

theorem nn_abs (x : F) : (abs x).NN := by
  cases x with
  | nan => left; rfl
  | ninf => right; rfl
  | pinf => right; rfl
  | fin q => right; exact decide_eq_true (abs_nonneg q)

theorem not_isnan_of_le {x y : F} (h : le x y = true) : y.isnan = false := by
  cases x <;> cases y <;> simp_all [le, isnan]

end Vbt
