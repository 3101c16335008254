import Mathlib.Algebra.BigOperators.Group.List.Basic
import Mathlib.Algebra.Field.Rat
import Mathlib.Algebra.Order.Ring.Rat
import Mathlib.Tactic.Linarith
import Mathlib.Tactic.NormNum
import Mathlib.Tactic.Positivity
import Mathlib.Tactic.Ring
import Verif.Model.Gbm

/-!
# C123: generated prices are products of the factors of their steps, and updates continue them
-/

namespace Vbt

theorem gbmSteps_length (f : ℚ → ℚ) (s : ℚ) (zs : List ℚ) : (gbmSteps f s zs).length = zs.length := by
  induction zs generalizing s with
  | nil => rfl
  | cons z zs ih => simp [gbmSteps, ih]

theorem gbmSteps_get (f : ℚ → ℚ) (s : ℚ) (zs : List ℚ) (t : Nat) (ht : t < zs.length) :
    (gbmSteps f s zs)[t]? = some (s * ((zs.take (t + 1)).map f).prod) := by
  induction zs generalizing s t with
  | nil => simp at ht
  | cons z zs ih =>
    cases t with
    | zero => simp [gbmSteps]
    | succ t =>
      simp only [gbmSteps, List.getElem?_cons_succ, List.take_succ_cons, List.map_cons, List.prod_cons]
      rw [ih _ t (by simpa using ht), mul_assoc]

theorem gbmGenerate_eq (growth : ℚ → ℚ → ℚ) (s0 : ℚ) (T : Option ℚ) (zs : List ℚ) :
    gbmGenerate growth s0 T zs = gbmSteps (growth (T.getD zs.length / zs.length)) s0 zs := rfl

/-- **C123, prices.**  There is a price for each draw.  The price after `t + 1` steps is the initial price times the factors of these
steps, each of the length `T` divided by their number; without `T` each step has length one. -/
theorem C123_price (growth : ℚ → ℚ → ℚ) (s0 : ℚ) (T : Option ℚ) (zs : List ℚ) :
    (gbmGenerate growth s0 T zs).length = zs.length ∧
    (∀ t, t < zs.length → (gbmGenerate growth s0 T zs)[t]? =
      some (s0 * ((zs.take (t + 1)).map (growth (match T with | none => 1 | some x => x / zs.length))).prod)) := by
  rw [gbmGenerate_eq]
  refine ⟨gbmSteps_length _ _ _, fun t ht => ?_⟩
  rw [gbmSteps_get _ _ _ t ht]
  cases T with
  | some x => rfl
  | none =>
    have h0 : (zs.length : ℚ) ≠ 0 := by
      have : 0 < zs.length := by omega
      positivity
    rw [Option.getD_none, div_self h0]

/-- **C123, sign.**  From a positive price, with positive factors, all prices are positive. -/
theorem C123_positive (growth : ℚ → ℚ → ℚ) (hg : ∀ d z, 0 < growth d z) (s0 : ℚ) (h0 : 0 < s0) (T : Option ℚ) (zs : List ℚ) :
    ∀ p ∈ gbmGenerate growth s0 T zs, 0 < p := by
  rw [gbmGenerate_eq]
  have hf : ∀ (f : ℚ → ℚ), (∀ z, 0 < f z) → ∀ (ys : List ℚ) (s : ℚ), 0 < s → ∀ p ∈ gbmSteps f s ys, 0 < p := by
    intro f hf ys
    induction ys with
    | nil => simp [gbmSteps]
    | cons z ys ih =>
      intro s hs p hp
      rw [gbmSteps, List.mem_cons] at hp
      rcases hp with rfl | hp
      · exact mul_pos hs (hf z)
      · exact ih _ (mul_pos hs (hf z)) p hp
  exact hf _ (hg _) zs s0 h0

/-! ## Updates -/

theorem gbmSteps_append (f : ℚ → ℚ) (s : ℚ) (a b : List ℚ) :
    gbmSteps f s (a ++ b) = gbmSteps f s a ++ gbmSteps f ((gbmSteps f s a).getLast?.getD s) b := by
  induction a generalizing s with
  | nil => rfl
  | cons z a ih =>
    simp only [List.cons_append, gbmSteps]
    rw [ih]
    congr 3
    cases h : gbmSteps f (s * f z) a with
    | nil => rfl
    | cons y ys =>
      rw [List.getLast?_cons_cons]
      rw [List.getLast?_eq_some_getLast (List.cons_ne_nil y ys)]
      rfl

theorem gbmSteps_dropLast (f : ℚ → ℚ) (s : ℚ) (a : List ℚ) (x : ℚ) : (gbmSteps f s (a ++ [x])).dropLast = gbmSteps f s a := by
  rw [gbmSteps_append]
  simp [gbmSteps]

theorem gbmGenerate_none (growth : ℚ → ℚ → ℚ) (s : ℚ) (zs : List ℚ) : gbmGenerate growth s none zs = gbmSteps (growth 1) s zs := by
  rw [gbmGenerate_eq]
  cases zs with
  | nil => rfl
  | cons z zs =>
    have h0 : ((z :: zs).length : ℚ) ≠ 0 := by
      have : 0 < (z :: zs).length := by simp
      positivity
    rw [Option.getD_none, div_self h0]

theorem gbmSteps_last (f : ℚ → ℚ) (s : ℚ) (a : List ℚ) (ha : a ≠ []) : ∃ l, (gbmSteps f s a).getLast? = some l := by
  cases h : (gbmSteps f s a).getLast? with
  | some l => exact ⟨l, rfl⟩
  | none =>
    rw [List.getLast?_eq_none_iff] at h
    have := gbmSteps_length f s a
    rw [h] at this
    exact absurd (List.length_eq_zero_iff.mp this.symm) ha

/-- **C123, updates.**  Updating prices that were generated without `T` gives what one download with the draws of both, but for the
replaced last one, would have given. -/
theorem C123_update (growth : ℚ → ℚ → ℚ) (s0 x : ℚ) (a zs : List ℚ) (ha : a ≠ []) :
    gbmUpdate growth (gbmGenerate growth s0 none (a ++ [x])) zs = .ok (gbmGenerate growth s0 none (a ++ zs)) := by
  unfold gbmUpdate
  rw [gbmGenerate_none, gbmSteps_dropLast]
  obtain ⟨l, hl⟩ := gbmSteps_last (growth 1) s0 a ha
  rw [hl]
  dsimp only
  rw [gbmGenerate_none, gbmGenerate_none, gbmSteps_append, hl]
  rfl

/-- **C123, finding.**  Prices that were generated with `T` are continued with steps of another length: the last row was reached from
the one before by a step of `T` divided by the number of rows, its replacement by a step of length one. -/
theorem C123_period (growth : ℚ → ℚ → ℚ) (s0 T x z : ℚ) (a zs : List ℚ) (ha : a ≠ []) :
    ∃ s out, (gbmGenerate growth s0 (some T) (a ++ [x]))[a.length - 1]? = some s ∧
      (gbmGenerate growth s0 (some T) (a ++ [x]))[a.length]? = some (s * growth (T / (a.length + 1)) x) ∧
      gbmUpdate growth (gbmGenerate growth s0 (some T) (a ++ [x])) (z :: zs) = .ok out ∧
      out[a.length - 1]? = some s ∧ out[a.length]? = some (s * growth 1 z) := by
  have e1 : gbmGenerate growth s0 (some T) (a ++ [x]) = gbmSteps (growth (T / (a.length + 1))) s0 (a ++ [x]) := by
    rw [gbmGenerate_eq]
    simp
  obtain ⟨l, hl⟩ := gbmSteps_last (growth (T / (a.length + 1))) s0 a ha
  have hlen := gbmSteps_length (growth (T / (a.length + 1))) s0 a
  have hpos : 0 < a.length := List.length_pos_iff.mpr ha
  have hl' : (gbmSteps (growth (T / (a.length + 1))) s0 a)[a.length - 1]? = some l := by
    rw [List.getLast?_eq_getElem?, hlen] at hl
    exact hl
  refine ⟨l, gbmSteps (growth (T / (a.length + 1))) s0 a ++ gbmSteps (growth 1) l (z :: zs), ?_, ?_, ?_, ?_, ?_⟩
  · rw [e1, gbmSteps_append, List.getElem?_append_left (by omega)]
    exact hl'
  · rw [e1, gbmSteps_append, List.getElem?_append_right (by omega), hlen, hl]
    simp [gbmSteps]
  · unfold gbmUpdate
    rw [e1, gbmSteps_dropLast, hl]
    dsimp only
    rw [gbmGenerate_none]
  · rw [List.getElem?_append_left (by omega)]
    exact hl'
  · rw [List.getElem?_append_right (by omega), hlen]
    simp [gbmSteps]

/-- **C123, finding.**  Data of one row cannot be updated. -/
theorem C123_one_row (growth : ℚ → ℚ → ℚ) (p : ℚ) (zs : List ℚ) :
    gbmUpdate growth [p] zs = .error (.indexError "single positional indexer is out-of-bounds") := rfl

/-! ## The hypotheses can be met -/

example : gbmGenerate (fun d z => 1 + d * z) 100 none [1, 2] = [200, 600] := by
  norm_num [gbmGenerate, gbmPaths, gbmSteps]

example : gbmUpdate (fun d z => 1 + d * z) (gbmGenerate (fun d z => 1 + d * z) 100 none ([1] ++ [2])) [3, 1] =
    .ok (gbmGenerate (fun d z => 1 + d * z) 100 none ([1] ++ [3, 1])) := C123_update _ 100 2 [1] [3, 1] (by simp)

example : ∀ p ∈ gbmGenerate (fun _ z => 1 + z * z) 100 (some 1) [1, -2], 0 < p :=
  C123_positive _ (fun _ z => by nlinarith [mul_self_nonneg z]) 100 (by norm_num) _ _

end Vbt
