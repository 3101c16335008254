import Verif.Model.RangeStats
import Verif.Lemmas.OrderNum2
import Verif.Lemmas.Witness
import Verif.Props.C41

/-!
# C41  Coverage of groups of columns
-/

namespace Vbt
open F

/-- The number of rows below `len` in at least `m` records of the group `k`. -/
def groupRows (g : Nat → Nat) (records : List RangeRec) (k len m : Nat) : Nat :=
  (List.range len).countP fun i => decide (m ≤ (records.filter fun r => g r.col = k).countP fun r => decide (r.has i))

/-- **C41** (normalised coverage of groups).  If every group has a column and there are rows, the coverage is the number of rows that
lie in at least one record of any column of the group, over rows times columns (exact arithmetic). -/
theorem C41_groups (r t : ℚ) (records : List RangeRec) (junk : Nat → Nat) (g : Nat → Nat) {nGroups n cols : Nat} (hn : 0 < n)
    (hg : ∀ k < nGroups, 0 < groupLen g cols k) :
    rangesCoverage (Arith.exact r t) records junk g nGroups n cols false true =
      .ok ((List.range nGroups).map fun k =>
        if (records.map fun r => g r.col).count k = 0 then nan
        else fin ((groupRows g records k (groupLen g cols k * n) 1 : Nat) / ((groupLen g cols k * n : Nat) : ℚ))) := by
  unfold rangesCoverage rangeCoverage
  induction nGroups with
  | zero => rfl
  | succ m ih =>
    rw [List.range_succ, List.foldl_append, ih fun k hk => hg k (by omega), List.foldl_cons, List.foldl_nil, List.map_append]
    dsimp only
    rw [(C45_map _ junk m).2, C45_records]
    by_cases h0 : (records.map fun r => g r.col).count m = 0
    · rw [if_pos h0]
      simp only [List.map_cons, List.map_nil, if_pos h0]
    · rw [if_neg h0]
      have hl : ((groupLen g cols m * n : Nat) : ℚ) ≠ 0 := by
        have := Nat.mul_pos (hg m (by omega)) hn
        exact_mod_cast this.ne'
      simp only [List.map_cons, List.map_nil, if_neg h0, Bool.false_eq_true, if_false, if_true, coverageCounts_eq]
      rw [divE_ne_zero _ _ hl, div_exact _ _ _ _ hl]
      unfold groupRows
      simp only [Nat.lt_iff_add_one_le, Nat.zero_add]

/-- **C41** (groups are never covered).  The records of `n` rows cover at most `1 / columns` of a group, however many of its columns
are covered in full: rows are counted once for all columns and divided by rows times columns. -/
theorem C41_groups_bound (r t : ℚ) (records : List RangeRec) (junk : Nat → Nat) (g : Nat → Nat) {nGroups n cols : Nat} (hn : 0 < n)
    (hg : ∀ k < nGroups, 0 < groupLen g cols k) (hrec : ∀ x ∈ records, rangeSliceEnd x ≤ n) {k : Nat} (hk : k < nGroups)
    (hne : ∃ x ∈ records, g x.col = k) :
    ∃ out q, rangesCoverage (Arith.exact r t) records junk g nGroups n cols false true = .ok out ∧ out[k]? = some (fin q) ∧
      q ≤ 1 / (groupLen g cols k : ℚ) := by
  refine ⟨_, (groupRows g records k (groupLen g cols k * n) 1 : Nat) / ((groupLen g cols k * n : Nat) : ℚ),
    C41_groups r t records junk g hn hg, ?_, ?_⟩
  · rw [List.getElem?_map, List.getElem?_range hk, Option.map_some, if_neg]
    intro h
    obtain ⟨x, hx, hxk⟩ := hne
    exact List.count_eq_zero.mp h (List.mem_map.mpr ⟨x, hx, hxk⟩)
  · have hl : 0 < groupLen g cols k := hg k hk
    have hle : groupRows g records k (groupLen g cols k * n) 1 ≤ n := by
      unfold groupRows
      have hsplit : groupLen g cols k * n = n + (groupLen g cols k - 1) * n := by
        obtain ⟨m, hm⟩ : ∃ m, groupLen g cols k = m + 1 := ⟨groupLen g cols k - 1, by omega⟩
        rw [hm, Nat.add_sub_cancel, Nat.succ_mul, Nat.add_comm]
      rw [hsplit, List.range_add, List.countP_append, List.countP_map]
      have h1 : (List.range ((groupLen g cols k - 1) * n)).countP ((fun i => decide (1 ≤
          (records.filter fun r => g r.col = k).countP fun r => decide (r.has i))) ∘ fun x => n + x) = 0 := by
        rw [List.countP_eq_zero]
        intro i _ h
        have h' : 1 ≤ (records.filter fun r => g r.col = k).countP fun r => decide (r.has (n + i)) := by simpa using h
        obtain ⟨x, hx, hxi⟩ := List.countP_pos_iff.mp h'
        have := hrec x (List.mem_filter.mp hx).1
        have := ((has_iff x (n + i)).mp (of_decide_eq_true hxi)).2
        omega
      rw [h1, Nat.add_zero]
      exact le_trans List.countP_le_length (by rw [List.length_range])
    have hl' : (0 : ℚ) < groupLen g cols k := by exact_mod_cast hl
    have hn' : (0 : ℚ) < n := by exact_mod_cast hn
    have hle' : ((groupRows g records k (groupLen g cols k * n) 1 : Nat) : ℚ) ≤ n := by exact_mod_cast hle
    push_cast
    rw [div_le_div_iff₀ (mul_pos hl' hn') hl', one_mul, mul_comm]
    exact mul_le_mul_of_nonneg_left hle' hl'.le

/-- Two columns, each covered in full by one record: each has coverage one, the group of both one half. -/
theorem C41_groups_counterexample :
    ∃ records : List RangeRec,
      rangesCoverage (Arith.exact 0 0) records (fun _ => 0) id 2 3 2 false true = .ok [fin 1, fin 1] ∧
      rangesCoverage (Arith.exact 0 0) records (fun _ => 0) (fun _ => 0) 1 3 2 false true = .ok [fin (1 / 2)] := by
  refine ⟨[⟨0, 0, 0, 2, RangeStatus.Open⟩, ⟨1, 1, 0, 2, RangeStatus.Open⟩], ?_, ?_⟩
  · obtain ⟨x, h1, h2⟩ := okAnd_iff (f := fun l => decide (l = [fin 1, fin 1])) (x := rangesCoverage (Arith.exact 0 0)
      [⟨0, 0, 0, 2, RangeStatus.Open⟩, ⟨1, 1, 0, 2, RangeStatus.Open⟩] (fun _ => 0) id 2 3 2 false true) (by decide +kernel)
    rw [h1, of_decide_eq_true h2]
  · obtain ⟨x, h1, h2⟩ := okAnd_iff (f := fun l => decide (l = [fin (1 / 2)])) (x := rangesCoverage (Arith.exact 0 0)
      [⟨0, 0, 0, 2, RangeStatus.Open⟩, ⟨1, 1, 0, 2, RangeStatus.Open⟩] (fun _ => 0) (fun _ => 0) 1 3 2 false true) (by decide +kernel)
    rw [h1, of_decide_eq_true h2]

/-- Non-vacuity: the hypotheses of the bound for these records. -/
example : (∀ k < 1, 0 < groupLen (fun _ => 0) 2 k) ∧
    (∀ x ∈ [(⟨0, 0, 0, 2, RangeStatus.Open⟩ : RangeRec), ⟨1, 1, 0, 2, RangeStatus.Open⟩], rangeSliceEnd x ≤ 3) := by decide

end Vbt
