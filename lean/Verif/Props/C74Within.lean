import Verif.Props.C19Within
import Verif.Props.C74

/-!
# C74 with tolerances

`get_init_cash` adds the flows without tolerances; the cash series adds them with `add_nb`, which swallows amounts below the tolerances.
With the automatic amount the series stays above zero up to what is swallowed.
-/

namespace Vbt
open F

section
variable {r t : ℚ}

theorem cashAt_nonneg_within (hr0 : 0 ≤ r) (hr : r < 1) (ht : 0 ≤ t) {flow : Nat → F} (hf : ∀ j, ∃ q, flow j = fin q) {rows : Nat} {c : ℚ}
    (hc : Covers flow rows c) : ∀ i < rows, ∃ x, cashAt (Arith.exact r t) (fin c) flow i = fin x ∧
      -lost r t (((List.range (i + 1)).map fun j => |(flow j).toQ|).sum) (i + 1) ≤ x ∧
      |x - (c + ((List.range (i + 1)).map fun j => (flow j).toQ).sum)| ≤
        lost r t (((List.range (i + 1)).map fun j => |(flow j).toQ|).sum) (i + 1) := by
  intro i hi
  have hq : ∀ j, flow j = fin (flow j).toQ := by
    intro j
    obtain ⟨q, hq⟩ := hf j
    rw [hq]; rfl
  obtain ⟨x, h1, h2⟩ := C54_cash_within hr0 hr ht (init := c) hq i
  refine ⟨x, h1, ?_, h2⟩
  have h3 := hc i hi
  have h4 := (abs_le.mp h2).1
  linarith

/-- **C74** (all tolerances).  With the automatic amount the cash series never goes below zero by more than what `add_nb` may swallow.
The amount is positive, it is the least with which the plain sums stay above zero, or 1 if they need no money. -/
theorem C74_auto_within (hr0 : 0 ≤ r) (hr : r < 1) (ht : 0 ≤ t) {flow : Nat → F} (hf : ∀ j, ∃ q, flow j = fin q) {rows : Nat}
    (hrows : 0 < rows) :
    ∃ c, autoInitCash (Arith.exact r t) flow rows = .ok (fin c) ∧ 0 < c ∧
      (∀ i < rows, ∃ x, cashAt (Arith.exact r t) (fin c) flow i = fin x ∧
        -lost r t (((List.range (i + 1)).map fun j => |(flow j).toQ|).sum) (i + 1) ≤ x) ∧
      (Covers flow rows 0 → c = 1) ∧ (¬ Covers flow rows 0 → Covers flow rows c ∧ ∀ c', Covers flow rows c' → c ≤ c') := by
  obtain ⟨c, h1, h2, h3, h4, h5⟩ := autoInitCash_spec (r := r) (t := t) hf hrows
  refine ⟨c, h1, h2, fun i hi => ?_, h4, fun h => ⟨h3, h5 h⟩⟩
  obtain ⟨x, e, b, _⟩ := cashAt_nonneg_within hr0 hr ht hf h3 i hi
  exact ⟨x, e, b⟩

/-- If the trades need money, the cash is used up in some row, up to what `add_nb` may swallow. -/
theorem C74_used_up_within (hr0 : 0 ≤ r) (hr : r < 1) (ht : 0 ≤ t) {flow : Nat → F} (hf : ∀ j, ∃ q, flow j = fin q) {rows : Nat}
    (hrows : 0 < rows) (hneed : ¬ Covers flow rows 0) :
    ∃ c, autoInitCash (Arith.exact r t) flow rows = .ok (fin c) ∧ ∃ i < rows, ∃ x, cashAt (Arith.exact r t) (fin c) flow i = fin x ∧
      |x| ≤ lost r t (((List.range (i + 1)).map fun j => |(flow j).toQ|).sum) (i + 1) := by
  obtain ⟨c, h1, -, h3, -, h5⟩ := autoInitCash_spec (r := r) (t := t) hf hrows
  refine ⟨c, h1, ?_⟩
  let g : Nat → ℚ := fun i => ((List.range (i + 1)).map fun j => (flow j).toQ).sum
  by_contra hno
  push Not at hno
  have hpos : ∀ i < rows, 0 < c + g i := by
    intro i hi
    rcases lt_or_eq_of_le (h3 i hi) with h | h
    · exact h
    · obtain ⟨x, e, _, b⟩ := cashAt_nonneg_within hr0 hr ht hf h3 i hi
      rw [← h, sub_zero] at b
      exact absurd b (not_le.mpr (hno i hi x e))
  have hmin : ∃ d > 0, ∀ i < rows, d ≤ c + g i := by
    clear hno h1 h3 h5 hneed
    induction rows with
    | zero => omega
    | succ n ih =>
      rcases Nat.eq_zero_or_pos n with rfl | hn
      · exact ⟨c + g 0, hpos 0 (by omega), fun i hi => by rw [show i = 0 by omega]⟩
      · obtain ⟨d, hd, hall⟩ := ih hn fun i hi => hpos i (by omega)
        refine ⟨min d (c + g n), lt_min hd (hpos n (by omega)), fun i hi => ?_⟩
        rcases Nat.lt_succ_iff_lt_or_eq.mp hi with h | h
        · exact (min_le_left _ _).trans (hall i h)
        · rw [h]; exact min_le_right _ _
  obtain ⟨d, hd, hall⟩ := hmin
  have := h5 hneed (c - d) fun i hi => by have := hall i hi; simp only [g] at this; linarith
  linarith

/-- `AutoAlign`, all tolerances: all columns get the largest of their automatic amounts, with which none goes below zero by more than
what may be swallowed. -/
theorem C74_align_within (hr0 : 0 ≤ r) (hr : r < 1) (ht : 0 ≤ t) {flow : Nat → Nat → F} (hf : ∀ j c, ∃ q, flow j c = fin q)
    {rows cols : Nat} (hrows : 0 < rows) (hcols : 0 < cols) :
    ∃ (own : Nat → ℚ) (m : ℚ), (∀ c < cols, autoInitCash (Arith.exact r t) (fun i => flow i c) rows = .ok (fin (own c))) ∧
      autoInitCashAll (Arith.exact r t) flow rows cols false = .ok ((List.range cols).map fun c => fin (own c)) ∧
      autoInitCashAll (Arith.exact r t) flow rows cols true = .ok (List.replicate cols (fin m)) ∧
      (∃ c < cols, own c = m) ∧
      ∀ c < cols, own c ≤ m ∧ ∀ i < rows, ∃ x, cashAt (Arith.exact r t) (fin m) (fun j => flow j c) i = fin x ∧
        -lost r t (((List.range (i + 1)).map fun j => |(flow j c).toQ|).sum) (i + 1) ≤ x := by
  choose own h1 h2 h3 _h4 _h5 using fun c =>
    autoInitCash_spec (r := r) (t := t) (flow := fun j => flow j c) (fun j => hf j c) hrows
  have hm : mapE (fun c => autoInitCash (Arith.exact r t) (fun i => flow i c) rows) (List.range cols) =
      .ok ((List.range cols).map fun c => fin (own c)) := mapE_ok fun c _ => h1 c
  obtain ⟨n, rfl⟩ : ∃ n, cols = n + 1 := ⟨cols - 1, by omega⟩
  obtain ⟨m, m1, m2, m3⟩ := npMax_fin (own 0) (((List.range n).map Nat.succ).map own)
  have hl : (List.range (n + 1)).map (fun c => fin (own c)) =
      (own 0 :: ((List.range n).map Nat.succ).map own).map fin := by
    rw [List.range_succ_eq_map]
    simp [List.map_map, Function.comp_def]
  have hmem : ∀ x, x ∈ own 0 :: ((List.range n).map Nat.succ).map own ↔ ∃ c < n + 1, own c = x := by
    intro x
    rw [← List.map_cons, ← List.range_succ_eq_map, List.mem_map]
    simp
  refine ⟨own, m, fun c _ => h1 c, ?_, ?_, (hmem m).mp m2, fun c hc => ?_⟩
  · unfold autoInitCashAll
    rw [hm]; rfl
  · unfold autoInitCashAll
    rw [hm]
    simp only [if_true, hl, m1]
    rw [← hl]
    simp [Function.comp_def]
  · have hle := m3 _ ((hmem _).mpr ⟨c, hc, rfl⟩)
    refine ⟨hle, fun i hi => ?_⟩
    obtain ⟨x, e, b, _⟩ := cashAt_nonneg_within hr0 hr ht (flow := fun j => flow j c) (fun j => hf j c) (rows := rows) (c := m)
      (fun i hi => by have := h3 c i hi; linarith) i hi
    exact ⟨x, e, b⟩

end

/-- With the tolerances of the code the cash series can end below zero although the plain sums do not: after an expense of 99.99999995 out
of 100 the rest is swallowed, and the next expense is not covered. -/
theorem C74_tolerance_counterexample : ∃ flow : Nat → F, (∀ j, ∃ q, flow j = fin q) ∧
    autoInitCash Arith.std flow 2 = .ok (fin 100) ∧ cashAt Arith.std (fin 100) flow 1 = fin (-(5 / 100000000)) := by
  refine ⟨fun i => if i = 0 then fin (-(9999999995 / 100000000)) else if i = 1 then fin (-(5 / 100000000)) else fin 0, ?_, ?_,
    by decide +kernel⟩
  · intro j
    dsimp only
    split
    · exact ⟨_, rfl⟩
    · split
      · exact ⟨_, rfl⟩
      · exact ⟨_, rfl⟩
  · obtain ⟨v, h, hv⟩ := okAnd_iff (x := autoInitCash Arith.std (fun i => if i = 0 then fin (-(9999999995 / 100000000)) else
        if i = 1 then fin (-(5 / 100000000)) else fin 0) 2) (f := fun v => decide (v = fin 100)) (by decide +kernel)
    rw [h, of_decide_eq_true hv]

/-- Non-vacuity: flows that need money, and the tolerances of the code. -/
example : ¬ Covers (fun i => [fin (-30), fin 10, fin (-25)].getD i zero) 3 0 ∧ (0 : ℚ) ≤ 1 / 1000000000 ∧ (1 / 1000000000 : ℚ) < 1 := by
  refine ⟨fun h => ?_, by norm_num, by norm_num⟩
  have := h 0 (by omega)
  simp [F.toQ] at this
  norm_num at this

end Vbt
