import Verif.Props.C38
import Verif.Props.C43

/-!
# C44  Drawdown of returns is never positive
-/

namespace Vbt
open F

/-- The expanding maximum of a series without NaN. -/
theorem expandingMax_spec (a : Nat → F) (junk : Nat → F) {len i : Nat} (hi : i < len) (hn : ∀ j ≤ i, (a j).isnan = false) :
    (∃ j ≤ i, expandingMax a 1 junk len i = a j) ∧ ∀ j ≤ i, le (a j) (expandingMax a 1 junk len i) = true := by
  obtain ⟨out, h1, h2⟩ := C38_expanding_max a (window := len) (len := len) (minp := 1) (le_refl _) (by omega) junk junk
  obtain ⟨out', k1, k2⟩ := C38_max a (window := len) (by omega) (minp := some 1) (show 1 ≤ len by omega) junk len
  rw [k1] at h1
  cases h1
  rw [h2 i hi]
  have hmem : ∀ j ≤ i, a j ∈ winObs a len i := fun j hj => mem_winObs.mpr ⟨j, hj, by omega, rfl, hn j hj⟩
  have hne : winObs a len i ≠ [] := fun h => by have := hmem 0 (by omega); rw [h] at this; cases this
  obtain ⟨g1, g2⟩ := (k2 i hi).2 (show 1 ≤ (winObs a len i).length from List.length_pos_iff.mpr hne) hne
  refine ⟨?_, fun j hj => g2 _ (hmem j hj)⟩
  obtain ⟨j, j1, -, j3, -⟩ := mem_winObs.mp g1
  exact ⟨j, j1, j3.symm⟩

/-- The product of one plus the returns up to row `i`; a missing return counts as zero. -/
def growth (rets : Nat → F) : Nat → ℚ
  | 0 => 1 + (rets 0).val
  | i + 1 => growth rets i * (1 + (rets (i + 1)).val)

theorem cumProds_growth {r t : ℚ} {rets : Nat → F} {i : Nat} (hinf : ∀ j ≤ i, (rets j).isinf = false) :
    scanState (fun c i =>
      let c' := if !(rets i).isnan then mul (Arith.exact r t) c (add (Arith.exact r t) (rets i) one) else c
      (c', c')) one (i + 1) = fin (growth rets i) := by
  have step : ∀ (c : ℚ) j, (rets j).isinf = false →
      (if !(rets j).isnan then mul (Arith.exact r t) (fin c) (add (Arith.exact r t) (rets j) one) else fin c) =
        fin (c * (1 + (rets j).val)) := by
    intro c j hj
    cases hr : rets j with
    | nan => simp [isnan, F.val]
    | ninf => rw [hr] at hj; cases hj
    | pinf => rw [hr] at hj; cases hj
    | fin q => simp [isnan, F.val, add_comm]
  induction i with
  | zero =>
    rw [scanState_succ]
    dsimp only
    have := step 1 0 (hinf 0 (le_refl _))
    rw [show scanState _ one 0 = fin 1 from rfl, this, one_mul]
    rfl
  | succ i ih =>
    rw [scanState_succ, ih fun j hj => hinf j (by omega)]
    dsimp only
    rw [step _ _ (hinf _ (le_refl _))]
    rfl

theorem cumReturns_growth {r t : ℚ} {rets : Nat → F} (junk : Nat → F) {len i : Nat} (hi : i < len)
    (hinf : ∀ j ≤ i, (rets j).isinf = false) :
    cumReturns (Arith.exact r t) rets (fin 100) junk len i = fin (growth rets i * 100) := by
  have h := cumProds_growth (r := r) (t := t) hinf
  rw [scanState_succ] at h
  unfold cumReturns cumProds
  rw [if_neg (by simp [eqb])]
  rw [scanRows_out _ _ _ hi]
  dsimp only at h ⊢
  rw [h, mul_exact]

theorem growth_nonneg {rets : Nat → F} {i : Nat} (h : ∀ j ≤ i, -1 ≤ (rets j).val) : 0 ≤ growth rets i := by
  induction i with
  | zero => have := h 0 (le_refl _); unfold growth; linarith
  | succ i ih =>
    have h1 := ih fun j hj => h j (by omega)
    have h2 := h (i + 1) (le_refl _)
    exact mul_nonneg h1 (by linarith)

/-- **C44** (drawdown, partial).  For finite or missing returns of at least -100%, the first one above -100%, every row of
the drawdown is the cumulative return over its highest value so far, less one; it lies between -1 and 0 (exact arithmetic).
Missing: the claim for all returns fails, see the counterexamples. -/
theorem C44_drawdown_partial (r t : ℚ) (rets : Nat → F) (junk junk' : Nat → F) (len : Nat)
    (hinf : ∀ i < len, (rets i).isinf = false) (hlow : ∀ i < len, -1 ≤ (rets i).val) (h0 : -1 < (rets 0).val) :
    ∀ i < len, ∃ j ≤ i, (∀ k ≤ i, growth rets k ≤ growth rets j) ∧ 0 < growth rets j ∧
      drawdown (Arith.exact r t) rets junk junk' len i = fin (growth rets i / growth rets j - 1) ∧
      -1 ≤ growth rets i / growth rets j - 1 ∧ growth rets i / growth rets j - 1 ≤ 0 := by
  intro i hi
  have hcum : ∀ j < len, cumReturns (Arith.exact r t) rets (fin 100) junk len j = fin (growth rets j * 100) :=
    fun j hj => cumReturns_growth junk hj fun k hk => hinf k (by omega)
  obtain ⟨⟨j, j1, j2⟩, h2⟩ := expandingMax_spec (cumReturns (Arith.exact r t) rets (fin 100) junk len) junk' hi
    (fun j hj => by rw [hcum j (by omega)]; rfl)
  rw [j2, hcum j (by omega)] at h2
  have hmax : ∀ k ≤ i, growth rets k ≤ growth rets j := by
    intro k hk
    have := h2 k hk
    rw [hcum k (by omega)] at this
    simp only [le, decide_eq_true_eq] at this
    linarith
  have hg0 : 0 < growth rets 0 := by unfold growth; linarith
  have hgj : 0 < growth rets j := lt_of_lt_of_le hg0 (hmax 0 (by omega))
  have hgi : 0 ≤ growth rets i := growth_nonneg fun k hk => hlow k (by omega)
  refine ⟨j, j1, hmax, hgj, ?_, ?_, ?_⟩
  · unfold drawdown
    rw [j2, hcum i hi, hcum j (by omega), div_exact _ _ _ _ (by positivity), one_def, sub_exact]
    congr 1
    field_simp
  · have : 0 ≤ growth rets i / growth rets j := div_nonneg hgi hgj.le
    linarith
  · have : growth rets i / growth rets j ≤ 1 := (div_le_one hgj).mpr (hmax i (le_refl _))
    linarith

theorem npMin_fin (q : ℚ) (l : List ℚ) :
    ∃ m, npMin ((q :: l).map fin) = .ok (fin m) ∧ m ∈ q :: l ∧ ∀ x ∈ q :: l, m ≤ x := by
  have : ∀ (l : List ℚ) (q : ℚ), ∃ m, (l.map fin).foldl (fun m v => if m.isnan then m else if v.isnan then v
      else if lt v m then v else m) (fin q) = fin m ∧ m ∈ q :: l ∧ ∀ x ∈ q :: l, m ≤ x := by
    intro l
    induction l with
    | nil => intro q; exact ⟨q, rfl, List.mem_singleton.mpr rfl, fun x hx => by rw [List.mem_singleton.mp hx]⟩
    | cons y l ih =>
      intro q
      rw [List.map_cons, List.foldl_cons]
      simp only [isnan, Bool.false_eq_true, if_false, lt, decide_eq_true_eq]
      by_cases h : y < q
      · rw [if_pos h]
        obtain ⟨m, m1, m2, m3⟩ := ih y
        refine ⟨m, m1, List.mem_cons_of_mem _ m2, fun x hx => ?_⟩
        rcases List.mem_cons.mp hx with rfl | hx
        · exact le_trans (m3 y List.mem_cons_self) (le_of_lt h)
        · exact m3 x hx
      · rw [if_neg h]
        obtain ⟨m, m1, m2, m3⟩ := ih q
        refine ⟨m, m1, ?_, fun x hx => ?_⟩
        · rcases List.mem_cons.mp m2 with rfl | hm
          · exact List.mem_cons_self
          · exact List.mem_cons_of_mem _ (List.mem_cons_of_mem _ hm)
        · rcases List.mem_cons.mp hx with rfl | hx
          · exact m3 _ List.mem_cons_self
          · rcases List.mem_cons.mp hx with rfl | hx
            · exact le_trans (m3 q List.mem_cons_self) (not_lt.mp h)
            · exact m3 x (List.mem_cons_of_mem _ hx)
  obtain ⟨m, m1, m2, m3⟩ := this l q
  exact ⟨m, by unfold npMin; rw [List.map_cons]; simp only [m1], m2, m3⟩

/-- **C44** (maximum drawdown, partial).  Under the same conditions the maximum drawdown is the lowest row of the drawdown
and lies between -1 and 0. -/
theorem C44_max_partial (r t : ℚ) (rets : Nat → F) (junk junk' : Nat → F) {len : Nat} (hlen : 0 < len)
    (hinf : ∀ i < len, (rets i).isinf = false) (hlow : ∀ i < len, -1 ≤ (rets i).val) (h0 : -1 < (rets 0).val) :
    ∃ m : ℚ, maxDrawdown (Arith.exact r t) rets junk junk' len = .ok (fin m) ∧ -1 ≤ m ∧ m ≤ 0 ∧
      (∃ i < len, drawdown (Arith.exact r t) rets junk junk' len i = fin m) ∧
      ∀ i < len, ∀ q, drawdown (Arith.exact r t) rets junk junk' len i = fin q → m ≤ q := by
  have hd := C44_drawdown_partial r t rets junk junk' len hinf hlow h0
  have hf : ∃ f : Nat → ℚ, ∀ i < len, drawdown (Arith.exact r t) rets junk junk' len i = fin (f i) ∧ -1 ≤ f i ∧ f i ≤ 0 := by
    refine ⟨fun i => (drawdown (Arith.exact r t) rets junk junk' len i).val, fun i hi => ?_⟩
    obtain ⟨j, -, -, -, h1, h2, h3⟩ := hd i hi
    dsimp only
    rw [h1]
    exact ⟨rfl, h2, h3⟩
  obtain ⟨f, hf⟩ := hf
  have hmap : (List.range len).map (drawdown (Arith.exact r t) rets junk junk' len) = ((List.range len).map f).map fin := by
    rw [List.map_map]
    exact List.map_congr_left fun i hi => (hf i (List.mem_range.mp hi)).1
  obtain ⟨n, rfl⟩ : ∃ n, len = n + 1 := ⟨len - 1, by omega⟩
  rw [List.range_succ_eq_map, List.map_cons (f := f)] at hmap
  obtain ⟨m, m1, m2, m3⟩ := npMin_fin (f 0) ((List.range n).map Nat.succ |>.map f)
  have hmem : ∀ x, x ∈ f 0 :: ((List.range n).map Nat.succ).map f ↔ ∃ i < n + 1, f i = x := by
    intro x
    rw [← List.map_cons, ← List.range_succ_eq_map, List.mem_map]
    simp only [List.mem_range]
  obtain ⟨i, hi, him⟩ := (hmem m).mp m2
  refine ⟨m, ?_, by rw [← him]; exact (hf i hi).2.1, by rw [← him]; exact (hf i hi).2.2, ⟨i, hi, by rw [(hf i hi).1, him]⟩,
    fun k hk q hq => ?_⟩
  · unfold maxDrawdown
    rw [List.range_succ_eq_map, hmap, m1]
  · rw [(hf k hk).1] at hq
    cases hq
    exact m3 _ ((hmem _).mpr ⟨k, hk, rfl⟩)

/-- Returns of -200% and then +100% have a positive drawdown. -/
theorem C44_counterexample_positive :
    drawdown (Arith.exact 0 0) (fun i => [fin (-2), fin 1].getD i nan) (fun _ => zero) (fun _ => zero) 2 1 = fin 1 := by
  decide +kernel

/-- A first return of -100% makes the drawdown NaN. -/
theorem C44_counterexample_total_loss :
    maxDrawdown (Arith.exact 0 0) (fun i => [fin (-1), fin 1].getD i nan) (fun _ => zero) (fun _ => zero) 2 = .ok nan := by
  decide +kernel

/-- The drawdown is measured from the end of the first row: a loss in the first row does not count. -/
theorem C44_first_row (r t : ℚ) (rets : Nat → F) (junk junk' : Nat → F) {len : Nat} (hlen : 0 < len)
    (hinf : (rets 0).isinf = false) (h0 : -1 < (rets 0).val) :
    drawdown (Arith.exact r t) rets junk junk' len 0 = fin 0 := by
  have hc : cumReturns (Arith.exact r t) rets (fin 100) junk len 0 = fin (growth rets 0 * 100) :=
    cumReturns_growth junk hlen fun k hk => by rw [show k = 0 by omega]; exact hinf
  obtain ⟨⟨j, j1, j2⟩, -⟩ := expandingMax_spec (cumReturns (Arith.exact r t) rets (fin 100) junk len) junk' hlen
    (fun j hj => by rw [show j = 0 by omega, hc]; rfl)
  have hj : j = 0 := by omega
  subst hj
  have hg : growth rets 0 ≠ 0 := by unfold growth; intro h; linarith
  unfold drawdown
  rw [j2, hc, div_exact _ _ _ _ (by simpa using hg), one_def, sub_exact]
  congr 1
  field_simp
  ring

/-- Non-vacuity: +10%, -50%, missing, +20%. -/
example : (List.range 4).map (drawdown Arith.std (fun i => [fin (1/10), fin (-1/2), nan, fin (1/5)].getD i nan)
      (fun _ => zero) (fun _ => zero) 4) = [fin 0, fin (-1/2), fin (-1/2), fin (-2/5)] ∧
    maxDrawdown Arith.std (fun i => [fin (1/10), fin (-1/2), nan, fin (1/5)].getD i nan) (fun _ => zero) (fun _ => zero) 4 =
      .ok (fin (-1/2)) := by decide +kernel

end Vbt
