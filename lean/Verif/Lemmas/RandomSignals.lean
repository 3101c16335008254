import Verif.Spec.RandomSignals
import Verif.Lemmas.Signals
import Verif.Lemmas.Double
import Mathlib.Tactic.Linarith
import Mathlib.Tactic.Ring
import Mathlib.Tactic.NormNum
import Mathlib.Tactic.Positivity
import Mathlib.Tactic.FieldSimp
import Mathlib.Data.List.Sort

/-! # Lemmas about random signals -/

namespace Vbt
open F

/-! ## Rounding -/

theorem exact_fine (r t : ℚ) : (Arith.exact r t).Fine where
  sound := exact_sound r t
  bits := fun _ _ => rfl
  near := fun q h _ => ⟨q, rfl, by
    have : (0 : ℚ) ≤ q / 2 ^ 53 := by
      have : (0 : ℚ) < 1 / 2 ^ 53 := by norm_num
      positivity
    linarith⟩

theorem roundEven_half (q : ℚ) : (roundEven q : ℚ) ≤ q + 1 / 2 := by
  have h := Int.floor_le q
  unfold roundEven
  dsimp only
  split_ifs with h1 h2 h3
  · linarith
  · push_cast; linarith
  · linarith
  · have : q - ⌊q⌋ = 1 / 2 := le_antisymm (not_lt.mp h2) (not_lt.mp h1)
    push_cast; linarith

theorem double_fine : Arith.double.Fine where
  sound := double_sound
  bits := by
    intro k hk
    show rndDouble _ = _
    rcases Nat.eq_zero_or_pos k with rfl | h0
    · simpa using rndDouble_zero
    · have hpos : (0 : ℚ) < (k : ℚ) / 2 ^ 53 := by positivity
      rw [rndDouble_pos hpos]
      have hk' : (k : ℚ) ≤ 2 ^ 53 := by exact_mod_cast hk
      refine rndPos_grid (e := -1) (m := k) (by norm_num) ?_ hpos ?_ ?_
      · unfold ulp
        rw [show (-1 : ℤ) - 52 = -53 by norm_num, zpow_neg]
        push_cast
        rw [div_eq_mul_inv]
        norm_cast
      · rw [div_le_iff₀ (by positivity)]
        norm_num
        norm_num at hk'
        exact hk'
      · refine lt_of_le_of_lt (b := 1) ?_ ?_
        · rw [div_le_iff₀ (by positivity)]; linarith
        · exact one_lt_zpow₀ (by norm_num) (by norm_num)
  near := by
    intro q h1 h2
    have hpos : (0 : ℚ) < q := lt_of_lt_of_le (by norm_num) h1
    show ∃ v, rndDouble q = fin v ∧ _
    rw [rndDouble_pos hpos, rndPos_eq]
    have hb : binade q = Int.log 2 q := by
      unfold binade
      have : (-53 : ℤ) ≤ Int.log 2 q := by
        rw [← Int.zpow_le_iff_le_log (by norm_num) hpos]
        rw [zpow_neg]
        have : ((2 : ℕ) : ℚ) ^ (53 : ℤ) = 2 ^ 53 := by norm_cast
        rw [this]
        simpa using h1
      omega
    have hlow : (2 : ℚ) ^ binade q ≤ q := by
      rw [hb]
      exact_mod_cast Int.zpow_log_le_self (R := ℚ) (b := 2) (by norm_num) hpos
    have hu : ulp (binade q) / 2 ≤ q / 2 ^ 53 := by
      have := ulp_mul (binade q)
      have e52 : (2 : ℚ) ^ (52 : ℤ) = 2 ^ 52 := by norm_cast
      rw [e52] at this
      rw [div_le_div_iff₀ (by norm_num) (by norm_num)]
      have : ulp (binade q) * 2 ^ 53 = 2 * (2 : ℚ) ^ binade q := by rw [← this]; ring
      rw [this]; linarith
    have hup : (mantissa q : ℚ) * ulp (binade q) ≤ q + q / 2 ^ 53 := by
      have h := roundEven_half (q / ulp (binade q))
      have hup := ulp_pos (binade q)
      have : (mantissa q : ℚ) * ulp (binade q) ≤ (q / ulp (binade q) + 1 / 2) * ulp (binade q) :=
        mul_le_mul_of_nonneg_right h hup.le
      rw [add_mul, div_mul_cancel₀ _ hup.ne'] at this
      linarith
    have hlt : ¬ (2 : ℚ) ^ (1024 : ℤ) ≤ mantissa q * ulp (binade q) := by
      rw [not_le]
      refine lt_of_le_of_lt hup ?_
      have h3 : q + q / 2 ^ 53 ≤ 2 ^ 54 := by
        have : q / 2 ^ 53 ≤ 1 := by rw [div_le_iff₀ (by positivity)]; linarith
        have : (1 : ℚ) ≤ 2 ^ 53 := by norm_num
        linarith [show (2 : ℚ) ^ 54 = 2 ^ 53 + 2 ^ 53 by norm_num]
      refine lt_of_le_of_lt h3 ?_
      have : (2 : ℚ) ^ 54 = (2 : ℚ) ^ (54 : ℤ) := by norm_cast
      rw [this]
      exact zpow_lt_zpow_right₀ (by norm_num) (by norm_num)
    rw [if_neg hlt]
    exact ⟨_, rfl, hup⟩

/-! ## Floats that sum to one -/

/-- Rounding of a number that is 0 or not tiny. -/
theorem Arith.Fine.step {A : Arith} (hA : A.Fine) {q : ℚ} (h : q = 0 ∨ 1 / 2 ^ 53 ≤ q) (h2 : q ≤ 2 ^ 53) :
    ∃ v : ℚ, A.rnd q = fin v ∧ v ≤ q + q / 2 ^ 53 ∧ (v = 0 ∨ 1 / 2 ^ 53 ≤ v) ∧
      ∀ m : ℤ, |m| ≤ 2 ^ 53 → (m : ℚ) ≤ q → (m : ℚ) ≤ v := by
  have low : ∀ v : ℚ, A.rnd q = fin v → ∀ m : ℤ, |m| ≤ 2 ^ 53 → (m : ℚ) ≤ q → (m : ℚ) ≤ v := by
    intro v hv m hm hq
    have := hA.sound.mono _ _ hq
    rw [hA.sound.int m hm, hv] at this
    exact of_decide_eq_true this
  rcases h with rfl | h
  · have h0 : A.rnd 0 = fin 0 := by simpa using hA.sound.int 0 (by norm_num)
    exact ⟨0, h0, by norm_num, Or.inl rfl, low 0 h0⟩
  · obtain ⟨v, hv, hle⟩ := hA.near q h h2
    refine ⟨v, hv, hle, Or.inr ?_, low v hv⟩
    have := hA.sound.mono _ _ h
    have hb := hA.bits 1 (by norm_num)
    rw [Nat.cast_one] at hb
    rw [hb, hv] at this
    exact of_decide_eq_true this

theorem diffs_unit {A : Arith} (hA : A.Fine) : ∀ (l : List Nat) (a : Nat), (a :: l).Pairwise (· ≤ ·) →
    (∀ x ∈ a :: l, x ≤ 2 ^ 53) →
    ∃ ds : List Nat, ds.length = l.length ∧ ds.sum + a = (a :: l).getLast (List.cons_ne_nil _ _) ∧
      List.zipWith (sub A) (l.map unitFloat) ((a :: l).map unitFloat) = ds.map unitFloat := by
  intro l
  induction l with
  | nil => intro a _ _; exact ⟨[], rfl, by simp, rfl⟩
  | cons b l ih =>
    intro a hs hb
    rw [List.pairwise_cons] at hs
    obtain ⟨ds, h1, h2, h3⟩ := ih b hs.2 (fun x hx => hb x (List.mem_cons_of_mem _ hx))
    have hab : a ≤ b := hs.1 b (by simp)
    have hb' : b ≤ 2 ^ 53 := hb b (by simp)
    refine ⟨(b - a) :: ds, by simp [h1], ?_, ?_⟩
    · rw [List.getLast_cons (List.cons_ne_nil _ _), ← h2, List.sum_cons]
      omega
    · rw [List.map_cons, List.map_cons, List.zipWith_cons_cons, h3, List.map_cons]
      congr 1
      show A.rnd ((b : ℚ) / 2 ^ 53 + -((a : ℚ) / 2 ^ 53)) = _
      have : (b : ℚ) / 2 ^ 53 + -((a : ℚ) / 2 ^ 53) = ((b - a : Nat) : ℚ) / 2 ^ 53 := by
        rw [Nat.cast_sub hab]; ring
      rw [this, hA.bits _ (by omega)]
      rfl

/-- The floats are made of 53 bits and sum to exactly one, in `float64` too. -/
theorem uniform_sums {A : Arith} (hA : A.Fine) {n : Int} (hn : 0 < n) {u : Nat → Nat} (hu : ∀ i, u i < 2 ^ 53) :
    ∃ ds : List Nat, (ds.length : Int) = n ∧ ds.sum = 2 ^ 53 ∧ uniformSummingToOne A n u = .ok (ds.map unitFloat) := by
  unfold uniformSummingToOne
  rw [if_neg (by omega)]
  dsimp only
  set raw := 0 :: 2 ^ 53 :: (List.range (n - 1).toNat).map u with hraw
  have hperm := List.mergeSort_perm raw (fun a b => decide (a ≤ b))
  have hsort : (raw.mergeSort (fun a b => decide (a ≤ b))).Pairwise (· ≤ ·) := by
    have := List.pairwise_mergeSort (le := fun a b : Nat => decide (a ≤ b))
      (by intro a b c; simp only [decide_eq_true_eq]; omega)
      (by intro a b; simp only [Bool.or_eq_true, decide_eq_true_eq]; omega) raw
    exact this.imp (fun h => of_decide_eq_true h)
  have hle : ∀ x ∈ raw, x ≤ 2 ^ 53 := by
    intro x hx
    rw [hraw] at hx
    rcases List.mem_cons.mp hx with rfl | hx
    · exact Nat.zero_le _
    rcases List.mem_cons.mp hx with rfl | hx
    · exact le_refl _
    · obtain ⟨i, _, rfl⟩ := List.mem_map.mp hx
      exact (hu i).le
  cases hp : raw.mergeSort (fun a b => decide (a ≤ b)) with
  | nil =>
    have := hperm.length_eq
    rw [hp] at this
    simp [hraw] at this
  | cons a l =>
    rw [hp] at hperm hsort
    obtain ⟨ds, h1, h2, h3⟩ := diffs_unit hA l a hsort (fun x hx => hle x (hperm.mem_iff.mp hx))
    have hlen : (a :: l).length = raw.length := hperm.length_eq
    have ha : a = 0 := by
      have : 0 ∈ a :: l := hperm.mem_iff.mpr (by rw [hraw]; simp)
      rcases List.mem_cons.mp this with h | h
      · exact h.symm
      · have := (List.pairwise_cons.mp hsort).1 0 h
        omega
    have hlast : (a :: l).getLast (List.cons_ne_nil _ _) = 2 ^ 53 := by
      have hm := List.getLast_mem (List.cons_ne_nil a l)
      have hu' := hle _ (hperm.mem_iff.mp hm)
      have hin : 2 ^ 53 ∈ a :: l := hperm.mem_iff.mpr (by rw [hraw]; simp)
      obtain ⟨k, hk, he⟩ := List.mem_iff_getElem.mp hin
      rw [List.getLast_eq_getElem] at hu' ⊢
      rcases Nat.lt_or_ge k ((a :: l).length - 1) with h | h
      · have := List.pairwise_iff_getElem.mp hsort k ((a :: l).length - 1) hk (by omega) h
        rw [he] at this
        omega
      · have : k = (a :: l).length - 1 := by omega
        subst this
        exact he
    refine ⟨ds, ?_, ?_, ?_⟩
    · rw [h1]
      rw [hraw] at hlen
      simp only [List.length_cons, List.length_map, List.length_range] at hlen
      omega
    · omega
    · rw [List.map_cons, List.tail_cons, ← List.map_cons, h3]

/-! ## From floats to integers -/

theorem bump_spec (l : List Int) (pos : Nat) (hl : l ≠ []) :
    (bump l pos).length = l.length ∧ (bump l pos).sum = l.sum + 1 ∧
      ∀ m : Int, (∀ x ∈ l, m ≤ x) → ∀ x ∈ bump l pos, m ≤ x := by
  have key : ∀ (l : List Int) (k : Nat), k < l.length → (l.modify k (· + 1)).length = l.length ∧
      (l.modify k (· + 1)).sum = l.sum + 1 ∧
      ∀ m : Int, (∀ x ∈ l, m ≤ x) → ∀ x ∈ l.modify k (· + 1), m ≤ x := by
    intro l
    induction l with
    | nil => intro k hk; simp at hk
    | cons a l ih =>
      intro k hk
      cases k with
      | zero =>
        refine ⟨by simp, by simp; ring, ?_⟩
        intro m hm x hx
        simp only [List.modify_zero_cons] at hx
        rcases List.mem_cons.mp hx with rfl | hx
        · have := hm a (by simp); omega
        · exact hm x (List.mem_cons_of_mem _ hx)
      | succ k =>
        obtain ⟨h1, h2, h3⟩ := ih k (by simpa using hk)
        refine ⟨by simp, by simp only [List.modify_succ_cons, List.sum_cons, h2]; ring, ?_⟩
        intro m hm x hx
        simp only [List.modify_succ_cons] at hx
        rcases List.mem_cons.mp hx with rfl | hx
        · exact hm x (by simp)
        · exact h3 m (fun y hy => hm y (List.mem_cons_of_mem _ hy)) x hx
  exact key l _ (Nat.mod_lt _ (List.length_pos_iff.mpr hl))

theorem bumps_spec (pos : Nat → Nat) (ks : List Nat) : ∀ l : List Int, l ≠ [] →
    (ks.foldl (fun l i => bump l (pos i)) l).length = l.length ∧
      (ks.foldl (fun l i => bump l (pos i)) l).sum = l.sum + ks.length ∧
      ∀ m : Int, (∀ x ∈ l, m ≤ x) → ∀ x ∈ ks.foldl (fun l i => bump l (pos i)) l, m ≤ x := by
  induction ks with
  | nil => intro l _; exact ⟨rfl, by simp, fun m h => h⟩
  | cons k ks ih =>
    intro l hl
    obtain ⟨h1, h2, h3⟩ := bump_spec l (pos k) hl
    obtain ⟨g1, g2, g3⟩ := ih (bump l (pos k)) (by
      intro h; rw [h] at h1; exact hl (List.length_eq_zero_iff.mp h1.symm))
    refine ⟨by rw [List.foldl_cons, g1, h1], ?_, fun m hm => g3 m (h3 m hm)⟩
    rw [List.foldl_cons, g2, h2, List.length_cons]
    push_cast
    ring

/-- One float: the number before `np.floor`. -/
theorem renormalize_unit {A : Arith} (hA : A.Fine) {d : Nat} (hd : d ≤ 2 ^ 53) {lo hi : Int} (h0 : 0 ≤ lo) (h1 : lo ≤ hi)
    (h2 : hi ≤ 2 ^ 50) :
    ∃ v : ℚ, renormalize A (unitFloat d) zero one (fin lo) (fin hi) = fin v ∧ (lo : ℚ) ≤ v ∧
      v ≤ ((hi - lo) * ((d : ℚ) / 2 ^ 53) * (1 + 1 / 2 ^ 53) + lo) * (1 + 1 / 2 ^ 53) := by
  have e1 : sub A (fin (hi : ℚ)) (fin (lo : ℚ)) = fin ((hi - lo : ℤ) : ℚ) := by
    show A.rnd ((hi : ℚ) + -(lo : ℚ)) = _
    have : (hi : ℚ) + -(lo : ℚ) = ((hi - lo : ℤ) : ℚ) := by push_cast; ring
    rw [this]
    exact hA.sound.int _ (by rw [abs_le]; constructor <;> omega)
  have e2 : sub A (unitFloat d) zero = unitFloat d := by
    show A.rnd ((d : ℚ) / 2 ^ 53 + -0) = _
    rw [neg_zero, add_zero, hA.bits d hd]
    rfl
  have e3 : sub A one zero = fin 1 := by
    show A.rnd (1 + -0) = _
    rw [neg_zero, add_zero]
    simpa using hA.sound.int 1 (by norm_num)
  have hdelta : (0 : ℚ) ≤ ((hi - lo : ℤ) : ℚ) := by exact_mod_cast (by omega : (0 : ℤ) ≤ hi - lo)
  have hdle : (d : ℚ) / 2 ^ 53 ≤ 1 := by
    rw [div_le_iff₀ (by positivity), one_mul]; exact_mod_cast hd
  have hhi : ((hi - lo : ℤ) : ℚ) ≤ 2 ^ 50 := by exact_mod_cast (by omega : hi - lo ≤ 2 ^ 50)
  have hloq : (lo : ℚ) ≤ 2 ^ 50 := by exact_mod_cast (by omega : lo ≤ 2 ^ 50)
  have hlo0 : (0 : ℚ) ≤ (lo : ℚ) := by exact_mod_cast h0
  set q := ((hi - lo : ℤ) : ℚ) * ((d : ℚ) / 2 ^ 53) with hq
  have hq0 : 0 ≤ q := by positivity
  have hqle : q ≤ 2 ^ 50 := le_trans (mul_le_of_le_one_right hdelta hdle) hhi
  obtain ⟨p, hp, hpu, hpz, hpl⟩ := hA.step (q := q) (by
    rcases Nat.eq_zero_or_pos d with hd0 | hd0
    · left; rw [hq, hd0]; simp
    rcases eq_or_lt_of_le (by omega : (0 : ℤ) ≤ hi - lo) with h | h
    · left; rw [hq, ← h]; simp
    · right
      rw [hq, ← mul_div_assoc]
      refine div_le_div_of_nonneg_right ?_ (by norm_num)
      have a1 : (1 : ℚ) ≤ ((hi - lo : ℤ) : ℚ) := by exact_mod_cast h
      have a2 : (1 : ℚ) ≤ (d : ℚ) := by exact_mod_cast hd0
      nlinarith) (le_trans hqle (by norm_num))
  have hp0 : (0 : ℚ) ≤ p := by simpa using hpl 0 (by norm_num) (by simpa using hq0)
  have hple : p ≤ 2 ^ 51 := by
    have : q / 2 ^ 53 ≤ 1 := by rw [div_le_iff₀ (by positivity)]; linarith [show (2 : ℚ) ^ 50 ≤ 2 ^ 53 by norm_num]
    have : (2 : ℚ) ^ 51 = 2 ^ 50 + 2 ^ 50 := by norm_num
    have : (1 : ℚ) ≤ 2 ^ 50 := by norm_num
    linarith
  obtain ⟨v, hv, hvu, _, hvl⟩ := hA.step (q := p + lo) (by
    rcases hpz with h | h
    · rcases eq_or_lt_of_le h0 with h' | h'
      · left; rw [h, ← h']; simp
      · right
        have a1 : (1 : ℚ) ≤ (lo : ℚ) := by exact_mod_cast h'
        have : (1 : ℚ) / 2 ^ 53 ≤ 1 := by norm_num
        linarith
    · right; linarith) (by
      have : (2 : ℚ) ^ 53 = 2 ^ 51 + 2 ^ 50 + 5 * 2 ^ 50 := by norm_num
      have : (0 : ℚ) ≤ 5 * 2 ^ 50 := by norm_num
      linarith)
  refine ⟨v, ?_, ?_, ?_⟩
  · unfold renormalize
    rw [e1, e2, e3]
    show add A (div A (A.rnd (((hi - lo : ℤ) : ℚ) * ((d : ℚ) / 2 ^ 53))) (fin 1)) (fin (lo : ℚ)) = _
    rw [← hq, hp]
    show add A (if (1 : ℚ) = 0 then infMul p else A.rnd (p / 1)) (fin (lo : ℚ)) = _
    rw [if_neg one_ne_zero, div_one, hA.sound.idem _ _ hp]
    exact hv
  · exact hvl lo (by rw [abs_le]; constructor <;> omega) (by linarith)
  · have e : ((hi - lo) * ((d : ℚ) / 2 ^ 53) * (1 + 1 / 2 ^ 53) + lo) * (1 + 1 / 2 ^ 53) =
        (q + q / 2 ^ 53 + lo) + (q + q / 2 ^ 53 + lo) / 2 ^ 53 := by
      rw [hq]; push_cast; ring
    rw [e]
    refine le_trans hvu ?_
    have : (p + lo) / 2 ^ 53 ≤ (q + q / 2 ^ 53 + lo) / 2 ^ 53 := div_le_div_of_nonneg_right (by linarith) (by norm_num)
    linarith

/-- The integers are at least `lo` and their sum is the total: nothing is lost or added by rounding. -/
theorem rescale_spec {A : Arith} (hA : A.Fine) {ds : List Nat} (hs : ds.sum = 2 ^ 53) {lo hi total : Int} (h0 : 0 ≤ lo)
    (h1 : lo ≤ hi) (ht : total = hi - lo + ds.length * lo) (h2 : total ≤ 2 ^ 50) (pos : Nat → Nat) :
    (rescaleFloatToInt A (ds.map unitFloat) lo hi total pos).length = ds.length ∧
      (rescaleFloatToInt A (ds.map unitFloat) lo hi total pos).sum = total ∧
      ∀ x ∈ rescaleFloatToInt A (ds.map unitFloat) lo hi total pos, lo ≤ x := by
  have hne : ds ≠ [] := by rintro rfl; simp at hs
  have hlen : 1 ≤ ds.length := List.length_pos_iff.mpr hne
  have hhi : hi ≤ 2 ^ 50 := by
    have : lo ≤ ds.length * lo := by
      have : (1 : ℤ) ≤ (ds.length : ℤ) := by exact_mod_cast hlen
      nlinarith
    omega
  have key : ∀ l : List Nat, (∀ d ∈ l, d ≤ 2 ^ 53) →
      (∀ x ∈ (l.map unitFloat).map (fun f => floorInt (renormalize A f zero one (fin lo) (fin hi))), lo ≤ x) ∧
      ((((l.map unitFloat).map (fun f => floorInt (renormalize A f zero one (fin lo) (fin hi)))).sum : ℤ) : ℚ) ≤
        ((hi - lo) * ((l.sum : ℚ) / 2 ^ 53) * (1 + 1 / 2 ^ 53) + l.length * lo) * (1 + 1 / 2 ^ 53) := by
    intro l
    induction l with
    | nil => intro _; simp
    | cons d l ih =>
      intro hd
      obtain ⟨i1, i2⟩ := ih (fun x hx => hd x (List.mem_cons_of_mem _ hx))
      obtain ⟨v, hv, v1, v2⟩ := renormalize_unit hA (hd d (by simp)) h0 h1 hhi
      have hfl : (lo : ℤ) ≤ ⌊v⌋ := Int.le_floor.mpr v1
      constructor
      · intro x hx
        rw [List.map_cons, List.map_cons, hv] at hx
        rcases List.mem_cons.mp hx with rfl | hx
        · exact hfl
        · exact i1 x hx
      · rw [List.map_cons, List.map_cons, List.sum_cons, hv, List.sum_cons, List.length_cons]
        have := Int.floor_le v
        show ((⌊v⌋ + _ : ℤ) : ℚ) ≤ _
        push_cast at i2 ⊢
        have e : ((hi - lo : ℚ) * (((d : ℚ) + (l.sum : ℚ)) / 2 ^ 53) * (1 + 1 / 2 ^ 53) + ((l.length : ℚ) + 1) * lo) * (1 + 1 / 2 ^ 53) =
            ((hi - lo) * ((d : ℚ) / 2 ^ 53) * (1 + 1 / 2 ^ 53) + lo) * (1 + 1 / 2 ^ 53) +
            ((hi - lo) * ((l.sum : ℚ) / 2 ^ 53) * (1 + 1 / 2 ^ 53) + l.length * lo) * (1 + 1 / 2 ^ 53) := by ring
        linarith
  have hall : ∀ d ∈ ds, d ≤ 2 ^ 53 := fun d hd => hs ▸ List.single_le_sum (fun _ _ => Nat.zero_le _) d hd
  obtain ⟨k1, k2⟩ := key ds hall
  unfold rescaleFloatToInt
  dsimp only
  set ints := (ds.map unitFloat).map (fun f => floorInt (renormalize A f zero one (fin lo) (fin hi))) with hints
  have hil : ints.length = ds.length := by rw [hints]; simp
  have hine : ints ≠ [] := by intro h; rw [h] at hil; simp at hil; omega
  have hle : ints.sum ≤ total := by
    have t0 : 0 ≤ total := by
      have : (0 : ℤ) ≤ (ds.length : ℤ) * lo := by positivity
      omega
    rw [hs] at k2
    have hq : ((2 ^ 53 : ℕ) : ℚ) / 2 ^ 53 = 1 := by norm_num
    rw [hq, mul_one] at k2
    have htq : (total : ℚ) = hi - lo + ds.length * lo := by exact_mod_cast ht
    have hl0 : (0 : ℚ) ≤ ds.length * lo := by
      have : (0 : ℚ) ≤ (lo : ℚ) := by exact_mod_cast h0
      positivity
    have htb : (total : ℚ) ≤ 2 ^ 50 := by exact_mod_cast h2
    have ht0 : (0 : ℚ) ≤ (total : ℚ) := by exact_mod_cast t0
    have hlt : (ints.sum : ℚ) < total + 1 := by
      refine lt_of_le_of_lt k2 ?_
      have s1 : ((hi - lo : ℚ)) * (1 + 1 / 2 ^ 53) + ds.length * lo ≤ total * (1 + 1 / 2 ^ 53) := by
        rw [htq]; nlinarith
      have s2 : (((hi - lo : ℚ)) * (1 + 1 / 2 ^ 53) + ds.length * lo) * (1 + 1 / 2 ^ 53) ≤
          total * (1 + 1 / 2 ^ 53) * (1 + 1 / 2 ^ 53) := mul_le_mul_of_nonneg_right s1 (by norm_num)
      refine lt_of_le_of_lt s2 ?_
      have s3 : (total : ℚ) * (1 + 1 / 2 ^ 53) * (1 + 1 / 2 ^ 53) = total + total * (2 / 2 ^ 53 + 1 / 2 ^ 106) := by ring
      rw [s3]
      have s4 : (total : ℚ) * (2 / 2 ^ 53 + 1 / 2 ^ 106) ≤ 2 ^ 50 * (2 / 2 ^ 53 + 1 / 2 ^ 106) :=
        mul_le_mul_of_nonneg_right htb (by norm_num)
      have s5 : (2 : ℚ) ^ 50 * (2 / 2 ^ 53 + 1 / 2 ^ 106) < 1 := by norm_num
      linarith
    have : ints.sum < total + 1 := by exact_mod_cast hlt
    omega
  obtain ⟨b1, b2, b3⟩ := bumps_spec pos (List.range (total - ints.sum).toNat) ints hine
  refine ⟨by rw [b1, hil], ?_, b3 lo k1⟩
  rw [b2, List.length_range]
  omega

end Vbt
