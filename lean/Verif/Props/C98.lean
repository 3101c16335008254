import Verif.Lemmas.RustDeviations
import Verif.Lemmas.RustGroups
import Verif.Lemmas.Witness
import Verif.Props.C96

/-!
# C98 — reductions and statistics on the Rust engine

`rust/src/generic.rs` against `generic/nb.py`.
-/

namespace Vbt
open F RsGen RsRet

/-! ## Masks -/

/-- **C98** (masks).  Setting values by a mask does not depend on the engine or the layouts. -/
theorem C98_mask (a : View2) (mask : RsRed.Mask2) (value : F) :
    CellsOf a.nrows a.ncols (RsRed.setByMask a mask value) (setByMask a.get mask.get value a.nrows a.ncols) := by
  obtain ⟨v, h1, h2⟩ := RsRed.setByMask_get a mask value
  refine ⟨v, h1, fun i hi c hc => ?_⟩
  rw [h2 i hi c hc]
  show (if mask.get i c then value else a.get i c) = _
  unfold setByMask
  rw [RsRed.mask_cells mask.get (fun _ _ => value)]
  by_cases h : mask.get i c = true
  · rw [if_pos h, if_pos ⟨hc, hi, h⟩]
  · rw [if_neg h, if_neg (by tauto)]

/-- **C98** (masks with arrays of values). -/
theorem C98_mask_mult (a : View2) (mask : RsRed.Mask2) (values : View2) (hr : values.nrows = a.nrows) (hn : values.ncols = a.ncols) :
    CellsOf a.nrows a.ncols (RsRed.setByMaskMult a mask values) (setByMaskMult a.get mask.get values.get a.nrows a.ncols) := by
  obtain ⟨v, h1, h2⟩ := RsRed.setByMaskMult_get a mask values hr hn
  refine ⟨v, h1, fun i hi c hc => ?_⟩
  rw [h2 i hi c hc]
  show (if mask.get i c then values.get i c else a.get i c) = _
  unfold setByMaskMult
  rw [RsRed.mask_cells mask.get values.get]
  by_cases h : mask.get i c = true
  · rw [if_pos h, if_pos ⟨hc, hi, h⟩]
  · rw [if_neg h, if_neg (by tauto)]

/-- **C98** (missing values). -/
theorem C98_fillna (a : View2) (value : F) {i c : Nat} (hi : i < a.nrows) (hc : c < a.ncols) :
    RsRed.fillna a value i c = fillna a.get value a.nrows a.ncols i c := by
  rw [RsRed.fillna_get a value hi hc]
  unfold fillna setByMask
  rw [RsRed.mask_cells (fun i c => (a.get i c).isnan) (fun _ _ => value)]
  by_cases h : (a.get i c).isnan = true
  · rw [if_pos h, if_pos ⟨hc, hi, h⟩]
  · rw [if_neg h, if_neg (by tauto)]

/-- **C98** (masks of one column).  The functions of 1-dim arrays. -/
theorem C98_mask_1d (a : Nat → F) (mask : Nat → Bool) (values : Nat → F) (value : F) (len : Nat) :
    RsRed.setByMask1 (slice a 0 len) (slice mask 0 len) value = slice (setByMask1 a mask value len) 0 len ∧
    RsRed.setByMaskMult1 (slice a 0 len) (slice mask 0 len) (slice values 0 len) = slice (setByMaskMult1 a mask values len) 0 len ∧
    RsRed.fillna1 (slice a 0 len) value = slice (fillna1 a value len) 0 len := by
  unfold RsRed.setByMask1 RsRed.setByMaskMult1 RsRed.fillna1 fillna1 setByMask1 setByMaskMult1 slice
  refine ⟨?_, ?_, ?_⟩
  · rw [List.zip_map', List.map_map]
    refine List.map_congr_left fun i hi => ?_
    have hi := List.mem_range.mp hi
    rw [RsRed.mask_fold mask (fun _ => value)]
    simp only [Function.comp, Nat.zero_add, hi, true_and]
  · rw [List.zip_map', List.zip_map', List.map_map]
    refine List.map_congr_left fun i hi => ?_
    have hi := List.mem_range.mp hi
    rw [RsRed.mask_fold mask values]
    simp only [Function.comp, Nat.zero_add, hi, true_and]
  · rw [List.map_map]
    refine List.map_congr_left fun i hi => ?_
    have hi := List.mem_range.mp hi
    rw [RsRed.mask_fold (fun i => (a i).isnan) (fun _ => value)]
    simp only [Function.comp, Nat.zero_add, hi, true_and]

/-! ## Sums, products, means and extremes -/

/-- **C98** (cumulative sums and products), for every rounding. -/
theorem C98_cumulative (A : Arith) (a : View2) (junk : Nat → F) {i c : Nat} (hi : i < a.nrows) (hc : c < a.ncols) :
    RsRed.nancumsum A a i c = nancumsum A (a.column c) junk a.nrows i ∧
    RsRed.nancumprod A a i c = nancumprod A (a.column c) junk a.nrows i :=
  ⟨RsRed.nancumsum_get A a junk hi hc, RsRed.nancumprod_get A a junk hi hc⟩

/-- **C98** (sums, products, counts, means), for every rounding. -/
theorem C98_sums (A : Arith) (a : View2) :
    EntriesOf a.ncols (RsRed.nansum A a) (fun c => nansum A (colList a c)) ∧
    EntriesOf a.ncols (RsRed.nanprod A a) (fun c => nanprod A (colList a c)) ∧
    EntriesOf a.ncols (RsRed.nanmean A a) (fun c => nanmean A (colList a c)) ∧
    ∃ v, RsRed.nancnt a = .ok v ∧ ∀ c < a.ncols, v c = countReduce (colList a c) :=
  ⟨RsRed.nansum_get A a, RsRed.nanprod_get A a, RsRed.nanmean_get A a, RsRed.nancnt_get a⟩

/-- **C98** (least and greatest values) of arrays with a row. -/
theorem C98_extremes (a : View2) (hr : 0 < a.nrows) {c : Nat} (hc : c < a.ncols) :
    minReduce (colList a c) = .ok (RsRed.nanbest lt a c) ∧ maxReduce (colList a c) = .ok (RsRed.nanbest gt a c) := by
  have hne : colList a c ≠ [] := fun h => by
    have := colList_length a c
    rw [h, List.length_nil] at this
    omega
  unfold RsRed.nanbest minReduce maxReduce
  rw [reduceCols_get _ _ hc, reduceCols_get _ _ hc]
  refine ⟨RsRed.best1_eq lt (fun x y h => ?_) hne, RsRed.best1_eq gt (fun x y h => ?_) hne⟩
  · cases x <;> simp_all [lt, isnan]
  · cases x <;> cases y <;> simp_all [gt, lt, isnan]

/-- **C98** (arrays without rows).  The Numba engine raises, the Rust engine returns NaN. -/
theorem C98_extremes_empty (a : View2) (hr : a.nrows = 0) {c : Nat} (hc : c < a.ncols) :
    minReduce (colList a c) = .error (.valueError "zero-size array") ∧ RsRed.nanbest lt a c = nan ∧ RsRed.nanbest gt a c = nan := by
  have he : colList a c = [] := List.length_eq_zero_iff.mp (by rw [colList_length, hr])
  unfold RsRed.nanbest
  rw [reduceCols_get _ _ hc, reduceCols_get _ _ hc, he]
  exact ⟨rfl, rfl, rfl⟩

/-- **C98** (medians), for every rounding and every way to select the element in the middle. -/
theorem C98_median (A : Arith) {arrange : List F → Nat → List F} (ha : Arranges arrange) (a : View2) {c : Nat} (hc : c < a.ncols) :
    RsRed.nanmedian A arrange a c = nanmedian A (colList a c) := by
  unfold RsRed.nanmedian
  rw [reduceCols_get _ _ hc, RsRed.nanmedian1_eq A ha]

/-! ## Deviations and summaries -/

/-- **C98** (deviations).  In exact arithmetic the loop in one pass over arrays in standard layout and the one in two passes both
give the deviation of the Numba engine, also with infinite values. -/
theorem C98_std_partial {r t : ℚ} {sqrt : F → F} (hs : sqrt nan = nan) (a : View2) (ddof : Nat) :
    EntriesOf a.ncols (RsRed.nanstd (Arith.exact r t) sqrt a ddof) fun c => nanstd (Arith.exact r t) sqrt (colList a c) ddof :=
  RsRed.nanstd_get hs a ddof

/-- **C98** (deviations in doubles).  The deviation of large numbers depends on the layout. -/
theorem C98_std_layout_differs :
    (∃ v, RsRed.nanstd Arith.double id (wColumn [F.fin (10 ^ 9 + 1), F.fin (10 ^ 9 + 2), F.fin (10 ^ 9 + 3)] true) 0 = .ok v ∧
      decide (v 0 = F.fin 0) = true) ∧
    (∃ v, RsRed.nanstd Arith.double id (wColumn [F.fin (10 ^ 9 + 1), F.fin (10 ^ 9 + 2), F.fin (10 ^ 9 + 3)] false) 0 = .ok v ∧
      decide (v 0 = nanstd Arith.double id [F.fin (10 ^ 9 + 1), F.fin (10 ^ 9 + 2), F.fin (10 ^ 9 + 3)] 0) = true) ∧
    gt (nanstd Arith.double id [F.fin (10 ^ 9 + 1), F.fin (10 ^ 9 + 2), F.fin (10 ^ 9 + 3)] 0) (F.fin (1 / 2)) = true :=
  ⟨okAnd_iff (f := fun v : Nat → F => decide (v 0 = F.fin 0)) (by decide +kernel),
    okAnd_iff (f := fun v : Nat → F => decide (v 0 = nanstd Arith.double id
      [F.fin (10 ^ 9 + 1), F.fin (10 ^ 9 + 2), F.fin (10 ^ 9 + 3)] 0)) (by decide +kernel), by decide +kernel⟩

/-- **C98** (summaries).  In exact arithmetic, of columns without infinite values and percentiles from 0 to 1, count, mean,
deviation, least value, percentiles and greatest value do not depend on the engine. -/
theorem C98_describe_partial {r t : ℚ} {sqrt : F → F} (hs : sqrt nan = nan) {l : List F} (hl : NoInf l) {perc : List ℚ}
    (hp : ∀ c ∈ perc, 0 ≤ c ∧ c ≤ 1) (ddof : Nat) :
    RsRed.describe (Arith.exact r t) sqrt l perc ddof = describe (Arith.exact r t) sqrt l perc ddof :=
  RsRed.describe_exact hs hl hp ddof

/-- **C98** (summaries in doubles).  The Rust engine sorts before it adds up, so that the mean differs. -/
theorem C98_describe_differs :
    (∃ v, RsRed.describe Arith.double id [F.fin (10 ^ 17), F.fin (-10 ^ 17), F.fin 3] [] 1 = .ok v ∧ decide (v[1]? = some (F.fin 0)) = true) ∧
    ∃ v, describe Arith.double id [F.fin (10 ^ 17), F.fin (-10 ^ 17), F.fin 3] [] 1 = .ok v ∧ decide (v[1]? = some (F.fin 1)) = true :=
  ⟨okAnd_iff (f := fun v : List F => decide (v[1]? = some (F.fin 0))) (by decide +kernel),
    okAnd_iff (f := fun v : List F => decide (v[1]? = some (F.fin 1))) (by decide +kernel)⟩

/-! ## Elements -/

/-- **C98** (elements).  Elements by position, their positions, and whether any is not zero; with the same errors. -/
theorem C98_elements (l : List F) (n : Int) :
    RsRed.nthReduce l n = nthReduce l n ∧ RsRed.nthIndexReduce l n = nthIndexReduce l n ∧ RsRed.anySqueeze l = anySqueeze l :=
  ⟨RsRed.nthReduce_eq l n, RsRed.nthIndexReduce_eq l n, rfl⟩

/-! ## Groups of columns -/

/-- **C98** (flattening).  The list of a 2-dim array column by column. -/
theorem C98_flatten (a : View2) (junk : Nat → F) :
    (RsRed.flattenF a).length = a.nrows * a.ncols ∧
      ∀ p < a.nrows * a.ncols, (RsRed.flattenF a)[p]? = some (flattenF a.get junk a.nrows a.ncols p) :=
  RsRed.flattenF_eq a junk

/-- **C98** (flattening groups).  One column per group, in either order, for groups that do not exceed the columns. -/
theorem C98_flatten_grouped (a : View2) {lens : List Nat} (hs : lens.sum ≤ a.ncols) (inC : Bool) :
    RsRed.flattenGrouped a (lens.map fun n : Nat => (n : Int)) inC = .ok (flattenGrouped a.get lens inC a.nrows) :=
  RsRed.flattenGrouped_eq a hs inC

/-- **C98** (flattening uniform groups).  What the Numba engine leaves uninitialised for groups of different lengths is NaN; for
groups of one length nothing is left. -/
theorem C98_flatten_uniform (a : View2) {lens : List Nat} (hs : lens.sum ≤ a.ncols)
    (hu : (lens.all fun n => n == lens.getD 0 0) = true) (inC : Bool) (junk : Nat → Nat → F) {p g : Nat}
    (hp : p < a.nrows * maxLen lens) (hg : g < lens.length) :
    ∃ v, RsRed.flattenGrouped a (lens.map fun n : Nat => (n : Int)) inC = .ok v ∧ v p g = flattenUniform a.get lens inC junk a.nrows p g := by
  refine ⟨_, RsRed.flattenGrouped_eq a hs inC, ?_⟩
  unfold flattenGrouped flattenUniform
  rw [flattenLoop_eq, flattenLoop_eq]
  have hm := maxLen_uniform hu hg
  have hpos : 0 < maxLen lens := by
    rcases Nat.eq_zero_or_pos (maxLen lens) with h | h
    · rw [h] at hp; omega
    · exact h
  have hin : (if inC = true then p % maxLen lens else p / a.nrows) < lens.getD g 0 := by
    rw [← hm]
    cases inC with
    | true => exact Nat.mod_lt _ hpos
    | false => exact Nat.div_lt_of_lt_mul hp
  have hall : g < lens.length ∧ p < a.nrows * maxLen lens ∧ (if inC = true then p % maxLen lens else p / a.nrows) < lens.getD g 0 :=
    ⟨hg, hp, hin⟩
  rw [if_pos hall, if_pos hall]

/-- **C98** (value counts) of codes within the list of values and groups that do not exceed the columns. -/
theorem C98_value_counts {codes : Nat → Nat → Int} {nrows ncols nUniques : Nat} {lens : List Nat} (hs : lens.sum ≤ ncols)
    (hc : ∀ i < nrows, ∀ c < lens.sum, 0 ≤ codes i c ∧ codes i c < nUniques) :
    RsRed.valueCounts codes nrows ncols nUniques (lens.map fun n : Nat => (n : Int)) = .ok (valueCountsInt codes nUniques lens nrows) :=
  RsRed.valueCounts_eq hs hc

/-- **C98** (other codes).  A code of -1 counts as the last value in the Numba engine and is refused by the Rust engine. -/
theorem C98_negative_code_differs :
    valueCountsInt (fun _ _ => -1) 3 [1] 2 2 0 = 2 ∧
    RsRed.valueCounts (fun _ _ => -1) 2 1 3 [1] = .error (.valueError "codes must be in [0, n_uniques)") :=
  ⟨by decide +kernel, raised_iff.mp (by decide +kernel)⟩

/-- **C98** (refusals).  Negative group lengths, and groups that exceed the columns. -/
theorem C98_refused :
    (∀ (a : View2) (inC : Bool) (lens : List Int), (∃ n ∈ lens, n < 0) →
      RsRed.flattenGrouped a lens inC = .error (.valueError "group_lens must be non-negative")) ∧
    ∀ (codes : Nat → Nat → Int) (nrows ncols nUniques n : Nat), ncols < n →
      RsRed.valueCounts codes nrows ncols nUniques [(n : Int)] = .error (.valueError "group_lens exceed number of columns") := by
  refine ⟨fun a inC lens h => ?_, fun codes nrows ncols nUniques n h => ?_⟩
  · have hv : RsRed.validateLens lens = .error (.valueError "group_lens must be non-negative") := by
      unfold RsRed.validateLens
      induction lens with
      | nil => obtain ⟨n, hn, -⟩ := h; cases hn
      | cons m lens ih =>
        unfold mapE
        by_cases hm : m < 0
        · rw [if_pos hm]
        · rw [if_neg hm]
          dsimp only
          rw [ih (by
            obtain ⟨n, hn, hlt⟩ := h
            rcases List.mem_cons.mp hn with rfl | hn
            · exact absurd hlt hm
            · exact ⟨n, hn, hlt⟩)]
    unfold RsRed.flattenGrouped
    rw [hv]
  · have hv := RsRed.validate_ok [n]
    unfold RsRed.valueCounts
    rw [show ([(n : Int)] : List Int) = [n].map fun n : Nat => (n : Int) from rfl, hv]
    show (match loopE (RsRed.countGroup codes nrows ncols nUniques) (0, fun _ _ => 0) [(n, 0)] with
      | .error e => Except.error e | .ok s => .ok s.2) = _
    unfold loopE RsRed.countGroup
    rw [if_pos (by simpa using h)]

/-! ## Drawdown arrays -/

/-- **C98** (drawdown arrays).  Drawdowns, durations, ratios and recoveries of arrays of any lengths: both engines return the
same, or both raise `ValueError`. -/
theorem C98_drawdowns (A : Arith) (peak valley : List F) (start low stop : List Int) :
    SameOutcome (RsRed.ddDrawdowns A peak valley) (ddDrawdowns A peak valley) ∧
    SameOutcome (RsRed.ddRecoveryReturns A peak valley) (ddRecoveryReturns A peak valley) ∧
    SameOutcome (RsRed.ddDeclines start low) (ddDeclines start low) ∧
    SameOutcome (RsRed.ddRecoveries low stop) (ddRecoveries low stop) ∧
    SameOutcome (RsRed.ddRecoveryRatios A start low stop) (ddRecoveryRatios A start low stop) := by
  refine ⟨RsRed.chain_same A peak valley, RsRed.chain_same A peak valley, ?_, ?_, RsRed.ratio_same A start low stop⟩
  · have h := RsRed.swap_same (fun x y : Int => x - y) start low fun x => x + 1
    unfold ddDeclines
    cases hz : npZip (fun x y : Int => x - y) low start with
    | error e => rw [hz] at h; exact h
    | ok d => rw [hz] at h; exact h
  · have h := RsRed.swap_same (fun x y : Int => x - y) low stop id
    unfold ddRecoveries
    cases hz : npZip (fun x y : Int => x - y) stop low with
    | error e => rw [hz] at h; exact h
    | ok d =>
      rw [hz] at h
      have e : Except.map (List.map id) (Except.ok d : Except Err (List Int)) = .ok d := by simp [Except.map]
      rw [e] at h
      exact h

/-! ## Examples -/

/-- Two columns with a missing value. -/
def wTable (b : Bool) : View2 := ⟨3, 2, fun i c => if i = 1 ∧ c = 0 then nan else F.fin (3 * i + 2 * c - 2 : Int), b⟩

example (b : Bool) : okAnd (RsRed.setByMask (wTable b) ⟨fun i c => i == c, !b⟩ (F.fin 9)) (fun v => decide (v 1 1 = F.fin 9 ∧ v 2 1 = F.fin 6)) = true ∧
    CellsOf 3 2 (RsRed.setByMask (wTable b) ⟨fun i c => i == c, !b⟩ (F.fin 9)) (setByMask (wTable b).get (fun i c => i == c) (F.fin 9) 3 2) :=
  ⟨by cases b <;> decide +kernel, C98_mask (wTable b) _ _⟩

example (b : Bool) : okAnd (RsRed.setByMaskMult (wTable b) ⟨fun i c => i == c, b⟩ (wTable b)) (fun v => decide (v 2 0 = F.fin 4)) = true ∧
    CellsOf 3 2 (RsRed.setByMaskMult (wTable b) ⟨fun i c => i == c, b⟩ (wTable b)) (setByMaskMult (wTable b).get (fun i c => i == c) (wTable b).get 3 2) :=
  ⟨by cases b <;> decide +kernel, C98_mask_mult (wTable b) _ (wTable b) rfl rfl⟩

example (b : Bool) : RsRed.fillna (wTable b) one 1 0 = one ∧
    RsRed.fillna (wTable b) one 1 0 = fillna (wTable b).get one 3 2 1 0 :=
  ⟨by cases b <;> decide +kernel, C98_fillna (wTable b) one (show 1 < 3 by decide) (show 0 < 2 by decide)⟩

example : RsRed.setByMask1 [one, nan, F.fin 3] [true, false, true] zero = [zero, nan, zero] ∧
    RsRed.fillna1 [one, nan, F.fin 3] zero = [one, zero, F.fin 3] := by decide +kernel

example (b : Bool) : RsRed.nancumsum (Arith.exact 0 0) (wTable b) 2 0 = F.fin 2 ∧
    RsRed.nancumprod (Arith.exact 0 0) (wTable b) 2 0 = nancumprod (Arith.exact 0 0) ((wTable b).column 0) (fun _ => zero) 3 2 :=
  ⟨by cases b <;> decide +kernel, (C98_cumulative _ (wTable b) _ (show 2 < 3 by decide) (show 0 < 2 by decide)).2⟩

example (b : Bool) : okAnd (RsRed.nanmean (Arith.exact 0 0) (wTable b)) (fun v => decide (v 0 = F.fin 1 ∧ v 1 = F.fin 3)) = true ∧
    EntriesOf 2 (RsRed.nanmean (Arith.exact 0 0) (wTable b)) (fun c => nanmean (Arith.exact 0 0) (colList (wTable b) c)) :=
  ⟨by cases b <;> decide +kernel, (C98_sums _ (wTable b)).2.2.1⟩

example (b : Bool) : RsRed.nanbest lt (wTable b) 0 = F.fin (-2) ∧ maxReduce (colList (wTable b) 0) = .ok (RsRed.nanbest gt (wTable b) 0) :=
  ⟨by cases b <;> decide +kernel, (C98_extremes (wTable b) (show 0 < 3 by decide) (show 0 < 2 by decide)).2⟩

example : RsRed.nanbest gt ⟨0, 1, fun _ _ => one, true⟩ 0 = nan :=
  (C98_extremes_empty ⟨0, 1, fun _ _ => one, true⟩ rfl (show 0 < 1 by decide)).2.2

/-- Sorting arranges around every position. -/
theorem sort_arranges : Arranges fun l _ => l.insertionSort fun x y => sortLe x y = true := by
  intro l hn k hk
  have hp : (l.insertionSort fun x y => sortLe x y = true).Perm l := List.perm_insertionSort _ _
  set s := l.insertionSort fun x y => sortLe x y = true with hs
  have hlen : s.length = l.length := hp.length_eq
  have hsorted : s.Pairwise fun x y => sortLe x y = true := List.pairwise_insertionSort _ _
  have hn' : ∀ x ∈ s, x.isnan = false := fun x hx => hn x (hp.mem_iff.mp hx)
  have hsplit : s = s.take k ++ s[k]'(by omega) :: s.drop (k + 1) := by
    rw [List.getElem_cons_drop, List.take_append_drop]
  have hord : ∀ i j, ∀ (hij : i ≤ j) (hj : j < s.length), le (s[i]'(by omega)) s[j] = true := fun i j hij hj => by
    have := RsRed.sorted_le hsorted hn' hij hj
    rwa [List.getD_eq_getElem _ nan (by omega), List.getD_eq_getElem _ nan hj] at this
  refine ⟨s.take k, s[k]'(by omega), s.drop (k + 1), hsplit, by rw [← hsplit]; exact hp, by rw [List.length_take]; omega,
    fun y hy => ?_, fun y hy => ?_⟩
  · obtain ⟨i, hi, rfl⟩ := List.getElem_of_mem hy
    rw [List.getElem_take]
    rw [List.length_take] at hi
    exact hord i k (by omega) (by omega)
  · obtain ⟨i, hi, rfl⟩ := List.getElem_of_mem hy
    rw [List.getElem_drop]
    rw [List.length_drop] at hi
    exact hord k (k + 1 + i) (by omega) (by omega)

example (b : Bool) : RsRed.nanmedian (Arith.exact 0 0) (fun l _ => l.insertionSort fun x y => sortLe x y = true) (wTable b) 0 = F.fin 1 ∧
    RsRed.nanmedian (Arith.exact 0 0) (fun l _ => l.insertionSort fun x y => sortLe x y = true) (wTable b) 0 =
      nanmedian (Arith.exact 0 0) (colList (wTable b) 0) :=
  ⟨by cases b <;> decide +kernel, C98_median _ sort_arranges (wTable b) (show 0 < 2 by decide)⟩

example (b : Bool) : okAnd (RsRed.nanstd (Arith.exact 0 0) id (wTable b) 0) (fun v => decide (v 0 = F.fin 9 ∧ v 1 = F.fin 6)) = true ∧
    EntriesOf 2 (RsRed.nanstd (Arith.exact 0 0) id (wTable b) 0) (fun c => nanstd (Arith.exact 0 0) id (colList (wTable b) c) 0) :=
  ⟨by cases b <;> decide +kernel, C98_std_partial rfl (wTable b) 0⟩

example : okAnd (RsRed.describe (Arith.exact 0 0) id [F.fin 5, nan, F.fin 1, F.fin 3, F.fin 4] [1 / 2] 0) (fun v =>
      decide (v = [F.fin 4, F.fin (13 / 4), F.fin (35 / 16), F.fin 1, F.fin (7 / 2), F.fin 5])) = true ∧
    RsRed.describe (Arith.exact 0 0) id [F.fin 5, nan, F.fin 1, F.fin 3, F.fin 4] [1 / 2] 0 =
      describe (Arith.exact 0 0) id [F.fin 5, nan, F.fin 1, F.fin 3, F.fin 4] [1 / 2] 0 :=
  ⟨by decide +kernel, C98_describe_partial rfl (by unfold NoInf; decide) (by intro c hc; rw [List.mem_singleton.mp hc]; norm_num) 0⟩

example : RsRed.nthReduce [one, F.fin 5, nan] (-2) = .ok (F.fin 5) ∧ RsRed.nthIndexReduce [one, F.fin 5, nan] (-2) = .ok 1 ∧
    RsRed.nthReduce [one] 1 = .error (.valueError "index is out of bounds") := ⟨rfl, rfl, rfl⟩

example (b : Bool) : RsRed.flattenF (wTable b) = [F.fin (-2), nan, F.fin 4, zero, F.fin 3, F.fin 6] := by cases b <;> decide +kernel

example (b : Bool) : okAnd (RsRed.flattenGrouped (wTable b) [2] true) (fun v =>
      decide (((List.range 6).map fun p => v p 0) = [F.fin (-2), zero, nan, F.fin 3, F.fin 4, F.fin 6])) = true ∧
    RsRed.flattenGrouped (wTable b) ([2].map fun n : Nat => (n : Int)) false = .ok (flattenGrouped (wTable b).get [2] false 3) :=
  ⟨by cases b <;> decide +kernel, C98_flatten_grouped (wTable b) (lens := [2]) (show 2 ≤ 2 by decide) false⟩

example (b : Bool) : ∃ v, RsRed.flattenGrouped (wTable b) ([1, 1].map fun n : Nat => (n : Int)) true = .ok v ∧
    v 2 1 = flattenUniform (wTable b).get [1, 1] true (fun _ _ => one) 3 2 1 :=
  C98_flatten_uniform (wTable b) (lens := [1, 1]) (show 2 ≤ 2 by decide) (by decide) true (fun _ _ => one) (show 2 < 3 * maxLen [1, 1] by decide) (by decide)

example : okAnd (RsRed.valueCounts (fun i c => (i + c) % 2) 3 2 2 [1, 1]) (fun v => decide (v 0 0 = 2 ∧ v 1 1 = 2)) = true ∧
    RsRed.valueCounts (fun i c => (i + c) % 2) 3 2 2 ([1, 1].map fun n : Nat => (n : Int)) =
      .ok (valueCountsInt (fun i c => (i + c) % 2) 2 [1, 1] 3) :=
  ⟨by decide +kernel, C98_value_counts (by decide) fun i _ c _ => by omega⟩

example : RsRed.flattenGrouped (wTable true) [1, -1] true = .error (.valueError "group_lens must be non-negative") :=
  C98_refused.1 _ _ _ ⟨-1, by decide, by decide⟩

example : okAnd (RsRed.ddDrawdowns (Arith.exact 0 0) [F.fin 4] [F.fin 2, F.fin 3]) (fun v =>
      decide (v = [F.fin (-1 / 2), F.fin (-1 / 4)])) = true ∧
    SameOutcome (RsRed.ddDrawdowns (Arith.exact 0 0) [F.fin 4] [F.fin 2, F.fin 3]) (ddDrawdowns (Arith.exact 0 0) [F.fin 4] [F.fin 2, F.fin 3]) ∧
    okAnd (ddRecoveryRatios (Arith.exact 0 0) [0, 5] [3, 6] [5]) (fun v => decide (v = [F.fin (1 / 2), F.fin (-1 / 2)])) = true :=
  ⟨by decide +kernel, (C98_drawdowns _ _ _ [] [] []).1, by decide +kernel⟩

end Vbt
