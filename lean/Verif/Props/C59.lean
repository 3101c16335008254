import Verif.Spec.Labels
import Verif.Props.C36
import Verif.Props.C38
import Verif.Props.C39

/-!
# C59: labels look only into their declared window
-/

namespace Vbt
open F

/-! ## Breakout labels -/

theorem breakoutScan_spec (A : Arith) (close posTh negTh : Nat → F) (i : Nat) (js : List Nat) (hs : js.Pairwise (· < ·)) :
    (breakoutScan A close i (abs (posTh i)) (abs (negTh i)) js = 1 ∧
      ∃ j ∈ js, HitUp A close posTh i j ∧ ∀ k ∈ js, k < j → ¬ HitUp A close posTh i k ∧ ¬ HitDown A close negTh i k) ∨
    (breakoutScan A close i (abs (posTh i)) (abs (negTh i)) js = -1 ∧
      ∃ j ∈ js, (HitDown A close negTh i j ∧ ¬ HitUp A close posTh i j) ∧
        ∀ k ∈ js, k < j → ¬ HitUp A close posTh i k ∧ ¬ HitDown A close negTh i k) ∨
    (breakoutScan A close i (abs (posTh i)) (abs (negTh i)) js = 0 ∧
      ∀ k ∈ js, ¬ HitUp A close posTh i k ∧ ¬ HitDown A close negTh i k) := by
  induction js with
  | nil => exact Or.inr (Or.inr ⟨rfl, by simp⟩)
  | cons j js ih =>
    rw [List.pairwise_cons] at hs
    have hup : (gt (abs (posTh i)) zero && ge (close j) (mul A (close i) (add A one (abs (posTh i))))) = true ↔
        HitUp A close posTh i j := by
      unfold HitUp gt ge
      rw [Bool.and_eq_true]
    have hdn : (gt (abs (negTh i)) zero && le (close j) (mul A (close i) (sub A one (abs (negTh i))))) = true ↔
        HitDown A close negTh i j := by
      unfold HitDown gt
      rw [Bool.and_eq_true]
    have first : ∀ k ∈ j :: js, ¬ k < j := by
      intro k hk
      rcases List.mem_cons.mp hk with rfl | hk
      · omega
      · have := hs.1 k hk; omega
    rw [breakoutScan]
    by_cases h1 : HitUp A close posTh i j
    · rw [if_pos (hup.mpr h1)]
      exact Or.inl ⟨rfl, j, by simp, h1, fun k hk hkj => absurd hkj (first k hk)⟩
    · rw [if_neg (fun h => h1 (hup.mp h))]
      by_cases h2 : HitDown A close negTh i j
      · rw [if_pos (hdn.mpr h2)]
        exact Or.inr (Or.inl ⟨rfl, j, by simp, ⟨h2, h1⟩, fun k hk hkj => absurd hkj (first k hk)⟩)
      · rw [if_neg (fun h => h2 (hdn.mp h))]
        have ext : ∀ j', (∀ k ∈ js, k < j' → ¬ HitUp A close posTh i k ∧ ¬ HitDown A close negTh i k) →
            ∀ k ∈ j :: js, k < j' → ¬ HitUp A close posTh i k ∧ ¬ HitDown A close negTh i k := by
          intro j' h k hk hkj
          rcases List.mem_cons.mp hk with rfl | hk
          · exact ⟨h1, h2⟩
          · exact h k hk hkj
        rcases ih hs.2 with ⟨e, j', hj', a, b⟩ | ⟨e, j', hj', a, b⟩ | ⟨e, b⟩
        · exact Or.inl ⟨e, j', List.mem_cons_of_mem _ hj', a, ext j' b⟩
        · exact Or.inr (Or.inl ⟨e, j', List.mem_cons_of_mem _ hj', a, ext j' b⟩)
        · refine Or.inr (Or.inr ⟨e, fun k hk => ?_⟩)
          rcases List.mem_cons.mp hk with rfl | hk
          · exact ⟨h1, h2⟩
          · exact b k hk

theorem mem_nextRows {i window wait len j : Nat} :
    j ∈ List.range' (i + wait) (min (i + window + wait) len - (i + wait)) ↔ NextRow i window wait len j := by
  rw [List.mem_range'_1]
  unfold NextRow
  omega

/-- **C59** (breakout).  The label is 1, -1 or 0.  It is 1 exactly if, among the next rows, one is up by the threshold and
none before it is up or down by the threshold; -1 exactly if one is down (and not up) and none before it is either; 0
exactly if none is. -/
theorem C59_breakout (A : Arith) (close posTh negTh : Nat → F) (window wait len i : Nat) :
    let label := breakoutLabels A close window posTh negTh wait len i
    let quiet := fun k => ¬ HitUp A close posTh i k ∧ ¬ HitDown A close negTh i k
    (label = 1 ∨ label = -1 ∨ label = 0) ∧
      (label = 1 ↔ ∃ j, NextRow i window wait len j ∧ HitUp A close posTh i j ∧
        ∀ k, NextRow i window wait len k → k < j → quiet k) ∧
      (label = -1 ↔ ∃ j, NextRow i window wait len j ∧ (HitDown A close negTh i j ∧ ¬ HitUp A close posTh i j) ∧
        ∀ k, NextRow i window wait len k → k < j → quiet k) ∧
      (label = 0 ↔ ∀ k, NextRow i window wait len k → quiet k) := by
  intro label quiet
  have hl : label = breakoutScan A close i (abs (posTh i)) (abs (negTh i))
    (List.range' (i + wait) (min (i + window + wait) len - (i + wait))) := rfl
  have hs := breakoutScan_spec A close posTh negTh i (List.range' (i + wait) (min (i + window + wait) len - (i + wait)))
    List.pairwise_lt_range'
  rw [← hl] at hs
  simp only [mem_nextRows] at hs
  have excl : ∀ j j', NextRow i window wait len j → NextRow i window wait len j' →
      ¬ quiet j → ¬ quiet j' → (∀ k, NextRow i window wait len k → k < j → quiet k) →
      (∀ k, NextRow i window wait len k → k < j' → quiet k) → j = j' := by
    intro j j' hj hj' q q' a b
    rcases Nat.lt_trichotomy j j' with h | h | h
    · exact absurd (b j hj h) q
    · exact h
    · exact absurd (a j' hj' h) q'
  rcases hs with ⟨e, j, hj, a, b⟩ | ⟨e, j, hj, a, b⟩ | ⟨e, b⟩
  · refine ⟨Or.inl e, ⟨fun _ => ⟨j, hj, a, b⟩, fun _ => e⟩, ⟨fun h => ?_, ?_⟩, ⟨fun h => ?_, fun h => absurd a (h j hj).1⟩⟩
    · rw [e] at h; exact absurd h (by decide)
    · rintro ⟨j', hj', a', b'⟩
      have := excl j j' hj hj' (fun q => q.1 a) (fun q => q.2 a'.1) b b'
      subst this
      exact absurd a a'.2
    · rw [e] at h; exact absurd h (by decide)
  · refine ⟨Or.inr (Or.inl e), ⟨fun h => ?_, ?_⟩, ⟨fun _ => ⟨j, hj, a, b⟩, fun _ => e⟩,
      ⟨fun h => ?_, fun h => absurd a.1 (h j hj).2⟩⟩
    · rw [e] at h; exact absurd h (by decide)
    · rintro ⟨j', hj', a', b'⟩
      have := excl j j' hj hj' (fun q => q.2 a.1) (fun q => q.1 a') b b'
      subst this
      exact absurd a' a.2
    · rw [e] at h; exact absurd h (by decide)
  · refine ⟨Or.inr (Or.inr e), ⟨fun h => ?_, ?_⟩, ⟨fun h => ?_, ?_⟩, ⟨fun _ => b, fun _ => e⟩⟩
    · rw [e] at h; exact absurd h (by decide)
    · rintro ⟨j', hj', a', -⟩; exact absurd a' (b j' hj').1
    · rw [e] at h; exact absurd h (by decide)
    · rintro ⟨j', hj', a', -⟩; exact absurd a'.1 (b j' hj').2

/-! ## Fixed and future-window labels -/

/-- **C59** (fixed).  The relative change from row `i` to row `i + n`; NaN where that row does not exist. -/
theorem C59_fixed (A : Arith) (close : Nat → F) (n : Nat) (junk : Nat → F) {len i : Nat} (hi : i < len) :
    fixedLabels A close n junk len i =
      if i + n < len then div A (sub A (close (i + n)) (close i)) (close i) else div A (sub A nan (close i)) (close i) := by
  unfold fixedLabels
  obtain ⟨h1, h2⟩ := C36_backward close n nan junk len
  split
  · rename_i h; rw [h1 i h]
  · rename_i h; rw [h2 i hi (by omega)]

theorem C59_fixed_nan (A : Arith) (close : Nat → F) (n : Nat) (junk : Nat → F) {len i : Nat} (hi : i < len) (h : len ≤ i + n) :
    fixedLabels A close n junk len i = nan := by
  rw [C59_fixed A close n junk hi, if_neg (by omega)]
  rfl

theorem futureShift_eq (out : Nat → F) (wait : Nat) (junk : Nat → F) {len i : Nat} (hi : i < len) :
    futureShift out wait junk len i = if i + wait < len then out (len - 1 - (i + wait)) else nan := by
  unfold futureShift
  by_cases hw : 0 < wait
  · rw [if_pos hw]
    obtain ⟨h1, h2⟩ := C36_backward (reversed out len) wait nan junk len
    split
    · rename_i h; rw [h1 i h]; rfl
    · rename_i h; rw [h2 i hi (by omega)]
  · have : wait = 0 := by omega
    subst this
    rw [if_neg hw, if_pos (by omega)]
    rfl

/-- The values from row `s` on, `window` of them as far as the data goes, without NaN; last row first. -/
theorem winObs_reversed {close : Nat → F} {window len s : Nat} (hs : s < len) {x : F} :
    x ∈ winObs (reversed close len) window (len - 1 - s) ↔
      ∃ j, s ≤ j ∧ j < s + window ∧ j < len ∧ close j = x ∧ x.isnan = false := by
  rw [mem_winObs]
  constructor
  · rintro ⟨j, h1, h2, h3, h4⟩
    refine ⟨len - 1 - j, by omega, by omega, by omega, h3, h4⟩
  · rintro ⟨j, h1, h2, h3, h4, h5⟩
    refine ⟨len - 1 - j, by omega, by omega, ?_, h5⟩
    unfold reversed
    rw [show len - 1 - (len - 1 - j) = j by omega]
    exact h4

/-- The window from row `s` on is complete: it lies within the data and has no NaN. -/
def CompleteWindow (close : Nat → F) (window len s : Nat) : Prop :=
  s + window ≤ len ∧ ∀ j, s ≤ j → j < s + window → (close j).isnan = false

theorem winRows_length (a : Nat → F) (window i : Nat) :
    ((((List.range (i + 1)).filter fun j => decide (i < j + window)).map a)).length = min window (i + 1) := by
  rw [List.length_map, ← winRows_eq, List.length_range']
  omega

theorem winObs_complete {close : Nat → F} {window len s : Nat} (hs : s < len) :
    window ≤ (winObs (reversed close len) window (len - 1 - s)).length ↔ CompleteWindow close window len s := by
  have hle : (winObs (reversed close len) window (len - 1 - s)).length ≤ min window (len - 1 - s + 1) := by
    unfold winObs
    exact le_trans (List.length_filter_le _ _) (le_of_eq (winRows_length _ _ _))
  constructor
  · intro h
    have hmin : window ≤ len - s := by
      have := le_trans h hle
      omega
    refine ⟨by omega, fun j h1 h2 => ?_⟩
    have hfull : (winObs (reversed close len) window (len - 1 - s)) =
        ((List.range (len - 1 - s + 1)).filter fun j => decide (len - 1 - s < j + window)).map (reversed close len) := by
      unfold winObs
      rw [List.filter_eq_self, ← List.length_filter_eq_length_iff]
      refine le_antisymm (List.length_filter_le _ _) ?_
      rw [winRows_length]
      refine le_trans (Nat.min_le_left _ _) ?_
      exact h
    have hmem : reversed close len (len - 1 - j) ∈ winObs (reversed close len) window (len - 1 - s) := by
      rw [hfull]
      refine List.mem_map.mpr ⟨len - 1 - j, ?_, rfl⟩
      rw [List.mem_filter]
      refine ⟨List.mem_range.mpr (by omega), by rw [decide_eq_true_eq]; omega⟩
    obtain ⟨j', a1, a2, a3, a4, a5⟩ := (winObs_reversed hs).mp hmem
    have : reversed close len (len - 1 - j) = close j := by
      unfold reversed
      rw [show len - 1 - (len - 1 - j) = j by omega]
    rw [this] at a5
    exact a5
  · rintro ⟨h1, h2⟩
    have hfull : (winObs (reversed close len) window (len - 1 - s)) =
        ((List.range (len - 1 - s + 1)).filter fun j => decide (len - 1 - s < j + window)).map (reversed close len) := by
      unfold winObs
      rw [List.filter_eq_self]
      intro x hx
      obtain ⟨j, hj, rfl⟩ := List.mem_map.mp hx
      rw [List.mem_filter, List.mem_range, decide_eq_true_eq] at hj
      unfold reversed
      rw [h2 (len - 1 - j) (by omega) (by omega)]
      rfl
    rw [hfull, winRows_length]
    omega

/-- `v` is the smallest (largest) close of the window from row `s` on. -/
def IsWindowMin (close : Nat → F) (window s : Nat) (v : F) : Prop :=
  (∃ j, s ≤ j ∧ j < s + window ∧ close j = v) ∧ ∀ j, s ≤ j → j < s + window → le v (close j) = true

/-- See `IsWindowMin`. -/
def IsWindowMax (close : Nat → F) (window s : Nat) (v : F) : Prop :=
  (∃ j, s ≤ j ∧ j < s + window ∧ close j = v) ∧ ∀ j, s ≤ j → j < s + window → le (close j) v = true

/-- **C59** (future minimum).  At row `i`: the minimum of the rows from `i + wait` on, `window` of them, if all of these exist
and none is NaN; otherwise NaN. -/
theorem C59_future_min (close : Nat → F) {window : Nat} (hw : 0 < window) (wait : Nat) (junk junk' : Nat → F) (len : Nat) :
    ∃ out, futureMin close window wait junk junk' len = .ok out ∧ ∀ i < len,
      (CompleteWindow close window len (i + wait) → IsWindowMin close window (i + wait) (out i)) ∧
      (¬ CompleteWindow close window len (i + wait) → out i = nan) := by
  obtain ⟨o, h1, h2⟩ := C38_min (reversed close len) hw (minp := some window) (le_refl _) junk len
  unfold futureMin
  rw [h1]
  refine ⟨_, rfl, fun i hi => ?_⟩
  rw [futureShift_eq _ _ _ hi]
  by_cases hs : i + wait < len
  · rw [if_pos hs]
    obtain ⟨g1, g2⟩ := h2 (len - 1 - (i + wait)) (by omega)
    rw [Option.getD_some] at g1 g2
    constructor
    · intro hc
      have hl := (winObs_complete hs).mpr hc
      have hne : winObs (reversed close len) window (len - 1 - (i + wait)) ≠ [] := by
        intro h0
        rw [h0] at hl
        simp at hl
        omega
      obtain ⟨m1, m2⟩ := g2 hl hne
      obtain ⟨j, a1, a2, a3, a4, a5⟩ := (winObs_reversed hs).mp m1
      refine ⟨⟨j, a1, a2, a4⟩, fun k k1 k2 => ?_⟩
      exact m2 _ ((winObs_reversed hs).mpr ⟨k, k1, k2, by have := hc.1; omega, rfl, hc.2 k k1 k2⟩)
    · intro hc
      refine g1 (Or.inl ?_)
      rw [← winObs_complete hs] at hc
      omega
  · rw [if_neg hs]
    refine ⟨fun hc => ?_, fun _ => rfl⟩
    have := hc.1
    omega

/-- **C59** (future maximum). -/
theorem C59_future_max (close : Nat → F) {window : Nat} (hw : 0 < window) (wait : Nat) (junk junk' : Nat → F) (len : Nat) :
    ∃ out, futureMax close window wait junk junk' len = .ok out ∧ ∀ i < len,
      (CompleteWindow close window len (i + wait) → IsWindowMax close window (i + wait) (out i)) ∧
      (¬ CompleteWindow close window len (i + wait) → out i = nan) := by
  obtain ⟨o, h1, h2⟩ := C38_max (reversed close len) hw (minp := some window) (le_refl _) junk len
  unfold futureMax
  rw [h1]
  refine ⟨_, rfl, fun i hi => ?_⟩
  rw [futureShift_eq _ _ _ hi]
  by_cases hs : i + wait < len
  · rw [if_pos hs]
    obtain ⟨g1, g2⟩ := h2 (len - 1 - (i + wait)) (by omega)
    rw [Option.getD_some] at g1 g2
    constructor
    · intro hc
      have hl := (winObs_complete hs).mpr hc
      have hne : winObs (reversed close len) window (len - 1 - (i + wait)) ≠ [] := by
        intro h0
        rw [h0] at hl
        simp at hl
        omega
      obtain ⟨m1, m2⟩ := g2 hl hne
      obtain ⟨j, a1, a2, a3, a4, a5⟩ := (winObs_reversed hs).mp m1
      refine ⟨⟨j, a1, a2, a4⟩, fun k k1 k2 => ?_⟩
      exact m2 _ ((winObs_reversed hs).mpr ⟨k, k1, k2, by have := hc.1; omega, rfl, hc.2 k k1 k2⟩)
    · intro hc
      refine g1 (Or.inl ?_)
      rw [← winObs_complete hs] at hc
      omega
  · rw [if_neg hs]
    refine ⟨fun hc => ?_, fun _ => rfl⟩
    have := hc.1
    omega

/-- The values of a complete window, as the reversed array lists them. -/
theorem winObs_reversed_eq {close : Nat → F} {window len s : Nat} (h : CompleteWindow close window len s) (hs : s < len) :
    winObs (reversed close len) window (len - 1 - s) = ((List.range' s window).map close).reverse := by
  unfold winObs
  rw [List.filter_eq_self.mpr, ← winRows_eq]
  · have h1 := h.1
    refine List.ext_getElem ?_ fun k k1 k2 => ?_
    · rw [List.length_map, List.length_range', List.length_reverse, List.length_map, List.length_range']
      omega
    · rw [List.length_map, List.length_range'] at k1
      rw [List.getElem_map, List.getElem_range', List.getElem_reverse, List.getElem_map, List.getElem_range']
      unfold reversed
      rw [List.length_map, List.length_range']
      congr 1
      omega
  · intro x hx
    obtain ⟨j, hj, rfl⟩ := List.mem_map.mp hx
    rw [List.mem_filter, List.mem_range, decide_eq_true_eq] at hj
    unfold reversed
    rw [h.2 (len - 1 - j) (by omega) (by omega)]
    rfl

/-- **C59** (future mean, partial).  In exact arithmetic and without infinite values: the mean of the rows from `i + wait` on,
`window` of them, if all of these exist and none is NaN; otherwise NaN.  Not covered: rounding, infinite values, and `ewm`,
which looks further (`C59_counterexample_ewm`). -/
theorem C59_future_mean_partial (r t : ℚ) (close : Nat → F) {window : Nat} (hw : 0 < window) (wait : Nat) (adjust : Bool)
    (junk junk' : Nat → F) (len : Nat) (hinf : ∀ i < len, (close i).isinf = false) :
    ∃ out, futureMean (Arith.exact r t) close window false wait adjust junk junk' len = .ok out ∧ ∀ i < len,
      (CompleteWindow close window len (i + wait) →
        out i = fin (meanOf ((List.range' (i + wait) window).map fun j => (close j).val))) ∧
      (¬ CompleteWindow close window len (i + wait) → out i = nan) := by
  obtain ⟨o, h1, h2⟩ := C38_mean_partial r t (reversed close len) (minp := some window) (le_refl _) junk len
    (fun i hi => hinf _ (by omega)) (Or.inl hw)
  unfold futureMean
  rw [if_neg (by decide), h1]
  refine ⟨_, rfl, fun i hi => ?_⟩
  rw [futureShift_eq _ _ _ hi]
  by_cases hs : i + wait < len
  · rw [if_pos hs, h2 _ (by omega), Option.getD_some]
    constructor
    · intro hc
      have hl := (winObs_complete hs).mpr hc
      rw [if_neg (by omega), winObs_reversed_eq hc hs]
      unfold meanOf
      rw [List.map_reverse, List.sum_reverse, List.length_reverse, List.map_map]
      rfl
    · intro hc
      rw [← winObs_complete hs] at hc
      rw [if_pos (by omega)]
  · rw [if_neg hs]
    refine ⟨fun hc => ?_, fun _ => rfl⟩
    have := hc.1
    omega

/-- **C59** (mean labels, partial).  The relative change from row `i` to the mean of the window. -/
theorem C59_mean_labels_partial (r t : ℚ) (close : Nat → F) {window : Nat} (hw : 0 < window) (wait : Nat) (adjust : Bool)
    (junk junk' : Nat → F) (len : Nat) (hinf : ∀ i < len, (close i).isinf = false) :
    ∃ out, meanLabels (Arith.exact r t) close window false wait adjust junk junk' len = .ok out ∧ ∀ i < len,
      (CompleteWindow close window len (i + wait) →
        out i = div (Arith.exact r t)
          (sub (Arith.exact r t) (fin (meanOf ((List.range' (i + wait) window).map fun j => (close j).val))) (close i)) (close i)) ∧
      (¬ CompleteWindow close window len (i + wait) → out i = nan) := by
  obtain ⟨o, h1, h2⟩ := C59_future_mean_partial r t close hw wait adjust junk junk' len hinf
  unfold meanLabels
  rw [h1]
  refine ⟨_, rfl, fun i hi => ⟨fun hc => ?_, fun hc => ?_⟩⟩
  · show div _ (sub _ (o i) (close i)) (close i) = _
    rw [(h2 i hi).1 hc]
  · show div _ (sub _ (o i) (close i)) (close i) = _
    rw [(h2 i hi).2 hc]
    rfl

/-- **C59** (future mean, either kind).  Row `i` does not depend on rows before `i + wait`. -/
theorem C59_future_mean_past (A : Arith) (close close' : Nat → F) (window : Nat) (ewm : Bool) (wait : Nat) (adjust : Bool)
    (junk junk' : Nat → F) {len i : Nat} (hi : i < len) (hc : ∀ j, i + wait ≤ j → j < len → close j = close' j)
    {out out' : Nat → F} (h : futureMean A close window ewm wait adjust junk junk' len = .ok out)
    (h' : futureMean A close' window ewm wait adjust junk junk' len = .ok out') : out i = out' i := by
  unfold futureMean at h h'
  cases h1 : (if ewm then ewmMean A (reversed close len) window (some window) adjust junk len
    else rollingMean A (reversed close len) window (some window) junk len) with
  | error e => rw [h1] at h; cases h
  | ok o =>
    cases h2 : (if ewm then ewmMean A (reversed close' len) window (some window) adjust junk len
      else rollingMean A (reversed close' len) window (some window) junk len) with
    | error e => rw [h2] at h'; cases h'
    | ok o' =>
      rw [h1] at h
      rw [h2] at h'
      cases h; cases h'
      rw [futureShift_eq _ _ _ hi, futureShift_eq _ _ _ hi]
      by_cases hs : i + wait < len
      · rw [if_pos hs, if_pos hs]
        have hag : AgreeTo (len - 1 - (i + wait)) (reversed close len) (reversed close' len) := by
          intro k hk
          exact hc _ (by omega) (by omega)
        cases ewm with
        | true => exact C39_ewmMean A window (some window) adjust hag (by omega) (by omega) h1 h2
        | false => exact C39_rollingMean A window (some window) hag (by omega) (by omega) h1 h2
      · rw [if_neg hs, if_neg hs]

/-- The exponential mean of the "next period" looks beyond its window, to the end of the data.  Here the window of row 0 is rows 0 and 1, and the label changes with row 2. -/
theorem C59_counterexample_ewm :
    ∃ (a b : Nat → F) (o o' : Nat → F), (∀ j, j < 2 → a j = b j) ∧
      futureMean (Arith.exact 0 0) a 2 true 0 false (fun _ => zero) (fun _ => zero) 3 = .ok o ∧
      futureMean (Arith.exact 0 0) b 2 true 0 false (fun _ => zero) (fun _ => zero) 3 = .ok o' ∧ o 0 ≠ o' 0 := by
  obtain ⟨o, h1, h2⟩ := okAnd_iff
    (x := futureMean (Arith.exact 0 0) (fun i => [fin 1, fin 1, fin 1].getD i nan) 2 true 0 false (fun _ => zero) (fun _ => zero) 3)
    (f := fun o => decide (o 0 = fin 1)) (by decide +kernel)
  obtain ⟨o', h1', h2'⟩ := okAnd_iff
    (x := futureMean (Arith.exact 0 0) (fun i => [fin 1, fin 1, fin 10].getD i nan) 2 true 0 false (fun _ => zero) (fun _ => zero) 3)
    (f := fun o => decide (o 0 = fin 2)) (by decide +kernel)
  refine ⟨_, _, o, o', ?_, h1, h1', ?_⟩
  · intro j hj
    rcases j with _ | _ | j
    · rfl
    · rfl
    · omega
  · rw [of_decide_eq_true h2, of_decide_eq_true h2']
    decide

/-! ## Trend labels -/

theorem trendRows_ok {f : Nat → Nat → Nat → Except Err F} {p q : Nat} {out out' : Nat → F}
    (h : trendRows f out (p, q) = .ok out') :
    (∀ i, p ≤ i → i < q → f p q i = .ok (out' i)) ∧ ∀ i, (i < p ∨ q ≤ i) → out' i = out i := by
  unfold trendRows at h
  have key : ∀ (n a : Nat) (out out' : Nat → F), loopE (fun out i =>
      match f p q i with
      | .error e => .error e
      | .ok v => .ok (setAt out i v)) out (List.range' a n) = .ok out' →
      (∀ i, a ≤ i → i < a + n → f p q i = .ok (out' i)) ∧ ∀ i, (i < a ∨ a + n ≤ i) → out' i = out i := by
    intro n
    induction n with
    | zero =>
      intro a out out' h
      rw [List.range'_zero] at h
      cases h
      exact ⟨fun i _ _ => by omega, fun _ _ => rfl⟩
    | succ n ih =>
      intro a out out' h
      rw [List.range'_succ] at h
      obtain ⟨b, h1, h2⟩ := loopE_cons_ok h
      obtain ⟨g1, g2⟩ := ih _ _ _ h2
      cases hf : f p q a with
      | error e => rw [hf] at h1; cases h1
      | ok v =>
        rw [hf] at h1
        cases h1
        refine ⟨fun i i1 i2 => ?_, fun i hi => ?_⟩
        · rcases Nat.eq_or_lt_of_le i1 with rfl | i1
          · rw [hf, g2 a (by omega)]
            unfold setAt
            rw [if_pos rfl]
          · exact g1 i (by omega) (by omega)
        · rw [g2 i (by omega)]
          unfold setAt
          rw [if_neg (by omega)]
  obtain ⟨g1, g2⟩ := key _ _ _ _ h
  exact ⟨fun i i1 i2 => g1 i i1 (by omega), fun i hi => g2 i (by omega)⟩

theorem overTrends_list {f : Nat → Nat → Nat → Except Err F} :
    ∀ (l : List Nat) (out out' : Nat → F), l.Pairwise (· < ·) → loopE (trendRows f) out (l.zip l.tail) = .ok out' →
      (∀ p q, p ∈ l → q ∈ l → p < q → (∀ k ∈ l, ¬ (p < k ∧ k < q)) → ∀ i, p ≤ i → i < q → f p q i = .ok (out' i)) ∧
      ∀ i, ((∀ k ∈ l, i < k) ∨ ∀ k ∈ l, k ≤ i) → out' i = out i := by
  intro l
  induction l with
  | nil =>
    intro out out' _ h
    cases h
    exact ⟨fun p q hp => absurd hp (by simp), fun _ _ => rfl⟩
  | cons a l ih =>
    intro out out' hs h
    rw [List.pairwise_cons] at hs
    cases l with
    | nil =>
      cases h
      refine ⟨fun p q hp hq hpq => ?_, fun _ _ => rfl⟩
      rw [List.mem_singleton] at hp hq
      omega
    | cons b l =>
      have hz : (a :: b :: l).zip (a :: b :: l).tail = (a, b) :: (b :: l).zip (b :: l).tail := rfl
      rw [hz] at h
      obtain ⟨o1, h1, h2⟩ := loopE_cons_ok h
      obtain ⟨t1, t2⟩ := trendRows_ok h1
      obtain ⟨g1, g2⟩ := ih o1 out' hs.2 h2
      have hab : a < b := hs.1 b List.mem_cons_self
      have hbl : ∀ k ∈ l, b < k := (List.pairwise_cons.mp hs.2).1
      refine ⟨fun p q hp hq hpq hbt i i1 i2 => ?_, fun i hi => ?_⟩
      · rcases List.mem_cons.mp hp with rfl | hp
        · have hqb : q = b := by
            rcases List.mem_cons.mp hq with rfl | hq
            · omega
            · rcases List.mem_cons.mp hq with rfl | hq
              · rfl
              · exact absurd ⟨hab, hbl q hq⟩ (hbt b (by simp))
          subst hqb
          rw [t1 i i1 i2, g2 i (Or.inl ?_)]
          intro k hk
          rcases List.mem_cons.mp hk with rfl | hk
          · exact i2
          · have := hbl k hk; omega
        · have hpa : a < p := hs.1 p hp
          have hq' : q ∈ b :: l := by
            rcases List.mem_cons.mp hq with rfl | hq
            · omega
            · exact hq
          exact g1 p q hp hq' hpq (fun k hk => hbt k (List.mem_cons_of_mem _ hk)) i i1 i2
      · rcases hi with hi | hi
        · have h3 := hi a List.mem_cons_self
          rw [g2 i (Or.inl fun k hk => hi k (List.mem_cons_of_mem _ hk)), t2 i (Or.inl h3)]
        · have h3 := hi b (by simp)
          rw [g2 i (Or.inr fun k hk => hi k (List.mem_cons_of_mem _ hk)), t2 i (Or.inr h3)]

theorem mem_nonzeroRows {ext : Nat → Int} {len i : Nat} : i ∈ nonzeroRows ext len ↔ i < len ∧ ext i ≠ 0 := by
  unfold nonzeroRows
  rw [List.mem_filter, List.mem_range]
  simp

theorem overTrends_ok {f : Nat → Nat → Nat → Except Err F} {ext : Nat → Int} {len : Nat} {out : Nat → F}
    (h : overTrends f ext len = .ok out) :
    (∀ p q, Neighbours ext p q → q < len → ∀ i, p ≤ i → i < q → f p q i = .ok (out i)) ∧
      ∀ i, ((∀ k < len, ext k ≠ 0 → i < k) ∨ ∀ k < len, ext k ≠ 0 → k ≤ i) → out i = nan := by
  have hs : (nonzeroRows ext len).Pairwise (· < ·) := List.Pairwise.filter _ List.pairwise_lt_range
  obtain ⟨g1, g2⟩ := overTrends_list _ _ _ hs h
  constructor
  · rintro p q ⟨hpq, hp, hq, hb⟩ hlen i i1 i2
    refine g1 p q (mem_nonzeroRows.mpr ⟨by omega, hp⟩) (mem_nonzeroRows.mpr ⟨hlen, hq⟩) hpq ?_ i i1 i2
    rintro k hk ⟨k1, k2⟩
    exact (mem_nonzeroRows.mp hk).2 (hb k k1 k2)
  · intro i hi
    refine g2 i (hi.imp (fun h k hk => ?_) (fun h k hk => ?_))
    · exact h k (mem_nonzeroRows.mp hk).1 (mem_nonzeroRows.mp hk).2
    · exact h k (mem_nonzeroRows.mp hk).1 (mem_nonzeroRows.mp hk).2

theorem loopE_total {α σ : Type} {f : σ → α → Except Err σ} (h : ∀ s x, ∃ s', f s x = .ok s') :
    ∀ (l : List α) (s : σ), ∃ s', loopE f s l = .ok s' := by
  intro l
  induction l with
  | nil => intro s; exact ⟨s, rfl⟩
  | cons x l ih =>
    intro s
    obtain ⟨s', hs⟩ := h s x
    rw [loopE, hs]
    exact ih s'

/-- **C59** (binary trend labels).  Between neighbouring extrema `p` and `q`, row `q` excluded, the label is 1 if `q` is
higher than `p`, else 0; before the first extremum and from the last on it is NaN. -/
theorem C59_trend (close : Nat → F) (ext : Nat → Int) (len : Nat) :
    ∃ out, bnTrendLabels close ext len = .ok out ∧
    (∀ p q, Neighbours ext p q → q < len → ∀ i, p ≤ i → i < q →
      out i = if lt (close p) (close q) = true then one else zero) ∧
      ∀ i, ((∀ k < len, ext k ≠ 0 → i < k) ∨ ∀ k < len, ext k ≠ 0 → k ≤ i) → out i = nan := by
  have hex : ∃ out, bnTrendLabels close ext len = .ok out := by
    unfold bnTrendLabels overTrends
    refine loopE_total (fun s x => ?_) _ _
    unfold trendRows
    exact loopE_total (fun s x => ⟨_, rfl⟩) _ _
  obtain ⟨out, h⟩ := hex
  obtain ⟨g1, g2⟩ := overTrends_ok (f := fun p q _ => .ok (if gt (close q) (close p) then one else zero)) h
  refine ⟨out, h, fun p q hn hq i i1 i2 => ?_, g2⟩
  have := g1 p q hn hq i i1 i2
  simp only [Except.ok.injEq] at this
  rw [← this]
  rfl

/-- **C59** (percentage trend labels).  Between neighbouring extrema `p` and `q` the label is the change from row `i` to row
`q`, relative to row `i`, or relative to row `q` in an upward trend if normalized. -/
theorem C59_trend_pct (A : Arith) (close : Nat → F) (ext : Nat → Int) (normalize : Bool) (len : Nat) {out : Nat → F}
    (h : pctTrendLabels A close ext normalize len = .ok out) :
    (∀ p q, Neighbours ext p q → q < len → ∀ i, p ≤ i → i < q →
      divE A (sub A (close q) (close i))
        (close (if lt (close p) (close q) = true ∧ normalize = true then q else i)) = .ok (out i)) ∧
      ∀ i, ((∀ k < len, ext k ≠ 0 → i < k) ∨ ∀ k < len, ext k ≠ 0 → k ≤ i) → out i = nan := by
  obtain ⟨g1, g2⟩ := overTrends_ok (f := fun p q i =>
    if gt (close q) (close p) && normalize then divE A (sub A (close q) (close i)) (close q)
    else divE A (sub A (close q) (close i)) (close i)) h
  refine ⟨fun p q hn hq i i1 i2 => ?_, g2⟩
  rw [← g1 p q hn hq i i1 i2]
  by_cases hc : lt (close p) (close q) = true ∧ normalize = true
  · have hc' : (gt (close q) (close p) && normalize) = true := by
      rw [Bool.and_eq_true]; exact hc
    rw [if_pos hc, if_pos hc']
  · have hc' : ¬ (gt (close q) (close p) && normalize) = true := by
      rw [Bool.and_eq_true]; exact hc
    rw [if_neg hc, if_neg hc']

/-- Non-vacuity: 10, 12, 8 with thresholds of 10%; from 10 the first crossing is up, from 12 it is down. -/
example : (List.range 3).map (breakoutLabels (Arith.exact 0 0) (fun i => [fin 10, fin 12, fin 8].getD i nan) 2
    (fun _ => fin (1/10)) (fun _ => fin (1/10)) 1 3) = [1, -1, 0] := by decide +kernel

/-- Non-vacuity: the change over two rows. -/
example : (List.range 3).map (fixedLabels (Arith.exact 0 0) (fun i => [fin 10, fin 12, fin 8].getD i nan) 2 (fun _ => zero) 3) =
    [fin (-1/5), nan, nan] := by decide +kernel

/-- Non-vacuity: the future minimum, maximum and mean of two rows after the current one. -/
example : ((futureMin (fun i => [fin 10, fin 12, fin 8, nan].getD i nan) 2 1 (fun _ => zero) (fun _ => zero) 4).map
    fun o => (List.range 4).map o).toOption = some [fin 8, nan, nan, nan] := by decide +kernel

example : ((futureMax (fun i => [fin 10, fin 12, fin 8, nan].getD i nan) 2 1 (fun _ => zero) (fun _ => zero) 4).map
    fun o => (List.range 4).map o).toOption = some [fin 12, nan, nan, nan] := by decide +kernel

example : ((futureMean (Arith.exact 0 0) (fun i => [fin 10, fin 12, fin 8, nan].getD i nan) 2 false 1 false (fun _ => zero)
    (fun _ => zero) 4).map fun o => (List.range 4).map o).toOption = some [fin 10, nan, nan, nan] := by decide +kernel

example : ((meanLabels (Arith.exact 0 0) (fun i => [fin 8, fin 12, fin 8, nan].getD i nan) 2 false 1 false (fun _ => zero)
    (fun _ => zero) 4).map fun o => (List.range 4).map o).toOption = some [fin (1/4), nan, nan, nan] := by decide +kernel

/-- Non-vacuity: the trend from the trough at row 0 to the peak at row 2. -/
example : ((bnTrendLabels (fun i => [fin 10, fin 9, fin 20, fin 15].getD i nan) (fun i => [-1, 0, 1, 0].getD i 0) 4).map
    fun o => (List.range 4).map o).toOption = some [one, one, nan, nan] := by decide +kernel

example : ((pctTrendLabels (Arith.exact 0 0) (fun i => [fin 10, fin 5, fin 20, fin 15].getD i nan)
    (fun i => [-1, 0, 1, 0].getD i 0) true 4).map
    fun o => (List.range 4).map o).toOption = some [fin (1/2), fin (3/4), nan, nan] := by decide +kernel

end Vbt
