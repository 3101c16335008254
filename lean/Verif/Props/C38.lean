import Verif.Lemmas.Window
import Verif.Lemmas.Witness

/-!
# C38  Rolling statistics equal their window definition
-/

namespace Vbt
open F

theorem resolveMinp_le {window : Nat} {minp : Option Nat} {what : String} (h : minp.getD window ≤ window) :
    resolveMinp window minp what = .ok (minp.getD window) := by
  unfold resolveMinp
  dsimp only
  rw [if_neg (by omega)]

/-- **C38** (checks).  More than `window` required observations are refused. -/
theorem C38_minp (A : Arith) (a : Nat → F) (window : Nat) (minp : Option Nat) (junk : Nat → F) (len : Nat)
    (h : window < minp.getD window) :
    rollingMin a window minp junk len = .error (.valueError "minp must be <= window") ∧
    rollingMax a window minp junk len = .error (.valueError "minp must be <= window") ∧
    rollingMean A a window minp junk len = .error (.valueError "minp must be <= window") := by
  have : resolveMinp window minp "window" = .error (.valueError "minp must be <= window") := by
    unfold resolveMinp
    dsimp only
    rw [if_pos h]
    rfl
  unfold rollingMin rollingMax rollingMean
  rw [this]
  exact ⟨rfl, rfl, rfl⟩

/-- **C38** (min).  Every row of the rolling minimum is the smallest value present in its window, or NaN if the window has
fewer than `minp` values or none at all. -/
theorem C38_min (a : Nat → F) {window : Nat} (hw : 0 < window) {minp : Option Nat} (hm : minp.getD window ≤ window)
    (junk : Nat → F) (len : Nat) :
    ∃ out, rollingMin a window minp junk len = .ok out ∧ ∀ i < len,
      ((winObs a window i).length < minp.getD window ∨ winObs a window i = [] → out i = nan) ∧
      (minp.getD window ≤ (winObs a window i).length → winObs a window i ≠ [] → IsMinOf (winObs a window i) (out i)) := by
  unfold rollingMin
  rw [resolveMinp_le hm]
  refine ⟨_, rfl, fun i hi => ?_⟩
  rw [scanRows_out _ _ _ hi]
  have h := sel_row selOrder_lt a hw (minp.getD window) i
  change (_ → rollRow minStep a window _ i = nan) ∧ (_ → (_ → rollRow minStep a window _ i = nan) ∧
    (_ → rollRow minStep a window _ i ∈ _ ∧ _)) at h
  refine ⟨?_, fun h1 h2 => (h.2 h1).2 h2⟩
  rintro (h1 | h1)
  · exact h.1 h1
  · rcases Nat.lt_or_ge (winObs a window i).length (minp.getD window) with hl | hl
    · exact h.1 hl
    · exact (h.2 hl).1 h1

/-- **C38** (max). -/
theorem C38_max (a : Nat → F) {window : Nat} (hw : 0 < window) {minp : Option Nat} (hm : minp.getD window ≤ window)
    (junk : Nat → F) (len : Nat) :
    ∃ out, rollingMax a window minp junk len = .ok out ∧ ∀ i < len,
      ((winObs a window i).length < minp.getD window ∨ winObs a window i = [] → out i = nan) ∧
      (minp.getD window ≤ (winObs a window i).length → winObs a window i ≠ [] → IsMaxOf (winObs a window i) (out i)) := by
  unfold rollingMax
  rw [resolveMinp_le hm]
  refine ⟨_, rfl, fun i hi => ?_⟩
  rw [scanRows_out _ _ _ hi]
  have h := sel_row selOrder_gt a hw (minp.getD window) i
  change (_ → rollRow maxStep a window _ i = nan) ∧ (_ → (_ → rollRow maxStep a window _ i = nan) ∧
    (_ → rollRow maxStep a window _ i ∈ _ ∧ _)) at h
  refine ⟨?_, fun h1 h2 => (h.2 h1).2 h2⟩
  rintro (h1 | h1)
  · exact h.1 h1
  · rcases Nat.lt_or_ge (winObs a window i).length (minp.getD window) with hl | hl
    · exact h.1 hl
    · exact (h.2 hl).1 h1

/-- **C38** (expanding min).  A window of at least the array length gives the expanding minimum. -/
theorem C38_expanding_min (a : Nat → F) {window len minp : Nat} (hw : len ≤ window) (hm : minp ≤ window) (junk junk' : Nat → F) :
    ∃ out, rollingMin a window (some minp) junk len = .ok out ∧ ∀ i < len, expandingMin a minp junk' len i = out i := by
  unfold rollingMin
  rw [resolveMinp_le (show (some minp).getD window ≤ window from hm)]
  refine ⟨_, rfl, fun i hi => ?_⟩
  rw [scanRows_out _ _ _ hi]
  exact exp_row selOrder_lt (fun x y => le_antisymm') a minp junk' hi (by omega)

/-- **C38** (expanding max). -/
theorem C38_expanding_max (a : Nat → F) {window len minp : Nat} (hw : len ≤ window) (hm : minp ≤ window) (junk junk' : Nat → F) :
    ∃ out, rollingMax a window (some minp) junk len = .ok out ∧ ∀ i < len, expandingMax a minp junk' len i = out i := by
  unfold rollingMax
  rw [resolveMinp_le (show (some minp).getD window ≤ window from hm)]
  refine ⟨_, rfl, fun i hi => ?_⟩
  rw [scanRows_out _ _ _ hi]
  exact exp_row selOrder_gt (fun x y h1 h2 => le_antisymm' h2 h1) a minp junk' hi (by omega)

/-! ## Mean -/

/-- The number of NaNs in the first rows. -/
def nanCount (a : Nat → F) (i : Nat) : Nat := (List.range i).countP fun j => (a j).isnan

/-- The sum of the first rows. -/
def preSum (a : Nat → F) (i : Nat) : ℚ := ((List.range i).map fun j => (a j).val).sum

theorem nanCount_succ (a : Nat → F) (i : Nat) : nanCount a (i + 1) = if (a i).isnan then nanCount a i + 1 else nanCount a i := by
  unfold nanCount
  rw [List.range_succ, List.countP_append]
  by_cases h : (a i).isnan = true <;> simp [h]

theorem preSum_succ (a : Nat → F) (i : Nat) : preSum a (i + 1) = preSum a i + (a i).val := by
  unfold preSum
  rw [List.range_succ, List.map_append, List.sum_append]
  simp

theorem window_sums (a : Nat → F) (s n : Nat) :
    ((((List.range' s n).map a).filter fun x => !x.isnan).map F.val).sum = preSum a (s + n) - preSum a s ∧
    (((List.range' s n).map a).filter fun x => !x.isnan).length + nanCount a (s + n) = n + nanCount a s := by
  induction n with
  | zero => simp
  | succ n ih =>
    rw [List.range'_concat, List.map_append, List.filter_append, List.map_append, List.sum_append, List.length_append,
      ← Nat.add_assoc, preSum_succ, nanCount_succ, ih.1, Nat.one_mul]
    rcases Bool.eq_false_or_eq_true (a (s + n)).isnan with h | h
    · rw [if_pos h]
      have hn := isnan_iff.mp h
      simp only [List.map_cons, List.map_nil, List.filter_cons, List.filter_nil, h, Bool.not_true, Bool.false_eq_true, if_false,
        List.sum_nil, List.length_nil]
      refine ⟨by rw [hn]; simp [F.val], by omega⟩
    · rw [if_neg (by simp [h])]
      simp only [List.map_cons, List.map_nil, List.filter_cons, List.filter_nil, h, Bool.not_false, if_true, List.sum_cons,
        List.sum_nil, List.length_cons, List.length_nil]
      refine ⟨by ring, by omega⟩

theorem winObs_sums (a : Nat → F) (w i : Nat) :
    ((winObs a w i).map F.val).sum = preSum a (i + 1) - preSum a (i + 1 - w) ∧
    (winObs a w i).length + nanCount a (i + 1) = (i + 1 - (i + 1 - w)) + nanCount a (i + 1 - w) := by
  have h := window_sums a (i + 1 - w) (i + 1 - (i + 1 - w))
  rw [winRows_eq, show i + 1 - w + (i + 1 - (i + 1 - w)) = i + 1 by omega] at h
  exact h

/-- The running sums after `i` rows. -/
structure MeanInv (a : Nat → F) (i : Nat) (s : MeanState) : Prop where
  cumsum : s.cumsum = fin (preSum a i)
  nancnt : s.nancnt = nanCount a i
  cumsumArr : ∀ k < i, s.cumsumArr k = fin (preSum a (k + 1))
  nancntArr : ∀ k < i, s.nancntArr k = nanCount a (k + 1)

/-- One row of the rolling mean. -/
theorem mean_row {r t : ℚ} {a : Nat → F} {window m i : Nat} (hinf : (a i).isinf = false)
    (hm : 1 ≤ m ∨ winObs a window i ≠ []) {s : MeanState} (hs : MeanInv a i s) :
    ∃ s', meanStep (Arith.exact r t) a window m s i = .ok (s', if (winObs a window i).length < m then nan
      else fin (meanOf ((winObs a window i).map F.val))) ∧ MeanInv a (i + 1) s' := by
  obtain ⟨h1, h2, h3, h4⟩ := hs
  have e1 : (if (a i).isnan then s.cumsum else add (Arith.exact r t) s.cumsum (a i)) = fin (preSum a (i + 1)) := by
    rw [preSum_succ, h1]
    cases hai : a i with
    | nan => simp [isnan, F.val]
    | fin q => simp [isnan, F.val]
    | ninf => rw [hai] at hinf; cases hinf
    | pinf => rw [hai] at hinf; cases hinf
  have e2 : (if (a i).isnan then s.nancnt + 1 else s.nancnt) = nanCount a (i + 1) := by
    rw [nanCount_succ, h2]
  obtain ⟨w1, w2⟩ := winObs_sums a window i
  have e3 : ∀ k < i + 1, setAt s.cumsumArr i (fin (preSum a (i + 1))) k = fin (preSum a (k + 1)) := by
    intro k hk
    unfold setAt
    by_cases hki : k = i
    · rw [if_pos hki, hki]
    · rw [if_neg hki, h3 k (by omega)]
  have e4 : ∀ k < i + 1, setAt s.nancntArr i (nanCount a (i + 1)) k = nanCount a (k + 1) := by
    intro k hk
    unfold setAt
    by_cases hki : k = i
    · rw [if_pos hki, hki]
    · rw [if_neg hki, h4 k (by omega)]
  have e5 : (if i < window then (i : Int) + 1 - (nanCount a (i + 1) : Nat) else
      (window : Int) - ((nanCount a (i + 1) : Nat) - (setAt s.nancntArr i (nanCount a (i + 1)) (i - window) : Nat))) =
      (winObs a window i).length := by
    by_cases hw : i < window
    · rw [if_pos hw]
      have h0 : nanCount a (i + 1 - window) = 0 := by rw [show i + 1 - window = 0 by omega]; rfl
      omega
    · rw [if_neg hw, e4 _ (by omega), show i - window + 1 = i + 1 - window by omega]
      omega
  have e6 : (if i < window then fin (preSum a (i + 1)) else
      sub (Arith.exact r t) (fin (preSum a (i + 1))) (setAt s.cumsumArr i (fin (preSum a (i + 1))) (i - window))) =
      fin ((winObs a window i).map F.val).sum := by
    rw [w1]
    by_cases hw : i < window
    · rw [if_pos hw, show i + 1 - window = 0 by omega]
      simp [preSum]
    · rw [if_neg hw, e3 _ (by omega), show i - window + 1 = i + 1 - window by omega, sub_exact]
  unfold meanStep
  dsimp only
  rw [e1, e2, e5, e6]
  refine ⟨⟨fin (preSum a (i + 1)), nanCount a (i + 1), setAt s.cumsumArr i (fin (preSum a (i + 1))),
    setAt s.nancntArr i (nanCount a (i + 1))⟩, ?_, ⟨rfl, rfl, e3, e4⟩⟩
  by_cases hl : (winObs a window i).length < m
  · rw [if_pos (by exact_mod_cast hl), if_pos hl]
  · rw [if_neg (by exact_mod_cast hl), if_neg hl, divE_exact, if_neg]
    · simp only [meanOf, List.length_map, Int.cast_natCast]
    · have : (winObs a window i).length ≠ 0 := by
        rcases hm with hm | hm
        · omega
        · exact fun h => hm (List.length_eq_zero_iff.mp h)
      exact_mod_cast this

/-- **C38** (mean, partial).  In exact arithmetic and without infinite values every row of the rolling mean is the mean of
the values present in its window, or NaN if there are fewer than `minp` of them; `minp` must be at least 1 or no window
empty.  Not covered: the rounding of the running sums, infinite values (`C38_counterexample_inf`) and empty windows with
`minp = 0` (`C38_counterexample_empty`). -/
theorem C38_mean_partial (r t : ℚ) (a : Nat → F) {window : Nat} {minp : Option Nat} (hm : minp.getD window ≤ window)
    (junk : Nat → F) (len : Nat) (hinf : ∀ i < len, (a i).isinf = false)
    (h1 : 1 ≤ minp.getD window ∨ ∀ i < len, winObs a window i ≠ []) :
    ∃ out, rollingMean (Arith.exact r t) a window minp junk len = .ok out ∧ ∀ i < len,
      out i = if (winObs a window i).length < minp.getD window then nan else fin (meanOf ((winObs a window i).map F.val)) := by
  have hok : ∀ i < len, 1 ≤ minp.getD window ∨ winObs a window i ≠ [] := fun i hi => h1.imp id fun h => h i hi
  have h0 : MeanInv a 0 ⟨zero, 0, fun _ => zero, fun _ => 0⟩ :=
    ⟨rfl, rfl, fun k hk => by omega, fun k hk => by omega⟩
  obtain ⟨⟨sN, out⟩, hr, -⟩ := scanRowsE_succeeds (step := meanStep (Arith.exact r t) a window (minp.getD window))
    (s0 := ⟨zero, 0, fun _ => zero, fun _ => 0⟩) (junk := junk) (n := len) (P := fun i s => MeanInv a i s) h0
    (fun i s hi hs => by
      obtain ⟨s', e, hs'⟩ := mean_row (r := r) (t := t) (hinf i hi) (hok i hi) hs
      exact ⟨_, e, hs'⟩)
  refine ⟨out, ?_, fun i hi => ?_⟩
  · unfold rollingMean
    rw [resolveMinp_le hm]
    dsimp only
    rw [hr]
  · obtain ⟨si, si', b1, b2⟩ := (scanRowsE_ok hr).2 i hi
    have hinv : MeanInv a i si := by
      have : i < len → MeanInv a i si := scanStateE_inv (P := fun k s => k < len → MeanInv a k s) (fun _ => h0)
        (fun k s r' hs hk hlt => by
          obtain ⟨s', e, hs'⟩ := mean_row (r := r) (t := t) (hinf k (by omega)) (hok k (by omega)) (hs (by omega))
          rw [hk] at e
          cases e
          exact hs') b1
      exact this hi
    obtain ⟨s', e, -⟩ := mean_row (r := r) (t := t) (hinf i hi) (hok i hi) hinv
    rw [b2] at e
    simp only [Except.ok.injEq, Prod.mk.injEq] at e
    exact e.2

/-- **C38** (expanding mean).  A window of at least the array length gives the expanding mean. -/
theorem C38_expanding_mean (A : Arith) (a : Nat → F) {window len minp : Nat} (hw : len ≤ window) (hm : minp ≤ len)
    (junk : Nat → F) : rollingMean A a window (some minp) junk len = expandingMean A a minp junk len := by
  unfold expandingMean rollingMean
  rw [resolveMinp_le (show (some minp).getD window ≤ window by simpa using by omega),
    resolveMinp_le (show (some minp).getD len ≤ len from hm)]
  dsimp only [Option.getD_some]
  have hstep : ∀ k < len, ∀ s, meanStep A a window minp s k = meanStep A a len minp s k := by
    intro k hk s
    unfold meanStep
    dsimp only
    rw [if_pos (show k < window by omega), if_pos (show k < window by omega), if_pos hk, if_pos hk]
  have : ∀ n ≤ len, scanRowsE (meanStep A a window minp) ⟨zero, 0, fun _ => zero, fun _ => 0⟩ junk n =
      scanRowsE (meanStep A a len minp) ⟨zero, 0, fun _ => zero, fun _ => 0⟩ junk n := by
    intro n
    induction n with
    | zero => intro _; rfl
    | succ n ih =>
      intro hn
      rw [scanRowsE_succ, scanRowsE_succ, ih (by omega)]
      cases scanRowsE (meanStep A a len minp) ⟨zero, 0, fun _ => zero, fun _ => 0⟩ junk n with
      | error e => rfl
      | ok s => dsimp only; rw [hstep n (by omega)]
  rw [this len (le_refl _)]

/-- An infinite value spoils all later windows: the mean of 1 in the last window is reported as NaN. -/
theorem C38_counterexample_inf :
    ∃ (a : Nat → F) (out : Nat → F), rollingMean (Arith.exact 0 0) a 1 none (fun _ => zero) 3 = .ok out ∧
      winObs a 1 2 = [fin 1] ∧ out 2 = nan := by
  obtain ⟨out, h1, h2⟩ := okAnd_iff
    (x := rollingMean (Arith.exact 0 0) (fun i => [fin 1, pinf, fin 1].getD i nan) 1 none (fun _ => zero) 3)
    (f := fun out => decide (out 2 = nan)) (by decide +kernel)
  exact ⟨_, out, h1, by decide +kernel, of_decide_eq_true h2⟩

/-- With `minp = 0` an empty window raises instead of giving NaN. -/
theorem C38_counterexample_empty :
    rollingMean (Arith.exact 0 0) (fun _ => nan) 2 (some 0) (fun _ => zero) 1 = .error .zeroDivision := rfl

/-- Non-vacuity: 3, NaN, 1, 2 with a window of 2 and at least one value. -/
example :
    (List.range 4).map (fun i => winObs (fun i => [fin 3, nan, fin 1, fin 2].getD i nan) 2 i) =
      [[fin 3], [fin 3], [fin 1], [fin 1, fin 2]] ∧
    (rollingMin (fun i => [fin 3, nan, fin 1, fin 2].getD i nan) 2 (some 1) (fun _ => zero) 4).toOption.map
      (fun o => (List.range 4).map o) = some [fin 3, fin 3, fin 1, fin 1] ∧
    (rollingMean Arith.std (fun i => [fin 3, nan, fin 1, fin 2].getD i nan) 2 (some 1) (fun _ => zero) 4).toOption.map
      (fun o => (List.range 4).map o) = some [fin 3, fin 3, fin 1, fin (3 / 2)] := by decide +kernel

end Vbt
