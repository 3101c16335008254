import Verif.Lemmas.RustTrends
import Verif.Props.C96

/-!
# C96 — local extrema, trend labels and breakouts on the Rust engine

`rust/src/labels.rs` against `labels/nb.py`, for every rounding.  Both engines read the prices by row and column, so the memory
layout plays no part.
-/

namespace Vbt
open F RsGen RsLab

/-- Local extrema of the Numba engine. -/
def nbExtrema (A : Arith) (a : View2) (pos neg : NArr F) (flex2d : Bool) : Except Err (Nat → Nat → Int) :=
  nbCols (fun c => Vbt.localExtrema A (fun i => a.get i c) (fun i => flexSelectAuto pos i c flex2d)
    (fun i => flexSelectAuto neg i c flex2d) a.nrows) (fun _ _ => 0) a.ncols

theorem localExtrema_eq (A : Arith) (a : View2) {pos neg : NArr F} {flex2d : Bool} {th : Rs.FlexArray F × Rs.FlexArray F}
    (hth : ∀ i < a.nrows, ∀ c < a.ncols, (thresholds th.1 th.2).1 i c = flexSelectAuto pos i c flex2d ∧
      (thresholds th.1 th.2).2 i c = flexSelectAuto neg i c flex2d) :
    RsLab.localExtrema A a th.1 th.2 = nbExtrema A a pos neg flex2d := by
  unfold RsLab.localExtrema nbExtrema
  dsimp only
  refine nbCols_congr (fun c hc => ?_) _
  unfold Vbt.localExtrema
  rw [extLoop_eq A (a.column c) (pos' := fun i => flexSelectAuto pos i c flex2d) (neg' := fun i => flexSelectAuto neg i c flex2d)
    (fun i hi => (hth i hi c hc).1) (fun i hi => (hth i hi c hc).2) (fun i hi => by rw [List.mem_range'_1] at hi; omega)
    ⟨fun _ => 0, 0, 0⟩ (fun h => by
      have : a.nrows - 1 ≠ 0 := fun h0 => h (by rw [h0]; rfl)
      show 0 < a.nrows
      omega)]
  rfl

/-- **C96** (local extrema).  With thresholds that can be broadcast to the prices, both engines return the same or raise the same;
other thresholds are refused. -/
theorem C96_local_extrema (A : Arith) (a : View2) (pos neg : NArr F) (flex2d : Bool) (hp : pos.shape.length ≤ 2)
    (hn : neg.shape.length ≤ 2) :
    (Broadcastable (pos.operand flex2d).shape [a.nrows, a.ncols] → Broadcastable (neg.operand flex2d).shape [a.nrows, a.ncols] →
      localExtremaPy A a pos neg flex2d = nbExtrema A a pos neg flex2d) ∧
    (¬ (Broadcastable (pos.operand flex2d).shape [a.nrows, a.ncols] ∧ Broadcastable (neg.operand flex2d).shape [a.nrows, a.ncols]) →
      ∃ m, localExtremaPy A a pos neg flex2d = .error (.valueError m)) := by
  constructor
  · intro bp bn
    obtain ⟨th, t1, t2⟩ := readThresholds_ok hp hn bp bn
    unfold localExtremaPy
    rw [t1]
    exact localExtrema_eq A a t2
  · intro hb
    obtain ⟨m, hm⟩ := readThresholds_error hp hn hb
    exact ⟨m, by unfold localExtremaPy; rw [hm]⟩

/-! ## Trend labels -/

theorem bnTrend_eq (a : View2) (ext : Nat → Nat → Int) :
    bnTrend a ext = nbCols (fun c => bnTrendLabels (fun i => a.get i c) (fun i => ext i c) a.nrows) (fun _ _ => nan) a.ncols := by
  unfold bnTrend
  refine nbCols_congr (fun c _ => ?_) _
  unfold bnTrendLabels
  refine trendLoop_eq fun p q out _ _ => ?_
  rw [trendRows_pure (v := fun _ => if gt (a.get q c) (a.get p c) then one else zero) (fun _ _ _ => rfl)]

theorem bnCont_eq (A : Arith) (a : View2) (ext : Nat → Nat → Int) :
    bnCont A a ext = nbCols (fun c => bnContLabels A (fun i => a.get i c) (fun i => ext i c) a.nrows) (fun _ _ => nan) a.ncols := by
  unfold bnCont
  refine nbCols_congr (fun c _ => ?_) _
  unfold bnContLabels
  refine trendLoop_eq fun p q out hpq _ => ?_
  have hr : trendRange (fun i => a.get i c) p q = .ok (sliceMinMax (a.column c) p q) :=
    trendRange_eq (a.column c) (le_of_lt hpq)
  rw [trendRows_pure (v := fun i => sub A one (div A (sub A (a.get i c) (sliceMinMax (a.column c) p q).1)
    (sub A (sliceMinMax (a.column c) p q).2 (sliceMinMax (a.column c) p q).1))) (fun i _ _ => by rw [hr])]

theorem bnContSat_unless (A : Arith) (a : View2) (ext : Nat → Nat → Int) {pos neg : NArr F} {flex2d : Bool}
    {th : Rs.FlexArray F × Rs.FlexArray F}
    (hth : ∀ i < a.nrows, ∀ c < a.ncols, (thresholds th.1 th.2).1 i c = flexSelectAuto pos i c flex2d ∧
      (thresholds th.1 th.2).2 i c = flexSelectAuto neg i c flex2d) :
    nbCols (fun c => bnContSatLabels A (fun i => a.get i c) (fun i => flexSelectAuto pos i c flex2d)
      (fun i => flexSelectAuto neg i c flex2d) (fun i => ext i c) a.nrows) (fun _ _ => nan) a.ncols = .error .zeroDivision ∨
    bnContSat A a ext th.1 th.2 =
      nbCols (fun c => bnContSatLabels A (fun i => a.get i c) (fun i => flexSelectAuto pos i c flex2d)
        (fun i => flexSelectAuto neg i c flex2d) (fun i => ext i c) a.nrows) (fun _ _ => nan) a.ncols := by
  unfold bnContSat
  dsimp only
  refine nbCols_unless (fun c hc => ?_) _
  unfold bnContSatLabels
  refine trendLoop_unless fun p q out hpq hq => ?_
  obtain ⟨t1, t2⟩ := hth p (by omega) c hc
  have hr : trendRange (fun i => a.get i c) p q = .ok (sliceMinMax (a.column c) p q) :=
    trendRange_eq (a.column c) (le_of_lt hpq)
  rw [t1, t2]
  by_cases h1 : eqb (abs (flexSelectAuto pos p c flex2d)) zero = true
  · rw [if_pos h1, trendRows_error hpq (by rw [if_pos h1])]
    exact .inr rfl
  · rw [if_neg h1]
    by_cases h2 : eqb (abs (flexSelectAuto neg p c flex2d)) zero = true
    · rw [if_pos h2, trendRows_error hpq (by rw [if_neg h1, if_pos h2])]
      exact .inr rfl
    · rw [if_neg h2]
      rcases trendRows_unless (e := .zeroDivision) (p := p) (q := q)
        (g := fun p q i =>
          if eqb (abs (flexSelectAuto pos p c flex2d)) zero then .error (.valueError "Positive threshold cannot be 0")
          else if eqb (abs (flexSelectAuto neg p c flex2d)) zero then .error (.valueError "Negative threshold cannot be 0")
          else
            match trendRange (fun i => a.get i c) p q with
            | .error e => .error e
            | .ok r => satLabel A (fun i => a.get i c) p q i (abs (flexSelectAuto pos p c flex2d))
                (abs (flexSelectAuto neg p c flex2d)) r)
        (v := fun i => satValue A (gt (a.get q c) (a.get p c)) (a.get i c) (abs (flexSelectAuto pos p c flex2d))
          (abs (flexSelectAuto neg p c flex2d)) (sliceMinMax (a.column c) p q))
        (fun i _ _ => by
          rw [if_neg h1, if_neg h2, hr]
          exact satLabel_unless A (a.column c) p q i _ _ _) out with h | h
      · exact .inl h
      · exact .inr h.symm

theorem pctTrend_unless (A : Arith) (a : View2) (ext : Nat → Nat → Int) (normalize : Bool) :
    nbCols (fun c => pctTrendLabels A (fun i => a.get i c) (fun i => ext i c) normalize a.nrows) (fun _ _ => nan) a.ncols =
      .error .zeroDivision ∨
    pctTrend A a ext normalize =
      nbCols (fun c => pctTrendLabels A (fun i => a.get i c) (fun i => ext i c) normalize a.nrows) (fun _ _ => nan) a.ncols := by
  unfold pctTrend
  refine nbCols_unless (fun c _ => ?_) _
  unfold pctTrendLabels
  refine trendLoop_unless fun p q out _ _ => ?_
  rcases trendRows_unless (e := .zeroDivision) (p := p) (q := q)
    (g := fun p q i => if gt (a.get q c) (a.get p c) && normalize then divE A (sub A (a.get q c) (a.get i c)) (a.get q c)
      else divE A (sub A (a.get q c) (a.get i c)) (a.get i c))
    (v := fun i => if gt (a.get q c) (a.get p c) && normalize then div A (sub A (a.get q c) (a.get i c)) (a.get q c)
      else div A (sub A (a.get q c) (a.get i c)) (a.get i c))
    (fun i _ _ => by
      by_cases h : (gt (a.get q c) (a.get p c) && normalize) = true
      · rw [if_pos h, if_pos h]; exact divE_unless A _ _
      · rw [if_neg h, if_neg h]; exact divE_unless A _ _) out with h | h
  · exact .inl h
  · exact .inr h.symm

/-- **C96** (binary labels).  Both engines return the same from the same extrema; extrema of another shape are refused. -/
theorem C96_bn_trend (A : Arith) (a : View2) (e : IntView) :
    (e.nrows = a.nrows → e.ncols = a.ncols →
      bnTrendPy a e = nbCols (fun c => bnTrendLabels (fun i => a.get i c) (fun i => e.get i c) a.nrows) (fun _ _ => nan) a.ncols ∧
      bnContPy A a e = nbCols (fun c => bnContLabels A (fun i => a.get i c) (fun i => e.get i c) a.nrows) (fun _ _ => nan) a.ncols) ∧
    (e.nrows ≠ a.nrows ∨ e.ncols ≠ a.ncols →
      ∃ m, bnTrendPy a e = .error (.valueError m) ∧ bnContPy A a e = .error (.valueError m) ∧
        (∀ normalize, pctTrendPy A a e normalize = .error (.valueError m)) ∧
        ∀ pos neg flex2d, bnContSatPy A a e pos neg flex2d = .error (.valueError m)) := by
  constructor
  · intro h1 h2
    have hs : sameShape a e = .ok () := by unfold sameShape; rw [if_neg (by simp [h1, h2])]
    unfold bnTrendPy bnContPy
    rw [hs]
    exact ⟨bnTrend_eq a e.get, bnCont_eq A a e.get⟩
  · intro h
    have hs : sameShape a e = .error (.valueError "`local_extrema` must have the same shape as `close`") := by
      unfold sameShape
      rw [if_pos (by rcases h with h | h <;> [exact .inl (Ne.symm h); exact .inr (Ne.symm h)])]
    refine ⟨"`local_extrema` must have the same shape as `close`", ?_, ?_, fun n => ?_, fun p n f => ?_⟩
    · unfold bnTrendPy; rw [hs]
    · unfold bnContPy; rw [hs]
    · unfold pctTrendPy; rw [hs]
    · unfold bnContSatPy; rw [hs]

/-- **C96** (continuous labels with saturation).  Unless the Numba engine divides by zero, both engines return the same or raise the
same. -/
theorem C96_bn_cont_sat (A : Arith) (a : View2) (e : IntView) (pos neg : NArr F) (flex2d : Bool) (h1 : e.nrows = a.nrows)
    (h2 : e.ncols = a.ncols) (hp : pos.shape.length ≤ 2) (hn : neg.shape.length ≤ 2)
    (bp : Broadcastable (pos.operand flex2d).shape [a.nrows, a.ncols])
    (bn : Broadcastable (neg.operand flex2d).shape [a.nrows, a.ncols])
    (hz : nbCols (fun c => bnContSatLabels A (fun i => a.get i c) (fun i => flexSelectAuto pos i c flex2d)
      (fun i => flexSelectAuto neg i c flex2d) (fun i => e.get i c) a.nrows) (fun _ _ => nan) a.ncols ≠ .error .zeroDivision) :
    bnContSatPy A a e pos neg flex2d =
      nbCols (fun c => bnContSatLabels A (fun i => a.get i c) (fun i => flexSelectAuto pos i c flex2d)
        (fun i => flexSelectAuto neg i c flex2d) (fun i => e.get i c) a.nrows) (fun _ _ => nan) a.ncols := by
  have hs : sameShape a e = .ok () := by unfold sameShape; rw [if_neg (by simp [h1, h2])]
  obtain ⟨th, t1, t2⟩ := readThresholds_ok hp hn bp bn
  unfold bnContSatPy
  rw [hs]
  dsimp only
  rw [t1]
  exact (bnContSat_unless A a e.get t2).resolve_left hz

/-- **C96** (percentage labels).  Unless the Numba engine divides by zero, both engines return the same. -/
theorem C96_pct_trend (A : Arith) (a : View2) (e : IntView) (normalize : Bool) (h1 : e.nrows = a.nrows) (h2 : e.ncols = a.ncols)
    (hz : nbCols (fun c => pctTrendLabels A (fun i => a.get i c) (fun i => e.get i c) normalize a.nrows) (fun _ _ => nan) a.ncols ≠
      .error .zeroDivision) :
    pctTrendPy A a e normalize =
      nbCols (fun c => pctTrendLabels A (fun i => a.get i c) (fun i => e.get i c) normalize a.nrows) (fun _ _ => nan) a.ncols := by
  have hs : sameShape a e = .ok () := by unfold sameShape; rw [if_neg (by simp [h1, h2])]
  unfold pctTrendPy
  rw [hs]
  exact (pctTrend_unless A a e.get normalize).resolve_left hz

/-- Trend labels of the Numba engine. -/
def nbTrendLabels (A : Arith) (a : View2) (pos neg : NArr F) (mode : Int) (flex2d : Bool) : Except Err (Nat → Nat → F) :=
  trendLabelsApply A a.get (fun i c => flexSelectAuto pos i c flex2d) (fun i c => flexSelectAuto neg i c flex2d) mode a.nrows a.ncols

/-- **C96** (trend labels).  With thresholds that can be broadcast to the prices, both engines return the same or raise the same,
unless the Numba engine divides by zero in a mode other than the first two; other thresholds are refused. -/
theorem C96_trend_labels (A : Arith) (a : View2) (pos neg : NArr F) (mode : Int) (flex2d : Bool) (hp : pos.shape.length ≤ 2)
    (hn : neg.shape.length ≤ 2) :
    (Broadcastable (pos.operand flex2d).shape [a.nrows, a.ncols] → Broadcastable (neg.operand flex2d).shape [a.nrows, a.ncols] →
      (mode = 2 ∨ mode = 3 ∨ mode = 4 → nbTrendLabels A a pos neg mode flex2d ≠ .error .zeroDivision) →
      trendLabelsPy A a pos neg mode flex2d = nbTrendLabels A a pos neg mode flex2d) ∧
    (¬ (Broadcastable (pos.operand flex2d).shape [a.nrows, a.ncols] ∧ Broadcastable (neg.operand flex2d).shape [a.nrows, a.ncols]) →
      ∃ m, trendLabelsPy A a pos neg mode flex2d = .error (.valueError m)) := by
  constructor
  · intro bp bn hz
    obtain ⟨th, t1, t2⟩ := readThresholds_ok hp hn bp bn
    unfold trendLabelsPy
    rw [t1]
    dsimp only
    unfold nbTrendLabels at hz ⊢
    unfold trendLabels
    unfold trendLabelsApply at hz ⊢
    rw [localExtrema_eq A a t2]
    change _ → (match nbExtrema A a pos neg flex2d with | .error e => _ | .ok ext => _) ≠ _ at hz
    change _ = match nbExtrema A a pos neg flex2d with | .error e => _ | .ok ext => _
    generalize nbExtrema A a pos neg flex2d = z at hz ⊢
    cases z with
    | error e => rfl
    | ok ext =>
      dsimp only at hz ⊢
      by_cases m0 : mode = 0
      · rw [if_pos m0, if_pos m0]; exact bnTrend_eq a ext
      · rw [if_neg m0] at hz ⊢
        rw [if_neg m0]
        by_cases m1 : mode = 1
        · rw [if_pos m1, if_pos m1]; exact bnCont_eq A a ext
        · rw [if_neg m1] at hz ⊢
          rw [if_neg m1]
          by_cases m2 : mode = 2
          · rw [if_pos m2] at hz ⊢
            rw [if_pos m2]
            exact (bnContSat_unless A a ext t2).resolve_left (hz (.inl m2))
          · rw [if_neg m2] at hz ⊢
            rw [if_neg m2]
            by_cases m3 : mode = 3
            · rw [if_pos m3] at hz ⊢
              rw [if_pos m3]
              exact (pctTrend_unless A a ext false).resolve_left (hz (.inr (.inl m3)))
            · rw [if_neg m3] at hz ⊢
              rw [if_neg m3]
              by_cases m4 : mode = 4
              · rw [if_pos m4] at hz ⊢
                rw [if_pos m4]
                exact (pctTrend_unless A a ext true).resolve_left (hz (.inr (.inr m4)))
              · rw [if_neg m4, if_neg m4]
  · intro hb
    obtain ⟨m, hm⟩ := readThresholds_error hp hn hb
    exact ⟨m, by unfold trendLabelsPy; rw [hm]⟩

/-! ## Breakouts -/

/-- **C96** (breakouts).  With thresholds that can be broadcast to the prices, both engines return the same; other thresholds are
refused. -/
theorem C96_breakout (A : Arith) (a : View2) (window : Nat) (pos neg : NArr F) (wait : Nat) (flex2d : Bool)
    (hp : pos.shape.length ≤ 2) (hn : neg.shape.length ≤ 2) :
    (Broadcastable (pos.operand flex2d).shape [a.nrows, a.ncols] → Broadcastable (neg.operand flex2d).shape [a.nrows, a.ncols] →
      ∃ out, breakoutPy A a window pos neg wait flex2d = .ok out ∧ ∀ i < a.nrows, ∀ c < a.ncols,
        out i c = F.fin ((breakoutLabels A (fun i => a.get i c) window (fun i => flexSelectAuto pos i c flex2d)
          (fun i => flexSelectAuto neg i c flex2d) wait a.nrows i : Int) : ℚ)) ∧
    (¬ (Broadcastable (pos.operand flex2d).shape [a.nrows, a.ncols] ∧ Broadcastable (neg.operand flex2d).shape [a.nrows, a.ncols]) →
      ∃ m, breakoutPy A a window pos neg wait flex2d = .error (.valueError m)) := by
  constructor
  · intro bp bn
    obtain ⟨th, t1, t2⟩ := readThresholds_ok hp hn bp bn
    unfold breakoutPy
    rw [t1]
    dsimp only
    unfold breakout
    dsimp only
    have hcols : ∀ (f : Nat → Nat → F) (out0 : Nat → Nat → F) (n : Nat), ∃ out, nbCols (fun c => .ok (f c)) out0 n = .ok out ∧
        ∀ i c, c < n → out i c = f c i := by
      intro f out0 n
      induction n with
      | zero => exact ⟨out0, rfl, fun i c hc => by omega⟩
      | succ n ih =>
        obtain ⟨out, o1, o2⟩ := ih
        refine ⟨fun i c => if c = n then f n i else out i c, ?_, fun i c hc => ?_⟩
        · unfold nbCols at o1 ⊢
          rw [List.range_succ, loopE_concat, o1]
        · dsimp only
          by_cases h : c = n
          · rw [if_pos h, h]
          · rw [if_neg h]; exact o2 i c (by omega)
    obtain ⟨out, o1, o2⟩ := hcols (fun c => (fillRows (fun (_ : Unit) i =>
      let start := i + wait
      let stop := min (i + window + wait) a.nrows
      ((), if start ≥ stop then none
        else some (breakoutLoop A (a.column c) i (abs ((thresholds th.1 th.2).1 i c)) (abs ((thresholds th.1 th.2).2 i c))
          (List.range' start (stop - start)))))
      () (fun _ => zero) (List.range a.nrows)).2) (fun _ _ => zero) a.ncols
    refine ⟨out, o1, fun i hi c hc => ?_⟩
    rw [o2 i c hc, fillRows_scan, scanRows_out _ _ _ hi]
    dsimp only
    rw [(t2 i hi c hc).1, (t2 i hi c hc).2]
    unfold breakoutLabels
    rw [← breakoutLoop_eq]
    by_cases h : i + wait ≥ min (i + window + wait) a.nrows
    · rw [if_pos h, show min (i + window + wait) a.nrows - (i + wait) = 0 by omega]
      rfl
    · rw [if_neg h]
      rfl
  · intro hb
    obtain ⟨m, hm⟩ := readThresholds_error hp hn hb
    exact ⟨m, by unfold breakoutPy; rw [hm]⟩

/-! ## Differences between the engines -/

/-- One threshold for all cells. -/
def wTh (q : ℚ) : NArr F := ⟨[], fun _ => F.fin q⟩

/-- **C96** (a price of zero).  The percentage change from a price of zero: the Numba engine raises, the Rust engine returns
infinity. -/
theorem C96_pct_zero :
    raised (nbTrendLabels Arith.double (wColumn [zero, one] true) (wTh (1 / 2)) (wTh (1 / 2)) 3 true) .zeroDivision = true ∧
    ∃ u, trendLabelsPy Arith.double (wColumn [zero, one] true) (wTh (1 / 2)) (wTh (1 / 2)) 3 true = .ok u ∧
      decide (u 0 0 = pinf) = true :=
  ⟨by decide +kernel, okAnd_iff (f := fun u : Nat → Nat → F => decide (u 0 0 = pinf)) (by decide +kernel)⟩

/-- **C96** (a threshold of one).  A fall of 100 %: the Numba engine divides by zero, the Rust engine returns NaN. -/
theorem C96_sat_zero :
    raised (nbTrendLabels Arith.double (wColumn [F.fin 2, zero] true) (wTh 1) (wTh 1) 2 true) .zeroDivision = true ∧
    ∃ u, trendLabelsPy Arith.double (wColumn [F.fin 2, zero] true) (wTh 1) (wTh 1) 2 true = .ok u ∧
      decide (u 0 0 = nan) = true :=
  ⟨by decide +kernel, okAnd_iff (f := fun u : Nat → Nat → F => decide (u 0 0 = nan)) (by decide +kernel)⟩

/-! ## Examples -/

/-- Thresholds of two columns. -/
def wThs : NArr F := ⟨[2], fun l => if l = [0] then F.fin (1 / 2) else F.fin 1⟩

theorem wTh_broadcasts (q : ℚ) (flex2d : Bool) (n m : Nat) : Broadcastable ((wTh q).operand flex2d).shape [n, m] := by
  cases flex2d <;> simp [wTh, NArr.operand, Broadcastable]

theorem wThs_broadcasts (n : Nat) : Broadcastable (wThs.operand true).shape [n, 2] := by
  simp [wThs, NArr.operand, Broadcastable]

example (b : Bool) :
    localExtremaPy Arith.double (wPrices b) wThs (wTh (1 / 4)) true = nbExtrema Arith.double (wPrices b) wThs (wTh (1 / 4)) true ∧
    okAnd (localExtremaPy Arith.double (wPrices b) wThs (wTh (1 / 4)) true) (fun u =>
      decide ((List.range 4).map (fun i => u i 0) = [-1, 1, -1, 1]) && decide ((List.range 4).map (fun i => u i 1) = [1, 0, -1, 1])) =
      true :=
  ⟨(C96_local_extrema Arith.double (wPrices b) wThs (wTh (1 / 4)) true (by decide) (by decide)).1 (wThs_broadcasts 4)
    (wTh_broadcasts _ _ _ _), by cases b <;> decide +kernel⟩

/-- Thresholds for three columns do not fit two. -/
example : ∃ m, localExtremaPy Arith.double (wPrices true) ⟨[3], fun _ => one⟩ (wTh 1) true = .error (.valueError m) :=
  (C96_local_extrema Arith.double (wPrices true) ⟨[3], fun _ => one⟩ (wTh 1) true (by decide) (by decide)).2
    fun h => absurd h.1 (by simp [NArr.operand, Broadcastable, wPrices])

/-- A threshold of zero is refused by both. -/
example : trendLabelsPy Arith.double (wPrices true) (wTh 0) (wTh 1) 0 true = nbTrendLabels Arith.double (wPrices true) (wTh 0) (wTh 1) 0 true ∧
    raised (trendLabelsPy Arith.double (wPrices true) (wTh 0) (wTh 1) 0 true) (.valueError "Positive threshold cannot be 0") = true :=
  ⟨(C96_trend_labels Arith.double (wPrices true) (wTh 0) (wTh 1) 0 true (by decide) (by decide)).1 (wTh_broadcasts _ _ _ _)
    (wTh_broadcasts _ _ _ _) (fun h => absurd h (by decide)), by decide +kernel⟩

/-- The extrema of the first column of `wPrices`. -/
def wExt : IntView := ⟨4, 2, fun i c => if c = 0 then [-1, 1, -1, 1].getD i 0 else [1, 0, -1, 1].getD i 0⟩

example (b : Bool) :
    bnTrendPy (wPrices b) wExt =
      nbCols (fun c => bnTrendLabels (fun i => (wPrices b).get i c) (fun i => wExt.get i c) 4) (fun _ _ => nan) 2 ∧
    okAnd (bnTrendPy (wPrices b) wExt) (fun u => decide ((List.range 4).map (fun i => u i 0) = [one, zero, one, nan]) &&
      decide ((List.range 4).map (fun i => u i 1) = [zero, zero, one, nan])) = true ∧
    okAnd (bnContPy Arith.double (wPrices b) wExt) (fun u =>
      decide ((List.range 4).map (fun i => u i 0) = [one, zero, one, nan])) = true :=
  ⟨((C96_bn_trend Arith.double (wPrices b) wExt).1 rfl rfl).1, by cases b <;> decide +kernel, by cases b <;> decide +kernel⟩

example : ∃ m, bnTrendPy (wPrices true) { wExt with nrows := 3 } = .error (.valueError m) :=
  ((C96_bn_trend Arith.double (wPrices true) { wExt with nrows := 3 }).2 (.inl (by decide))).elim fun m hm => ⟨m, hm.1⟩

/-- A result that is not an error. -/
theorem ne_of_okAnd {α : Type} {x : Except Err α} {f : α → Bool} {e : Err} (h : okAnd x f = true) : x ≠ .error e := by
  intro hx
  obtain ⟨v, hv, -⟩ := okAnd_iff h
  rw [hx] at hv
  cases hv

/-- Prices of one asset with a rise and a fall. -/
def wWave (std : Bool) : View2 := wColumn [F.fin 2, F.fin 3, F.fin 4, F.fin 3, F.fin 1] std

def wWaveExt : IntView := ⟨5, 1, fun i _ => [-1, 0, 1, 0, -1].getD i 0⟩

example (b : Bool) :
    bnContSatPy (Arith.exact 0 0) (wWave b) wWaveExt (wTh 1) (wTh (1 / 2)) true =
      nbCols (fun c => bnContSatLabels (Arith.exact 0 0) (fun i => (wWave b).get i c) (fun i => flexSelectAuto (wTh 1) i c true)
        (fun i => flexSelectAuto (wTh (1 / 2)) i c true) (fun i => wWaveExt.get i c) 5) (fun _ _ => nan) 1 ∧
    okAnd (bnContSatPy (Arith.exact 0 0) (wWave b) wWaveExt (wTh 1) (wTh (1 / 2)) true) (fun u =>
      decide ((List.range 5).map (fun i => u i 0) = [one, F.fin (1 / 2), zero, zero, nan])) = true :=
  ⟨C96_bn_cont_sat _ (wWave b) wWaveExt (wTh 1) (wTh (1 / 2)) true rfl rfl (by decide) (by decide) (wTh_broadcasts _ _ _ _)
    (wTh_broadcasts _ _ _ _) (ne_of_okAnd (f := fun _ => true) (by cases b <;> decide +kernel)), by cases b <;> decide +kernel⟩

example (b : Bool) :
    pctTrendPy (Arith.exact 0 0) (wWave b) wWaveExt true =
      nbCols (fun c => pctTrendLabels (Arith.exact 0 0) (fun i => (wWave b).get i c) (fun i => wWaveExt.get i c) true 5)
        (fun _ _ => nan) 1 ∧
    okAnd (pctTrendPy (Arith.exact 0 0) (wWave b) wWaveExt true) (fun u =>
      decide ((List.range 5).map (fun i => u i 0) = [F.fin (1 / 2), F.fin (1 / 4), F.fin (-3 / 4), F.fin (-2 / 3), nan])) = true ∧
    okAnd (pctTrendPy (Arith.exact 0 0) (wWave b) wWaveExt false) (fun u =>
      decide ((List.range 5).map (fun i => u i 0) = [one, F.fin (1 / 3), F.fin (-3 / 4), F.fin (-2 / 3), nan])) = true :=
  ⟨C96_pct_trend _ (wWave b) wWaveExt true rfl rfl (ne_of_okAnd (f := fun _ => true) (by cases b <;> decide +kernel)),
    by cases b <;> decide +kernel, by cases b <;> decide +kernel⟩

example (b : Bool) :
    trendLabelsPy (Arith.exact 0 0) (wWave b) (wTh 1) (wTh (1 / 2)) 2 true =
      nbTrendLabels (Arith.exact 0 0) (wWave b) (wTh 1) (wTh (1 / 2)) 2 true ∧
    okAnd (trendLabelsPy (Arith.exact 0 0) (wWave b) (wTh 1) (wTh (1 / 2)) 2 true) (fun u =>
      decide ((List.range 5).map (fun i => u i 0) = [one, F.fin (1 / 2), zero, zero, nan])) = true ∧
    raised (trendLabelsPy (Arith.exact 0 0) (wWave b) (wTh 1) (wTh (1 / 2)) 5 true) (.valueError "Trend mode is not recognized") = true :=
  ⟨(C96_trend_labels _ (wWave b) (wTh 1) (wTh (1 / 2)) 2 true (by decide) (by decide)).1 (wTh_broadcasts _ _ _ _)
    (wTh_broadcasts _ _ _ _) (fun _ => ne_of_okAnd (f := fun _ => true) (by cases b <;> decide +kernel)),
    by cases b <;> decide +kernel, by cases b <;> decide +kernel⟩

example (b : Bool) :
    (∃ out, breakoutPy Arith.double (wWave b) 2 (wTh (1 / 2)) (wTh (1 / 2)) 1 true = .ok out ∧ ∀ i < 5, ∀ c < 1,
      out i c = F.fin ((breakoutLabels Arith.double (fun i => (wWave b).get i c) 2 (fun i => flexSelectAuto (wTh (1 / 2)) i c true)
        (fun i => flexSelectAuto (wTh (1 / 2)) i c true) 1 5 i : Int) : ℚ)) ∧
    okAnd (breakoutPy Arith.double (wWave b) 2 (wTh (1 / 2)) (wTh (1 / 2)) 1 true) (fun u =>
      decide ((List.range 5).map (fun i => u i 0) = [one, zero, F.fin (-1), F.fin (-1), zero])) = true :=
  ⟨(C96_breakout Arith.double (wWave b) 2 (wTh (1 / 2)) (wTh (1 / 2)) 1 true (by decide) (by decide)).1 (wTh_broadcasts _ _ _ _)
    (wTh_broadcasts _ _ _ _), by cases b <;> decide +kernel⟩

end Vbt
