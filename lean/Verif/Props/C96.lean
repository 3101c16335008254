import Verif.Lemmas.RustLabels

/-!
# C96 — labels of the next period on the Rust engine

`rust/src/labels.rs` against `labels/nb.py`: mean, deviation, smallest and largest price of the next period, and the labels made
of them.
-/

namespace Vbt
open F RsGen RsLab

/-! ## Mean -/

theorem ewm_returns (r t : ℚ) (b : Nat → F) {span : Nat} (h : 1 ≤ span) (adjust : Bool) (junk : Nat → F) (len : Nat) :
    ∃ x, ewmMean (Arith.exact r t) b span (some span) adjust junk len = .ok x := by
  have hs := C88_ewm_mean_span r t ⟨len, 1, fun i _ => b i, false⟩ span span adjust Nat.one_pos h junk fun _ _ => nan
  have hok : ∃ u, ewmMeanPy (Arith.exact r t) ⟨len, 1, fun i _ => b i, false⟩ span span adjust = .ok u := by
    unfold ewmMeanPy validMinp
    dsimp only [Option.getD]
    rw [if_neg (by omega)]
    exact ⟨_, rfl⟩
  obtain ⟨u, hu⟩ := hok
  rw [hu] at hs
  generalize hn : nb2d _ _ _ _ = y at hs
  cases hs with
  | returns =>
    obtain ⟨x, hx, -⟩ := nb2d_ok hn 0 Nat.one_pos
    exact ⟨x, hx⟩

theorem ewm_std_returns (r t : ℚ) {sqrt : F → F} (hsq : sqrt nan = nan) (b : Nat → F) {span : Nat} (h : 1 ≤ span) (adjust : Bool)
    (junk : Nat → F) (len : Nat) :
    ∃ x, ewmStd (Arith.exact r t) sqrt b span (some span) adjust junk len = .ok x := by
  have hs := C88_ewm_std_span r t sqrt hsq ⟨len, 1, fun i _ => b i, false⟩ span span adjust Nat.one_pos h junk fun _ _ => nan
  have hok : ∃ u, ewmStdPy (Arith.exact r t) sqrt ⟨len, 1, fun i _ => b i, false⟩ span span adjust = .ok u := by
    unfold ewmStdPy validMinp
    dsimp only [Option.getD]
    rw [if_neg (by omega)]
    exact ⟨_, rfl⟩
  obtain ⟨u, hu⟩ := hok
  rw [hu] at hs
  generalize hn : nb2d _ _ _ _ = y at hs
  cases hs with
  | returns =>
    obtain ⟨x, hx, -⟩ := nb2d_ok hn 0 Nat.one_pos
    exact ⟨x, hx⟩

theorem span_exact (r t : ℚ) (span : Nat) : sub (Arith.exact r t) (F.fin span) one = F.fin (span - 1) := by
  simp [sub, add, neg, sub_eq_add_neg]

/-- The mean of the next period of a column, from the Numba engine. -/
theorem nbFutureMean_col (r t : ℚ) (col : Nat → F) {window : Nat} (ewm : Bool) (wait : Nat) (adjust : Bool) (hw : 1 ≤ window)
    (junk junk' : Nat → F) (len : Nat) :
    ∃ x, Vbt.futureMean (Arith.exact r t) col window ewm wait adjust junk junk' len = .ok x ∧ ∀ i < len,
      laterRow (if ewm then ewmMean1 (Arith.exact r t) (reversed col len) window window adjust len
        else rollingMean1 (Arith.exact r t) (reversed col len) window window len) wait len i = x i := by
  unfold Vbt.futureMean
  cases ewm with
  | true =>
    obtain ⟨x, hx⟩ := ewm_returns r t (reversed col len) hw adjust junk len
    rw [if_pos rfl, if_pos rfl, hx]
    refine ⟨_, rfl, fun i hi => ?_⟩
    rw [futureShift_get _ _ _ hi]
    exact laterRow_congr (fun j hj => ewm_col (span_exact r t window) hx hj) i
  | false =>
    obtain ⟨q, hq⟩ := mean_returns (Arith.exact r t) (reversed col len) (window := window) hw junk len
    have hr : rollingMean (Arith.exact r t) (reversed col len) window (some window) junk len = .ok q.2 := by
      unfold rollingMean
      rw [resolveMinp_le (by simp)]
      dsimp only [Option.getD]
      rw [hq]
    rw [if_neg Bool.false_ne_true, if_neg Bool.false_ne_true, hr]
    refine ⟨_, rfl, fun i hi => ?_⟩
    rw [futureShift_get _ _ _ hi]
    refine laterRow_congr (fun j hj => ?_) i
    unfold rollingMean1
    rw [fillRows_scan]
    exact mean_col hq hj

/-- **C96** (mean of the next period).  In exact arithmetic both engines return the same, for plain and exponential windows and in
every memory layout. -/
theorem C96_future_mean_exact (r t : ℚ) (a : View2) {window : Nat} (ewm : Bool) (wait : Nat) (adjust : Bool) (hw : 1 ≤ window)
    (junk junk' : Nat → F) (junk2 : Nat → Nat → F) :
    SameResult a.nrows a.ncols (.ok (RsLab.futureMean (Arith.exact r t) a window ewm wait adjust))
      (nb2d (fun col => Vbt.futureMean (Arith.exact r t) col window ewm wait adjust junk junk' a.nrows) a.get junk2 a.ncols) := by
  obtain ⟨v, hv⟩ := nb2d_returns (f := fun col => Vbt.futureMean (Arith.exact r t) col window ewm wait adjust junk junk' a.nrows)
    (a := a.get) (junk := junk2) (n := a.ncols) (fun c _ => by
      obtain ⟨x, hx, -⟩ := nbFutureMean_col r t (fun i => a.get i c) ewm wait adjust hw junk junk' a.nrows
      exact ⟨x, hx⟩)
  rw [hv]
  refine .returns (sameCells_of_cols (fun c hc x hx i hi => ?_) hv)
  obtain ⟨y, y1, y2⟩ := nbFutureMean_col r t (fun i => a.get i c) ewm wait adjust hw junk junk' a.nrows
  rw [y1] at hx
  cases hx
  rw [rsFutureMean_get _ a ewm wait adjust hw hi hc]
  exact y2 i hi

/-- **C96** (mean labels). -/
theorem C96_mean_labels_exact (r t : ℚ) (a : View2) {window : Nat} (ewm : Bool) (wait : Nat) (adjust : Bool) (hw : 1 ≤ window)
    (junk junk' : Nat → F) (junk2 : Nat → Nat → F) :
    SameResult a.nrows a.ncols (.ok (RsLab.meanLabels (Arith.exact r t) a window ewm wait adjust))
      (nb2d (fun col => Vbt.meanLabels (Arith.exact r t) col window ewm wait adjust junk junk' a.nrows) a.get junk2 a.ncols) := by
  have hcol : ∀ c < a.ncols, ∃ x, Vbt.meanLabels (Arith.exact r t) (fun i => a.get i c) window ewm wait adjust junk junk' a.nrows =
      .ok x ∧ ∀ i < a.nrows, RsLab.meanLabels (Arith.exact r t) a window ewm wait adjust i c = x i := by
    intro c hc
    obtain ⟨y, y1, y2⟩ := nbFutureMean_col r t (fun i => a.get i c) ewm wait adjust hw junk junk' a.nrows
    unfold Vbt.meanLabels
    rw [y1]
    refine ⟨_, rfl, fun i hi => ?_⟩
    rw [rsMeanLabels_get _ a ewm wait adjust hw hi hc, rsFutureMean_get _ a ewm wait adjust hw hi hc,
      ← y2 i hi]
    rfl
  obtain ⟨v, hv⟩ := nb2d_returns (f := fun col => Vbt.meanLabels (Arith.exact r t) col window ewm wait adjust junk junk' a.nrows)
    (a := a.get) (junk := junk2) (n := a.ncols) (fun c hc => (hcol c hc).elim fun x hx => ⟨x, hx.1⟩)
  rw [hv]
  refine .returns (sameCells_of_cols (fun c hc x hx i hi => ?_) hv)
  obtain ⟨y, y1, y2⟩ := hcol c hc
  rw [y1] at hx
  cases hx
  exact y2 i hi

/-- **C96** (exponential mean of the next period).  For every rounding: where the Numba engine returns, the Rust engine returns the
same. -/
theorem C96_future_ewm_mean (A : Arith) (a : View2) {window : Nat} (wait : Nat) (adjust : Bool) (hw : 1 ≤ window)
    (hs : sub A (F.fin window) one = F.fin (window - 1)) (junk junk' : Nat → F) (junk2 : Nat → Nat → F) :
    ReturnsSame a.nrows a.ncols (.ok (RsLab.futureMean A a window true wait adjust))
      (nb2d (fun col => Vbt.futureMean A col window true wait adjust junk junk' a.nrows) a.get junk2 a.ncols) ∧
    ReturnsSame a.nrows a.ncols (.ok (RsLab.meanLabels A a window true wait adjust))
      (nb2d (fun col => Vbt.meanLabels A col window true wait adjust junk junk' a.nrows) a.get junk2 a.ncols) := by
  have hcol : ∀ c < a.ncols, ∀ x, Vbt.futureMean A (fun i => a.get i c) window true wait adjust junk junk' a.nrows = .ok x →
      ∀ i < a.nrows, RsLab.futureMean A a window true wait adjust i c = x i := by
    intro c hc x hx i hi
    unfold Vbt.futureMean at hx
    rw [if_pos rfl] at hx
    cases he : ewmMean A (reversed (fun i => a.get i c) a.nrows) window (some window) adjust junk a.nrows with
    | error e => rw [he] at hx; cases hx
    | ok y =>
      rw [he] at hx
      cases hx
      rw [rsFutureMean_get _ a true wait adjust hw hi hc, if_pos rfl, futureShift_get _ _ _ hi]
      exact laterRow_congr (fun j hj => ewm_col hs he hj) i
  refine ⟨fun v hv => ⟨_, rfl, sameCells_of_cols hcol hv⟩, fun v hv => ⟨_, rfl, sameCells_of_cols (fun c hc x hx i hi => ?_) hv⟩⟩
  unfold Vbt.meanLabels at hx
  cases he : Vbt.futureMean A (fun i => a.get i c) window true wait adjust junk junk' a.nrows with
  | error e => rw [he] at hx; cases hx
  | ok y =>
    rw [he] at hx
    cases hx
    rw [rsMeanLabels_get _ a true wait adjust hw hi hc, hcol c hc y he i hi]

/-- **C96** (layouts, mean).  For every rounding the memory layout of the prices does not change the result. -/
theorem C96_mean_layout (A : Arith) (a : View2) {window : Nat} (ewm : Bool) (wait : Nat) (adjust : Bool) (hw : 1 ≤ window) (std : Bool) :
    SameCells a.nrows a.ncols (RsLab.futureMean A a window ewm wait adjust)
      (RsLab.futureMean A { a with standard := std } window ewm wait adjust) ∧
    SameCells a.nrows a.ncols (RsLab.meanLabels A a window ewm wait adjust)
      (RsLab.meanLabels A { a with standard := std } window ewm wait adjust) := by
  have h : SameCells a.nrows a.ncols (RsLab.futureMean A a window ewm wait adjust)
      (RsLab.futureMean A { a with standard := std } window ewm wait adjust) := by
    intro i hi c hc
    rw [rsFutureMean_get _ a ewm wait adjust hw hi hc, rsFutureMean_get _ { a with standard := std } ewm wait adjust hw hi hc]
    rfl
  refine ⟨h, fun i hi c hc => ?_⟩
  rw [rsMeanLabels_get _ a ewm wait adjust hw hi hc, rsMeanLabels_get _ { a with standard := std } ewm wait adjust hw hi hc,
    h i hi c hc]

/-! ## Deviation -/

/-- **C96** (deviation of the next period).  In exact arithmetic, without infinite prices, both engines return the same in every
memory layout. -/
theorem C96_future_std_partial (r t : ℚ) (sqrt : F → F) (a : View2) {window : Nat} (wait : Nat) (adjust : Bool) (ddof : Nat)
    (hw : 1 ≤ window) (hinf : ∀ i < a.nrows, ∀ c < a.ncols, (a.get i c).isinf = false) (junk junk' : Nat → F)
    (junk2 : Nat → Nat → F) :
    SameResult a.nrows a.ncols (.ok (RsLab.futureStd (Arith.exact r t) sqrt a window false wait adjust ddof))
      (nb2d (fun col => Vbt.futureStd (Arith.exact r t) sqrt col window wait ddof junk junk' a.nrows) a.get junk2 a.ncols) := by
  have hrev : ∀ c < a.ncols, ∀ i < a.nrows, (reversed (a.column c) a.nrows i).isinf = false :=
    fun c hc i hi => hinf _ (by omega) c hc
  have hcol : ∀ c < a.ncols, ∃ x, Vbt.futureStd (Arith.exact r t) sqrt (fun i => a.get i c) window wait ddof junk junk' a.nrows =
      .ok x ∧ ∀ i < a.nrows, RsLab.futureStd (Arith.exact r t) sqrt a window false wait adjust ddof i c = x i := by
    intro c hc
    obtain ⟨y, y1, y2⟩ := C66_std r t sqrt (reversed (a.column c) a.nrows) (window := window) (minp := some window) (by simp) ddof
      junk a.nrows (hrev c hc)
    unfold Vbt.futureStd
    have y1' : rollingStd (Arith.exact r t) sqrt (reversed (fun i => a.get i c) a.nrows) window (some window) ddof junk a.nrows =
      .ok y := y1
    rw [y1']
    refine ⟨_, rfl, fun i hi => ?_⟩
    rw [futureShift_get _ _ _ hi]
    unfold RsLab.futureStd
    by_cases hs : (!false && a.standard) = true
    · rw [if_pos hs, futureStdC_get r t sqrt a wait ddof hw hi hc (fun k hk => hinf k hk c hc)]
      exact laterRow_congr (fun j hj => (y2 j hj).symm) i
    · rw [if_neg hs, shifted_get a _ wait hi hc]
      refine laterRow_congr (fun j hj => ?_) i
      rw [if_neg Bool.false_ne_true, rollingStd1_get _ sqrt _ window ddof junk hj]
      unfold rollingStd at y1
      rw [resolveMinp_le (by simp)] at y1
      cases y1
      rfl
  obtain ⟨v, hv⟩ := nb2d_returns (f := fun col => Vbt.futureStd (Arith.exact r t) sqrt col window wait ddof junk junk' a.nrows)
    (a := a.get) (junk := junk2) (n := a.ncols) (fun c hc => (hcol c hc).elim fun x hx => ⟨x, hx.1⟩)
  rw [hv]
  refine .returns (sameCells_of_cols (fun c hc x hx i hi => ?_) hv)
  obtain ⟨y, y1, y2⟩ := hcol c hc
  rw [y1] at hx
  cases hx
  exact y2 i hi

/-- **C96** (deviation of the next period, columns).  For every rounding both engines return the same unless the prices are in row
order. -/
theorem C96_future_std_col (A : Arith) (sqrt : F → F) (a : View2) (window wait : Nat) (adjust : Bool) (ddof : Nat)
    (hstd : a.standard = false) (junk junk' : Nat → F) (junk2 : Nat → Nat → F) :
    SameResult a.nrows a.ncols (.ok (RsLab.futureStd A sqrt a window false wait adjust ddof))
      (nb2d (fun col => Vbt.futureStd A sqrt col window wait ddof junk junk' a.nrows) a.get junk2 a.ncols) := by
  have hf : ∀ col, Vbt.futureStd A sqrt col window wait ddof junk junk' a.nrows =
      .ok (futureShift (scanRows (stdStep A sqrt (reversed col a.nrows) window (max window 1) ddof)
        ⟨0, zero, zero, zero, zero, false⟩ junk a.nrows).2 wait junk' a.nrows) := by
    intro col
    unfold Vbt.futureStd rollingStd
    rw [resolveMinp_le (by simp)]
    rfl
  rw [show (fun col => Vbt.futureStd A sqrt col window wait ddof junk junk' a.nrows) = _ from funext hf]
  refine sameResult_total (g := fun col => futureShift (scanRows (stdStep A sqrt (reversed col a.nrows) window (max window 1) ddof)
        ⟨0, zero, zero, zero, zero, false⟩ junk a.nrows).2 wait junk' a.nrows) fun c hc i hi => ?_
  unfold RsLab.futureStd
  rw [if_neg (by simp [hstd]), shifted_get a _ wait hi hc, futureShift_get _ _ _ hi]
  refine laterRow_congr (fun j hj => ?_) i
  rw [if_neg Bool.false_ne_true, rollingStd1_get _ sqrt _ window ddof junk hj]
  rfl

/-- **C96** (exponential deviation of the next period).  For every rounding: where the Numba engine returns, the Rust engine returns
the same; in exact arithmetic both return. -/
theorem C96_future_ewm_std (A : Arith) (sqrt : F → F) (hsq : sqrt nan = nan) (a : View2) {window : Nat} (wait : Nat) (adjust : Bool)
    (ddof : Nat) (hw : 1 ≤ window) (hs : sub A (F.fin window) one = F.fin (window - 1)) (junk junk' : Nat → F)
    (junk2 : Nat → Nat → F) :
    ReturnsSame a.nrows a.ncols (.ok (RsLab.futureStd A sqrt a window true wait adjust ddof))
      (nb2d (fun col => futureEwmStd A sqrt col window wait adjust junk junk' a.nrows) a.get junk2 a.ncols) ∧
    ((∃ r t : ℚ, A = Arith.exact r t) →
      SameResult a.nrows a.ncols (.ok (RsLab.futureStd A sqrt a window true wait adjust ddof))
        (nb2d (fun col => futureEwmStd A sqrt col window wait adjust junk junk' a.nrows) a.get junk2 a.ncols)) := by
  have hcol : ∀ c < a.ncols, ∀ x, futureEwmStd A sqrt (fun i => a.get i c) window wait adjust junk junk' a.nrows = .ok x →
      ∀ i < a.nrows, RsLab.futureStd A sqrt a window true wait adjust ddof i c = x i := by
    intro c hc x hx i hi
    unfold futureEwmStd at hx
    cases he : ewmStd A sqrt (reversed (fun i => a.get i c) a.nrows) window (some window) adjust junk a.nrows with
    | error e => rw [he] at hx; cases hx
    | ok y =>
      rw [he] at hx
      cases hx
      unfold RsLab.futureStd
      rw [if_neg (by simp), shifted_get a _ wait hi hc, futureShift_get _ _ _ hi]
      refine laterRow_congr (fun j hj => ?_) i
      rw [if_pos rfl]
      exact ewm_std_col hsq hs he hj
  refine ⟨fun v hv => ⟨_, rfl, sameCells_of_cols hcol hv⟩, ?_⟩
  rintro ⟨r, t, rfl⟩
  obtain ⟨v, hv⟩ := nb2d_returns (f := fun col => futureEwmStd (Arith.exact r t) sqrt col window wait adjust junk junk' a.nrows)
    (a := a.get) (junk := junk2) (n := a.ncols) (fun c _ => by
      obtain ⟨x, hx⟩ := ewm_std_returns r t hsq (reversed (fun i => a.get i c) a.nrows) hw adjust junk a.nrows
      unfold futureEwmStd
      rw [hx]
      exact ⟨_, rfl⟩)
  rw [hv]
  exact .returns (sameCells_of_cols hcol hv)

/-! ## Extremes -/

theorem winObs_pos {b : Nat → F} {window i : Nat} (hw : 1 ≤ window) (h : window ≤ (winObs b window i).length) : winObs b window i ≠ [] := by
  intro h0
  rw [h0] at h
  simp at h
  omega

/-- **C96** (extremes of the next period).  Both engines return the same in every memory layout. -/
theorem C96_future_extremes (a : View2) {window : Nat} (wait : Nat) (hw : 1 ≤ window) (junk junk' : Nat → F) (junk2 : Nat → Nat → F) :
    SameResult a.nrows a.ncols (.ok (RsLab.futureMin a window wait))
      (nb2d (fun col => Vbt.futureMin col window wait junk junk' a.nrows) a.get junk2 a.ncols) ∧
    SameResult a.nrows a.ncols (.ok (RsLab.futureMax a window wait))
      (nb2d (fun col => Vbt.futureMax col window wait junk junk' a.nrows) a.get junk2 a.ncols) := by
  constructor
  · have hcol : ∀ c < a.ncols, ∃ x, Vbt.futureMin (fun i => a.get i c) window wait junk junk' a.nrows = .ok x ∧
        ∀ i < a.nrows, RsLab.futureMin a window wait i c = x i := by
      intro c hc
      obtain ⟨y, y1, y2⟩ := C38_min (reversed (a.column c) a.nrows) (window := window) (by omega) (minp := some window) (by simp)
        junk a.nrows
      unfold Vbt.futureMin
      have y1' : rollingMin (reversed (fun i => a.get i c) a.nrows) window (some window) junk a.nrows = .ok y := y1
      rw [y1']
      refine ⟨_, rfl, fun i hi => ?_⟩
      rw [futureShift_get _ _ _ hi]
      unfold RsLab.futureMin
      cases hs : a.standard with
      | true =>
        rw [if_pos rfl]
        refine futureExtremeC_get true a wait hw hi hc (fun j hj hl => (y2 j hj).1 (.inl hl)) (fun j hj hl => ?_)
        obtain ⟨m1, m2⟩ := (y2 j hj).2 hl (winObs_pos hw hl)
        exact ⟨m1, fun x hx => by rw [if_pos rfl]; exact m2 x hx⟩
      | false =>
        rw [if_neg Bool.false_ne_true, shifted_get a _ wait hi hc]
        refine laterRow_congr (fun j hj => ?_) i
        unfold rollingMin at y1
        rw [resolveMinp_le (by simp)] at y1
        cases y1
        rw [scanRows_out _ _ _ hj]
        exact rollExtreme_get _ _ _ _ hj
    obtain ⟨v, hv⟩ := nb2d_returns (f := fun col => Vbt.futureMin col window wait junk junk' a.nrows)
      (a := a.get) (junk := junk2) (n := a.ncols) (fun c hc => (hcol c hc).elim fun x hx => ⟨x, hx.1⟩)
    rw [hv]
    refine .returns (sameCells_of_cols (fun c hc x hx i hi => ?_) hv)
    obtain ⟨y, y1, y2⟩ := hcol c hc
    rw [y1] at hx
    cases hx
    exact y2 i hi
  · have hcol : ∀ c < a.ncols, ∃ x, Vbt.futureMax (fun i => a.get i c) window wait junk junk' a.nrows = .ok x ∧
        ∀ i < a.nrows, RsLab.futureMax a window wait i c = x i := by
      intro c hc
      obtain ⟨y, y1, y2⟩ := C38_max (reversed (a.column c) a.nrows) (window := window) (by omega) (minp := some window) (by simp)
        junk a.nrows
      unfold Vbt.futureMax
      have y1' : rollingMax (reversed (fun i => a.get i c) a.nrows) window (some window) junk a.nrows = .ok y := y1
      rw [y1']
      refine ⟨_, rfl, fun i hi => ?_⟩
      rw [futureShift_get _ _ _ hi]
      unfold RsLab.futureMax
      cases hs : a.standard with
      | true =>
        rw [if_pos rfl]
        refine futureExtremeC_get false a wait hw hi hc (fun j hj hl => (y2 j hj).1 (.inl hl)) (fun j hj hl => ?_)
        obtain ⟨m1, m2⟩ := (y2 j hj).2 hl (winObs_pos hw hl)
        exact ⟨m1, fun x hx => by rw [if_neg Bool.false_ne_true]; exact m2 x hx⟩
      | false =>
        rw [if_neg Bool.false_ne_true, shifted_get a _ wait hi hc]
        refine laterRow_congr (fun j hj => ?_) i
        unfold rollingMax at y1
        rw [resolveMinp_le (by simp)] at y1
        cases y1
        rw [scanRows_out _ _ _ hj]
        exact rollExtreme_get _ _ _ _ hj
    obtain ⟨v, hv⟩ := nb2d_returns (f := fun col => Vbt.futureMax col window wait junk junk' a.nrows)
      (a := a.get) (junk := junk2) (n := a.ncols) (fun c hc => (hcol c hc).elim fun x hx => ⟨x, hx.1⟩)
    rw [hv]
    refine .returns (sameCells_of_cols (fun c hc x hx i hi => ?_) hv)
    obtain ⟨y, y1, y2⟩ := hcol c hc
    rw [y1] at hx
    cases hx
    exact y2 i hi

/-! ## Fixed horizon -/

/-- **C96** (fixed horizon).  For every rounding both engines return the same. -/
theorem C96_fixed_labels (A : Arith) (a : View2) (n : Nat) (junk : Nat → F) (junk2 : Nat → Nat → F) :
    SameResult a.nrows a.ncols (.ok (RsLab.fixedLabels A a n))
      (nb2d (fun col => .ok (Vbt.fixedLabels A col n junk a.nrows)) a.get junk2 a.ncols) := by
  refine sameResult_total (g := fun col => Vbt.fixedLabels A col n junk a.nrows) fun c hc i hi => ?_
  unfold RsLab.fixedLabels Vbt.fixedLabels
  rw [bshift_get _ _ _ _ hi]
  cases a.standard with
  | true =>
    rw [if_pos rfl]
    unfold cells
    rw [(fillCells_col _ _ _ _ _ hc).2 i, fillRows_scan, scanRows_out _ _ _ hi, sliceCol_eq a hc]
    dsimp only
    by_cases h : i + n < a.nrows
    · rw [if_pos h, if_pos h]; rfl
    · rw [if_neg h, if_neg h]; rfl
  | false =>
    rw [if_neg Bool.false_ne_true, byCol_get a _ hi hc]
    rfl

/-! ## Differences between the engines -/

/-- **C96** (deviation in doubles).  Three equal prices of 0.1: in row order the Rust engine sums squares and finds a variance above
zero; in column order it finds zero, as the Numba engine does.  `id` stands for the square root, so the values are variances. -/
theorem C96_std_layouts_differ :
    gt (RsLab.futureStd Arith.double id (wColumn [dTenth, dTenth, dTenth] true) 3 false 0 false 0 0 0) zero = true ∧
    RsLab.futureStd Arith.double id (wColumn [dTenth, dTenth, dTenth] false) 3 false 0 false 0 0 0 = zero ∧
    ∃ v, nb2d (fun col => Vbt.futureStd Arith.double id col 3 0 0 (fun _ => zero) (fun _ => zero) 3)
      (wColumn [dTenth, dTenth, dTenth] true).get (fun _ _ => zero) 1 = .ok v ∧ decide (v 0 0 = zero) = true :=
  ⟨by decide +kernel, by decide +kernel, okAnd_iff (f := fun v : Nat → Nat → F => decide (v 0 0 = zero)) (by decide +kernel)⟩

/-- **C96** (mean in doubles).  The engines sum a window differently. -/
theorem C96_mean_engines_differ :
    (∃ v, nb2d (fun col => Vbt.futureMean Arith.double col 1 false 0 false (fun _ => zero) (fun _ => zero) 3)
      (wColumn [F.fin 3, F.fin 1, F.fin (10 ^ 17)] true).get (fun _ _ => zero) 1 = .ok v ∧ decide (v 0 0 = F.fin 0) = true) ∧
    RsLab.futureMean Arith.double (wColumn [F.fin 3, F.fin 1, F.fin (10 ^ 17)] true) 1 false 0 false 0 0 = F.fin 2 :=
  ⟨okAnd_iff (f := fun v : Nat → Nat → F => decide (v 0 0 = F.fin 0)) (by decide +kernel), by decide +kernel⟩

/-- **C96** (empty period).  The smallest price of a period of no rows: infinity in row order, a price in column order and in the
Numba engine. -/
theorem C96_empty_period :
    RsLab.futureMin (wColumn [F.fin 5, F.fin 7] true) 0 0 0 0 = pinf ∧
    RsLab.futureMin (wColumn [F.fin 5, F.fin 7] false) 0 0 0 0 = F.fin 5 ∧
    ∃ v, nb2d (fun col => Vbt.futureMin col 0 0 (fun _ => zero) (fun _ => zero) 2)
      (wColumn [F.fin 5, F.fin 7] true).get (fun _ _ => zero) 1 = .ok v ∧ decide (v 0 0 = F.fin 5) = true :=
  ⟨by decide +kernel, by decide +kernel, okAnd_iff (f := fun v : Nat → Nat → F => decide (v 0 0 = F.fin 5)) (by decide +kernel)⟩

/-! ## Examples -/

/-- Prices of two assets. -/
def wPrices (std : Bool) : View2 :=
  ⟨4, 2, fun i c => if c = 0 then [F.fin 1, F.fin 3, F.fin 2, F.fin 6].getD i nan else [F.fin 4, nan, F.fin 2, F.fin 8].getD i nan, std⟩

example (b : Bool) : SameResult 4 2 (.ok (RsLab.futureMean (Arith.exact 0 0) (wPrices b) 2 false 1 false))
    (nb2d (fun col => Vbt.futureMean (Arith.exact 0 0) col 2 false 1 false (fun _ => nan) (fun _ => nan) 4) (wPrices b).get
      (fun _ _ => nan) 2) ∧
    ((List.range 4).map fun i => RsLab.futureMean (Arith.exact 0 0) (wPrices b) 2 false 1 false i 0) =
      [F.fin (5 / 2), F.fin 4, nan, nan] ∧
    RsLab.futureMean (Arith.exact 0 0) (wPrices b) 2 false 1 false 1 1 = F.fin 5 :=
  ⟨C96_future_mean_exact 0 0 (wPrices b) false 1 false (by decide) _ _ _, by cases b <;> decide +kernel, by cases b <;> decide +kernel⟩

example (b : Bool) : SameResult 4 2 (.ok (RsLab.meanLabels (Arith.exact 0 0) (wPrices b) 2 true 1 true))
    (nb2d (fun col => Vbt.meanLabels (Arith.exact 0 0) col 2 true 1 true (fun _ => nan) (fun _ => nan) 4) (wPrices b).get
      (fun _ _ => nan) 2) ∧
    RsLab.meanLabels (Arith.exact 0 0) (wPrices b) 2 true 1 true 1 0 = F.fin 0 ∧
    RsLab.meanLabels (Arith.exact 0 0) (wPrices b) 2 false 1 true 0 0 = F.fin (3 / 2) :=
  ⟨C96_mean_labels_exact 0 0 (wPrices b) true 1 true (by decide) _ _ _, by cases b <;> decide +kernel, by cases b <;> decide +kernel⟩

example : sub Arith.double (F.fin (2 : Nat)) one = F.fin ((2 : Nat) - 1) := by decide +kernel

example : RsLab.futureMean Arith.double (wPrices true) 2 false 0 false 0 0 = F.fin 2 ∧
    SameCells 4 2 (RsLab.futureMean Arith.double (wPrices true) 2 false 0 false)
      (RsLab.futureMean Arith.double (wPrices false) 2 false 0 false) :=
  ⟨by decide +kernel, (C96_mean_layout Arith.double (wPrices true) false 0 false (window := 2) (by decide) false).1⟩

example (b : Bool) : SameResult 4 2 (.ok (RsLab.futureStd (Arith.exact 0 0) id (wPrices b) 2 false 1 false 1))
    (nb2d (fun col => Vbt.futureStd (Arith.exact 0 0) id col 2 1 1 (fun _ => nan) (fun _ => nan) 4) (wPrices b).get
      (fun _ _ => nan) 2) ∧
    ((List.range 4).map fun i => RsLab.futureStd (Arith.exact 0 0) id (wPrices b) 2 false 1 false 1 i 0) =
      [F.fin (1 / 2), F.fin 8, nan, nan] :=
  ⟨C96_future_std_partial 0 0 id (wPrices b) 1 false 1 (by decide)
    (fun i (hi : i < 4) c (hc : c < 2) => by revert b; revert c; revert i; decide +kernel) _ _ _, by cases b <;> decide +kernel⟩

example : SameResult 4 2 (.ok (RsLab.futureStd Arith.double id (wPrices false) 2 false 1 false 1))
    (nb2d (fun col => Vbt.futureStd Arith.double id col 2 1 1 (fun _ => nan) (fun _ => nan) 4) (wPrices false).get
      (fun _ _ => nan) 2) := C96_future_std_col Arith.double id (wPrices false) 2 1 false 1 rfl _ _ _

example (b : Bool) : SameResult 4 2 (.ok (RsLab.futureStd (Arith.exact 0 0) id (wPrices b) 2 true 1 false 1))
    (nb2d (fun col => futureEwmStd (Arith.exact 0 0) id col 2 1 false (fun _ => nan) (fun _ => nan) 4) (wPrices b).get
      (fun _ _ => nan) 2) :=
  (C96_future_ewm_std (Arith.exact 0 0) id rfl (wPrices b) 1 false 1 (by decide) (span_exact 0 0 2) _ _ _).2 ⟨0, 0, rfl⟩

example (b : Bool) : SameResult 4 2 (.ok (RsLab.futureMin (wPrices b) 2 1))
    (nb2d (fun col => Vbt.futureMin col 2 1 (fun _ => nan) (fun _ => nan) 4) (wPrices b).get (fun _ _ => nan) 2) ∧
    ((List.range 4).map fun i => RsLab.futureMin (wPrices b) 2 1 i 0) = [F.fin 2, F.fin 2, nan, nan] ∧
    ((List.range 4).map fun i => RsLab.futureMax (wPrices b) 2 1 i 0) = [F.fin 3, F.fin 6, nan, nan] ∧
    ((List.range 4).map fun i => RsLab.futureMax (wPrices b) 2 1 i 1) = [nan, F.fin 8, nan, nan] :=
  ⟨(C96_future_extremes (wPrices b) 1 (by decide) _ _ _).1, by cases b <;> decide +kernel, by cases b <;> decide +kernel,
    by cases b <;> decide +kernel⟩

example (b : Bool) : SameResult 4 2 (.ok (RsLab.fixedLabels Arith.double (wPrices b) 2))
    (nb2d (fun col => .ok (Vbt.fixedLabels Arith.double col 2 (fun _ => nan) 4)) (wPrices b).get (fun _ _ => nan) 2) ∧
    ((List.range 4).map fun i => RsLab.fixedLabels Arith.double (wPrices b) 2 i 0) = [F.fin 1, F.fin 1, nan, nan] :=
  ⟨C96_fixed_labels Arith.double (wPrices b) 2 _ _, by cases b <;> decide +kernel⟩

end Vbt
