import Verif.Props.C88

/-!
# C88, second part: expanding means, deviations, exponential functions, crossover
-/

namespace Vbt
open F RsGen

/-- The cells of a Rust function with two loops, for the two layouts, are those of its columns. -/
theorem layout_cells {σ β : Type} (step : (Nat → F) → σ → Nat → σ × Option F) (s0 : σ) (a : View2) {r c : Nat}
    (hr : r < a.nrows) (hc : c < a.ncols) :
    (if a.standard then cells a.ncols (fillCells (fun col => step (a.sliceCol col)) (fun _ => s0) (fun _ => nan) a.ncols
        (List.range a.nrows)).2
      else byCol a fun col len => (fillRows (step col) s0 (fun _ => nan) (List.range len)).2) r c =
      (scanRows (fun s i => ((step (a.column c) s i).1, (step (a.column c) s i).2.getD nan)) s0 (fun _ => nan) a.nrows).2 r := by
  cases a.standard with
  | false =>
    rw [if_neg Bool.false_ne_true, byCol_get a _ hr hc, fillRows_scan]
  | true =>
    rw [if_pos rfl]
    unfold cells
    rw [(fillCells_col _ _ _ _ _ hc).2 r, sliceCol_eq a hc, fillRows_scan]

/-! ## Expanding mean -/

theorem present_all (a : Nat → F) {i len : Nat} (hi : i ≤ len) : present a len i = i - nanCount a i := by
  unfold present
  rw [show i - len = 0 by omega]
  rfl

/-- One column of the expanding mean, in every arithmetic. -/
theorem expMean_col {A : Arith} {a : Nat → F} {m len : Nat} {junk junk' : Nat → F} {q : MeanState × (Nat → F)}
    (hq : scanRowsE (meanStep A a len m) ⟨zero, 0, fun _ => zero, fun _ => 0⟩ junk' len = .ok q)
    {i : Nat} (hi : i < len) :
    (scanRows (fun s i => ((expMeanTurn A a m s i).1, (expMeanTurn A a m s i).2.getD nan)) (zero, 0) junk len).2 i = q.2 i := by
  refine scanRowsE_rel (R := fun i (s : F × Nat) (t' : MeanState) => CumInv A a i t' ∧ s.2 = present a len i ∧
    s.1 = cumF A a i) ⟨cumInv_zero _ _, by simp [present], rfl⟩ ?_ hq hi
  rintro i s t' p hi ⟨h1, h2, h3⟩ hp
  obtain ⟨c1, c2⟩ := cum_row (window := len) (m := m) h1
  have hps := present_succ a len i
  rw [if_neg (by omega)] at hps
  have hc : (expMeanTurn A a m s i).1.2 = present a len (i + 1) := by
    unfold expMeanTurn
    dsimp only
    rcases Bool.eq_false_or_eq_true (a i).isnan with hn | hn <;> simp [hn] at hps ⊢ <;> omega
  have hsum : (expMeanTurn A a m s i).1.1 = cumF A a (i + 1) := by
    unfold expMeanTurn
    dsimp only
    rw [cumF]
    rcases Bool.eq_false_or_eq_true (a i).isnan with hn | hn <;> simp [hn, h3]
  have hout : (expMeanTurn A a m s i).2.getD nan =
      if (expMeanTurn A a m s i).1.2 ≥ m ∧ (expMeanTurn A a m s i).1.2 > 0 then
        div A (expMeanTurn A a m s i).1.1 (fin (expMeanTurn A a m s i).1.2) else nan := by
    have : (expMeanTurn A a m s i).2 = if (expMeanTurn A a m s i).1.2 ≥ m ∧ (expMeanTurn A a m s i).1.2 > 0 then
        some (div A (expMeanTurn A a m s i).1.1 (fin (expMeanTurn A a m s i).1.2)) else none := rfl
    rw [this]
    split <;> rfl
  rw [c1] at hp
  dsimp only at hp
  by_cases hm : present a len (i + 1) < m
  · rw [if_pos hm] at hp
    cases hp
    refine ⟨⟨c2, hc, hsum⟩, ?_⟩
    rw [hout, hc, if_neg (by omega)]
  · rw [if_neg hm] at hp
    generalize hd : divE A _ _ = x at hp
    cases x with
    | error e => cases hp
    | ok v =>
      cases hp
      refine ⟨⟨c2, hc, hsum⟩, ?_⟩
      obtain ⟨d1, d2⟩ := divE_returned hd
      have hpos : present a len (i + 1) ≠ 0 := by
        intro h0
        rw [h0] at d2
        simp at d2
      dsimp only
      rw [hout, hc, hsum, if_pos ⟨by omega, by omega⟩, d1, if_pos hi]

/-- **C88** (expanding mean).  In every arithmetic, the Rust engine returns whenever the Numba engine does, and the same cells. -/
theorem C88_expanding_mean_partial (A : Arith) (a : View2) (minp : Nat) (hn : 0 < a.ncols) (junk : Nat → F)
    (junk2 : Nat → Nat → F) :
    ReturnsSame a.nrows a.ncols (.ok (expandingMeanPy A a minp))
      (nb2d (fun col => expandingMean A col minp junk a.nrows) a.get junk2 a.ncols) := by
  intro v hv
  have hm : ¬ a.nrows < minp := by
    intro hw
    rw [nb2d_raises hn (e := .valueError s!"minp must be <= {"window"}")] at hv
    · cases hv
    · unfold expandingMean rollingMean resolveMinp; dsimp only [Option.getD]; rw [if_pos hw]
  refine ⟨_, rfl, sameCells_of_cols (fun c hc x hx i hi => ?_) hv⟩
  unfold expandingMeanPy expandingMeanC expandingMean1
  rw [layout_cells (β := F) (fun col => expMeanTurn A col minp) _ a hi hc]
  unfold expandingMean rollingMean resolveMinp at hx
  dsimp only [Option.getD] at hx
  rw [if_neg hm] at hx
  dsimp only at hx
  generalize hq : scanRowsE (meanStep A (fun i => a.get i c) a.nrows minp) _ junk a.nrows = y at hx
  cases y with
  | error e => cases hx
  | ok q =>
    cases hx
    exact expMean_col hq hi

/-- **C88** (expanding mean, a required number of values that the array can have).  Then both engines return the same cells. -/
theorem C88_expanding_mean_minp (A : Arith) (a : View2) (minp : Nat) (hn : 0 < a.ncols) (h1 : 1 ≤ minp) (h2 : minp ≤ a.nrows)
    (junk : Nat → F) (junk2 : Nat → Nat → F) :
    SameResult a.nrows a.ncols (.ok (expandingMeanPy A a minp))
      (nb2d (fun col => expandingMean A col minp junk a.nrows) a.get junk2 a.ncols) := by
  obtain ⟨v, hv⟩ := nb2d_returns (f := fun col => expandingMean A col minp junk a.nrows) (a := a.get)
    (junk := junk2) (n := a.ncols) (fun c _ => by
      obtain ⟨q, hq⟩ := mean_returns A (fun i => a.get i c) (window := a.nrows) h1 junk a.nrows
      refine ⟨q.2, ?_⟩
      unfold expandingMean rollingMean resolveMinp
      dsimp only [Option.getD]
      rw [if_neg (by omega)]
      dsimp only
      rw [hq])
  obtain ⟨u, hu, hc⟩ := C88_expanding_mean_partial A a minp hn junk junk2 v hv
  rw [hu, hv]
  exact .returns hc

/-! ## Rolling deviation -/

/-- The variables of the Rust loop as those of the Numba loop. -/
def nbVar (s : RollingVar) : StdState := ⟨s.count, s.mean, s.m2, s.compAdd, s.compRemove, s.unstable⟩

theorem tol_eq : RsGen.invCondTol = Vbt.invCondTol := by
  unfold RsGen.invCondTol Vbt.invCondTol
  congr 1
  norm_num

theorem nbVar_add (A : Arith) (s : RollingVar) (v : F) : (nbVar s).add A v = nbVar (s.add A v) := by
  unfold StdState.add addVar RollingVar.add nbVar
  dsimp only
  rw [tol_eq]
  by_cases hv : v.isnan = true
  · rw [if_pos hv, if_pos hv]
  · rw [if_neg hv, if_neg hv]
    simp

theorem nbVar_remove (A : Arith) (s : RollingVar) (v : F) (h : v.isnan = false → 1 ≤ s.count) :
    (nbVar s).remove A v = nbVar (s.remove A v) := by
  unfold StdState.remove removeVar RollingVar.remove nbVar
  dsimp only
  rw [tol_eq]
  by_cases hv : v.isnan = true
  · rw [if_pos hv, if_pos hv]
  · rw [if_neg hv, if_neg hv]
    have h1 := h (by simpa using hv)
    obtain ⟨k, hk⟩ : ∃ k, s.count = k + 1 := ⟨s.count - 1, by omega⟩
    have e : ((s.count : Nat) : Int) - 1 = (k : Nat) := by omega
    rw [hk] at e ⊢
    rw [e, Nat.add_sub_cancel]
    by_cases h0 : k = 0
    · subst h0
      simp
    · rw [if_pos (show ((k : Nat) : Int) ≠ 0 by omega), if_pos (show k > 0 by omega)]
      simp

theorem add_count (A : Arith) (s : RollingVar) (v : F) : (s.add A v).count = s.count + (if v.isnan = false then 1 else 0) := by
  unfold RollingVar.add
  by_cases hv : v.isnan = true
  · rw [if_pos hv, if_neg (by simp [hv])]; rfl
  · rw [if_neg hv, if_pos (by simpa using hv)]

theorem remove_count (A : Arith) (s : RollingVar) (v : F) :
    (s.remove A v).count = s.count - (if v.isnan = false then 1 else 0) := by
  unfold RollingVar.remove
  by_cases hv : v.isnan = true
  · rw [if_pos hv, if_neg (by simp [hv])]; rfl
  · have hv' : v.isnan = false := by simpa using hv
    rw [if_neg hv, if_pos hv']
    dsimp only
    by_cases h : s.count - 1 > 0
    · rw [if_pos h]
    · rw [if_neg h]

/-- What was `unstable` before the recomputation does not reach the other variables. -/
theorem recompute_eq (A : Arith) (a : Nat → F) (l : List Nat) (s : RollingVar) (t : StdState)
    (h : { t with unstable := false } = nbVar { s with unstable := false }) :
    { l.foldl (fun s j => s.add A (a j)) t with unstable := false } =
      nbVar { l.foldl (fun s j => s.add A (a j)) s with unstable := false } := by
  induction l generalizing s t with
  | nil => exact h
  | cons x xs ih =>
    rw [List.foldl_cons, List.foldl_cons]
    refine ih _ _ ?_
    obtain ⟨c, m, q, ca, cr, u⟩ := s
    obtain ⟨c', m', q', ca', cr', u'⟩ := t
    unfold nbVar at h
    simp only [StdState.mk.injEq] at h
    obtain ⟨rfl, rfl, rfl, rfl, rfl, -⟩ := h
    have h1 := nbVar_add A ⟨c, m', q', ca', cr', u'⟩ (a x)
    have h2 : ∀ u, { RollingVar.add A ⟨c, m', q', ca', cr', u⟩ (a x) with unstable := false } =
        { RollingVar.add A ⟨c, m', q', ca', cr', false⟩ (a x) with unstable := false } := by
      intro u
      unfold RollingVar.add
      dsimp only
      split <;> rfl
    have h3 : ∀ s : RollingVar, { nbVar s with unstable := false } = nbVar { s with unstable := false } := fun _ => rfl
    rw [h2 u, ← h2 u', ← h3, ← h1]
    rfl

theorem fold_count (A : Arith) (a : Nat → F) (s : RollingVar) (k m : Nat) :
    ((List.range' k m).foldl (fun s j => s.add A (a j)) s).count + (nanCount a (k + m) - nanCount a k) = s.count + m := by
  induction m with
  | zero => simp
  | succ m ih =>
    rw [List.range'_1_concat, List.foldl_append, List.foldl_cons, List.foldl_nil, add_count, ← Nat.add_assoc, nanCount_succ]
    have := nanCount_le a k m
    rcases Bool.eq_false_or_eq_true (a (k + m)).isnan with h | h <;> simp only [h, if_true, if_false, Bool.true_eq_false,
      Bool.false_eq_true] <;> omega

/-- One row of the deviation, in both engines. -/
theorem std_row (A : Arith) (sqrt : F → F) (a : Nat → F) (window m ddof i : Nat) (s : RollingVar)
    (hs : s.count = present a window i) :
    (stdTurn A sqrt a window m ddof s i).1.count = present a window (i + 1) ∧
    stdStep A sqrt a window m ddof (nbVar s) i =
      (nbVar (stdTurn A sqrt a window m ddof s i).1, (stdTurn A sqrt a window m ddof s i).2.getD nan) := by
  have hps := present_succ a window i
  have hw := nanCount_win a window (i + 1)
  -- the sliding step
  have hrem : ∀ _ : window ≤ i, (a (i - window)).isnan = false → window ≠ 0 → 1 ≤ s.count := by
    intro h1 h2 h3
    rw [hs]
    have := nanCount_win a window i
    unfold present
    have e := nanCount_succ a (i - window)
    rw [h2] at e
    have := nanCount_le a (i - window + 1) (window - 1)
    rw [show i - window + 1 + (window - 1) = i by omega] at this
    simp at e
    omega
  have hfold : ∀ u : Bool, { (List.range' (i + 1 - window) (i + 1 - (i + 1 - window))).foldl (fun s j => s.add A (a j))
          (⟨0, zero, zero, zero, zero, u⟩ : StdState) with unstable := false } =
        nbVar { (List.range' (i + 1 - window) (i + 1 - (i + 1 - window))).foldl (fun s j => s.add A (a j))
          RollingVar.default with unstable := false } := by
    intro u
    refine recompute_eq A a _ _ _ ?_
    rfl
  have hcnt : ({ (List.range' (i + 1 - window) (i + 1 - (i + 1 - window))).foldl (fun s j => s.add A (a j))
          RollingVar.default with unstable := false } : RollingVar).count = present a window (i + 1) := by
    dsimp only
    have := fold_count A a RollingVar.default (i + 1 - window) (i + 1 - (i + 1 - window))
    rw [show i + 1 - window + (i + 1 - (i + 1 - window)) = i + 1 by omega] at this
    unfold present
    have e0 : RollingVar.default.count = 0 := rfl
    omega
  have hout : ∀ x : RollingVar, (if (nbVar x).nobs ≥ m ∧ (nbVar x).nobs > ddof then
      sqrt (div A (nbVar x).m2 (fin ((nbVar x).nobs - ddof))) else nan) = (some (x.std A sqrt m ddof)).getD nan := by
    intro x
    unfold nbVar RollingVar.std
    dsimp only [Option.getD]
    by_cases h : x.count ≥ m ∧ x.count > ddof
    · rw [if_pos h, if_pos ⟨by omega, by omega⟩, Nat.cast_sub (by omega)]
      simp
    · rw [if_neg h, if_neg (by omega)]
  have pair : ∀ (x : RollingVar) (y : StdState), y = nbVar x →
      (y, if y.nobs ≥ m ∧ y.nobs > ddof then sqrt (div A y.m2 (fin (y.nobs - ddof))) else nan) =
        (nbVar x, (some (x.std A sqrt m ddof)).getD nan) := by
    rintro x y rfl
    rw [hout]
  unfold stdTurn stdStep
  dsimp only
  by_cases hr : i = 0 ∨ window = 0
  · have hd : (decide (i = 0) || decide (window = 0)) = true := by simpa using hr
    rw [hd]
    simp only [Bool.not_true, Bool.false_and, Bool.false_eq_true, if_false, Bool.true_or, if_true]
    exact ⟨hcnt, pair _ _ (hfold _)⟩
  · have hd : (decide (i = 0) || decide (window = 0)) = false := by simpa using hr
    rw [hd]
    simp only [Bool.not_false, Bool.true_and, if_true, Bool.false_or]
    have hwin : window ≠ 0 := by omega
    -- the state after removing and adding
    have hslide : (if window ≤ i then (nbVar s).remove A (a (i - window)) else nbVar s).add A (a i) =
        nbVar (RollingVar.add A (if decide (i ≥ window) = true then s.remove A (a (i - window)) else s) (a i)) := by
      by_cases h : window ≤ i
      · rw [if_pos h, if_pos (by simpa using h), nbVar_remove A s _ (fun hv => hrem h hv hwin), nbVar_add]
      · rw [if_neg h, if_neg (by simpa using h), nbVar_add]
    have hcount : (RollingVar.add A (if decide (i ≥ window) = true then s.remove A (a (i - window)) else s) (a i)).count =
        present a window (i + 1) := by
      rw [add_count]
      by_cases h : window ≤ i
      · rw [if_pos (by simpa using h), remove_count]
        have := hrem h
        rcases Bool.eq_false_or_eq_true (a (i - window)).isnan with ho | ho
        · simp only [h, ho, true_and, Bool.true_eq_false, if_false] at hps ⊢
          omega
        · simp only [h, ho, true_and, if_true] at hps ⊢
          have := this ho hwin
          omega
      · rw [if_neg (by simpa using h)]
        simp only [h, false_and, if_false] at hps
        omega
    rw [hslide]
    generalize RollingVar.add A (if decide (i ≥ window) = true then s.remove A (a (i - window)) else s) (a i) = x at hcount
    have hu : (nbVar x).unstable = x.unstable := rfl
    rw [hu]
    by_cases hx : x.unstable = true
    · rw [if_pos hx, if_pos hx]
      exact ⟨hcnt, pair _ _ (hfold _)⟩
    · rw [if_neg hx, if_neg hx]
      exact ⟨hcount, pair _ _ rfl⟩

/-- **C88** (rolling deviation).  In every arithmetic both engines raise the same error or return the same cells; the Rust
engine's unsigned count never falls below zero. -/
theorem C88_rolling_std (A : Arith) (sqrt : F → F) (a : View2) (window : Nat) (minp : Option Nat) (ddof : Nat)
    (hn : 0 < a.ncols) (junk : Nat → F) (junk2 : Nat → Nat → F) :
    SameResult a.nrows a.ncols (rollingStdPy A sqrt a window minp ddof)
      (nb2d (fun col => rollingStd A sqrt col window minp ddof junk a.nrows) a.get junk2 a.ncols) := by
  refine sameResult_minp hn (window := window) (minp := minp) (what := "window")
    (u := fun m => if a.standard then cells a.ncols (rollingStdC A sqrt a window m ddof)
      else byCol a fun col => rollingStd1 A sqrt col window m ddof)
    (g := fun m col => (scanRows (stdStep A sqrt col window (max m 1) ddof) ⟨0, zero, zero, zero, zero, false⟩ junk a.nrows).2)
    rfl (fun col => rfl) ?_
  intro m hm c hc r hr
  unfold rollingStdC rollingStd1
  rw [layout_cells (β := F) (fun col => stdTurn A sqrt col window (max m 1) ddof) _ a hr hc]
  refine scanRows_rel (R := fun i (s : RollingVar) (t : StdState) => t = nbVar s ∧ s.count = present (a.column c) window i)
    ⟨rfl, by simp [present, RollingVar.default]⟩ ?_ hr
  rintro i s t - ⟨rfl, h2⟩
  obtain ⟨e1, e2⟩ := std_row A sqrt (a.column c) window (max m 1) ddof i s h2
  have e3 : stdStep A sqrt (fun i => a.get i c) window (max m 1) ddof (nbVar s) i = _ := e2
  rw [e3]
  exact ⟨⟨rfl, e1⟩, rfl⟩

end Vbt
