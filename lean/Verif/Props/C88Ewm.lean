import Verif.Props.C88Std

/-!
# C88, third part: exponential functions, expanding functions, crossover
-/

namespace Vbt
open F RsGen

/-- Loops that differ only at rows they do not visit. -/
theorem fillRows_congr {σ β : Type} {step step' : σ → Nat → σ × Option β} {l : List Nat}
    (h : ∀ i ∈ l, ∀ s, step s i = step' s i) (s0 : σ) (out : Nat → β) : fillRows step s0 out l = fillRows step' s0 out l := by
  induction l generalizing s0 out with
  | nil => rfl
  | cons x xs ih =>
    rw [fillRows_cons, fillRows_cons, h x (List.mem_cons_self ..)]
    exact ih (fun i hi => h i (List.mem_cons_of_mem _ hi)) _ _

/-- A first row before the loop is a case of the loop. -/
theorem fillRows_first {σ β : Type} (step : σ → Nat → σ × Option β) (init any : σ) (o : Option β) (d : β) {len : Nat}
    (hl : 0 < len) :
    fillRows step init (o.elim (fun _ => d) (setAt (fun _ => d) 0)) (List.range' 1 (len - 1)) =
      scanRows (fun s i => if i = 0 then (init, o.getD d) else ((step s i).1, (step s i).2.getD d)) any (fun _ => d) len := by
  obtain ⟨n, rfl⟩ : ∃ n, len = n + 1 := ⟨len - 1, by omega⟩
  have h1 := fillRows_scan (fun s i => if i = 0 then (init, o) else step s i) any d (n + 1)
  have h2 : (fun (s : σ) i => ((if i = 0 then (init, o) else step s i).1, (if i = 0 then (init, o) else step s i).2.getD d)) =
      fun s i => if i = 0 then (init, o.getD d) else ((step s i).1, (step s i).2.getD d) := by
    funext s i
    by_cases h : i = 0
    · simp only [if_pos h]
    · simp only [if_neg h]
  rw [h2] at h1
  rw [← h1, List.range_eq_range', List.range'_succ, fillRows_cons]
  simp only [if_true, Nat.add_sub_cancel, Nat.zero_add]
  have hc : ∀ out : Nat → β, fillRows step init out (List.range' 1 n) =
      fillRows (fun s i => if i = 0 then (init, o) else step s i) init out (List.range' 1 n) := by
    intro out
    refine fillRows_congr (fun i hi s => ?_) _ _
    rw [List.mem_range'_1] at hi
    rw [if_neg (by omega)]
  rw [hc]
  cases o <;> rfl

theorem eqb_refl_eq (x : F) : eqb x x = !x.isnan := by
  cases x <;> simp [eqb, isnan]

theorem ewm_weights {A : Arith} {span : Nat} {adjust : Bool} (hs : sub A (fin span) one = fin (span - 1)) {w : F × F}
    (h : Vbt.ewmWeights A span adjust = .ok w) : RsGen.ewmWeights A span adjust = w := by
  unfold Vbt.ewmWeights at h
  unfold RsGen.ewmWeights
  dsimp only at h ⊢
  rw [hs]
  generalize hd : divE A _ _ = x at h
  cases x with
  | error e => cases h
  | ok v =>
    cases h
    rw [(divE_returned hd).1]

/-- One row of the exponential mean. -/
theorem ewm_row {A : Arith} {a : Nat → F} {m : Nat} {f w : F} {adjust : Bool} {s : EwmState} {i : Nat} {p : EwmState × F}
    (h : ewmStep A a m f w adjust s i = .ok p) :
    (ewmTurn A a m f w adjust s i).1 = p.1 ∧ (ewmTurn A a m f w adjust s i).2.getD nan = p.2 := by
  unfold ewmStep at h
  unfold ewmTurn
  simp only [eqb_refl_eq] at h ⊢
  have fin : ∀ s' : EwmState, (Except.ok (s', if s'.nobs ≥ m then s'.avg else nan) : Except Err _) = .ok p →
      s' = p.1 ∧ (if s'.nobs ≥ m then some s'.avg else none).getD nan = p.2 := by
    intro s' h
    cases h
    refine ⟨rfl, ?_⟩
    dsimp only
    split <;> rfl
  cases hm : s.avg.isnan with
  | true =>
    cases hc : (a i).isnan with
    | true => simp only [hm, hc, Bool.not_true, Bool.false_eq_true, if_false] at h ⊢; exact fin _ h
    | false => simp only [hm, hc, Bool.not_true, Bool.not_false, Bool.false_eq_true, if_false, if_true] at h ⊢; exact fin _ h
  | false =>
    cases hc : (a i).isnan with
    | true => simp only [hm, hc, Bool.not_true, Bool.not_false, Bool.false_eq_true, if_false, if_true] at h ⊢; exact fin _ h
    | false =>
      simp only [hm, hc, Bool.not_false, if_true] at h ⊢
      by_cases he : (!eqb s.avg (a i)) = true
      · simp only [if_pos he] at h ⊢
        generalize hd : divE A _ _ = x at h
        cases x with
        | error e => cases h
        | ok v =>
          rw [(divE_returned hd).1] at h
          exact fin _ h
      · simp only [if_neg he] at h ⊢
        exact fin _ h

/-- One column of the exponential mean. -/
theorem ewm_col {A : Arith} {a : Nat → F} {span m : Nat} {adjust : Bool} {junk : Nat → F} {len : Nat} {x : Nat → F}
    (hs : sub A (F.fin span) one = F.fin (span - 1)) (h : ewmMean A a span (some m) adjust junk len = .ok x) {i : Nat} (hi : i < len) :
    ewmMean1 A a span m adjust len i = x i := by
  unfold ewmMean at h
  generalize hrm : resolveMinp span (some m) "span" = z at h
  cases z with
  | error e => cases h
  | ok m' =>
    have hm' : m' = m := by
      unfold resolveMinp at hrm
      dsimp only [Option.getD] at hrm
      split at hrm
      · cases hrm
      · cases hrm; rfl
    subst hm'
    dsimp only at h
    rw [if_neg (by omega)] at h
    generalize hw : Vbt.ewmWeights A span adjust = y at h
    cases y with
    | error e => cases h
    | ok w =>
      dsimp only at h
      generalize hq : scanRowsE _ _ junk len = y at h
      cases y with
      | error e => cases h
      | ok q =>
        cases h
        unfold ewmMean1
        rw [if_neg (by omega), ewm_weights hs hw]
        have e1 : (if (ewmInit a).nobs ≥ m' then setAt (fun _ => nan) 0 (a 0) else fun _ => nan : Nat → F) =
            (if (ewmInit a).nobs ≥ m' then some (a 0) else none : Option F).elim (fun _ => nan) (setAt (fun _ => nan) 0) := by
          split <;> rfl
        rw [e1, fillRows_first _ _ (⟨nan, one, 0⟩ : EwmState) _ _ (by omega)]
        refine scanRowsE_rel (R := fun _ (s : EwmState) (t : EwmState) => s = t) rfl ?_ hq hi
        rintro k s t p hk rfl hp
        by_cases h0 : k = 0
        · rw [if_pos h0] at hp ⊢
          simp only [eqb_refl_eq] at hp
          cases hp
          refine ⟨rfl, ?_⟩
          have : (if (ewmInit a).nobs ≥ m' then some (a 0) else none : Option F).getD nan =
              if (ewmInit a).nobs ≥ m' then a 0 else nan := by
            split <;> rfl
          exact this
        · rw [if_neg h0] at hp ⊢
          exact ewm_row hp

/-- **C88** (exponential mean).  In every arithmetic in which `span - 1` is computed exactly, the Rust engine returns whenever
the Numba engine does, and the same cells. -/
theorem C88_ewm_mean_partial (A : Arith) (a : View2) (span minp : Nat) (adjust : Bool) (hn : 0 < a.ncols)
    (hs : sub A (F.fin span) one = F.fin (span - 1)) (junk : Nat → F) (junk2 : Nat → Nat → F) :
    ReturnsSame a.nrows a.ncols (ewmMeanPy A a span minp adjust)
      (nb2d (fun col => ewmMean A col span (some minp) adjust junk a.nrows) a.get junk2 a.ncols) := by
  intro v hv
  have hm : ¬ span < minp := by
    intro hw
    rw [nb2d_raises hn (e := .valueError s!"minp must be <= {"span"}")] at hv
    · cases hv
    · unfold ewmMean resolveMinp; dsimp only [Option.getD]; rw [if_pos hw]
  unfold ewmMeanPy validMinp
  dsimp only [Option.getD]
  rw [if_neg hm]
  refine ⟨_, rfl, sameCells_of_cols (fun c hc x hx i hi => ?_) hv⟩
  rw [byCol_get a _ hi hc]
  exact ewm_col hs hx hi

/-! ### With a positive span nothing is divided by zero -/

theorem ewm_weights_pos (r t : ℚ) {span : Nat} (h : 1 ≤ span) (adjust : Bool) :
    ∃ f w : ℚ, Vbt.ewmWeights (Arith.exact r t) span adjust = .ok (F.fin f, F.fin w) ∧ 0 ≤ f ∧ 0 < w := by
  have h1 : (1 : ℚ) ≤ span := by exact_mod_cast h
  have h2 : (0 : ℚ) < 1 + (span - 1) / 2 := by linarith
  have h3 : (1 : ℚ) / (1 + (span - 1) / 2) ≤ 1 := by
    rw [div_le_one h2]
    linarith
  refine ⟨1 - 1 / (1 + (span - 1) / 2), if adjust then 1 else 1 / (1 + (span - 1) / 2), ?_, by linarith, ?_⟩
  · unfold Vbt.ewmWeights divE
    have h4 : ¬ (1 + ((span : ℚ) + -1) / 2 = 0) := by
      rw [← sub_eq_add_neg]
      exact ne_of_gt h2
    cases adjust <;> simp [div, add, sub, neg, h4, sub_eq_add_neg]
  · cases adjust with
    | true => simp
    | false => simpa using h2

theorem ewm_step_pos {r t : ℚ} {a : Nat → F} {m : Nat} {f w : ℚ} (hf : 0 ≤ f) (hw : 0 < w) {adjust : Bool} {s : EwmState}
    {i : Nat} (hs : ∃ q : ℚ, s.oldWt = F.fin q ∧ 0 ≤ q) :
    ∃ p, ewmStep (Arith.exact r t) a m (F.fin f) (F.fin w) adjust s i = .ok p ∧ ∃ q : ℚ, p.1.oldWt = F.fin q ∧ 0 ≤ q := by
  obtain ⟨q, e, hq⟩ := hs
  have h0 : (0 : ℚ) < q * f + w := by positivity
  have hne : eqb (add (Arith.exact r t) (mul (Arith.exact r t) s.oldWt (F.fin f)) (F.fin w)) zero = false := by
    rw [e]
    simpa [mul, add] using ne_of_gt h0
  have hm : mul (Arith.exact r t) s.oldWt (F.fin f) = F.fin (q * f) := by rw [e]; simp [mul]
  have ha : add (Arith.exact r t) (mul (Arith.exact r t) s.oldWt (F.fin f)) (F.fin w) = F.fin (q * f + w) := by
    rw [hm]; simp [add]
  unfold ewmStep divE
  dsimp only
  simp only [hne, Bool.false_eq_true, if_false]
  by_cases h1 : eqb s.avg s.avg = true
  · by_cases h2 : eqb (a i) (a i) = true
    · simp only [h1, h2, if_true]
      have hold : ∃ q' : ℚ, (if adjust = true then add (Arith.exact r t) (mul (Arith.exact r t) s.oldWt (F.fin f)) (F.fin w)
          else one) = F.fin q' ∧ 0 ≤ q' := by
        cases adjust with
        | true => exact ⟨_, ha, le_of_lt h0⟩
        | false => exact ⟨1, rfl, by norm_num⟩
      by_cases h3 : (!eqb s.avg (a i)) = true
      · simp only [if_pos h3]
        exact ⟨_, rfl, hold⟩
      · simp only [if_neg h3]
        exact ⟨_, rfl, hold⟩
    · simp only [h1, h2, if_true]
      exact ⟨_, rfl, _, hm, by positivity⟩
  · by_cases h2 : eqb (a i) (a i) = true
    · simp only [h1, h2, if_true]
      exact ⟨_, rfl, _, e, hq⟩
    · simp only [h1, h2]
      exact ⟨_, rfl, _, e, hq⟩

/-- **C88** (exponential mean, positive span).  In exact arithmetic both engines raise the same error or return the same
cells. -/
theorem C88_ewm_mean_span (r t : ℚ) (a : View2) (span minp : Nat) (adjust : Bool) (hn : 0 < a.ncols) (h1 : 1 ≤ span)
    (junk : Nat → F) (junk2 : Nat → Nat → F) :
    SameResult a.nrows a.ncols (ewmMeanPy (Arith.exact r t) a span minp adjust)
      (nb2d (fun col => ewmMean (Arith.exact r t) col span (some minp) adjust junk a.nrows) a.get junk2 a.ncols) := by
  by_cases hm : span < minp
  · rw [nb2d_raises hn (e := .valueError s!"minp must be <= {"span"}")]
    · unfold ewmMeanPy validMinp
      dsimp only [Option.getD]
      rw [if_pos hm]
      exact .raises _
    · unfold ewmMean resolveMinp; dsimp only [Option.getD]; rw [if_pos hm]
  · obtain ⟨v, hv⟩ := nb2d_returns (f := fun col => ewmMean (Arith.exact r t) col span (some minp) adjust junk a.nrows)
      (a := a.get) (junk := junk2) (n := a.ncols) (fun c _ => by
        unfold ewmMean resolveMinp
        dsimp only [Option.getD]
        rw [if_neg hm]
        dsimp only
        by_cases h0 : a.nrows = 0
        · rw [if_pos h0]; exact ⟨_, rfl⟩
        · rw [if_neg h0]
          obtain ⟨f, w, e, hf, hw⟩ := ewm_weights_pos r t h1 adjust
          rw [e]
          dsimp only
          have hsucc := scanRowsE_succeeds (step := fun (s : EwmState) i =>
              if i = 0 then (.ok (⟨a.get 0 c, one, if eqb (a.get 0 c) (a.get 0 c) then 1 else 0⟩,
                if (if eqb (a.get 0 c) (a.get 0 c) then 1 else 0) ≥ minp then a.get 0 c else nan) : Except Err (EwmState × F))
              else ewmStep (Arith.exact r t) (fun i => a.get i c) minp (F.fin f) (F.fin w) adjust s i)
            (s0 := ⟨nan, one, 0⟩) (junk := junk) (n := a.nrows) (P := fun _ s => ∃ q : ℚ, s.oldWt = F.fin q ∧ 0 ≤ q)
            ⟨1, rfl, by norm_num⟩ (fun i s _ hs => by
              by_cases h : i = 0
              · rw [if_pos h]; exact ⟨_, rfl, 1, rfl, by norm_num⟩
              · rw [if_neg h]; exact ewm_step_pos hf hw hs)
          obtain ⟨q, hq, -⟩ := hsucc
          rw [hq]
          exact ⟨_, rfl⟩)
    obtain ⟨u, hu, hc⟩ := C88_ewm_mean_partial (Arith.exact r t) a span minp adjust hn (by simp [sub, add, neg, sub_eq_add_neg])
      junk junk2 v hv
    rw [hu, hv]
    exact .returns hc

/-! ## Exponential deviation -/

theorem ewm_mean_step {A : Arith} {oldWt newWt mean cur v : F} (h : ewmMeanStep A oldWt newWt mean cur = .ok v) :
    (if !eqb mean cur then div A (add A (mul A oldWt mean) (mul A newWt cur)) (add A oldWt newWt) else mean) = v := by
  unfold ewmMeanStep at h
  by_cases he : (!eqb mean cur) = true
  · rw [if_pos he] at h ⊢
    exact (divE_returned h).1.symm
  · rw [if_neg he] at h ⊢
    cases h
    rfl

/-- An observation after the first one. -/
theorem ewm_obs {A : Arith} {cur w : F} {adjust : Bool} {s p : EwmStdState} (h : ewmStdObs A cur w adjust s = .ok p) :
    (let meanX := if !eqb s.meanX cur then div A (add A (mul A s.oldWt s.meanX) (mul A w cur)) (add A s.oldWt w) else s.meanX
     let meanY := if !eqb s.meanY cur then div A (add A (mul A s.oldWt s.meanY) (mul A w cur)) (add A s.oldWt w) else s.meanY
     let cov := div A (add A
         (mul A s.oldWt (add A s.cov (mul A (sub A s.meanX meanX) (sub A s.meanY meanY))))
         (mul A w (mul A (sub A cur meanX) (sub A cur meanY)))) (add A s.oldWt w)
     let sumWt := add A s.sumWt w
     let sumWt2 := add A s.sumWt2 (mul A w w)
     let oldWt := add A s.oldWt w
     if !adjust then (⟨meanX, meanY, cov, div A sumWt oldWt, div A sumWt2 (mul A oldWt oldWt), one, s.nobs⟩ : EwmStdState)
     else ⟨meanX, meanY, cov, sumWt, sumWt2, oldWt, s.nobs⟩) = p := by
  unfold ewmStdObs at h
  generalize hx : ewmMeanStep A s.oldWt w s.meanX cur = x at h
  cases x with
  | error e => cases h
  | ok mx =>
    generalize hy : ewmMeanStep A s.oldWt w s.meanY cur = y at h
    cases y with
    | error e => cases h
    | ok my =>
      dsimp only at h ⊢
      rw [ewm_mean_step hx, ewm_mean_step hy]
      generalize hd : divE A (add A (mul A s.oldWt _) _) _ = z at h
      cases z with
      | error e => cases h
      | ok c =>
        dsimp only at h
        rw [← (divE_returned hd).1]
        by_cases ha : (!adjust) = true
        · rw [if_pos ha] at h ⊢
          generalize hd1 : divE A (add A s.sumWt w) _ = z1 at h
          cases z1 with
          | error e => cases h
          | ok c1 =>
            dsimp only at h
            generalize hd2 : divE A (add A s.sumWt2 _) _ = z2 at h
            cases z2 with
            | error e => cases h
            | ok c2 =>
              cases h
              rw [← (divE_returned hd1).1, ← (divE_returned hd2).1]
        · rw [if_neg ha] at h ⊢
          cases h
          rfl

/-- One row of the exponential deviation. -/
theorem ewm_std_row {A : Arith} {sqrt : F → F} (hsq : sqrt nan = nan) {a : Nat → F} {m : Nat} {f w : F} {adjust : Bool}
    {s : EwmStdState} {i : Nat} {p : EwmStdState × F} (h : ewmStdStep A sqrt a m f w adjust s i = .ok p) :
    (ewmStdTurn A sqrt a m f w adjust s i).1 = p.1 ∧ (ewmStdTurn A sqrt a m f w adjust s i).2.getD nan = p.2 := by
  unfold ewmStdStep at h
  unfold ewmStdTurn
  simp only [eqb_refl_eq, Bool.and_self, hsq] at h ⊢
  have fin : ∀ s' : EwmStdState, (if s'.nobs ≥ m then
        if gt (sub A (mul A s'.sumWt s'.sumWt) s'.sumWt2) zero then
          (.ok (s', sqrt (mul A (div A (mul A s'.sumWt s'.sumWt) (sub A (mul A s'.sumWt s'.sumWt) s'.sumWt2)) s'.cov)) :
            Except Err (EwmStdState × F))
        else .ok (s', nan)
      else .ok (s', nan)) = .ok p →
      s' = p.1 ∧ (if s'.nobs ≥ m ∧ gt (sub A (mul A s'.sumWt s'.sumWt) s'.sumWt2) zero then
        some (sqrt (mul A (div A (mul A s'.sumWt s'.sumWt) (sub A (mul A s'.sumWt s'.sumWt) s'.sumWt2)) s'.cov)) else none).getD
          nan = p.2 := by
    intro s' h
    by_cases h1 : s'.nobs ≥ m
    · rw [if_pos h1] at h
      by_cases h2 : gt (sub A (mul A s'.sumWt s'.sumWt) s'.sumWt2) zero = true
      · rw [if_pos h2] at h
        rw [if_pos ⟨h1, h2⟩]
        cases h
        exact ⟨rfl, rfl⟩
      · rw [if_neg h2] at h
        rw [if_neg (fun h => h2 h.2)]
        cases h
        exact ⟨rfl, rfl⟩
    · rw [if_neg h1] at h
      rw [if_neg (fun h => h1 h.1)]
      cases h
      exact ⟨rfl, rfl⟩
  cases hm : s.meanX.isnan with
  | true =>
    cases hc : (a i).isnan with
    | true => simp only [hm, hc, Bool.not_true, Bool.false_eq_true, if_false] at h ⊢; exact fin _ h
    | false => simp only [hm, hc, Bool.not_true, Bool.not_false, Bool.false_eq_true, if_false, if_true] at h ⊢; exact fin _ h
  | false =>
    cases hc : (a i).isnan with
    | true => simp only [hm, hc, Bool.not_true, Bool.not_false, Bool.false_eq_true, if_false, if_true] at h ⊢; exact fin _ h
    | false =>
      simp only [hm, hc, Bool.not_false, if_true] at h ⊢
      generalize ho : ewmStdObs A (a i) w adjust _ = x at h
      cases x with
      | error e => cases h
      | ok v =>
        have := ewm_obs ho
        dsimp only at this
        rw [this]
        exact fin _ h

/-- One column of the exponential deviation. -/
theorem ewm_std_col {A : Arith} {sqrt : F → F} (hsq : sqrt nan = nan) {a : Nat → F} {span m : Nat} {adjust : Bool}
    {junk : Nat → F} {len : Nat} {x : Nat → F} (hs : sub A (F.fin span) one = F.fin (span - 1))
    (h : ewmStd A sqrt a span (some m) adjust junk len = .ok x) {i : Nat} (hi : i < len) :
    ewmStd1 A sqrt a span m adjust len i = x i := by
  unfold ewmStd at h
  generalize hrm : resolveMinp span (some m) "span" = z at h
  cases z with
  | error e => cases h
  | ok m' =>
    have hm' : m' = m := by
      unfold resolveMinp at hrm
      dsimp only [Option.getD] at hrm
      split at hrm
      · cases hrm
      · cases hrm; rfl
    subst hm'
    dsimp only at h
    rw [if_neg (by omega)] at h
    generalize hw : Vbt.ewmWeights A span adjust = y at h
    cases y with
    | error e => cases h
    | ok w =>
      dsimp only at h
      generalize hq : scanRowsE _ _ junk len = y at h
      cases y with
      | error e => cases h
      | ok q =>
        cases h
        unfold ewmStd1
        rw [if_neg (by omega), ewm_weights hs hw]
        have e1 : (fun _ => nan : Nat → F) = (none : Option F).elim (fun _ => nan) (setAt (fun _ => nan) 0) := rfl
        rw [e1, fillRows_first _ _ (⟨nan, nan, zero, one, one, one, 0⟩ : EwmStdState) _ _ (by omega)]
        refine scanRowsE_rel (R := fun _ (s : EwmStdState) (t : EwmStdState) => s = t) rfl ?_ hq hi
        rintro k s t p hk rfl hp
        by_cases h0 : k = 0
        · rw [if_pos h0] at hp ⊢
          simp only [eqb_refl_eq] at hp
          cases hp
          refine ⟨?_, hsq.symm⟩
          dsimp only [ewmStdInit]
          rw [Bool.and_self]
          cases hn : (a 0).isnan with
          | false => simp
          | true =>
            have : a 0 = nan := by cases h : a 0 <;> simp [h, isnan] at hn ⊢
            simp [this]
        · rw [if_neg h0] at hp ⊢
          exact ewm_std_row hsq hp

/-- **C88** (exponential deviation).  The same for the deviation, if the square root of NaN is NaN. -/
theorem C88_ewm_std_partial (A : Arith) (sqrt : F → F) (hsq : sqrt nan = nan) (a : View2) (span minp : Nat) (adjust : Bool)
    (hn : 0 < a.ncols) (hs : sub A (F.fin span) one = F.fin (span - 1)) (junk : Nat → F) (junk2 : Nat → Nat → F) :
    ReturnsSame a.nrows a.ncols (ewmStdPy A sqrt a span minp adjust)
      (nb2d (fun col => ewmStd A sqrt col span (some minp) adjust junk a.nrows) a.get junk2 a.ncols) := by
  intro v hv
  have hm : ¬ span < minp := by
    intro hw
    rw [nb2d_raises hn (e := .valueError s!"minp must be <= {"span"}")] at hv
    · cases hv
    · unfold ewmStd resolveMinp; dsimp only [Option.getD]; rw [if_pos hw]
  unfold ewmStdPy validMinp
  dsimp only [Option.getD]
  rw [if_neg hm]
  refine ⟨_, rfl, sameCells_of_cols (fun c hc x hx i hi => ?_) hv⟩
  rw [byCol_get a _ hi hc]
  exact ewm_std_col hsq hs hx hi

theorem ewm_std_step_pos {r t : ℚ} {sqrt : F → F} {a : Nat → F} {m : Nat} {f w : ℚ} (hf : 0 ≤ f) (hw : 0 < w) {adjust : Bool}
    {s : EwmStdState} {i : Nat} (hs : ∃ q : ℚ, s.oldWt = F.fin q ∧ 0 ≤ q) :
    ∃ p, ewmStdStep (Arith.exact r t) sqrt a m (F.fin f) (F.fin w) adjust s i = .ok p ∧
      ∃ q : ℚ, p.1.oldWt = F.fin q ∧ 0 ≤ q := by
  obtain ⟨q, e, hq⟩ := hs
  have h0 : (0 : ℚ) < q * f + w := by positivity
  have hm : mul (Arith.exact r t) s.oldWt (F.fin f) = F.fin (q * f) := by rw [e]; simp [mul]
  have ha : add (Arith.exact r t) (mul (Arith.exact r t) s.oldWt (F.fin f)) (F.fin w) = F.fin (q * f + w) := by
    rw [hm]; simp [add]
  have hne : eqb (F.fin (q * f + w)) zero = false := by simpa using ne_of_gt h0
  have hne2 : eqb (mul (Arith.exact r t) (F.fin (q * f + w)) (F.fin (q * f + w))) zero = false := by
    have : (q * f + w) * (q * f + w) ≠ 0 := by positivity
    simpa [mul] using this
  have last : ∀ s' : EwmStdState, (∃ q : ℚ, s'.oldWt = F.fin q ∧ 0 ≤ q) → ∃ p, (if s'.nobs ≥ m then
        if gt (sub (Arith.exact r t) (mul (Arith.exact r t) s'.sumWt s'.sumWt) s'.sumWt2) zero then
          (.ok (s', sqrt (mul (Arith.exact r t) (div (Arith.exact r t) (mul (Arith.exact r t) s'.sumWt s'.sumWt)
            (sub (Arith.exact r t) (mul (Arith.exact r t) s'.sumWt s'.sumWt) s'.sumWt2)) s'.cov)) :
            Except Err (EwmStdState × F))
        else .ok (s', sqrt nan)
      else .ok (s', sqrt nan)) = .ok p ∧ ∃ q : ℚ, p.1.oldWt = F.fin q ∧ 0 ≤ q := by
    intro s' h
    by_cases h1 : s'.nobs ≥ m
    · rw [if_pos h1]
      split
      · exact ⟨_, rfl, h⟩
      · exact ⟨_, rfl, h⟩
    · rw [if_neg h1]
      exact ⟨_, rfl, h⟩
  unfold ewmStdStep
  dsimp only
  by_cases h1 : eqb s.meanX s.meanX = true
  · by_cases h2 : eqb (a i) (a i) = true
    · simp only [h1, h2, if_true, Bool.and_self]
      suffices hobs : ∃ s', ewmStdObs (Arith.exact r t) (a i) (F.fin w) adjust ⟨s.meanX, s.meanY, s.cov,
          mul (Arith.exact r t) s.sumWt (F.fin f), mul (Arith.exact r t) s.sumWt2 (mul (Arith.exact r t) (F.fin f) (F.fin f)),
          mul (Arith.exact r t) s.oldWt (F.fin f), s.nobs + 1⟩ = .ok s' ∧ ∃ q : ℚ, s'.oldWt = F.fin q ∧ 0 ≤ q by
        obtain ⟨s', hs', hq'⟩ := hobs
        rw [hs']
        exact last s' hq'
      unfold ewmStdObs ewmMeanStep divE
      dsimp only
      rw [ha]
      simp only [hne, hne2, Bool.false_eq_true, if_false]
      have step : ∀ x y : F, (if (!eqb x y) = true then
          (Except.ok (div (Arith.exact r t) (add (Arith.exact r t) (mul (Arith.exact r t)
            (mul (Arith.exact r t) s.oldWt (F.fin f)) x) (mul (Arith.exact r t) (F.fin w) y)) (F.fin (q * f + w))) : Except Err F)
          else .ok x) = .ok (if (!eqb x y) = true then div (Arith.exact r t) (add (Arith.exact r t) (mul (Arith.exact r t)
            (mul (Arith.exact r t) s.oldWt (F.fin f)) x) (mul (Arith.exact r t) (F.fin w) y)) (F.fin (q * f + w)) else x) := by
        intro x y
        split <;> rfl
      rw [step, step]
      dsimp only
      cases adjust with
      | true =>
        simp only [Bool.not_true, Bool.false_eq_true, if_false]
        exact ⟨_, rfl, _, rfl, le_of_lt h0⟩
      | false =>
        simp only [Bool.not_false, if_true]
        exact ⟨_, rfl, 1, rfl, by norm_num⟩
    · simp only [h1, h2, if_true, Bool.and_self, if_false]
      exact last _ ⟨_, hm, by positivity⟩
  · by_cases h2 : eqb (a i) (a i) = true
    · simp only [h1, h2, if_true, Bool.and_self, if_false]
      exact last _ ⟨_, e, hq⟩
    · simp only [h1, h2, Bool.and_self, if_false]
      exact last _ ⟨_, e, hq⟩

/-- **C88** (exponential deviation, positive span).  In exact arithmetic both engines raise the same error or return the same
cells. -/
theorem C88_ewm_std_span (r t : ℚ) (sqrt : F → F) (hsq : sqrt nan = nan) (a : View2) (span minp : Nat) (adjust : Bool)
    (hn : 0 < a.ncols) (h1 : 1 ≤ span) (junk : Nat → F) (junk2 : Nat → Nat → F) :
    SameResult a.nrows a.ncols (ewmStdPy (Arith.exact r t) sqrt a span minp adjust)
      (nb2d (fun col => ewmStd (Arith.exact r t) sqrt col span (some minp) adjust junk a.nrows) a.get junk2 a.ncols) := by
  by_cases hm : span < minp
  · rw [nb2d_raises hn (e := .valueError s!"minp must be <= {"span"}")]
    · unfold ewmStdPy validMinp
      dsimp only [Option.getD]
      rw [if_pos hm]
      exact .raises _
    · unfold ewmStd resolveMinp; dsimp only [Option.getD]; rw [if_pos hm]
  · obtain ⟨v, hv⟩ := nb2d_returns (f := fun col => ewmStd (Arith.exact r t) sqrt col span (some minp) adjust junk a.nrows)
      (a := a.get) (junk := junk2) (n := a.ncols) (fun c _ => by
        unfold ewmStd resolveMinp
        dsimp only [Option.getD]
        rw [if_neg hm]
        dsimp only
        by_cases h0 : a.nrows = 0
        · rw [if_pos h0]; exact ⟨_, rfl⟩
        · rw [if_neg h0]
          obtain ⟨f, w, e, hf, hw⟩ := ewm_weights_pos r t h1 adjust
          rw [e]
          dsimp only
          have hsucc := scanRowsE_succeeds (step := fun (s : EwmStdState) i =>
              if i = 0 then (.ok (⟨a.get 0 c, a.get 0 c, zero, one, one, one, if eqb (a.get 0 c) (a.get 0 c) then 1 else 0⟩,
                sqrt nan) : Except Err (EwmStdState × F))
              else ewmStdStep (Arith.exact r t) sqrt (fun i => a.get i c) minp (F.fin f) (F.fin w) adjust s i)
            (s0 := ⟨nan, nan, zero, one, one, one, 0⟩) (junk := junk) (n := a.nrows)
            (P := fun _ s => ∃ q : ℚ, s.oldWt = F.fin q ∧ 0 ≤ q)
            ⟨1, rfl, by norm_num⟩ (fun i s _ hs => by
              by_cases h : i = 0
              · rw [if_pos h]; exact ⟨_, rfl, 1, rfl, by norm_num⟩
              · rw [if_neg h]; exact ewm_std_step_pos hf hw hs)
          obtain ⟨q, hq, -⟩ := hsucc
          rw [hq]
          exact ⟨_, rfl⟩)
    obtain ⟨u, hu, hc⟩ := C88_ewm_std_partial (Arith.exact r t) sqrt hsq a span minp adjust hn
      (by simp [sub, add, neg, sub_eq_add_neg]) junk junk2 v hv
    rw [hu, hv]
    exact .returns hc

/-! ## Expanding extremes -/

theorem expMinTurn_out (a : Nat → F) (minp : Nat) (s : F × Nat) (i : Nat) :
    (expMinTurn a minp s i).2.getD nan = (expandMinStep a minp s i).2 := by
  unfold expMinTurn expandMinStep
  dsimp only
  generalize (if (!(a i).isnan) = true then s.2 + 1 else s.2) = k
  by_cases h : k < minp
  · rw [if_pos h, if_neg (by omega)]; rfl
  · rw [if_neg h, if_pos (by omega)]; rfl

theorem expMaxTurn_out (a : Nat → F) (minp : Nat) (s : F × Nat) (i : Nat) :
    (expMaxTurn a minp s i).2.getD nan = (expandMaxStep a minp s i).2 := by
  unfold expMaxTurn expandMaxStep
  dsimp only
  generalize (if (!(a i).isnan) = true then s.2 + 1 else s.2) = k
  by_cases h : k < minp
  · rw [if_pos h, if_neg (by omega)]; rfl
  · rw [if_neg h, if_pos (by omega)]; rfl

/-- **C88** (expanding minima and maxima).  Both engines return the same cells. -/
theorem C88_expanding_extremes (a : View2) (minp : Nat) (junk : Nat → F) (junk2 : Nat → Nat → F) :
    SameResult a.nrows a.ncols (.ok (expandingMinPy a minp))
      (nb2d (fun col => .ok (expandingMin col minp junk a.nrows)) a.get junk2 a.ncols) ∧
    SameResult a.nrows a.ncols (.ok (expandingMaxPy a minp))
      (nb2d (fun col => .ok (expandingMax col minp junk a.nrows)) a.get junk2 a.ncols) := by
  constructor
  · refine sameResult_total (g := fun col => expandingMin col minp junk a.nrows) fun c hc r hr => ?_
    unfold expandingMinPy
    rw [byCol_get a _ hr hc]
    unfold expandingMin1 expandingMin
    rw [if_neg (by omega), fillRows_scan]
    refine scanRows_rel (R := fun _ (s t : F × Nat) => s = t) rfl ?_ hr
    rintro i s t - rfl
    exact ⟨rfl, expMinTurn_out _ _ _ _⟩
  · refine sameResult_total (g := fun col => expandingMax col minp junk a.nrows) fun c hc r hr => ?_
    unfold expandingMaxPy
    rw [byCol_get a _ hr hc]
    unfold expandingMax1 expandingMax
    rw [if_neg (by omega), fillRows_scan]
    refine scanRows_rel (R := fun _ (s t : F × Nat) => s = t) rfl ?_ hr
    rintro i s t - rfl
    exact ⟨rfl, expMaxTurn_out _ _ _ _⟩

/-! ## Expanding deviation -/

/-- The values present in the first `i` rows. -/
def seenVals (a : Nat → F) (i : Nat) : List ℚ := (((List.range i).map a).filter fun x => !x.isnan).map F.val

theorem seenVals_succ (a : Nat → F) (i : Nat) :
    seenVals a (i + 1) = if (a i).isnan then seenVals a i else seenVals a i ++ [(a i).val] := by
  unfold seenVals
  rw [List.range_succ, List.map_append, List.filter_append, List.map_append]
  cases h : (a i).isnan with
  | true => simp [h]
  | false => simp [h]

theorem dev_nonneg (l : List ℚ) : 0 ≤ devOf l := by
  unfold devOf
  refine List.sum_nonneg fun x hx => ?_
  obtain ⟨y, -, rfl⟩ := List.mem_map.mp hx
  exact mul_self_nonneg _

/-- The sums of the Rust loop. -/
theorem expStd_state {r t : ℚ} {sqrt : F → F} {a : Nat → F} {minp ddof i : Nat} {s : SumSq}
    (hs : s = ⟨F.fin (seenVals a i).sum, F.fin (sqOf (seenVals a i)), (seenVals a i).length⟩) (hinf : (a i).isinf = false) :
    (expStdTurn (Arith.exact r t) sqrt a minp ddof s i).1 =
      ⟨F.fin (seenVals a (i + 1)).sum, F.fin (sqOf (seenVals a (i + 1))), (seenVals a (i + 1)).length⟩ := by
  unfold expStdTurn
  dsimp only
  rw [seenVals_succ, hs]
  cases h : a i with
  | nan => simp [isnan]
  | ninf => rw [h] at hinf; cases hinf
  | pinf => rw [h] at hinf; cases hinf
  | fin q =>
    simp only [isnan, Bool.not_false, if_true, Bool.false_eq_true, if_false, F.val]
    rw [sqOf_append]
    simp [add, mul, sqOf]

/-- What the Rust loop writes. -/
theorem expStd_out {r t : ℚ} {sqrt : F → F} {a : Nat → F} {minp ddof i : Nat} {s : SumSq} {l : List ℚ}
    (h : (expStdTurn (Arith.exact r t) sqrt a minp ddof s i).1 = ⟨F.fin l.sum, F.fin (sqOf l), l.length⟩) :
    (expStdTurn (Arith.exact r t) sqrt a minp ddof s i).2.getD nan =
      if max minp 1 ≤ l.length ∧ ddof < l.length then sqrt (F.fin (devOf l / (l.length - ddof))) else nan := by
  unfold expStdTurn at h ⊢
  dsimp only at h ⊢
  rw [h]
  dsimp only
  by_cases hc : l.length ≥ minp ∧ l.length > ddof
  · rw [if_pos hc, if_pos ⟨by omega, by omega⟩]
    have hl : (l.length : ℚ) ≠ 0 := by
      have : 0 < l.length := by omega
      positivity
    have hd : ((l.length - ddof : Nat) : ℚ) ≠ 0 := by
      have : 0 < l.length - ddof := by omega
      positivity
    have hdev := dev_expand l (l.sum / l.length)
    have hdev' : devOf l = sqOf l - 2 * (l.sum / l.length) * l.sum + l.length * (l.sum / l.length) * (l.sum / l.length) := hdev
    have e : sqOf l - 2 * l.sum * (l.sum / l.length) + l.length * (l.sum / l.length) * (l.sum / l.length) = devOf l := by
      rw [hdev']; ring
    have hnn : 0 ≤ devOf l / ((l.length - ddof : Nat) : ℚ) := div_nonneg (dev_nonneg l) (by positivity)
    rw [div_exact _ _ _ _ hl]
    simp only [mul_exact, sub_exact, add_exact]
    rw [div_exact _ _ _ _ hd]
    dsimp only [Option.getD, F.abs]
    congr 2
    rw [Nat.cast_sub (by omega)] at hnn ⊢
    rw [← abs_of_nonneg hnn, ← e]
  · rw [if_neg hc, if_neg (by omega)]
    rfl

/-- **C88** (expanding deviation).  In exact arithmetic, without infinite values, the Rust engine returns whenever the Numba
engine does, and the same cells; both do if the array has the required number of rows. -/
theorem C88_expanding_std_partial (r t : ℚ) (sqrt : F → F) (a : View2) (minp ddof : Nat) (hm : minp ≤ a.nrows)
    (hinf : ∀ i < a.nrows, ∀ c < a.ncols, (a.get i c).isinf = false) (junk : Nat → F) (junk2 : Nat → Nat → F) :
    SameResult a.nrows a.ncols (.ok (expandingStdPy (Arith.exact r t) sqrt a minp ddof))
      (nb2d (fun col => expandingStd (Arith.exact r t) sqrt col minp ddof junk a.nrows) a.get junk2 a.ncols) := by
  obtain ⟨v, hv⟩ := nb2d_returns (f := fun col => expandingStd (Arith.exact r t) sqrt col minp ddof junk a.nrows)
    (a := a.get) (junk := junk2) (n := a.ncols) (fun c hc => by
      obtain ⟨out, h, -⟩ := C66_expanding r t sqrt (fun i => a.get i c) hm ddof junk (fun i hi => hinf i hi c hc)
      exact ⟨out, h⟩)
  rw [hv]
  refine .returns (sameCells_of_cols (fun c hc x hx i hi => ?_) hv)
  obtain ⟨out, h1, h2⟩ := C66_expanding r t sqrt (fun i => a.get i c) hm ddof junk (fun i hi => hinf i hi c hc)
  rw [h1] at hx
  cases hx
  rw [h2 i hi]
  unfold expandingStdPy expandingStdC expandingStd1
  rw [layout_cells (β := F) (fun col => expStdTurn (Arith.exact r t) sqrt col minp ddof) _ a hi hc, scanRows_out _ _ _ hi]
  dsimp only
  have hst : ∀ k ≤ a.nrows, scanState (fun s i => ((expStdTurn (Arith.exact r t) sqrt (a.column c) minp ddof s i).1,
      (expStdTurn (Arith.exact r t) sqrt (a.column c) minp ddof s i).2.getD nan)) ⟨zero, zero, 0⟩ k =
      ⟨F.fin (seenVals (a.column c) k).sum, F.fin (sqOf (seenVals (a.column c) k)), (seenVals (a.column c) k).length⟩ := by
    intro k
    induction k with
    | zero => intro _; rfl
    | succ k ih =>
      intro hk
      rw [scanState_succ]
      exact expStd_state (sqrt := sqrt) (minp := minp) (ddof := ddof) (ih (by omega)) (hinf k (by omega) c hc)
  rw [expStd_out (expStd_state (hst i (by omega)) (hinf i hi c hc))]
  have hl : (seenVals (a.column c) (i + 1)).length =
      (((List.range (i + 1)).map (a.column c)).filter fun x => !x.isnan).length := by
    unfold seenVals
    rw [List.length_map]
  rw [hl]
  rfl

/-! ## Crossover -/

theorem cross_cases {x y : F} (h : (x.isnan || y.isnan) = false) (hg : gt x y = false) : lt x y = !eqb x y := by
  cases x <;> cases y <;> simp [isnan, gt, lt, eqb] at h hg ⊢
  rename_i p q
  by_cases e : p = q
  · simp [e]
  · simp [e]
    exact lt_of_le_of_ne hg e

theorem crossTurn2_eq (a b : Nat → F) (wait : Nat) : crossTurn2 a b wait = crossTurn a b wait := by
  funext s i
  unfold crossTurn2 crossTurn
  cases hn : (a i).isnan || (b i).isnan with
  | true => rfl
  | false =>
    cases hg : gt (a i) (b i) with
    | true => rfl
    | false =>
      simp only [Bool.false_eq_true, if_false]
      rw [cross_cases hn hg]
      cases eqb (a i) (b i) <;> rfl

theorem crossTurn_out (a b : Nat → F) (wait : Nat) (s : Bool × Int) (i : Nat) :
    crossStep a b wait s i = ((crossTurn a b wait s i).1, (crossTurn a b wait s i).2.getD false) := by
  unfold crossStep crossTurn
  cases (a i).isnan || (b i).isnan with
  | true => rfl
  | false =>
    cases gt (a i) (b i) with
    | true =>
      simp only [Bool.false_eq_true, if_false, if_true]
      cases s.1 <;> rfl
    | false =>
      simp only [Bool.false_eq_true, if_false]
      cases eqb (a i) (b i) <;> rfl

theorem crossedPy_get (a b : View2) (wait : Nat) {r c : Nat} (hr : r < a.nrows) (hc : c < a.ncols) :
    crossedAbovePy a b wait r c = crossedAbove1 (a.column c) (b.column c) wait a.nrows r := by
  unfold crossedAbovePy
  have key : ∀ n, (∀ k ≥ n, ∀ row, (List.range n).foldl (fun out col => fun row c =>
        if c = col ∧ row < a.nrows then
          (fillRows (crossTurn2 (a.column col) (b.column col) wait) (false, -1) (fun r => out r col) (List.range a.nrows)).2 row
        else out row c) (fun _ _ => false) row k = false) ∧
      (c < n → (List.range n).foldl (fun out col => fun row c =>
        if c = col ∧ row < a.nrows then
          (fillRows (crossTurn2 (a.column col) (b.column col) wait) (false, -1) (fun r => out r col) (List.range a.nrows)).2 row
        else out row c) (fun _ _ => false) r c = crossedAbove1 (a.column c) (b.column c) wait a.nrows r) := by
    intro n
    induction n with
    | zero => exact ⟨fun _ _ _ => rfl, fun h => by omega⟩
    | succ n ih =>
      rw [List.range_succ, List.foldl_append, List.foldl_cons, List.foldl_nil]
      refine ⟨fun k hk row => ?_, fun h => ?_⟩
      · rw [if_neg (by omega)]
        exact ih.1 k (by omega) row
      · by_cases hn : c = n
        · subst hn
          rw [if_pos ⟨rfl, hr⟩, crossTurn2_eq]
          have e : (fun r => (List.range c).foldl (fun out col => fun row c =>
              if c = col ∧ row < a.nrows then
                (fillRows (crossTurn2 (a.column col) (b.column col) wait) (false, -1) (fun r => out r col)
                  (List.range a.nrows)).2 row
              else out row c) (fun _ _ => false) r c) = fun _ => false := by
            funext row
            exact ih.1 c (le_refl _) row
          rw [e]
          rfl
        · rw [if_neg (by omega)]
          exact ih.2 (by omega)
  exact (key a.ncols).2 hc

/-- **C88** (crossover).  The engines mark the same rows, for single arrays and for each column. -/
theorem C88_crossed_above (a b : View2) (wait : Nat) (junk : Nat → Bool) :
    (∀ (x y : Nat → F) (len i : Nat), i < len → crossedAbove1 x y wait len i = crossedAbove x y wait junk len i) ∧
    SameCells a.nrows a.ncols (crossedAbovePy a b wait)
      (fun r c => crossedAbove (fun i => a.get i c) (fun i => b.get i c) wait junk a.nrows r) := by
  have h1 : ∀ (x y : Nat → F) (len i : Nat), i < len → crossedAbove1 x y wait len i = crossedAbove x y wait junk len i := by
    intro x y len i hi
    unfold crossedAbove1 crossedAbove
    rw [fillRows_scan]
    refine scanRows_rel (R := fun _ (s t : Bool × Int) => s = t) rfl ?_ hi
    rintro i s t - rfl
    rw [crossTurn_out]
    exact ⟨rfl, rfl⟩
  refine ⟨h1, fun r hr c hc => ?_⟩
  rw [crossedPy_get a b wait hr hc]
  exact h1 _ _ _ _ hr

/-! ## Where the engines differ -/

/-- Three rows of two columns, in one of the layouts. -/
def wView (standard : Bool) : View2 :=
  ⟨3, 2, fun i c => if c = 0 then [F.fin 1, nan, F.fin 4].getD i nan else [nan, F.fin 2, F.fin 3].getD i nan, standard⟩

/-- One column. -/
def wColumn (l : List F) (standard : Bool) : View2 := ⟨l.length, 1, fun i _ => l.getD i nan, standard⟩

/-- **C88** (nothing required).  A rolling mean that requires no value divides by zero in a window without values: the Numba
engine raises, the Rust engine returns NaN. -/
theorem C88_mean_empty :
    raised (nb2d (fun col => rollingMean Arith.std col 2 (some 0) (fun _ => zero) 2) (wColumn [nan, F.fin 1] true).get
      (fun _ _ => zero) 1) .zeroDivision = true ∧
    ∃ u, rollingMeanPy Arith.std (wColumn [nan, F.fin 1] true) 2 (some 0) = .ok u ∧
      (decide (u 0 0 = nan) && decide (u 1 0 = F.fin 1)) = true := by
  refine ⟨by decide +kernel, ?_⟩
  exact okAnd_iff (f := fun u : Nat → Nat → F => decide (u 0 0 = nan) && decide (u 1 0 = F.fin 1)) (by decide +kernel)

/-- **C88** (rounding).  With the doubles of the machine the sums of the engines differ: of 1e17, 1, 3 the mean of the last
value alone is 0 in the Numba engine and 2 in the Rust engine. -/
theorem C88_mean_rounding :
    (∃ v, nb2d (fun col => rollingMean Arith.double col 1 none (fun _ => zero) 3)
      (wColumn [F.fin (10 ^ 17), F.fin 1, F.fin 3] true).get (fun _ _ => zero) 1 = .ok v ∧ decide (v 2 0 = F.fin 0) = true) ∧
    ∃ u, rollingMeanPy Arith.double (wColumn [F.fin (10 ^ 17), F.fin 1, F.fin 3] true) 1 none = .ok u ∧
      decide (u 2 0 = F.fin 2) = true :=
  ⟨okAnd_iff (f := fun v : Nat → Nat → F => decide (v 2 0 = F.fin 0)) (by decide +kernel),
    okAnd_iff (f := fun u : Nat → Nat → F => decide (u 2 0 = F.fin 2)) (by decide +kernel)⟩

/-- **C88** (more values required than there are rows).  The Numba expanding mean and deviation raise, the Rust engine returns
NaN. -/
theorem C88_expanding_minp :
    raised (nb2d (fun col => expandingMean Arith.std col 3 (fun _ => zero) 2) (wColumn [F.fin 1, F.fin 2] true).get
      (fun _ _ => zero) 1) (.valueError "minp must be <= window") = true ∧
    raised (nb2d (fun col => expandingStd Arith.std id col 3 0 (fun _ => zero) 2) (wColumn [F.fin 1, F.fin 2] true).get
      (fun _ _ => zero) 1) (.valueError "minp must be <= window") = true ∧
    expandingMeanPy Arith.std (wColumn [F.fin 1, F.fin 2] true) 3 1 0 = nan ∧
    expandingStdPy Arith.std id (wColumn [F.fin 1, F.fin 2] true) 3 0 1 0 = nan := by
  decide +kernel

/-- **C88** (no span).  With span 0 the adjusted weights of the first two values cancel: the Numba engine raises, the Rust
engine returns infinity. -/
theorem C88_ewm_no_span :
    raised (nb2d (fun col => ewmMean Arith.std col 0 (some 0) true (fun _ => zero) 2) (wColumn [F.fin 1, F.fin 2] true).get
      (fun _ _ => zero) 1) .zeroDivision = true ∧
    ∃ u, ewmMeanPy Arith.std (wColumn [F.fin 1, F.fin 2] true) 0 0 true = .ok u ∧
      (decide (u 0 0 = F.fin 1) && decide (u 1 0 = pinf)) = true :=
  ⟨by decide +kernel,
    okAnd_iff (f := fun u : Nat → Nat → F => decide (u 0 0 = F.fin 1) && decide (u 1 0 = pinf)) (by decide +kernel)⟩

/-- The double nearest to 0.1. -/
def dTenth : F := div Arith.double one (F.fin 10)

/-- **C88** (cancellation).  With the doubles of the machine the deviation of three equal values is zero in the Numba engine and
positive in the Rust engine, which subtracts sums of squares. -/
theorem C88_expanding_std_rounding :
    (∃ v, nb2d (fun col => expandingStd Arith.double id col 1 0 (fun _ => zero) 3) (wColumn [dTenth, dTenth, dTenth] true).get
      (fun _ _ => zero) 1 = .ok v ∧ decide (v 2 0 = F.fin 0) = true) ∧
    gt (expandingStdPy Arith.double id (wColumn [dTenth, dTenth, dTenth] true) 1 0 2 0) zero = true :=
  ⟨okAnd_iff (f := fun v : Nat → Nat → F => decide (v 2 0 = F.fin 0)) (by decide +kernel), by decide +kernel⟩

/-! ## Non-vacuity -/

/-- Shifts, differences and fills, in both layouts. -/
example (b : Bool) :
    SameResult 3 2 (.ok (bshiftPy (wView b) 1 zero)) (nb2d (fun col => .ok (bshift col 1 zero (fun _ => nan) 3)) (wView b).get
      (fun _ _ => nan) 2) ∧
    SameResult 3 2 (.ok (diffPy Arith.std (wView b) 1)) (nb2d (fun col => .ok (diff Arith.std col 1)) (wView b).get
      (fun _ _ => nan) 2) ∧
    SameResult 3 2 (.ok (ffillPy (wView b))) (nb2d (fun col => .ok (ffill col (fun _ => nan) 3)) (wView b).get
      (fun _ _ => nan) 2) :=
  ⟨(C88_shift (wView b) 1 zero _ _).1, (C88_diff Arith.std (wView b) 1 _).1, (C88_fill (wView b) _ _).1⟩

example : (bshiftPy (wView true) 1 zero 1 0, diffPy Arith.std (wView false) 1 2 1, ffillPy (wView true) 1 0) =
    (F.fin 4, F.fin 1, F.fin 1) := by decide +kernel

/-- Rolling functions: both columns have a value in the last windows. -/
example (b : Bool) : ∃ u v, rollingMeanPy Arith.std (wView b) 2 (some 1) = .ok u ∧
    nb2d (fun col => rollingMean Arith.std col 2 (some 1) (fun _ => nan) 3) (wView b).get (fun _ _ => nan) 2 = .ok v ∧
    SameCells 3 2 u v ∧ (u 2 0, u 2 1, u 0 1) = (F.fin 4, F.fin (5 / 2), nan) := by
  have h := C88_rolling_mean_minp (1 / 1000000000) (1 / 1000000000000) (wView b) 2 (some 1) Nat.zero_lt_two (by decide) (fun _ => nan)
    (fun _ _ => nan)
  have e : ∀ x, rollingMeanPy Arith.std (wView b) 2 (some 1) = x → okAnd x (fun u =>
      decide ((u 2 0, u 2 1, u 0 1) = (F.fin 4, F.fin (5 / 2), nan))) = true := by
    rintro x rfl
    cases b <;> decide +kernel
  unfold Arith.std at e ⊢
  cases h with
  | returns hc =>
    exact ⟨_, _, rfl, rfl, hc, of_decide_eq_true (e _ rfl)⟩

example (b : Bool) : SameResult 3 2 (rollingStdPy Arith.double id (wView b) 3 (some 1) 1)
    (nb2d (fun col => rollingStd Arith.double id col 3 (some 1) 1 (fun _ => nan) 3) (wView b).get (fun _ _ => nan) 2) ∧
    okAnd (rollingStdPy Arith.double id (wView b) 3 (some 1) 1) (fun u => decide (u 2 0 = F.fin (9 / 2))) = true :=
  ⟨C88_rolling_std Arith.double id (wView b) 3 (some 1) 1 Nat.zero_lt_two _ _, by cases b <;> decide +kernel⟩

example (b : Bool) : SameResult 3 2 (rollingMinPy (wView b) 2 (some 1))
    (nb2d (fun col => rollingMin col 2 (some 1) (fun _ => zero) 3) (wView b).get (fun _ _ => nan) 2) ∧
    okAnd (rollingMinPy (wView b) 2 (some 1)) (fun u => decide (u 2 1 = F.fin 2)) = true :=
  ⟨(C88_rolling_extremes (wView b) Nat.zero_lt_two 2 (some 1) _ _).1, by cases b <;> decide +kernel⟩

/-- Exponential functions: the hypothesis on the arithmetic holds of the doubles of the machine. -/
example : sub Arith.double (F.fin (3 : Nat)) one = F.fin ((3 : Nat) - 1) := by decide +kernel

example (b : Bool) : SameResult 3 2 (ewmMeanPy Arith.std (wView b) 3 1 true)
    (nb2d (fun col => ewmMean Arith.std col 3 (some 1) true (fun _ => zero) 3) (wView b).get (fun _ _ => nan) 2) ∧
    okAnd (ewmMeanPy Arith.std (wView b) 3 1 true) (fun u => decide (u 2 1 = F.fin (8 / 3))) = true :=
  ⟨C88_ewm_mean_span _ _ (wView b) 3 1 true Nat.zero_lt_two (by decide) _ _, by cases b <;> decide +kernel⟩

example (b : Bool) : SameResult 3 2 (ewmStdPy Arith.std id (wView b) 3 1 true)
    (nb2d (fun col => ewmStd Arith.std id col 3 (some 1) true (fun _ => zero) 3) (wView b).get (fun _ _ => nan) 2) ∧
    okAnd (ewmStdPy Arith.std id (wView b) 3 1 true) (fun u => decide (u 2 1 = F.fin (1 / 2))) = true :=
  ⟨C88_ewm_std_span _ _ id rfl (wView b) 3 1 true Nat.zero_lt_two (by decide) _ _, by cases b <;> decide +kernel⟩

/-- Expanding functions. -/
example (b : Bool) : SameResult 3 2 (.ok (expandingMeanPy Arith.double (wView b) 1))
    (nb2d (fun col => expandingMean Arith.double col 1 (fun _ => zero) 3) (wView b).get (fun _ _ => nan) 2) ∧
    SameResult 3 2 (.ok (expandingStdPy Arith.std id (wView b) 1 1))
      (nb2d (fun col => expandingStd Arith.std id col 1 1 (fun _ => zero) 3) (wView b).get (fun _ _ => nan) 2) ∧
    SameResult 3 2 (.ok (expandingMaxPy (wView b) 1))
      (nb2d (fun col => .ok (expandingMax col 1 (fun _ => zero) 3)) (wView b).get (fun _ _ => nan) 2) ∧
    (expandingMeanPy Arith.double (wView b) 1 2 0, expandingStdPy Arith.std id (wView b) 1 1 2 0, expandingMaxPy (wView b) 1 1 0) =
      (F.fin (5 / 2), F.fin (9 / 2), F.fin 1) :=
  ⟨C88_expanding_mean_minp Arith.double (wView b) 1 Nat.zero_lt_two (by decide) (show 1 ≤ 3 by decide) _ _,
    C88_expanding_std_partial _ _ id (wView b) 1 1 (show 1 ≤ 3 by decide)
      (fun i (hi : i < 3) c (hc : c < 2) => by revert b; revert c; revert i; decide +kernel) _ _,
    (C88_expanding_extremes (wView b) 1 _ _).2, by cases b <;> decide +kernel⟩

/-- Crossover: 4 against 3 after 1 against 2, with a wait of zero rows. -/
example (b b' : Bool) :
    crossedAbovePy (wColumn [F.fin 1, F.fin 2, F.fin 4] b) (wColumn [F.fin 2, F.fin 2, F.fin 3] b') 0 2 0 = true ∧
    SameCells 3 1 (crossedAbovePy (wColumn [F.fin 1, F.fin 2, F.fin 4] b) (wColumn [F.fin 2, F.fin 2, F.fin 3] b') 0)
      (fun r _ => crossedAbove (fun i => [F.fin 1, F.fin 2, F.fin 4].getD i nan) (fun i => [F.fin 2, F.fin 2, F.fin 3].getD i nan) 0
        (fun _ => true) 3 r) :=
  ⟨by cases b <;> cases b' <;> decide +kernel,
    (C88_crossed_above (wColumn [F.fin 1, F.fin 2, F.fin 4] b) (wColumn [F.fin 2, F.fin 2, F.fin 3] b') 0 fun _ => true).2⟩

end Vbt
