import Verif.Lemmas.FactoryRuns
import Verif.Lemmas.Witness

/-!
# C80: every output column of an indicator belongs to the input column and the parameters it is labelled with
-/

namespace Vbt

/-! ### Witness: sums of a column and a parameter, an in-place output that is overwritten -/

/-- `apply_func`: adds the two parameters to the inputs; the in-place outputs are filled with the inputs. -/
def wAdd : ApplyFunc Nat Nat := fun col inputs ios t =>
  match inputs with
  | [a] => .ok (ios.map fun _ => a, [⟨a.nrows, a.cols.map fun x => x + t.sum + col.getD 0⟩])
  | _ => .error (.typeError "one input")

/-- Two columns with values 10 and 20 (of two rows each), one in-place output that has not been provided. -/
def wSetup : Setup Nat Nat String where
  custom := applyCustom wAdd
  numRet := 1
  inputs := [⟨2, [10, 20]⟩]
  nrows := 2
  labels := ["a", "b"]
  given := [none]
  junk := fun i j => 1000 + i + j

/-- Default options. -/
def wOpts : PipeOpts := ⟨false, false, false, false, []⟩

/-- What `wAdd` computes for the columns of `wSetup`. -/
def wSum (t : List Nat) : Filled Nat := ([⟨2, [10, 20]⟩], [⟨2, [10 + t.sum, 20 + t.sum]⟩])

theorem wSetup_run (tuples : List (List Nat)) : WellRun wAdd wSetup tuples wSum := by
  refine ⟨rfl, Or.inl (by simp [wSetup]), by decide, fun t _ => ⟨fun io hio => ?_, rfl, rfl, ?_⟩⟩
  · obtain ⟨a, rfl⟩ := List.length_eq_one_iff.mp hio.1
    rfl
  · rintro a (ha | ha) <;>
    · simp only [wSum, List.mem_singleton] at ha
      rw [ha]
      exact ⟨rfl, rfl⟩

/-! ### Runs over all columns at once -/

/-- For parameter lists taken position by position, the run succeeds and column `k * w + c` of every output, mapper and label belongs to
combination `k` and input column `c`; `w` is the number of input columns. -/
theorem C80_run {P α L : Type} [DecidableEq P] {apply : ApplyFunc P α} {o : PipeOpts} {s : Setup P α L} {params tuples : List (List P)}
    {f : List P → Filled α} {n : Nat} (ho : o.perColumn = false) (hprod : o.paramProduct = false ∨ params.length ≤ 1) (hn : n ≠ 0)
    (hmax : n ≠ 1 → ∃ vals ∈ params, vals.length = n) (h : PerPosition n params tuples) (hr : WellRun apply s tuples f)
    (hs : (∃ p, p < params.length ∧ p ∉ o.hideLevels) ∨ n = 1) :
    ∃ r, runIndicator o s none params = .ok r ∧ Shows o.hideLevels (decide (s.inputs.length > 0)) s.labels tuples f r := by
  obtain ⟨ps, h1, h2, h3⟩ := params_positions (ncols := s.labels.length) ho hprod hn hmax h
  obtain ⟨r, _, h5, h6⟩ := run_core ho h1 h2 hr (by rw [h3, h.1]; exact hs)
  exact ⟨r, h5, h6⟩

example : ∃ r, runIndicator wOpts wSetup none [[1, 2], [5]] = .ok r ∧ r.outputs = [⟨2, [16, 26, 17, 27]⟩] ∧
    r.columns = [([1, 5], "a"), ([1, 5], "b"), ([2, 5], "a"), ([2, 5], "b")] ∧ r.inputMapper = some [0, 1, 0, 1] ∧
    Shows [] true ["a", "b"] [[1, 5], [2, 5]] wSum r := by
  obtain ⟨r, h1, h2⟩ := C80_run (apply := wAdd) (o := wOpts) (s := wSetup) (params := [[1, 2], [5]]) (tuples := [[1, 5], [2, 5]]) (f := wSum)
    (n := 2) rfl (Or.inl rfl) (by decide) (fun _ => ⟨[1, 2], by simp, rfl⟩)
    ⟨rfl, by simp, fun k t hk => by
      match k, hk with
      | 0, hk => cases hk; exact ⟨rfl, fun p v hv => by match p, hv with | 0, hv => cases hv; rfl | 1, hv => cases hv; rfl⟩
      | 1, hk => cases hk; exact ⟨rfl, fun p v hv => by match p, hv with | 0, hv => cases hv; rfl | 1, hv => cases hv; rfl⟩⟩
    (wSetup_run _) (Or.inl ⟨0, by decide, by decide⟩)
  have e : okAnd (runIndicator wOpts wSetup none [[1, 2], [5]]) (fun r => decide (r.outputs = [⟨2, [16, 26, 17, 27]⟩] ∧
    r.columns = [([1, 5], "a"), ([1, 5], "b"), ([2, 5], "a"), ([2, 5], "b")] ∧ r.inputMapper = some [0, 1, 0, 1])) = true := by decide +kernel
  obtain ⟨r', h3, h4⟩ := okAnd_iff e
  rw [h1] at h3
  cases h3
  have h5 := of_decide_eq_true h4
  exact ⟨r, h1, h5.1, h5.2.1, h5.2.2, h2⟩

/-- With `param_product=True` the same holds for all combinations of the values, the last parameter varying fastest. -/
theorem C80_run_product {P α L : Type} [DecidableEq P] {apply : ApplyFunc P α} {o : PipeOpts} {s : Setup P α L} {params tuples : List (List P)}
    {f : List P → Filled α} (ho : o.perColumn = false) (hprod : o.paramProduct = true) (hlen : 1 < params.length) (hne : ∀ p ∈ params, p ≠ [])
    (h : AllChoices params tuples) (hr : WellRun apply s tuples f)
    (hs : (∃ p, p < params.length ∧ p ∉ o.hideLevels) ∨ combos params = 1) :
    ∃ r, runIndicator o s none params = .ok r ∧ Shows o.hideLevels (decide (s.inputs.length > 0)) s.labels tuples f r := by
  obtain ⟨ps, h1, h2, h3⟩ := params_product (ncols := s.labels.length) ho hprod hlen hne h
  obtain ⟨r, _, h5, h6⟩ := run_core ho h1 h2 hr (by rw [h3, h.1]; exact hs)
  exact ⟨r, h5, h6⟩

example : ∃ r, runIndicator { wOpts with paramProduct := true } wSetup none [[1, 2], [5, 7]] = .ok r ∧
    Shows [] true ["a", "b"] [[1, 5], [1, 7], [2, 5], [2, 7]] wSum r := by
  refine C80_run_product (apply := wAdd) (o := { wOpts with paramProduct := true }) (s := wSetup) rfl rfl (by decide) (by simp) ⟨rfl, by simp, ?_⟩
    (wSetup_run _) (Or.inl ⟨0, by decide, by decide⟩)
  intro js hjs p j vals hj hv
  obtain ⟨a, b, rfl⟩ : ∃ a b, js = [a, b] := by
    have := hjs.length_eq
    match js, this with
    | [a, b], _ => exact ⟨a, b, rfl⟩
  have ha : a < 2 := by
    cases hjs with
    | cons h _ => exact h
  have hb : b < 2 := by
    cases hjs with
    | cons _ h => cases h with
      | cons h _ => exact h
  have ha' : a = 0 ∨ a = 1 := by omega
  have hb' : b = 0 ∨ b = 1 := by omega
  match p, hv with
  | 0, hv =>
    cases hv
    rw [List.getElem?_cons_zero] at hj
    have hj' : j = a := (Option.some.inj hj).symm
    rw [hj']
    rcases ha' with h1 | h1 <;> rcases hb' with h2 | h2 <;> rw [h1, h2] <;> exact ⟨_, rfl, rfl⟩
  | 1, hv =>
    cases hv
    rw [List.getElem?_cons_succ, List.getElem?_cons_zero] at hj
    have hj' : j = b := (Option.some.inj hj).symm
    rw [hj']
    rcases ha' with h1 | h1 <;> rcases hb' with h2 | h2 <;> rw [h1, h2] <;> exact ⟨_, rfl, rfl⟩

/-- `run_unique` computes repeated combinations once and changes nothing else. -/
theorem C80_unique {P α L : Type} [DecidableEq P] {apply : ApplyFunc P α} {o : PipeOpts} {s : Setup P α L} {params tuples : List (List P)}
    {f : List P → Filled α} {n : Nat} (ho : o.perColumn = false) (hprod : o.paramProduct = false ∨ params.length ≤ 1) (hn : n ≠ 0)
    (hmax : n ≠ 1 → ∃ vals ∈ params, vals.length = n) (h : PerPosition n params tuples) (hr : WellRun apply s tuples f) :
    runIndicator { o with runUnique := true } s none params = runIndicator { o with runUnique := false } s none params := by
  have key : ∀ u : Bool, ∃ ps, pipeParams { o with runUnique := u } s.labels.length params = .ok ps ∧
      pipeParams o s.labels.length params = .ok ps ∧
      pipeOutputs { o with runUnique := u } s none ps = .ok (sideBySide s.nrows (s.given.length + s.numRet) tuples fun t => allOf (f t)) := by
    intro u
    obtain ⟨ps, h1, h2, h3⟩ := params_positions (o := { o with runUnique := u }) (ncols := s.labels.length) ho hprod hn hmax h
    exact ⟨ps, h1, h1, pipeOutputs_ok ho h2 hr⟩
  obtain ⟨ps, h1, h2, h3⟩ := key true
  obtain ⟨qs, h4, h5, h6⟩ := key false
  rw [h2] at h5
  cases h5
  rw [runIndicator, runPipeline, h1, runIndicator, runPipeline, h4]
  simp only
  rw [h3, h6]
  rfl

example : runIndicator { wOpts with runUnique := true } wSetup none [[1, 2, 1]] = runIndicator { wOpts with runUnique := false } wSetup none [[1, 2, 1]] :=
  C80_unique (apply := wAdd) (o := wOpts) (s := wSetup) (tuples := [[1], [2], [1]]) (f := wSum) (n := 3) rfl (Or.inl rfl) (by decide)
    (fun _ => ⟨[1, 2, 1], by simp, rfl⟩)
    ⟨rfl, by simp, fun k t hk => by
      match k, hk with
      | 0, hk => cases hk; exact ⟨rfl, fun p v hv => by match p, hv with | 0, hv => cases hv; rfl⟩
      | 1, hk => cases hk; exact ⟨rfl, fun p v hv => by match p, hv with | 0, hv => cases hv; rfl⟩
      | 2, hk => cases hk; exact ⟨rfl, fun p v hv => by match p, hv with | 0, hv => cases hv; rfl⟩⟩
    (wSetup_run _)

/-- The Python loop and the compiled loop over combinations give the same arrays and raise the same exceptions, whatever the freshly
allocated array holds. -/
theorem C80_loops {α : Type} {nrows w m n : Nat} {call : Nat → Except Err (Filled α)} (junk : Nat → Nat → α) (hn : 0 < n)
    (h : ∀ k, k < n → ∀ r, call k = .ok r → r.2.length = m ∧ ∀ a ∈ r.2, a.HasShape nrows w) :
    applyConcatNb junk n call = applyConcat n call := applyConcatNb_eq junk hn h

example : applyConcatNb (fun i j => 7 * i + j) 3 (fun k => .ok ([], [⟨2, [k, 10 + k]⟩, ⟨2, [20 + k, 30 + k]⟩])) =
    applyConcat 3 (fun k => .ok ([], [⟨2, [k, 10 + k]⟩, ⟨2, [20 + k, 30 + k]⟩])) :=
  C80_loops (nrows := 2) (w := 2) (m := 2) _ (by decide) fun k _ r hr => by
    cases hr
    refine ⟨rfl, fun a ha => ?_⟩
    simp only [List.mem_cons, List.not_mem_nil, or_false] at ha
    rcases ha with rfl | rfl <;> exact ⟨rfl, rfl⟩

/-! ### Runs column by column -/

/-- With `per_column=True`, column `c` of every output, mapper and label belongs to input column `c` and combination `c`. -/
theorem C80_per_column {P α L : Type} [DecidableEq P] {apply : ApplyFunc P α} {o : PipeOpts} {s : Setup P α L} {params tuples : List (List P)}
    {f : Nat → Filled α} (ho : o.perColumn = true) (hprod : o.paramProduct = false ∨ params.length ≤ 1) (hn : s.labels.length ≠ 0)
    (hne : params ≠ []) (h : PerPosition s.labels.length params tuples) (hr : WellRunColumns apply s o.passCol tuples f) :
    ∃ r, runIndicator o s none params = .ok r ∧ ShowsColumns o.hideLevels (decide (s.inputs.length > 0)) s.labels tuples f r := by
  obtain ⟨ps, h1, h2, h3, _⟩ := params_columns ho hprod hn hne h
  exact columns_core ho h1 h2 h3 h.1 hr

/-- What `wAdd` computes for single columns of `wSetup`, given the number of the column. -/
def wSumCol (c : Nat) : Filled Nat := ([⟨2, [10 * (c + 1)]⟩], [⟨2, [10 * (c + 1) + (c + 3) + c]⟩])

example : ∃ r, runIndicator ⟨false, true, false, true, []⟩ wSetup none [[3, 4]] = .ok r ∧
    ShowsColumns [] true ["a", "b"] [[3], [4]] wSumCol r := by
  refine C80_per_column (apply := wAdd) (o := ⟨false, true, false, true, []⟩) (s := wSetup) rfl (Or.inl rfl) (by decide) (by simp)
    ⟨rfl, by simp [wSetup], fun k t hk => ?_⟩ ⟨rfl, Or.inl (by simp [wSetup]), by decide, fun c t hc => ?_⟩
  · match k, hk with
    | 0, hk => cases hk; exact ⟨rfl, fun p v hv => by match p, hv with | 0, hv => cases hv; rfl⟩
    | 1, hk => cases hk; exact ⟨rfl, fun p v hv => by match p, hv with | 0, hv => cases hv; rfl⟩
  · have hc' : (c = 0 ∧ t = [3]) ∨ (c = 1 ∧ t = [4]) := by
      match c, hc with
      | 0, hc => cases hc; exact Or.inl ⟨rfl, rfl⟩
      | 1, hc => cases hc; exact Or.inr ⟨rfl, rfl⟩
    rcases hc' with ⟨rfl, rfl⟩ | ⟨rfl, rfl⟩
    · refine ⟨fun io hio => ?_, rfl, rfl, ?_⟩
      · obtain ⟨a, rfl⟩ := List.length_eq_one_iff.mp hio.1
        rfl
      · rintro a (ha | ha) <;>
        · simp only [wSumCol, List.mem_singleton] at ha
          rw [ha]
          exact ⟨rfl, rfl⟩
    · refine ⟨fun io hio => ?_, rfl, rfl, ?_⟩
      · obtain ⟨a, rfl⟩ := List.length_eq_one_iff.mp hio.1
        rfl
      · rintro a (ha | ha) <;>
        · simp only [wSumCol, List.mem_singleton] at ha
          rw [ha]
          exact ⟨rfl, rfl⟩

/-! ### Reusing raw outputs -/

/-- Raw outputs of one run serve any later run on the same data whose combinations are among those computed: the result is what that
run would give by itself. -/
theorem C80_use_raw {P α L : Type} [DecidableEq P] {apply : ApplyFunc P α} {o o' : PipeOpts} {s : Setup P α L} {params params' tuples tuples' : List (List P)}
    {f : List P → Filled α} {n n' : Nat} (ho : o.perColumn = false) (hprod : o.paramProduct = false) (hn : n ≠ 0)
    (hmax : n ≠ 1 → ∃ vals ∈ params, vals.length = n) (h : PerPosition n params tuples) (hr : WellRun apply s tuples f)
    (ho' : o'.perColumn = false) (hprod' : o'.paramProduct = false) (hn' : n' ≠ 0) (hne' : params' ≠ [])
    (hmax' : n' ≠ 1 → ∃ vals ∈ params', vals.length = n') (h' : PerPosition n' params' tuples') (hsub : ∀ t ∈ tuples', t ∈ tuples) :
    ∃ raw, pipelineRaw o s params = .ok raw ∧ runIndicator o' s (some raw) params' = runIndicator o' s none params' := by
  obtain ⟨ps, h1, h2, h3⟩ := params_positions (ncols := s.labels.length) ho (Or.inl hprod) hn hmax h
  obtain ⟨qs, h1', h2', h3'⟩ := params_positions (ncols := s.labels.length) ho' (Or.inl hprod') hn' hmax' h'
  obtain ⟨us, k1, k2, k3, k4, k5⟩ := rawOf_ok ho h2 hr
  have hqne : qs ≠ [] := by
    intro h0
    rw [h0] at h3'
    exact hne' (List.length_eq_zero_iff.mp h3'.symm)
  refine ⟨_, by rw [pipelineRaw, h1]; exact k5, ?_⟩
  have hps : ps ≠ [] := by
    intro h0
    obtain ⟨t, ht⟩ := List.exists_mem_of_ne_nil _ h2'.ne
    have e1 := h2.splits.1 t (hsub t ht)
    have e2 := h2'.splits.1 t ht
    rw [h0] at e1
    rw [e1] at e2
    exact hqne (List.length_eq_zero_iff.mp e2.symm)
  have hu2 : (uniqueParams o ps).2 ≠ [] := by
    cases hu : (uniqueParams o ps).1 with
    | false => rw [(k3 hu).2]; exact hps
    | true => exact (k4 hu).2
  have hr' : WellRun apply s tuples' f := ⟨hr.custom, hr.given, hr.hasOutput, fun t ht => hr.computes t (hsub t ht)⟩
  rw [runIndicator, runPipeline, h1', runIndicator, runPipeline, h1']
  simp only
  rw [pipeOutputs_ok ho' h2' hr', pipeOutputs]
  simp only
  rw [splits_zipAll k1.splits hu2]
  rw [useRaw_ok (Regular.of_computes fun t ht => hr.computes t ((k2 t).mp ht)) h2' hqne fun t ht => (k2 t).mpr (hsub t ht)]

example : ∃ raw, pipelineRaw wOpts wSetup [[1, 2, 3]] = .ok raw ∧
    runIndicator wOpts wSetup (some raw) [[3, 1]] = runIndicator wOpts wSetup none [[3, 1]] :=
  C80_use_raw (apply := wAdd) (o := wOpts) (o' := wOpts) (s := wSetup) (tuples := [[1], [2], [3]]) (tuples' := [[3], [1]]) (f := wSum) (n := 3) (n' := 2)
    rfl rfl (by decide) (fun _ => ⟨[1, 2, 3], by simp, rfl⟩)
    ⟨rfl, by simp, fun k t hk => by
      match k, hk with
      | 0, hk => cases hk; exact ⟨rfl, fun p v hv => by match p, hv with | 0, hv => cases hv; rfl⟩
      | 1, hk => cases hk; exact ⟨rfl, fun p v hv => by match p, hv with | 0, hv => cases hv; rfl⟩
      | 2, hk => cases hk; exact ⟨rfl, fun p v hv => by match p, hv with | 0, hv => cases hv; rfl⟩⟩
    (wSetup_run _) rfl rfl (by decide) (by simp) (fun _ => ⟨[3, 1], by simp, rfl⟩)
    ⟨rfl, by simp, fun k t hk => by
      match k, hk with
      | 0, hk => cases hk; exact ⟨rfl, fun p v hv => by match p, hv with | 0, hv => cases hv; rfl⟩
      | 1, hk => cases hk; exact ⟨rfl, fun p v hv => by match p, hv with | 0, hv => cases hv; rfl⟩⟩
    (by simp)

/-- A combination that raw outputs do not cover is refused, never served from another one. -/
theorem C80_use_raw_missing {P α L : Type} [DecidableEq P] {o : PipeOpts} {s : Setup P α L} {params tuples : List (List P)} {raw : Raw P α}
    {n : Nat} (ho : o.perColumn = false) (hprod : o.paramProduct = false) (hn : n ≠ 0) (hne : params ≠ [])
    (hmax : n ≠ 1 → ∃ vals ∈ params, vals.length = n) (h : PerPosition n params tuples) {t : List P} (ht : t ∈ tuples)
    (hmiss : t ∉ raw.paramMap) : runIndicator o s (some raw) params = .error (.valueError "tuple is not in list") := by
  obtain ⟨ps, h1, h2, h3⟩ := params_positions (ncols := s.labels.length) ho (Or.inl hprod) hn hmax h
  have hps : ps ≠ [] := by
    intro h0
    rw [h0] at h3
    exact hne (List.length_eq_zero_iff.mp h3.symm)
  rw [runIndicator, runPipeline, h1]
  simp only
  rw [pipeOutputs, useRaw_missing h2 hps ht hmiss]

example : runIndicator wOpts wSetup (some ⟨[⟨2, [11, 21]⟩, ⟨2, [11, 21]⟩], [[1]], 2⟩) [[1, 2]] = .error (.valueError "tuple is not in list") :=
  C80_use_raw_missing (tuples := [[1], [2]]) (n := 2) (t := [2]) rfl rfl (by decide) (by simp) (fun _ => ⟨[1, 2], by simp, rfl⟩)
    ⟨rfl, by simp, fun k t hk => by
      match k, hk with
      | 0, hk => cases hk; exact ⟨rfl, fun p v hv => by match p, hv with | 0, hv => cases hv; rfl⟩
      | 1, hk => cases hk; exact ⟨rfl, fun p v hv => by match p, hv with | 0, hv => cases hv; rfl⟩⟩
    (by simp) (by simp)

end Vbt
