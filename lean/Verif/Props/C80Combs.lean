import Verif.Props.C80

/-!
# C80: exceptions, `run_combs`, and runs that fail or mislabel
-/

namespace Vbt

/-- The first combination for which the function raises ends the run with its exception, with or without `run_unique`. -/
theorem C80_raises {P α L : Type} [DecidableEq P] {apply : ApplyFunc P α} {o : PipeOpts} {s : Setup P α L} {params pre post : List (List P)}
    {t : List P} {f : List P → Filled α} {e : Err} {n : Nat} (ho : o.perColumn = false) (hprod : o.paramProduct = false ∨ params.length ≤ 1)
    (hn : n ≠ 0) (hmax : n ≠ 1 → ∃ vals ∈ params, vals.length = n) (h : PerPosition n params (pre ++ t :: post))
    (hcustom : s.custom = applyCustom apply) (hgiven : AllOrNone s.nrows s.labels.length s.given)
    (hpre : ∀ u ∈ pre, ApplyComputes apply none s.inputs s.nrows s.labels.length s.numRet s.given u (f u))
    (herr : ∀ io, StartsAs s.nrows s.labels.length s.given io → apply none s.inputs io t = .error e) :
    runIndicator o s none params = .error e := by
  obtain ⟨ps, h1, h2, _⟩ := params_positions (ncols := s.labels.length) ho hprod hn hmax h
  rw [runIndicator, runPipeline, h1]
  simp only
  rw [pipeOutputs, rawOf_raises ho h2 hcustom hgiven hpre herr]

/-- Like `wAdd`, but refuses zero. -/
def wPositive : ApplyFunc Nat Nat := fun col inputs ios t =>
  if t.sum = 0 then .error (.valueError "window must be positive") else wAdd col inputs ios t

example : runIndicator { wOpts with runUnique := true } { wSetup with custom := applyCustom wPositive } none [[2, 2, 0, 1]] =
    .error (.valueError "window must be positive") := by
  refine C80_raises (apply := wPositive) (pre := [[2], [2]]) (post := [[1]]) (t := [0]) (f := wSum) (n := 4) rfl (Or.inl rfl) (by decide)
    (fun _ => ⟨[2, 2, 0, 1], by simp, rfl⟩) ⟨rfl, by simp, fun k t hk => ?_⟩ rfl (Or.inl (by simp [wSetup])) (fun u hu => ?_) fun io _ => rfl
  · match k, hk with
    | 0, hk => cases hk; exact ⟨rfl, fun p v hv => by match p, hv with | 0, hv => cases hv; rfl⟩
    | 1, hk => cases hk; exact ⟨rfl, fun p v hv => by match p, hv with | 0, hv => cases hv; rfl⟩
    | 2, hk => cases hk; exact ⟨rfl, fun p v hv => by match p, hv with | 0, hv => cases hv; rfl⟩
    | 3, hk => cases hk; exact ⟨rfl, fun p v hv => by match p, hv with | 0, hv => cases hv; rfl⟩
  · have hu' : u = [2] := by simpa using hu
    rw [hu']
    refine ⟨fun io hio => ?_, rfl, rfl, ((wSetup_run [[2]]).computes [2] List.mem_cons_self).shape⟩
    rw [wPositive, if_neg (by decide)]
    exact ((wSetup_run [[2]]).computes [2] List.mem_cons_self).runs io hio

/-- `run_combs`: instance `i` shows, column by column, the element `i` of each combination of combinations, whether or not raw outputs of
one run over all combinations are reused. -/
theorem C80_run_combs {P α L : Type} [DecidableEq P] {apply : ApplyFunc P α} {o : PipeOpts} {s : Setup P α L} {params tuples : List (List P)}
    {rows : List (List (List P))} {f : List P → Filled α} {n m : Nat} {runUnique product : Bool} {comb : List (List P) → List (List (List P))}
    (ho : o.perColumn = false) (hpne : params ≠ [])
    (hc : (product = false ∧ n ≠ 0 ∧ (n ≠ 1 → ∃ vals ∈ params, vals.length = n) ∧ PerPosition n params tuples) ∨
      (product = true ∧ (∀ p ∈ params, p ≠ []) ∧ AllChoices params tuples))
    (hr : WellRun apply s tuples f) (hrows : comb tuples = rows) (hrne : rows ≠ []) (hlen : ∀ row ∈ rows, row.length = m)
    (hmem : ∀ row ∈ rows, ∀ t ∈ row, t ∈ tuples) (hs : (∃ p, p < params.length ∧ p ∉ o.hideLevels) ∨ rows.length = 1) :
    ∃ rs, runCombs runUnique product comb o s params = .ok rs ∧ rs.length = m ∧ ∀ (i : Nat) r, rs[i]? = some r →
      ∃ col, col.length = rows.length ∧ (∀ (k : Nat) (row : List (List P)), rows[k]? = some row → col[k]? = row[i]?) ∧
        Shows o.hideLevels (decide (s.inputs.length > 0)) s.labels col f r := by
  obtain ⟨ps, hcp, hp, hplen⟩ : ∃ ps, combParams product params = .ok ps ∧ Prepared ps tuples ∧ ps.length = params.length := by
    rcases hc with ⟨rfl, hn, hmax, h⟩ | ⟨rfl, hne, h⟩
    · obtain ⟨ps, h1, h2, h3⟩ := params_positions (o := ⟨false, false, false, false, []⟩) (ncols := 0) rfl (Or.inl rfl) hn hmax h
      refine ⟨ps, ?_, h2, h3⟩
      rw [pipeParams] at h1
      simp only [Bool.false_eq_true, and_false, if_false] at h1
      cases hps : params with
      | nil => exact absurd hps hpne
      | cons p0 ps0 =>
        rw [hps] at h1
        exact h1
    · obtain ⟨h1, h2⟩ := product_prepared hpne hne h
      exact ⟨_, rfl, h1, h2⟩
  have hpsne : ps ≠ [] := by
    intro h0
    rw [h0] at hplen
    exact hpne (List.length_eq_zero_iff.mp hplen.symm)
  obtain ⟨z1, z2⟩ := zipAll_spec hrne hlen
  -- the combinations of one instance
  have hinst : ∀ ts ∈ zipAll rows, ts.length = rows.length ∧ (∀ t ∈ ts, t ∈ tuples) := by
    intro ts hts
    obtain ⟨i, hi⟩ := List.getElem?_of_mem hts
    obtain ⟨h1, h2⟩ := z2 i ts hi
    refine ⟨h1, fun t ht => ?_⟩
    obtain ⟨k, hk⟩ := List.getElem?_of_mem ht
    rw [h2 k, Option.bind_eq_some_iff] at hk
    obtain ⟨row, h3, h4⟩ := hk
    exact hmem row (List.mem_of_getElem? h3) t (List.mem_of_getElem? h4)
  have hprep : ∀ ts ∈ zipAll rows, Prepared (zipAll ts) ts ∧ (zipAll ts).length = params.length := by
    intro ts hts
    obtain ⟨h1, h2⟩ := hinst ts hts
    have hne : ts ≠ [] := by
      intro h0
      rw [h0] at h1
      exact hrne (List.length_eq_zero_iff.mp h1.symm)
    obtain ⟨h3, h4⟩ := zipAll_back (m := params.length) hne fun t ht => by rw [hp.splits.1 t (h2 t ht), hplen]
    refine ⟨⟨h3, hne, fun h0 => ?_⟩, h4⟩
    rw [h0] at h4
    exact absurd (List.length_eq_zero_iff.mp h4.symm) hpne
  let o' : PipeOpts := { o with runUnique := false, paramProduct := false }
  have hrun : ∀ raw : Option (Raw P α), (∀ r, raw = some r → r = ⟨sideBySide s.nrows (s.given.length + s.numRet) tuples fun t => allOf (f t), tuples, s.labels.length⟩) →
      ∀ ts ∈ zipAll rows, ∃ r, runIndicator o' s raw (zipAll ts) = .ok r ∧ Shows o.hideLevels (decide (s.inputs.length > 0)) s.labels ts f r := by
    intro raw hraw ts hts
    obtain ⟨h1, h2⟩ := hprep ts hts
    obtain ⟨h3, h4⟩ := hinst ts hts
    obtain ⟨qs, k1, k2, k3⟩ := params_again (o := o') (ncols := s.labels.length) ho rfl h1
    have hr' : WellRun apply s ts f := ⟨hr.custom, hr.given, hr.hasOutput, fun t ht => hr.computes t (h4 t ht)⟩
    obtain ⟨r, _, k5, k6⟩ := run_core (o := o') ho k1 k2 hr' (by rw [k3, h2, h3]; exact hs)
    refine ⟨r, ?_, k6⟩
    cases hw : raw with
    | none => exact k5
    | some rw' =>
      rw [hraw rw' hw]
      rw [← k5, runIndicator, runPipeline, k1, runIndicator, runPipeline, k1]
      simp only
      rw [pipeOutputs_ok (o := o') ho k2 hr', pipeOutputs]
      simp only
      rw [useRaw_ok (Regular.of_computes hr.computes) k2 (by
        intro h0
        rw [h0] at k3
        rw [h2] at k3
        exact hpne (List.length_eq_zero_iff.mp k3.symm)) h4]
  have hcombs : ∃ rs, mapE (fun ts => runIndicator o' s none (zipAll ts)) (zipAll rows) = .ok rs ∧
      List.Forall₂ (fun ts r => Shows o.hideLevels (decide (s.inputs.length > 0)) s.labels ts f r) (zipAll rows) rs :=
    mapE_all fun ts hts => hrun none (fun r h => by cases h) ts hts
  have hconclude : ∀ rs, List.Forall₂ (fun ts r => Shows o.hideLevels (decide (s.inputs.length > 0)) s.labels ts f r) (zipAll rows) rs →
      rs.length = m ∧ ∀ (i : Nat) r, rs[i]? = some r →
      ∃ col, col.length = rows.length ∧ (∀ (k : Nat) (row : List (List P)), rows[k]? = some row → col[k]? = row[i]?) ∧
        Shows o.hideLevels (decide (s.inputs.length > 0)) s.labels col f r := by
    intro rs hf
    refine ⟨by rw [← hf.length_eq, z1], fun i r hi => ?_⟩
    obtain ⟨ts, hts, hsh⟩ := forall₂_get_right hf hi
    obtain ⟨h1, h2⟩ := z2 i ts hts
    refine ⟨ts, h1, fun k row hk => ?_, hsh⟩
    rw [h2 k, hk]
    rfl
  have hz : zipAll ps = tuples := splits_zipAll hp.splits hpsne
  rw [runCombs, hcp]
  simp only
  rw [hz, hrows]
  cases runUnique with
  | false =>
    rw [if_neg (by simp)]
    obtain ⟨rs, h1, h2⟩ := hcombs
    exact ⟨rs, h1, hconclude rs h2⟩
  | true =>
    rw [if_pos rfl]
    obtain ⟨qs, k1, k2, k3⟩ := params_again (o := o') (ncols := s.labels.length) ho rfl hp
    obtain ⟨us, j1, j2, j3, j4, j5⟩ := rawOf_ok (o := o') ho k2 hr
    have hu : uniqueParams o' qs = (false, qs) := by
      rw [uniqueParams, if_neg]
      rintro ⟨_, h0⟩
      cases h0
    have hus : us = tuples := (j3 (by rw [hu])).1
    have hqne : qs ≠ [] := by
      intro h0
      rw [h0] at k3
      exact hpsne (List.length_eq_zero_iff.mp k3.symm)
    rw [hu, hus] at j5
    simp only at j5
    rw [splits_zipAll k2.splits hqne] at j5
    have hraw : pipelineRaw o' s ps = .ok ⟨sideBySide s.nrows (s.given.length + s.numRet) tuples fun t => allOf (f t), tuples, s.labels.length⟩ := by
      rw [pipelineRaw, k1]
      exact j5
    obtain ⟨rs, h1, h2⟩ := mapE_all (l := zipAll rows) (f := fun ts => runIndicator o' s
      (some ⟨sideBySide s.nrows (s.given.length + s.numRet) tuples fun t => allOf (f t), tuples, s.labels.length⟩) (zipAll ts))
      fun ts hts => hrun _ (fun r h => by cases h; rfl) ts hts
    refine ⟨rs, ?_, hconclude rs h2⟩
    show (match pipelineRaw o' s ps with
      | .error e => Except.error e
      | .ok raw => mapE (fun tuples => runIndicator o' s (some raw) (zipAll tuples)) (zipAll rows)) = .ok rs
    rw [hraw]
    exact h1

/-- `itertools.combinations` of three combinations taken two at a time. -/
def wPairs : List (List Nat) → List (List (List Nat))
  | [a, b, c] => [[a, b], [a, c], [b, c]]
  | _ => []

example : ∃ rs, runCombs true false wPairs wOpts wSetup [[1, 2, 3]] = .ok rs ∧ rs.length = 2 ∧ ∀ (i : Nat) r, rs[i]? = some r →
    ∃ col, col.length = 3 ∧ (∀ (k : Nat) (row : List (List Nat)), [[[1], [2]], [[1], [3]], [[2], [3]]][k]? = some row → col[k]? = row[i]?) ∧
      Shows [] true ["a", "b"] col wSum r :=
  C80_run_combs (apply := wAdd) (o := wOpts) (s := wSetup) (params := [[1, 2, 3]]) (tuples := [[1], [2], [3]]) (f := wSum) (n := 3)
    (rows := [[[1], [2]], [[1], [3]], [[2], [3]]]) (m := 2) (runUnique := true) (product := false) (comb := wPairs) rfl (by simp)
    (Or.inl ⟨rfl, by decide, fun _ => ⟨[1, 2, 3], by simp, rfl⟩, rfl, by simp, fun k t hk => by
      match k, hk with
      | 0, hk => cases hk; exact ⟨rfl, fun p v hv => by match p, hv with | 0, hv => cases hv; rfl⟩
      | 1, hk => cases hk; exact ⟨rfl, fun p v hv => by match p, hv with | 0, hv => cases hv; rfl⟩
      | 2, hk => cases hk; exact ⟨rfl, fun p v hv => by match p, hv with | 0, hv => cases hv; rfl⟩⟩)
    (wSetup_run _) rfl (by simp) (by simp) (by simp) (Or.inl ⟨0, by decide, by decide⟩)

/-! ### Runs that fail although nothing is wrong with them -/

/-- Providing some but not all in-place outputs never works. -/
theorem C80_mixed_inplace {P α L : Type} [DecidableEq P] (o : PipeOpts) (s : Setup P α L) (raw : Option (Raw P α)) (params : List (List P))
    (hsome : ∃ a, some a ∈ s.given) (hnone : none ∈ s.given) : ∃ e, runIndicator o s raw params = .error e := by
  have hlt : (givenInOuts s.given).length < s.given.length := by
    rw [givenInOuts, if_neg]
    · refine Nat.lt_of_le_of_ne (List.length_filter_le ..) fun h0 => ?_
      have := List.length_filter_eq_length_iff.mp h0 none hnone
      cases this
    · rw [List.all_eq_true]
      intro h0
      obtain ⟨a, ha⟩ := hsome
      cases h0 _ ha
  rw [runIndicator, runPipeline]
  cases pipeParams o s.labels.length params with
  | error e => exact ⟨e, rfl⟩
  | ok ps =>
    simp only
    cases pipeOutputs o s raw ps with
    | error e => exact ⟨e, rfl⟩
    | ok outs =>
      simp only
      rw [initIndicator]
      split
      · rw [if_pos]
        · exact ⟨_, rfl⟩
        · have : (finishPipeline o (decide (s.inputs.length > 0)) (givenInOuts s.given).length s.labels ps outs).inOutputs.length ≤
              (givenInOuts s.given).length := by
            cases ps with
            | nil => exact List.length_take_le ..
            | cons p0 ps0 => exact List.length_take_le ..
          omega
      · exact ⟨_, rfl⟩

example : ∃ e, runIndicator wOpts { wSetup with given := [none, some ⟨2, [1, 2]⟩] } none [[1]] = .error e :=
  C80_mixed_inplace _ _ _ _ ⟨⟨2, [1, 2]⟩, by simp⟩ (by simp)

/-- Hiding the levels of all parameters never works with more than one combination. -/
theorem C80_all_hidden {P α L : Type} [DecidableEq P] {apply : ApplyFunc P α} {o : PipeOpts} {s : Setup P α L} {params tuples : List (List P)}
    {f : List P → Filled α} {n : Nat} (ho : o.perColumn = false) (hprod : o.paramProduct = false ∨ params.length ≤ 1) (hn : 1 < n)
    (hmax : ∃ vals ∈ params, vals.length = n) (h : PerPosition n params tuples) (hr : WellRun apply s tuples f)
    (hlab : s.labels ≠ []) (hs : ∀ p, p < params.length → p ∈ o.hideLevels) :
    runIndicator o s none params = .error (.rejected "AssertionError") := by
  obtain ⟨ps, h1, h2, h3⟩ := params_positions (ncols := s.labels.length) ho hprod (by omega) (fun _ => hmax) h
  have hpne : ps ≠ [] := by
    intro h0
    rw [h0] at h3
    obtain ⟨v, hv, _⟩ := hmax
    rw [List.length_eq_zero_iff.mp h3.symm] at hv
    cases hv
  have hlen : (sideBySide s.nrows (s.given.length + s.numRet) tuples fun t => allOf (f t)).length = s.given.length + s.numRet := sideBySide_length ..
  have hmemb := fun a => sideBySide_mem (Regular.of_computes hr.computes) (a := a)
  rw [runIndicator, runPipeline, h1]
  simp only
  rw [pipeOutputs_ok ho h2 hr, givenInOuts_length hr.given]
  simp only
  have hcols : ∀ outs : List (Arr2 α), (finishPipeline o (decide (s.inputs.length > 0)) s.given.length s.labels ps outs).columns.length = s.labels.length := by
    intro outs
    cases hps : ps with
    | nil => exact absurd hps hpne
    | cons p0 ps0 =>
      rw [finishPipeline, ← hps]
      simp only
      rw [buildColumns]
      simp only
      rw [if_pos, List.length_map]
      rw [List.map_eq_nil_iff, List.filter_eq_nil_iff]
      rintro ⟨l, i⟩ hl
      rw [List.mem_zipIdx_iff_getElem?] at hl
      have hi : i < params.length := by
        have := (List.getElem?_eq_some_iff.mp hl).1
        rw [List.length_map, h3] at this
        exact this
      simpa using hs i hi
  have hmem2 : ∀ outs : List (Arr2 α), (finishPipeline o (decide (s.inputs.length > 0)) s.given.length s.labels ps outs).inOutputs ++
      (finishPipeline o (decide (s.inputs.length > 0)) s.given.length s.labels ps outs).outputs = outs := by
    intro outs
    cases ps with
    | nil => exact List.take_append_drop ..
    | cons p0 ps0 => exact List.take_append_drop ..
  rw [initIndicator, if_neg]
  rintro ⟨_, hall, _⟩
  rw [hmem2, hcols, List.all_eq_true] at hall
  cases hout : (sideBySide s.nrows (s.given.length + s.numRet) tuples fun t => allOf (f t)) with
  | nil =>
    rw [hout] at hlen
    have := hr.hasOutput
    simp at hlen
    omega
  | cons a as =>
    have ha : a ∈ sideBySide s.nrows (s.given.length + s.numRet) tuples fun t => allOf (f t) := by rw [hout]; exact List.mem_cons_self
    have h4 := hall a ha
    rw [Bool.and_eq_true, beq_iff_eq, beq_iff_eq, (hmemb a ha).2, h.1] at h4
    have hpos : 0 < s.labels.length := List.length_pos_iff.mpr hlab
    have h5 : 2 * s.labels.length ≤ n * s.labels.length := Nat.mul_le_mul_right _ hn
    omega

example : runIndicator { wOpts with hideLevels := [0] } wSetup none [[1, 2]] = .error (.rejected "AssertionError") :=
  C80_all_hidden (apply := wAdd) (tuples := [[1], [2]]) (f := wSum) (n := 2) rfl (Or.inl rfl) (by decide) ⟨[1, 2], by simp, rfl⟩
    ⟨rfl, by simp, fun k t hk => by
      match k, hk with
      | 0, hk => cases hk; exact ⟨rfl, fun p v hv => by match p, hv with | 0, hv => cases hv; rfl⟩
      | 1, hk => cases hk; exact ⟨rfl, fun p v hv => by match p, hv with | 0, hv => cases hv; rfl⟩⟩
    (wSetup_run _) (by simp [wSetup]) (by simp)

/-- An indicator without parameters but with an in-place output cannot be run column by column on two columns. -/
theorem C80_column_inplace_fails :
    runIndicator ⟨false, true, false, false, []⟩ wSetup none [] = .error (.indexError "list index out of range") ∧
      ∃ r, runIndicator ⟨false, true, false, false, []⟩ { wSetup with inputs := [⟨2, [10]⟩], labels := ["a"] } none [] = .ok r := by
  refine ⟨raised_iff.mp (by decide +kernel), ?_⟩
  have e : okAnd (runIndicator ⟨false, true, false, false, []⟩ { wSetup with inputs := [⟨2, [10]⟩], labels := ["a"] } none [])
    (fun _ => true) = true := by decide +kernel
  obtain ⟨r, h, _⟩ := okAnd_iff e
  exact ⟨r, h⟩

/-- `run_combs` column by column with repeated parameters: reusing raw outputs gives the second column the values of the first input
column; without reuse it has its own. -/
theorem C80_combs_columns_fails :
    (∃ r r', runCombs true false (fun ts => ts.map fun t => [t]) ⟨false, true, false, false, []⟩ wSetup [[1, 1]] = .ok [r] ∧
      runCombs false false (fun ts => ts.map fun t => [t]) ⟨false, true, false, false, []⟩ wSetup [[1, 1]] = .ok [r'] ∧
      r.outputs = [⟨2, [11, 11]⟩] ∧ r'.outputs = [⟨2, [11, 21]⟩] ∧ r.columns = r'.columns) := by
  have e1 : okAnd (runCombs true false (fun ts => ts.map fun t => [t]) ⟨false, true, false, false, []⟩ wSetup [[1, 1]])
    (fun rs => decide (rs = [⟨[⟨2, [10, 10]⟩], [⟨2, [11, 11]⟩], [[1, 1]], [[1, 1]], some [0, 1], [([1], "a"), ([1], "b")]⟩])) = true := by decide +kernel
  have e2 : okAnd (runCombs false false (fun ts => ts.map fun t => [t]) ⟨false, true, false, false, []⟩ wSetup [[1, 1]])
    (fun rs => decide (rs = [⟨[⟨2, [10, 20]⟩], [⟨2, [11, 21]⟩], [[1, 1]], [[1, 1]], some [0, 1], [([1], "a"), ([1], "b")]⟩])) = true := by decide +kernel
  obtain ⟨rs, h1, h2⟩ := okAnd_iff e1
  obtain ⟨rs', h3, h4⟩ := okAnd_iff e2
  rw [of_decide_eq_true h2] at h1
  rw [of_decide_eq_true h4] at h3
  exact ⟨_, _, h1, h3, rfl, rfl, rfl⟩

end Vbt
