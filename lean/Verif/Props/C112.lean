import Verif.Model.StatsBuilder
import Verif.Lemmas.Witness
import Mathlib.Data.List.Nodup
import Mathlib.Data.List.Perm.Subperm

/-!
# C112  A report of statistics has exactly the metrics that were asked for
-/

namespace Vbt

variable {V B : Type}

theorem split_last {a b c d : List Char} (hc : '_' ∉ c) (hd : '_' ∉ d) (h : a ++ '_' :: c = b ++ '_' :: d) : a = b ∧ c = d := by
  induction a generalizing b with
  | nil =>
    cases b with
    | nil =>
      simp at h
      exact ⟨rfl, h⟩
    | cons x b =>
      exfalso
      simp only [List.nil_append, List.cons_append, List.cons.injEq] at h
      apply hc
      rw [h.2]
      simp
  | cons y a ih =>
    cases b with
    | nil =>
      exfalso
      simp only [List.nil_append, List.cons_append, List.cons.injEq] at h
      apply hd
      rw [← h.2]
      simp
    | cons x b =>
      simp only [List.cons_append, List.cons.injEq] at h
      obtain ⟨h1, h2⟩ := ih h.2
      exact ⟨by rw [h.1, h1], h2⟩

/-- Suffixed names tell the name and the number. -/
theorem suffixed_inj {a b : String} {i j : Nat} (h : suffixed a i = suffixed b j) : a = b ∧ i = j := by
  have h' := congrArg String.toList h
  unfold suffixed at h'
  rw [String.toList_append, String.toList_append, String.toList_append, String.toList_append] at h'
  have e : ∀ k : Nat, (toString k).toList = Nat.toDigits 10 k := fun k => Nat.toList_repr
  rw [e, e, List.append_assoc, List.append_assoc] at h'
  obtain ⟨h1, h2⟩ := split_last Nat.underscore_not_in_toDigits Nat.underscore_not_in_toDigits h'
  refine ⟨String.toList_inj.mp h1, ?_⟩
  rw [← Nat.ofDigitChars_ten_toDigits (n := i), h2, Nat.ofDigitChars_ten_toDigits]

/-- The name under which the request at the head of `rest` is known, when `before` was requested before. -/
def knownAs (counts : String → Nat) (before : List String) (n : String) : String :=
  if 1 < counts n then suffixed n (before.count n) else n

/-- The names of all requests in order. -/
def knownNames (counts : String → Nat) : List String → List String → List String
  | _, [] => []
  | before, n :: rest => knownAs counts before n :: knownNames counts (before ++ [n]) rest

theorem repPut_new {d : List (String × B)} {k : String} {v : B} (h : k ∉ d.map Prod.fst) : repPut d k v = d ++ [(k, v)] := by
  unfold repPut
  rw [if_neg h]

theorem knownNames_length (counts : String → Nat) (before rest : List String) :
    (knownNames counts before rest).length = rest.length := by
  induction rest generalizing before with
  | nil => rfl
  | cons n rest ih => simp [knownNames, ih]

theorem renameDups_eq (counts : String → Nat) (ms : List (String × B)) (before : List String) (seen : String → Nat)
    (d : List (String × B)) (hs : ∀ k, seen k = before.count k ∨ counts k ≤ 1)
    (hn : (d.map Prod.fst ++ knownNames counts before (ms.map Prod.fst)).Nodup) :
    renameDups counts ms seen d = d ++ (knownNames counts before (ms.map Prod.fst)).zip (ms.map Prod.snd) := by
  induction ms generalizing before seen d with
  | nil => simp [renameDups, knownNames]
  | cons m ms ih =>
    obtain ⟨n, s⟩ := m
    simp only [List.map_cons, knownNames] at hn ⊢
    have hnew : knownAs counts before n ∉ d.map Prod.fst := by
      intro hmem
      exact (List.nodup_append.mp hn).2.2 _ hmem _ (by simp) rfl
    have hn' : ((d ++ [(knownAs counts before n, s)]).map Prod.fst ++ knownNames counts (before ++ [n]) (ms.map Prod.fst)).Nodup := by
      simpa [List.map_append, List.append_assoc] using hn
    unfold renameDups
    by_cases hc : 1 < counts n
    · rw [if_pos hc]
      have hk : knownAs counts before n = suffixed n (seen n) := by
        unfold knownAs
        rw [if_pos hc]
        rcases hs n with h | h
        · rw [h]
        · omega
      rw [← hk, repPut_new hnew, ih (before ++ [n]) _ _ ?_ hn']
      · simp
      · intro k
        rw [List.count_append]
        by_cases hk' : k = n
        · subst hk'
          rcases hs k with h | h
          · left
            simp [h]
          · exact Or.inr h
        · rw [if_neg hk', List.count_singleton]
          rcases hs k with h | h
          · left
            rw [h]
            simp [Ne.symm hk']
          · exact Or.inr h
    · rw [if_neg hc]
      have hk : knownAs counts before n = n := by
        unfold knownAs
        rw [if_neg hc]
      rw [hk] at hn' hnew
      rw [hk, repPut_new hnew, ih (before ++ [n]) _ _ ?_ hn']
      · simp
      · intro k
        by_cases hk' : k = n
        · subst hk'
          right
          omega
        · rw [List.count_append, List.count_singleton]
          rcases hs k with h | h
          · left
            rw [h]
            simp [Ne.symm hk']
          · exact Or.inr h

theorem knownNames_mem {counts : String → Nat} {x : String} (rest : List String) : ∀ before, x ∈ knownNames counts before rest →
    ∃ n ∈ rest, (1 < counts n ∧ ∃ i, before.count n ≤ i ∧ x = suffixed n i) ∨ (counts n ≤ 1 ∧ x = n) := by
  induction rest with
  | nil => intro _ h; cases h
  | cons n rest ih =>
    intro before h
    simp only [knownNames, List.mem_cons] at h
    rcases h with rfl | h
    · refine ⟨n, by simp, ?_⟩
      unfold knownAs
      by_cases hc : 1 < counts n
      · rw [if_pos hc]
        exact Or.inl ⟨hc, _, le_rfl, rfl⟩
      · rw [if_neg hc]
        exact Or.inr ⟨by omega, rfl⟩
    · obtain ⟨m, hm, h'⟩ := ih _ h
      refine ⟨m, by simp [hm], ?_⟩
      rcases h' with ⟨h1, i, hi, e⟩ | h'
      · refine Or.inl ⟨h1, i, ?_, e⟩
        rw [List.count_append] at hi
        omega
      · exact Or.inr h'

/-- No name that was requested once is a repeated name with a number. -/
def NoClash (names : List String) : Prop :=
  ∀ n ∈ names, names.count n = 1 → ∀ r ∈ names, 1 < names.count r → ∀ i, n ≠ suffixed r i

theorem knownNames_nodup {names : List String} (hcl : NoClash names) : ∀ (rest before : List String), before ++ rest = names →
    (knownNames (names.count ·) before rest).Nodup := by
  intro rest
  induction rest with
  | nil => intro _ _; exact List.nodup_nil
  | cons n rest ih =>
    intro before hb
    simp only [knownNames, List.nodup_cons]
    refine ⟨fun hm => ?_, ih (before ++ [n]) (by simp [← hb])⟩
    obtain ⟨m, hmr, h⟩ := knownNames_mem rest _ hm
    have hnin : n ∈ names := by rw [← hb]; simp
    have hmin : m ∈ names := by rw [← hb]; simp [hmr]
    have hn1 : 1 ≤ names.count n := List.one_le_count_iff.mpr hnin
    have hm1 : 1 ≤ names.count m := List.one_le_count_iff.mpr hmin
    have htwo : m = n → 1 < names.count n := by
      intro e
      subst e
      rw [← hb, List.count_append, List.count_cons_self]
      have := List.one_le_count_iff.mpr hmr
      omega
    unfold knownAs at h
    by_cases hc : 1 < names.count n
    · rw [if_pos hc] at h
      rcases h with ⟨-, i, hi, e⟩ | ⟨h1, e⟩
      · obtain ⟨rfl, rfl⟩ := suffixed_inj e
        rw [List.count_append, List.count_singleton] at hi
        simp at hi
      · exact hcl m hmin (by omega) n hnin hc _ e.symm
    · rw [if_neg hc] at h
      rcases h with ⟨h1, i, -, e⟩ | ⟨h1, e⟩
      · exact hcl n hnin (by omega) m hmin h1 i e
      · exact hc (htwo e.symm)

/-- **C112** (names).  Every request is kept, in order: under its own name if that was requested once, and otherwise under
its name and the number of earlier requests of it — unless the latter is itself a requested name. -/
theorem C112_names {ms : List (String × B)} (hcl : NoClash (ms.map Prod.fst)) :
    metricsDict ms = (knownNames ((ms.map Prod.fst).count ·) [] (ms.map Prod.fst)).zip (ms.map Prod.snd) ∧
    (metricsDict ms).length = ms.length ∧ ((metricsDict ms).map Prod.fst).Nodup := by
  have hnd := knownNames_nodup hcl (ms.map Prod.fst) [] rfl
  have h : metricsDict ms = _ := renameDups_eq (fun n => (ms.map Prod.fst).count n) ms [] (fun _ => 0) [] (by simp)
    (by simpa using hnd)
  rw [List.nil_append] at h
  refine ⟨h, ?_, ?_⟩
  · rw [h, List.length_zip, knownNames_length, List.length_map, List.length_map, Nat.min_self]
  · rw [h, List.map_fst_zip (by rw [knownNames_length, List.length_map, List.length_map])]
    exact hnd

/-- Names that are all different are kept as they are. -/
theorem C112_distinct_names {ms : List (String × B)} (h : (ms.map Prod.fst).Nodup) : metricsDict ms = ms := by
  have hone : ∀ n ∈ ms.map Prod.fst, (ms.map Prod.fst).count n ≤ 1 := fun n _ => List.nodup_iff_count_le_one.mp h n
  have hcl : NoClash (ms.map Prod.fst) := fun n _ _ r hr hc => absurd (hone r hr) (by omega)
  have hk : ∀ (rest before : List String), (∀ n ∈ rest, n ∈ ms.map Prod.fst) →
      knownNames ((ms.map Prod.fst).count ·) before rest = rest := by
    intro rest
    induction rest with
    | nil => intro _ _; rfl
    | cons n rest ih =>
      intro before hm
      have := hone n (hm n (by simp))
      simp only [knownNames, knownAs]
      rw [if_neg (by omega), ih _ fun x hx => hm x (by simp [hx])]
  rw [(C112_names hcl).1, hk _ _ fun _ h => h]
  exact (List.zip_of_prod rfl rfl).symm

/-- Asking for `a` twice and for `a_0` loses a metric without notice. -/
theorem C112_lost_counterexample :
    metricsDict [("a", 1), ("a", 2), ("a_0", 3)] = [("a_0", 3), ("a_1", 2)] := by decide +kernel

/-- A metric passes: one of the tags matches, and every filter it names gives what it wants. -/
structure Passes (tags : Option (List TagExpr)) (filters : String → Option (String → Bool)) (m : String × MetricDef V) :
    Prop where
  tag : ∀ ts, tags = some ts → ∃ inTags, m.2.tags = some inTags ∧ ∃ t ∈ ts, t.eval inTags = true
  check : ∀ f g, filters f = some g → m.2.checks.lookup f = some true → g m.1 = true
  inv : ∀ f g, filters f = some g → m.2.invChecks.lookup f = some true → g m.1 = false

theorem matchTags_iff (ts : List TagExpr) (inTags : List String) : matchTags ts inTags = true ↔ ∃ t ∈ ts, t.eval inTags = true := by
  induction ts with
  | nil => simp [matchTags]
  | cons t ts ih =>
    unfold matchTags
    by_cases h : t.eval inTags = true
    · simp [h]
    · rw [if_neg h, ih]
      simp [h]

/-- Whether a metric stays, as a test. -/
def staysTag (tags : Option (List TagExpr)) (m : String × MetricDef V) : Bool :=
  match tags with
  | none => true
  | some ts => match m.2.tags with
    | none => false
    | some inTags => matchTags ts inTags

def staysCheck (filters : String → Option (String → Bool)) (m : String × MetricDef V) : Bool :=
  !((metricFilters m.2).any fun f => match filters f with
    | none => false
    | some g => toRemove m.2 f (g m.1))

theorem stays_iff (tags : Option (List TagExpr)) (filters : String → Option (String → Bool)) (m : String × MetricDef V) :
    (staysTag tags m && staysCheck filters m) = true ↔ Passes tags filters m := by
  have lookup_mem : ∀ (l : List (String × Bool)) f, l.lookup f = some true → f ∈ l.map Prod.fst := by
    intro l f h
    induction l with
    | nil => cases h
    | cons x l ih =>
      rw [List.lookup_cons] at h
      by_cases hx : f == x.1
      · simp [eq_of_beq hx]
      · simp only [hx] at h
        simp [ih h]
  have htag : staysTag tags m = true ↔
      ∀ ts, tags = some ts → ∃ inTags, m.2.tags = some inTags ∧ ∃ t ∈ ts, t.eval inTags = true := by
    unfold staysTag
    cases tags with
    | none => simp
    | some ts =>
      cases ht : m.2.tags with
      | none => simp
      | some inTags => simp [matchTags_iff]
  have hchk : staysCheck filters m = true ↔
      (∀ f g, filters f = some g → m.2.checks.lookup f = some true → g m.1 = true) ∧
      (∀ f g, filters f = some g → m.2.invChecks.lookup f = some true → g m.1 = false) := by
    unfold staysCheck
    rw [Bool.not_eq_true', List.any_eq_false]
    constructor
    · intro h
      constructor
      · intro f g hf hl
        have := h f (by unfold metricFilters; rw [List.mem_append]; exact Or.inl (lookup_mem _ _ hl))
        rw [hf] at this
        simp only [toRemove, hl] at this
        cases hg : g m.1
        · simp [hg] at this
        · rfl
      · intro f g hf hl
        have := h f (by unfold metricFilters; rw [List.mem_append]; exact Or.inr (lookup_mem _ _ hl))
        rw [hf] at this
        simp only [toRemove, hl] at this
        cases hg : g m.1
        · rfl
        · simp [hg] at this
    · rintro ⟨h1, h2⟩ f -
      cases hf : filters f with
      | none => simp
      | some g =>
        have a1 := h1 f g hf
        have a2 := h2 f g hf
        unfold toRemove
        rcases hc : m.2.checks.lookup f with _ | _ | _ <;> rcases hi : m.2.invChecks.lookup f with _ | _ | _ <;>
          cases hg : g m.1 <;> simp_all
  rw [Bool.and_eq_true, htag, hchk]
  exact ⟨fun ⟨a, b, c⟩ => ⟨a, b, c⟩, fun h => ⟨h.tag, h.check, h.inv⟩⟩

theorem tagFilter_eq (tags : Option (List TagExpr)) (ms : List (String × MetricDef V)) :
    tagFilter tags ms = ms.filter (staysTag tags) := by
  unfold tagFilter
  cases tags with
  | none => exact (List.filter_eq_self.mpr fun _ _ => rfl).symm
  | some ts => exact List.filter_congr fun m _ => rfl

theorem checkFilter_eq {filters : String → Option (String → Bool)} {ms : List (String × MetricDef V)}
    (h : ∀ m ∈ ms, ∀ f ∈ metricFilters m.2, (filters f).isSome) :
    checkFilter filters ms = .ok (ms.filter (staysCheck filters)) := by
  induction ms with
  | nil => rfl
  | cons m ms ih =>
    obtain ⟨n, d⟩ := m
    unfold checkFilter
    have hf : (metricFilters d).find? (fun f => (filters f).isNone) = none := by
      rw [List.find?_eq_none]
      intro f hf
      have := h (n, d) (by simp) f hf
      cases hx : filters f with
      | none =>
        rw [hx] at this
        cases this
      | some g => simp
    rw [hf, ih fun m hm => h m (by simp [hm])]
    simp only
    rw [List.filter_cons]
    have e : staysCheck filters (n, d) = !((metricFilters d).any fun f => match filters f with
      | none => false
      | some g => toRemove d f (g n)) := rfl
    rw [e]
    cases ((metricFilters d).any fun f => match filters f with
      | none => false
      | some g => toRemove d f (g n)) <;> rfl

/-- **C112** (a missing filter).  If a metric whose tags match names a filter that does not exist, `stats` raises. -/
theorem C112_missing_filter {filters : String → Option (String → Bool)} {ms : List (String × MetricDef V)}
    {m : String × MetricDef V} {f : String} (hm : m ∈ ms) (hf : f ∈ metricFilters m.2) (hn : filters f = none) :
    ∃ e, checkFilter filters ms = .error e := by
  induction ms with
  | nil => cases hm
  | cons x ms ih =>
    obtain ⟨n, d⟩ := x
    unfold checkFilter
    cases hx : (metricFilters d).find? (fun f => (filters f).isNone) with
    | some g => exact ⟨_, rfl⟩
    | none =>
      rcases List.mem_cons.mp hm with rfl | hm'
      · exfalso
        have := List.find?_eq_none.mp hx f hf
        simp [hn] at this
      · obtain ⟨e, he⟩ := ih hm'
        exact ⟨e, by simp only [he]⟩

/-- The value that stands in the report for an output: a scalar as it is; a series reduced to the chosen column, else by the
function of the metric, if there is one and aggregation is on; whole if aggregation is off. -/
inductive Shown (a : StatArgs V) (agg : AggArg V) : StatVal V → StatVal V → Prop
  | scalar (x : V) : Shown a agg (.scalar x) (.scalar x)
  | column {sel xs x} (h : a.column = some sel) (hx : sel xs = .ok x) : Shown a agg (.series xs) (.scalar x)
  | own {f g xs} (hc : a.column = none) (ha : a.agg = some g) (hf : agg = .func f) : Shown a agg (.series xs) (.scalar (f xs))
  | common {g xs} (hc : a.column = none) (ha : a.agg = some g) (hf : agg = .inherit) : Shown a agg (.series xs) (.scalar (g xs))
  | whole {xs} (hc : a.column = none) (ha : a.agg = none) : Shown a agg (.series xs) (.series xs)

/-- **C112** (values).  An output is shown exactly as `Shown` says; it is left out exactly if it is a series, no column is
chosen and the metric turns aggregation off while it is on. -/
theorem C112_value (a : StatArgs V) (agg : AggArg V) (v : StatVal V) :
    (∀ w, statValue a agg v = .ok (some w) ↔ Shown a agg v w) ∧
    (statValue a agg v = .ok none ↔ a.column = none ∧ a.agg.isSome ∧ (∃ xs, v = .series xs) ∧
      match agg with
      | .off => True
      | _ => False) := by
  unfold statValue
  obtain ⟨column, ag⟩ := a
  cases v with
  | array =>
    refine ⟨fun w => ⟨fun h => (by cases h), fun h => (by cases h)⟩, ⟨fun h => (by cases h), ?_⟩⟩
    rintro ⟨-, -, ⟨xs, h⟩, -⟩
    cases h
  | scalar x =>
    refine ⟨fun w => ⟨fun h => (by cases h; exact .scalar x), fun h => (by cases h; rfl)⟩, ⟨fun h => (by cases h), ?_⟩⟩
    rintro ⟨-, -, ⟨xs, h⟩, -⟩
    cases h
  | series xs =>
    cases column with
    | some sel =>
      simp only
      cases hs : sel xs with
      | error e =>
        refine ⟨fun w => ⟨fun h => (by cases h), fun h => ?_⟩, ⟨fun h => (by cases h), fun h => (by cases h.1)⟩⟩
        cases h with
        | column h hx =>
          cases h
          rw [hs] at hx
          cases hx
        | own hc => cases hc
        | common hc => cases hc
        | whole hc => cases hc
      | ok x =>
        refine ⟨fun w => ⟨fun h => (by cases h; exact .column rfl hs), fun h => ?_⟩,
          ⟨fun h => (by cases h), fun h => (by cases h.1)⟩⟩
        cases h with
        | column h hx =>
          cases h
          rw [hs] at hx
          cases hx
          rfl
        | own hc => cases hc
        | common hc => cases hc
        | whole hc => cases hc
    | none =>
      simp only
      cases ag with
      | none =>
        refine ⟨fun w => ⟨fun h => ?_, fun h => ?_⟩, ⟨fun h => ?_, fun h => (by cases h.2.1)⟩⟩
        · have : w = .series xs := by cases agg <;> (cases h; rfl)
          subst this
          exact .whole rfl rfl
        · cases h with
          | column h => cases h
          | own _ ha => cases ha
          | common _ ha => cases ha
          | whole => cases agg <;> rfl
        · cases agg <;> cases h
      | some g =>
        refine ⟨fun w => ⟨fun h => ?_, fun h => ?_⟩, ?_⟩
        · cases agg with
          | inherit => cases h; exact .common rfl rfl rfl
          | off => cases h
          | func f => cases h; exact .own rfl rfl rfl
        · cases h with
          | column h => cases h
          | own _ ha hf => subst hf; rfl
          | common _ ha hf => subst hf; cases ha; rfl
          | whole _ ha => cases ha
        · cases agg with
          | inherit => exact ⟨fun h => (by cases h), fun h => h.2.2.2.elim⟩
          | off => exact ⟨fun _ => ⟨trivial, rfl, ⟨_, rfl⟩, trivial⟩, fun _ => rfl⟩
          | func f => exact ⟨fun h => (by cases h), fun h => h.2.2.2.elim⟩

/-- The rows of a metric: titles and values of its outputs, without those that are left out. -/
def metricRows (a : StatArgs V) (m : String × MetricDef V) : List (String × StatVal V) :=
  match m.2.out with
  | .error _ => []
  | .ok o => o.items.filterMap fun x => match statValue a m.2.agg x.2 with
    | .ok (some w) => some ((statTitle (m.2.title.getD (some m.1)) x.1).getD "", w)
    | _ => none

/-- **C112** (titles).  A single value stands under the title of the metric, by default its name; values of a dictionary
under title, colon and key, or the key alone if the title is None. -/
theorem C112_titles (a : StatArgs V) (n : String) (d : MetricDef V) :
    (∀ x, d.out = .ok (.single (.scalar x)) →
      (d.title = none → metricRows a (n, d) = [(n, .scalar x)]) ∧
      ∀ t, d.title = some (some t) → metricRows a (n, d) = [(t, .scalar x)]) ∧
    (∀ items : List (String × V), d.out = .ok (.multi (items.map fun p => (p.1, .scalar p.2))) →
      (d.title = none → metricRows a (n, d) = items.map fun p => (n ++ ": " ++ p.1, .scalar p.2)) ∧
      (d.title = some none → metricRows a (n, d) = items.map fun p => (p.1, .scalar p.2)) ∧
      ∀ t, d.title = some (some t) → metricRows a (n, d) = items.map fun p => (t ++ ": " ++ p.1, .scalar p.2)) := by
  refine ⟨fun x h => ⟨fun ht => ?_, fun t ht => ?_⟩, fun items h => ⟨fun ht => ?_, fun ht => ?_, fun t ht => ?_⟩⟩
  all_goals
    simp only [metricRows, h, ht, StatOut.items, List.filterMap_cons, List.filterMap_nil, statValue, Option.getD_none,
      Option.getD_some, statTitle]
  all_goals
    clear h
    induction items with
    | nil => rfl
    | cons p items ih => exact congrArg (List.cons _) ih

/-- No output raises. -/
def ComputesStat (a : StatArgs V) (m : String × MetricDef V) : Prop :=
  ∃ o, m.2.out = .ok o ∧ ∀ x ∈ o.items, ∃ w, statValue a m.2.agg x.2 = .ok w

theorem storeOut_eq (a : StatArgs V) (n : String) (d : MetricDef V) (items : List (Option String × StatVal V))
    (s : List (String × StatVal V)) (hok : ∀ x ∈ items, ∃ w, statValue a d.agg x.2 = .ok w) :
    ∃ rows, rows = (items.filterMap fun x => match statValue a d.agg x.2 with
        | .ok (some w) => some ((statTitle (d.title.getD (some n)) x.1).getD "", w)
        | _ => none) ∧
      storeOut a n d items s = .ok (rows.foldl (fun s r => repPut s r.1 r.2) s) := by
  refine ⟨_, rfl, ?_⟩
  induction items generalizing s with
  | nil => rfl
  | cons x items ih =>
    obtain ⟨k, v⟩ := x
    obtain ⟨w, hw⟩ := hok (k, v) (by simp)
    simp only at hw
    unfold storeOut
    rw [List.filterMap_cons]
    simp only [hw]
    cases w with
    | none => exact ih s fun x hx => hok x (by simp [hx])
    | some w => exact ih _ fun x hx => hok x (by simp [hx])

theorem foldl_repPut_new (rows s : List (String × B)) (h : (s.map Prod.fst ++ rows.map Prod.fst).Nodup) :
    rows.foldl (fun s r => repPut s r.1 r.2) s = s ++ rows := by
  induction rows generalizing s with
  | nil => simp
  | cons r rows ih =>
    rw [List.foldl_cons, repPut_new, ih]
    · simp
    · simpa [List.append_assoc] using h
    · intro hm
      exact (List.nodup_append.mp h).2.2 _ hm _ (by simp) rfl

theorem computeStats_eq (a : StatArgs V) (ms : List (String × MetricDef V)) (s : List (String × StatVal V))
    (hok : ∀ m ∈ ms, ComputesStat a m) :
    computeStats a ms s = .ok ((ms.flatMap (metricRows a)).foldl (fun s r => repPut s r.1 r.2) s) := by
  induction ms generalizing s with
  | nil => rfl
  | cons m ms ih =>
    obtain ⟨o, ho, hx⟩ := hok m (by simp)
    obtain ⟨n, d⟩ := m
    simp only at ho hx
    obtain ⟨rows, hr, h⟩ := storeOut_eq a n d o.items s hx
    unfold computeStats
    simp only [ho, h]
    rw [ih _ fun m hm => hok m (by simp [hm]), List.flatMap_cons, List.foldl_append]
    have : metricRows a (n, d) = rows := by
      unfold metricRows
      simp only [ho]
      exact hr.symm
    rw [this]

/-- **C112** (the report).  If no name clashes, all filters exist and nothing raises, the report consists of the rows of
exactly the metrics that pass, in the order they were asked for, if their titles differ; there is none if no metric passes. -/
theorem C112_report {known : List (String × MetricDef V)} {metrics : List (MetricArg V)} {ms : List (String × MetricDef V)}
    (tags : Option (List TagExpr)) {keys : List String} {filters : String → Option (String → Bool)} {a : StatArgs V}
    (hs : sameShape known metrics = .ok ms) (hkeys : ∀ k ∈ keys, k ∈ (metricsDict ms).map Prod.fst)
    (hf : ∀ m ∈ metricsDict ms, ∀ f ∈ metricFilters m.2, (filters f).isSome) (hok : ∀ m ∈ metricsDict ms, ComputesStat a m)
    (kept : List (String × MetricDef V)) (hsub : List.Sublist kept (metricsDict ms)) (hnd : ((metricsDict ms).map Prod.fst).Nodup)
    (hkept : ∀ m ∈ metricsDict ms, m ∈ kept ↔ Passes tags filters m)
    (ht : ((kept.flatMap (metricRows a)).map Prod.fst).Nodup) :
    statsReport known metrics tags keys filters a = .ok (if kept = [] then none else some (kept.flatMap (metricRows a))) := by
  have hkept' : kept = (metricsDict ms).filter fun m => staysTag tags m && staysCheck filters m := by
    have hndd : (metricsDict ms).Nodup := List.Nodup.of_map _ hnd
    have h1 : List.Sublist kept ((metricsDict ms).filter fun m => staysTag tags m && staysCheck filters m) := by
      have := hsub.filter fun m => staysTag tags m && staysCheck filters m
      rwa [List.filter_eq_self.mpr (fun m hm => (stays_iff tags filters m).mpr ((hkept m (hsub.subset hm)).mp hm))] at this
    refine h1.eq_of_length_le ?_
    have h2 : (metricsDict ms).filter (fun m => staysTag tags m && staysCheck filters m) ⊆ kept := fun m hm =>
      (hkept m (List.mem_filter.mp hm).1).mpr ((stays_iff tags filters m).mp (List.mem_filter.mp hm).2)
    exact (List.subperm_of_subset (hndd.filter _) h2).length_le
  unfold statsReport
  rw [hs]
  simp only
  have hk : (keys.any fun k => decide (k ∉ (metricsDict ms).map Prod.fst)) = false := by
    rw [List.any_eq_false]
    intro k hk
    simp only [decide_eq_true_eq, not_not]
    exact hkeys k hk
  rw [hk, tagFilter_eq, checkFilter_eq fun m hm => hf m (List.mem_filter.mp hm).1, List.filter_filter]
  have hcomm : ((metricsDict ms).filter fun m => staysCheck filters m && staysTag tags m) = kept := by
    rw [hkept']
    exact List.filter_congr fun m _ => Bool.and_comm _ _
  rw [hcomm]
  simp only [Bool.false_eq_true, if_false]
  cases hc : kept with
  | nil => rfl
  | cons m rest =>
    rw [← hc]
    have hne : kept ≠ [] := by rw [hc]; simp
    rw [if_neg hne, hc]
    simp only
    rw [← hc, computeStats_eq a kept [] fun m hm => hok m (hsub.subset hm), foldl_repPut_new _ _ (by simpa using ht)]
    simp

/-- Two metrics with one title, such as a metric that is asked for twice, leave one row with the value of the last. -/
theorem C112_same_title (a : StatArgs V) (t : String) (x y : V) (n n' : String) (d d' : MetricDef V)
    (h : d.title = some (some t)) (h' : d'.title = some (some t)) (ho : d.out = .ok (.single (.scalar x)))
    (ho' : d'.out = .ok (.single (.scalar y))) : computeStats a [(n, d), (n', d')] [] = .ok [(t, .scalar y)] := by
  simp [computeStats, ho, ho', StatOut.items, storeOut, statValue, h, h', statTitle, repPut]

/-- Unknown names and unmatched keys of `metric_settings` are errors. -/
theorem C112_unknown {known : List (String × MetricDef V)} {metrics : List (MetricArg V)} (tags : Option (List TagExpr))
    (keys : List String) (filters : String → Option (String → Bool)) (a : StatArgs V) {n : String} (hn : .name n ∈ metrics)
    (hk : known.lookup n = none) : ∃ e, statsReport known metrics tags keys filters a = .error e := by
  have : ∃ e, sameShape known metrics = .error e := by
    induction metrics with
    | nil => cases hn
    | cons m metrics ih =>
      rcases List.mem_cons.mp hn with rfl | hn'
      · unfold sameShape
        rw [hk]
        exact ⟨_, rfl⟩
      · obtain ⟨e, he⟩ := ih hn'
        cases m with
        | pair k d =>
          unfold sameShape
          rw [he]
          exact ⟨_, rfl⟩
        | name k =>
          unfold sameShape
          cases known.lookup k with
          | none => exact ⟨_, rfl⟩
          | some d =>
            simp only [he]
            exact ⟨_, rfl⟩
  obtain ⟨e, he⟩ := this
  exact ⟨e, by unfold statsReport; rw [he]⟩

theorem C112_unmatched_key {known : List (String × MetricDef V)} {metrics : List (MetricArg V)} {ms : List (String × MetricDef V)}
    (tags : Option (List TagExpr)) {keys : List String} (filters : String → Option (String → Bool)) (a : StatArgs V)
    (hs : sameShape known metrics = .ok ms) {k : String} (hk : k ∈ keys) (hn : k ∉ (metricsDict ms).map Prod.fst) :
    ∃ e, statsReport known metrics tags keys filters a = .error e := by
  unfold statsReport
  rw [hs]
  simp only
  rw [if_pos (List.any_eq_true.mpr ⟨k, hk, by simpa using hn⟩)]
  exact ⟨_, rfl⟩

/-! ## Instances -/

def wMetric (tags : List String) (v : StatVal Nat) : MetricDef Nat :=
  ⟨none, some tags, [("has_freq", true)], [], .inherit, .ok (.single v)⟩

example : NoClash ["a", "b", "a"] := by
  intro n hn hc r hr hr2 i
  have : n = "b" := by
    simp only [List.mem_cons, List.not_mem_nil, or_false] at hn
    rcases hn with rfl | rfl | rfl
    · exact absurd hc (by decide)
    · rfl
    · exact absurd hc (by decide)
  subst this
  have : r = "a" := by
    simp only [List.mem_cons, List.not_mem_nil, or_false] at hr
    rcases hr with rfl | rfl | rfl
    · rfl
    · exact absurd hr2 (by decide)
    · rfl
  subst this
  intro h
  have := congrArg String.length h
  unfold suffixed at this
  rw [String.length_append, String.length_append] at this
  have h1 : "b".length = 1 := by decide
  have h2 : "a".length = 1 := by decide
  have h3 : "_".length = 1 := by decide
  omega

example : metricsDict [("a", 1), ("b", 2), ("a", 3)] = [("a_0", 1), ("b", 2), ("a_1", 3)] := by decide +kernel

example : okAnd (statsReport [("p", wMetric ["x"] (.scalar 7)), ("q", wMetric ["y"] (.series [1, 2])),
      ("r", wMetric ["x", "y"] (.series [3, 4]))] [.name "r", .name "q", .name "p"] (some [.and (.tag "y") (.not (.tag "z"))]) ["q"]
      (fun f => if f = "has_freq" then some (fun n => n ≠ "z") else none) ⟨none, some List.sum⟩)
    (fun r => decide (r = some [("r", .scalar 7), ("q", .scalar 3)])) = true := by decide +kernel

end Vbt
