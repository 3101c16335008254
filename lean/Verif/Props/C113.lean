import Verif.Model.AttrResolver
import Verif.Lemmas.Witness

/-!
# C113  Resolving attributes with a cache gives what resolving them anew gives
-/

namespace Vbt

variable {X V : Type}

/-- What a call gives on its own: the attribute looked up, called with those arguments that it takes, and post-processed. -/
def freshValue (o : ResObj X V) (c : ResCall X) : Except Err V :=
  match o.argNames (resolvedName o c) with
  | some names =>
    match o.call (resolvedName o c) c.args (passedKwargs names c) with
    | .error e => .error e
    | .ok v => .ok (o.post c.attr v c.final)
  | none =>
    match o.prop (resolvedName o c) with
    | .error e => .error e
    | .ok v => .ok (o.post c.attr v c.final)

/-- The values that the calls give on their own. -/
def freshAll (o : ResObj X V) : List (ResCall X) → Except Err (List V)
  | [] => .ok []
  | c :: cs =>
    match freshValue o c with
    | .error e => .error e
    | .ok v =>
      match freshAll o cs with
      | .error e => .error e
      | .ok vs => .ok (v :: vs)

/-- A call of a report with common settings `base`: no explicit arguments; settings that are not the metric's own are the
common ones, and none is missing; and the hook of the class picks the same attribute as for the common settings. -/
structure PlainCall (o : ResObj X V) (base : String → Option X) (c : ResCall X) : Prop where
  args : c.args = []
  kwargs : ∀ k, c.kwargs k = none
  common : ∀ k, k ∉ c.custom → c.cond k = base k
  present : ∀ k, (base k).isSome → (c.cond k).isSome
  hook : o.dir ("get_" ++ c.attr) = true ∨ o.pre c.attr c.cond = o.pre c.attr base

theorem plain_final {o : ResObj X V} {base : String → Option X} {c : ResCall X} (h : PlainCall o base c) : c.final = c.cond := by
  funext k
  simp [ResCall.final, h.kwargs]

/-- The attribute picked for the common settings. -/
def commonName (o : ResObj X V) (base : String → Option X) (attr : String) : String :=
  if o.dir ("get_" ++ attr) then "get_" ++ attr else o.pre attr base

theorem plain_name {o : ResObj X V} {base : String → Option X} {c : ResCall X} (h : PlainCall o base c) :
    resolvedName o c = commonName o base c.attr := by
  unfold resolvedName commonName
  by_cases hd : o.dir ("get_" ++ c.attr) = true
  · rw [if_pos hd, if_pos hd]
  · rw [if_neg hd, if_neg hd, plain_final h]
    exact h.hook.resolve_left hd

theorem plain_passed {o : ResObj X V} {base : String → Option X} {c : ResCall X} (h : PlainCall o base c) {names : List String}
    (hc : customPassed names c = false) : passedKwargs names c = fun k => if k ∈ names then base k else none := by
  funext k
  have e : passedKwargs names c k = if k ∈ names then c.cond k else none := by
    unfold passedKwargs
    rw [plain_final h]
    by_cases hk : k ∈ names
    · rw [if_pos (Or.inl hk), if_pos hk]
    · rw [if_neg hk, if_neg (by simp [hk, h.kwargs])]
  rw [e]
  by_cases hk : k ∈ names
  · rw [if_pos hk, if_pos hk]
    by_cases hcu : k ∈ c.custom
    · have hn : (passedKwargs names c k).isSome = false := by
        have := List.any_eq_false.mp hc k hcu
        simpa using this
      rw [e, if_pos hk] at hn
      cases hb : base k with
      | none =>
        cases hcc : c.cond k with
        | none => rfl
        | some x => rw [hcc] at hn; cases hn
      | some x =>
        have := h.present k (by rw [hb]; rfl)
        rw [this] at hn
        cases hn
    · exact h.common k hcu
  · rw [if_neg hk, if_neg hk]

/-- What the cache may hold: values for the common settings. -/
def CacheOk (o : ResObj X V) (base : String → Option X) (cache : String → Option V) : Prop :=
  ∀ a v, cache a = some v →
    match o.argNames (commonName o base a) with
    | some names => o.call (commonName o base a) [] (fun k => if k ∈ names then base k else none) = .ok v
    | none => o.prop (commonName o base a) = .ok v

theorem resolveAttr_plain {o : ResObj X V} {base : String → Option X} {cache : String → Option V} (hok : CacheOk o base cache)
    {c : ResCall X} (h : PlainCall o base c) :
    (∀ e, freshValue o c = .error e → resolveAttr o cache c = .error e) ∧
    (∀ v, freshValue o c = .ok v → ∃ cache', resolveAttr o cache c = .ok (v, cache') ∧ CacheOk o base cache') := by
  have hn := plain_name h
  have hstore : ∀ v, (match o.argNames (commonName o base c.attr) with
      | some names => o.call (commonName o base c.attr) [] (fun k => if k ∈ names then base k else none) = .ok v
      | none => o.prop (commonName o base c.attr) = .ok v) →
      CacheOk o base fun a => if a = c.attr then some v else cache a := by
    intro v hv a w ha
    by_cases hac : a = c.attr
    · subst hac
      simp only [if_true, Option.some.injEq] at ha
      subst ha
      exact hv
    · simp only [if_neg hac] at ha
      exact hok a w ha
  have hcached := hok c.attr
  unfold freshValue resolveAttr
  simp only [hn]
  cases hm : o.argNames (commonName o base c.attr) with
  | none =>
    rw [hm] at hstore hcached
    simp only at hstore hcached ⊢
    cases hca : cache c.attr with
    | none =>
      cases hp : o.prop (commonName o base c.attr) with
      | error e =>
        refine ⟨fun e' he => ?_, fun v hv => (by cases hv)⟩
        cases he
        cases c.useCaching <;> rfl
      | ok v =>
        refine ⟨fun e he => (by cases he), fun w hw => ?_⟩
        cases hw
        cases hu : c.useCaching
        · exact ⟨cache, rfl, hok⟩
        · exact ⟨_, rfl, hstore v hp⟩
    | some u =>
      have hp := hcached u hca
      rw [hp]
      refine ⟨fun e he => (by cases he), fun w hw => ?_⟩
      cases hw
      cases hu : c.useCaching
      · exact ⟨cache, rfl, hok⟩
      · exact ⟨cache, rfl, hok⟩
  | some names =>
    rw [hm] at hstore hcached
    simp only at hstore hcached ⊢
    rw [h.args]
    cases hcu : customPassed names c with
    | true =>
      simp only [Bool.not_true, Bool.and_false]
      cases hp : o.call (commonName o base c.attr) [] (passedKwargs names c) with
      | error e =>
        refine ⟨fun e' he => ?_, fun v hv => (by cases hv)⟩
        cases he
        rfl
      | ok v =>
        refine ⟨fun e he => (by cases he), fun w hw => ?_⟩
        cases hw
        exact ⟨cache, rfl, hok⟩
    | false =>
      rw [plain_passed h hcu]
      simp only [Bool.not_false, Bool.and_true]
      cases hca : cache c.attr with
      | none =>
        cases hp : o.call (commonName o base c.attr) [] (fun k => if k ∈ names then base k else none) with
        | error e =>
          refine ⟨fun e' he => ?_, fun v hv => (by cases hv)⟩
          cases he
          cases c.useCaching <;> rfl
        | ok v =>
          refine ⟨fun e he => (by cases he), fun w hw => ?_⟩
          cases hw
          cases hu : c.useCaching
          · exact ⟨cache, rfl, hok⟩
          · exact ⟨_, rfl, hstore v hp⟩
      | some u =>
        have hp := hcached u hca
        rw [hp]
        refine ⟨fun e he => (by cases he), fun w hw => ?_⟩
        cases hw
        cases hu : c.useCaching
        · exact ⟨cache, rfl, hok⟩
        · exact ⟨cache, rfl, hok⟩

/-- **C113** (caching).  In a report with common settings, whatever the settings of single metrics and in any order, every
attribute is resolved to what it would be resolved to without a cache.  Missing: calls with explicit arguments and settings of
a metric that change what the hook picks, for which it is false (`C113_explicit_ignored`,
`C113_asset_returns_counterexample`). -/
theorem C113_transparent_partial (o : ResObj X V) (base : String → Option X) (cs : List (ResCall X))
    (h : ∀ c ∈ cs, PlainCall o base c) : resolveAll o (fun _ => none) cs = freshAll o cs := by
  have key : ∀ (cs : List (ResCall X)), (∀ c ∈ cs, PlainCall o base c) → ∀ cache, CacheOk o base cache →
      resolveAll o cache cs = freshAll o cs := by
    intro cs
    induction cs with
    | nil => intro _ _ _; rfl
    | cons c cs ih =>
      intro h cache hok
      obtain ⟨h1, h2⟩ := resolveAttr_plain hok (h c (by simp))
      unfold resolveAll freshAll
      cases hf : freshValue o c with
      | error e => rw [h1 e hf]
      | ok v =>
        obtain ⟨cache', hr, hok'⟩ := h2 v hf
        rw [hr]
        simp only
        rw [ih (fun x hx => h x (by simp [hx])) cache' hok']
        cases freshAll o cs <;> rfl
  exact key cs h _ fun a v hv => (by cases hv)

/-- **C113** (lookup).  What is not in the cache: with explicit arguments over settings, `get_x` is looked up if there is one
and otherwise what the hook names; a property is read, a method is called with the explicit positional arguments and the
settings it takes; the result is stored under the requested name, before the second hook, if caching is on and the method
got none of the metric's own settings. -/
theorem C113_lookup (o : ResObj X V) {cache : String → Option V} {c : ResCall X} (hc : cache c.attr = none)
    {settings : String → Option X} (hs : ∀ k, settings k = if (c.kwargs k).isSome then c.kwargs k else c.cond k) {name : String}
    (hn : name = bif o.dir ("get_" ++ c.attr) then "get_" ++ c.attr else o.pre c.attr settings) :
    (∀ v, o.argNames name = none → o.prop name = .ok v →
      resolveAttr o cache c = .ok (o.post c.attr v settings,
        fun a => if a = c.attr ∧ c.useCaching = true then some v else cache a)) ∧
    (∀ names v, o.argNames name = some names →
      o.call name c.args (fun k => if k ∈ names ∨ (c.kwargs k).isSome then settings k else none) = .ok v →
      ∀ own : Bool, (own = true ↔ ∃ k ∈ c.custom, (settings k).isSome ∧ (k ∈ names ∨ (c.kwargs k).isSome)) →
      resolveAttr o cache c = .ok (o.post c.attr v settings,
        fun a => if a = c.attr ∧ c.useCaching = true ∧ own = false then some v else cache a)) := by
  have hf : c.final = settings := by
    funext k
    rw [hs]
    unfold ResCall.final
    cases c.kwargs k <;> rfl
  have hname : resolvedName o c = name := by
    rw [hn]
    unfold resolvedName
    rw [hf]
    cases o.dir ("get_" ++ c.attr) <;> rfl
  constructor
  · intro v hm hp
    unfold resolveAttr
    simp only [hname, hm, hc, hp, hf]
    cases c.useCaching <;> simp
  · intro names v hm hp own hown
    have hk : (passedKwargs names c) = fun k => if k ∈ names ∨ (c.kwargs k).isSome then settings k else none := by
      funext k
      unfold passedKwargs
      rw [hf]
    have ho : customPassed names c = own := by
      rw [Bool.eq_iff_iff, hown]
      unfold customPassed
      rw [hk, List.any_eq_true]
      refine exists_congr fun k => and_congr_right fun _ => ?_
      by_cases h : k ∈ names ∨ (c.kwargs k).isSome
      · simp [h]
      · simp [h]
    unfold resolveAttr
    simp only [hname, hm, hc, hk, hp, hf, ho]
    cases c.useCaching <;> cases own <;> simp

/-- **C113** (no caching).  Without `use_caching` a call gives its own value and leaves the cache as it is. -/
theorem C113_no_caching (o : ResObj X V) (cache : String → Option V) {c : ResCall X} (h : c.useCaching = false) :
    resolveAttr o cache c = (freshValue o c).map fun v => (v, cache) := by
  unfold resolveAttr freshValue
  cases hm : o.argNames (resolvedName o c) with
  | none =>
    simp only [h, hm]
    cases o.prop (resolvedName o c) <;> rfl
  | some names =>
    simp only [h, hm, Bool.false_and]
    cases o.call (resolvedName o c) c.args (passedKwargs names c) <;> rfl

/-- **C113** (arguments).  A method gets the settings it has arguments for and the explicit keyword arguments, which win; no
other setting reaches it. -/
theorem C113_arguments (names : List String) (c : ResCall X) (k : String) :
    (∀ x, c.kwargs k = some x → passedKwargs names c k = some x) ∧
    (c.kwargs k = none → k ∈ names → passedKwargs names c k = c.cond k) ∧
    (c.kwargs k = none → k ∉ names → passedKwargs names c k = none) := by
  unfold passedKwargs ResCall.final
  refine ⟨fun x h => by simp [h], fun h hk => by simp [h, hk], fun h hk => by simp [h, hk]⟩

/-- Once an attribute is cached, explicit arguments that are not the metric's own settings are ignored. -/
theorem C113_explicit_ignored (o : ResObj X V) {cache : String → Option V} {c : ResCall X} {v : V} {names : List String}
    (hm : o.argNames (resolvedName o c) = some names) (hc : cache c.attr = some v) (hu : c.useCaching = true)
    (hcu : customPassed names c = false) : resolveAttr o cache c = .ok (o.post c.attr v c.final, cache) := by
  unfold resolveAttr
  simp only [hm, hc, hu, hcu]
  rfl

/-- The hook `pre_resolve_attr` has no effect on an attribute for which there is a `get_` method. -/
theorem C113_hook_ignored (o : ResObj X V) (pre : String → (String → Option X) → String) (cache : String → Option V)
    {c : ResCall X} (h : o.dir ("get_" ++ c.attr) = true) :
    resolveAttr { o with pre := pre } cache c = resolveAttr o cache c := by
  have : resolvedName { o with pre := pre } c = resolvedName o c := by
    unfold resolvedName
    simp only [h, if_true]
  unfold resolveAttr
  rw [this]

/-- A portfolio, as far as `trades` and `returns` go: `get_trades` and `positions` exist; `returns` and `asset_returns` are
methods without a `get_` method. -/
def pfObj (own : TradesKind) (records : TradesKind → V) (returns assetReturns : V) : ResObj PfSetting V where
  dir n := n = "get_trades" || n = "get_positions" || n = "get_entry_trades" || n = "get_exit_trades"
  argNames n := if n = "get_trades" ∨ n = "returns" ∨ n = "asset_returns" then some ["group_by"] else none
  call n _ _ := if n = "get_trades" then .ok (pfGetTrades own records)
    else if n = "returns" then .ok returns else if n = "asset_returns" then .ok assetReturns else .error (.keyError n)
  prop n := if n = "entry_trades" then .ok (records .entry) else if n = "exit_trades" then .ok (records .exit)
    else if n = "positions" then .ok (records .positions) else .error (.keyError n)
  pre := pfPreResolve own
  post _ v _ := v

/-- `stats(settings=dict(trades_type=...))` has no effect on the metrics of trades: they are computed from the type of the
portfolio.  `pre_resolve_attr` names the right attribute, but `get_trades` is taken instead. -/
theorem C113_trades_type_ignored (own t : TradesKind) (records : TradesKind → V) (r a : V) (hne : t ≠ own)
    {c : ResCall PfSetting} (hattr : c.attr = "trades") (hk : ∀ k, c.kwargs k = none)
    (hc : c.cond "trades_type" = some (.trades t)) :
    freshValue (pfObj own records r a) c = .ok (records own) ∧
    (pfObj own records r a).prop ((pfObj own records r a).pre c.attr c.final) = .ok (records t) := by
  have hf : c.final "trades_type" = some (.trades t) := by simp [ResCall.final, hk, hc]
  constructor
  · have hn : resolvedName (pfObj own records r a) c = "get_trades" := by
      unfold resolvedName
      rw [hattr, if_pos (by rfl)]
      rfl
    unfold freshValue
    rw [hn]
    rfl
  · have hp : pfPreResolve own "trades" c.final =
        (match t with
        | .entry => "entry_trades"
        | .exit => "exit_trades"
        | .positions => "positions") := by
      have h1 : ∀ b, (if "trades" = "returns" then b else "trades") = "trades" := fun b => if_neg (by decide)
      unfold pfPreResolve
      simp only [h1, hf]
      split <;> simp [hne] <;> cases t <;> rfl
    show (pfObj own records r a).prop (pfPreResolve own c.attr c.final) = _
    rw [hattr, hp]
    cases t <;> rfl

/-- A metric that sets `use_asset_returns` itself gets the plain returns if another metric has resolved them before, and the
asset returns otherwise. -/
theorem C113_asset_returns_counterexample :
    ∃ (o : ResObj PfSetting Nat) (plain asset : ResCall PfSetting), o = pfObj .exit (fun _ => 0) 1 2 ∧
      plain.attr = "returns" ∧ asset.attr = "returns" ∧ asset.cond "use_asset_returns" = some (.flag true) ∧
      "use_asset_returns" ∈ asset.custom ∧
      resolveAll o (fun _ => none) [asset] = .ok [2] ∧ resolveAll o (fun _ => none) [plain, asset] = .ok [1, 1] :=
  ⟨_, ⟨"returns", [], fun _ => none, fun _ => none, [], true⟩,
    ⟨"returns", [], fun k => if k = "use_asset_returns" then some (.flag true) else none, fun _ => none,
      ["use_asset_returns"], true⟩, rfl, rfl, rfl, rfl, by decide, by rfl, by rfl⟩

/-! ## Instances -/

def wPlain (custom : List String) (g : Nat) : ResCall PfSetting :=
  ⟨"trades", [], fun k => if k = "group_by" then some (.other g) else none, fun _ => none, custom, true⟩

example : ∀ c ∈ [wPlain [] 3, wPlain ["group_by"] 4],
    PlainCall (pfObj .exit (fun _ => 0) 1 2) (fun k => if k = "group_by" then some (.other 3) else none) c := by
  intro c hc
  simp only [List.mem_cons, List.not_mem_nil, or_false] at hc
  rcases hc with rfl | rfl
  · exact ⟨rfl, fun _ => rfl, fun _ _ => rfl, fun _ h => h, Or.inl rfl⟩
  · refine ⟨rfl, fun _ => rfl, fun k hk => ?_, fun k h => ?_, Or.inl rfl⟩
    · have : k ≠ "group_by" := by simpa [wPlain] using hk
      simp [wPlain, this]
    · by_cases hk : k = "group_by"
      · simp [wPlain, hk]
      · simp [hk] at h

example : customPassed ["group_by"] (wPlain ["group_by"] 4) = true := by decide

end Vbt
