import Verif.Model.Float

/-!
# Reports of statistics: `vectorbt/generic/stats_builder.py`, `vectorbt/utils/tags.py`

The settings of a metric are those that decide whether and how it is reported; templates are replaced already, and the output
of `calc_func` and `post_calc_func` (with `apply_to_timedelta`) is part of the metric.  Dictionaries are lists of items in
order of insertion.  Warnings are left out.
-/

namespace Vbt

/-- `dict.__setitem__`: the item keeps its place if the key exists. -/
def repPut {B : Type} (d : List (String × B)) (k : String) (v : B) : List (String × B) :=
  if k ∈ d.map Prod.fst then d.map fun x => if x.1 = k then (k, v) else x else d ++ [(k, v)]

/-- A boolean expression over tags, as `eval` sees it. -/
inductive TagExpr where
  | tag (t : String)
  | not (a : TagExpr)
  | and (a b : TagExpr)
  | or (a b : TagExpr)
deriving DecidableEq

/-- `RepEval(t).eval(eval_mapping)`, utils/tags.py:46-48. -/
def TagExpr.eval (inTags : List String) : TagExpr → Bool
  | .tag t => decide (t ∈ inTags)
  | .not a => !(a.eval inTags)
  | .and a b => a.eval inTags && b.eval inTags
  | .or a b => a.eval inTags || b.eval inTags

/-- `match_tags`, utils/tags.py:12-56, for tags of the metric that are identifiers. -/
def matchTags : List TagExpr → List String → Bool
  | [], _ => false
  | t :: ts, inTags => if t.eval inTags then true else matchTags ts inTags

/-- A value of a metric: a scalar, a series with a value per column or group, another array. -/
inductive StatVal (V : Type) where
  | scalar (v : V)
  | series (vs : List V)
  | array
deriving DecidableEq

/-- The output of `calc_func`. -/
inductive StatOut (V : Type) where
  | single (v : StatVal V)
  | multi (items : List (String × StatVal V))
deriving DecidableEq

/-- `agg_func` in the settings of a metric: absent, None or a function. -/
inductive AggArg (V : Type) where
  | inherit
  | off
  | func (f : List V → V)

/-- The settings of a metric; `title` is absent (`none`), None or a string; the keys `check_…` and `inv_check_…` with their
values. -/
structure MetricDef (V : Type) where
  title : Option (Option String)
  tags : Option (List String)
  checks : List (String × Bool)
  invChecks : List (String × Bool)
  agg : AggArg V
  out : Except Err (StatOut V)

/-- An element of `metrics`: a name or a pair. -/
inductive MetricArg (V : Type) where
  | name (n : String)
  | pair (n : String) (d : MetricDef V)

/-- Bring to the same shape, generic/stats_builder.py:272-280. -/
def sameShape {V : Type} (known : List (String × MetricDef V)) : List (MetricArg V) → Except Err (List (String × MetricDef V))
  | [] => .ok []
  | .pair n d :: ms =>
    match sameShape known ms with
    | .error e => .error e
    | .ok r => .ok ((n, d) :: r)
  | .name n :: ms =>
    match known.lookup n with
    | none => .error (.keyError n)
    | some d =>
      match sameShape known ms with
      | .error e => .error e
      | .ok r => .ok ((n, d) :: r)

/-- `metric_name + "_" + str(i)`. -/
def suffixed (n : String) (i : Nat) : String := n ++ "_" ++ toString i

/-- Handle duplicate names, generic/stats_builder.py:282-290: `metric_i` counts the occurrences seen. -/
def renameDups {B : Type} (counts : String → Nat) : List (String × B) → (String → Nat) → List (String × B) → List (String × B)
  | [], _, d => d
  | (n, s) :: ms, seen, d =>
    if 1 < counts n then
      renameDups counts ms (fun k => if k = n then seen n + 1 else seen k) (repPut d (suffixed n (seen n)) s)
    else renameDups counts ms seen (repPut d n s)

/-- The dictionary of metrics. -/
def metricsDict {B : Type} (ms : List (String × B)) : List (String × B) :=
  renameDups (fun n => (ms.map Prod.fst).count n) ms (fun _ => 0) []

/-- Filter by tag, generic/stats_builder.py:324-329. -/
def tagFilter {V : Type} (tags : Option (List TagExpr)) (ms : List (String × MetricDef V)) : List (String × MetricDef V) :=
  match tags with
  | none => ms
  | some ts => ms.filter fun m => match m.2.tags with
    | none => false
    | some inTags => matchTags ts inTags

/-- Whether a filter removes a metric, generic/stats_builder.py:370-376. -/
def toRemove {V : Type} (d : MetricDef V) (f : String) (whetherTrue : Bool) : Bool :=
  let toCheck := (d.checks.lookup f).getD false
  let invToCheck := (d.invChecks.lookup f).getD false
  (toCheck && !whetherTrue) || (invToCheck && whetherTrue)

/-- The filters named by a metric, generic/stats_builder.py:352-362; a set in Python, whose order does not matter. -/
def metricFilters {V : Type} (d : MetricDef V) : List String := d.checks.map Prod.fst ++ d.invChecks.map Prod.fst

/-- Filter metrics, generic/stats_builder.py:346-387: `filters` gives `filter_func` by the name of the metric. -/
def checkFilter {V : Type} (filters : String → Option (String → Bool)) :
    List (String × MetricDef V) → Except Err (List (String × MetricDef V))
  | [] => .ok []
  | (n, d) :: ms =>
    match (metricFilters d).find? fun f => (filters f).isNone with
    | some f => .error (.valueError s!"Metric '{n}' requires filter '{f}'")
    | none =>
      match checkFilter filters ms with
      | .error e => .error e
      | .ok r =>
        if (metricFilters d).any fun f => match filters f with
          | none => false
          | some g => toRemove d f (g n)
        then .ok r else .ok ((n, d) :: r)

/-- The arguments of `stats` that apply to all metrics: selection of a column, aggregation. -/
structure StatArgs (V : Type) where
  column : Option (List V → Except Err V)
  agg : Option (List V → V)

/-- Select column or aggregate, generic/stats_builder.py:538-568; `none` is `continue`. -/
def statValue {V : Type} (a : StatArgs V) (agg : AggArg V) (v : StatVal V) : Except Err (Option (StatVal V)) :=
  let own : Option (List V → V) := match agg with
    | .inherit => a.agg
    | .off => none
    | .func f => some f
  match v with
  | .array => .error (.typeError "calc_func must return either a scalar for one column/group, …")
  | .scalar x => .ok (some (.scalar x))
  | .series xs =>
    match a.column with
    | some sel =>
      match sel xs with
      | .error e => .error e
      | .ok x => .ok (some (.scalar x))
    | none =>
      match own, a.agg with
      | some f, some _ => .ok (some (.scalar (f xs)))
      | none, some _ => .ok none
      | _, none => .ok (some (.series xs))

/-- The title of an output, generic/stats_builder.py:529-536. -/
def statTitle (title : Option String) (key : Option String) : Option String :=
  match key with
  | none => title
  | some k => match title with
    | none => some k
    | some t => some (t ++ ": " ++ k)

/-- Store the outputs of one metric, generic/stats_builder.py:523-574.  A title of None for a single output is the key None of
the dictionary in Python; it is written as the empty string. -/
def storeOut {V : Type} (a : StatArgs V) (n : String) (d : MetricDef V) :
    List (Option String × StatVal V) → List (String × StatVal V) → Except Err (List (String × StatVal V))
  | [], s => .ok s
  | (k, v) :: items, s =>
    match statValue a d.agg v with
    | .error e => .error e
    | .ok none => storeOut a n d items s
    | .ok (some w) => storeOut a n d items (repPut s ((statTitle (d.title.getD (some n)) k).getD "") w)

/-- The items of an output; a single one has no key. -/
def StatOut.items {V : Type} : StatOut V → List (Option String × StatVal V)
  | .single v => [(none, v)]
  | .multi l => l.map fun x => (some x.1, x.2)

/-- Compute stats, generic/stats_builder.py:395-577. -/
def computeStats {V : Type} (a : StatArgs V) :
    List (String × MetricDef V) → List (String × StatVal V) → Except Err (List (String × StatVal V))
  | [], s => .ok s
  | (n, d) :: ms, s =>
    match d.out with
    | .error e => .error e
    | .ok o =>
      match storeOut a n d o.items s with
      | .error e => .error e
      | .ok s' => computeStats a ms s'

/-- `StatsBuilderMixin.stats`, generic/stats_builder.py:87-577, up to the wrapping of the dictionary; `none` is None.
`settingKeys` are the keys of `metric_settings`, whose values are merged into the definitions already. -/
def statsReport {V : Type} (known : List (String × MetricDef V)) (metrics : List (MetricArg V)) (tags : Option (List TagExpr))
    (settingKeys : List String) (filters : String → Option (String → Bool)) (a : StatArgs V) :
    Except Err (Option (List (String × StatVal V))) :=
  match sameShape known metrics with
  | .error e => .error e
  | .ok ms =>
    let d := metricsDict ms
    if settingKeys.any fun k => k ∉ d.map Prod.fst then
      .error (.valueError "Keys in metric_settings could not be matched with any metric")
    else
      match checkFilter filters (tagFilter tags d) with
      | .error e => .error e
      | .ok [] => .ok none
      | .ok ms' =>
        match computeStats a ms' [] with
        | .error e => .error e
        | .ok s => .ok (some s)

end Vbt
