import Verif.Model.Float

/-!
# Resolution of attributes: `vectorbt/utils/attr_.py`, `vectorbt/portfolio/base.py`

Keyword arguments are functions from names; the cache of `stats` is a function from names of attributes.
-/

namespace Vbt

/-- What `resolve_attr` sees of an object: `dir(cls)`, the argument names of an attribute that is a method, calls, values of
properties, and the two hooks. -/
structure ResObj (X V : Type) where
  dir : String → Bool
  argNames : String → Option (List String)
  call : String → List X → (String → Option X) → Except Err V
  prop : String → Except Err V
  pre : String → (String → Option X) → String
  post : String → V → (String → Option X) → V

/-- The arguments of `resolve_attr`. -/
structure ResCall (X : Type) where
  attr : String
  args : List X
  cond : String → Option X
  kwargs : String → Option X
  custom : List String
  useCaching : Bool

variable {X V : Type}

/-- `merge_dicts(cond_kwargs, kwargs)`, utils/attr_.py:163. -/
def ResCall.final (c : ResCall X) : String → Option X := fun k => (c.kwargs k).or (c.cond k)

/-- The name that is looked up, utils/attr_.py:167-169. -/
def resolvedName (o : ResObj X V) (c : ResCall X) : String :=
  if o.dir ("get_" ++ c.attr) then "get_" ++ c.attr else o.pre c.attr c.final

/-- The arguments that are passed, utils/attr_.py:172-180. -/
def passedKwargs (names : List String) (c : ResCall X) : String → Option X := fun k =>
  if k ∈ names ∨ (c.kwargs k).isSome then c.final k else none

/-- `custom_k`, utils/attr_.py:174-178. -/
def customPassed (names : List String) (c : ResCall X) : Bool := c.custom.any fun k => (passedKwargs names c k).isSome

/-- `AttrResolver.resolve_attr`, utils/attr_.py:131-194: the result and the cache. -/
def resolveAttr (o : ResObj X V) (cache : String → Option V) (c : ResCall X) : Except Err (V × (String → Option V)) :=
  let name := resolvedName o c
  let store (v : V) : String → Option V := fun a => if a = c.attr then some v else cache a
  match o.argNames name with
  | some names =>
    let caching := c.useCaching && !customPassed names c
    match caching, cache c.attr with
    | true, some v => .ok (o.post c.attr v c.final, cache)
    | _, _ =>
      match o.call name c.args (passedKwargs names c) with
      | .error e => .error e
      | .ok v => .ok (o.post c.attr v c.final, if caching then store v else cache)
  | none =>
    match c.useCaching, cache c.attr with
    | true, some v => .ok (o.post c.attr v c.final, cache)
    | _, _ =>
      match o.prop name with
      | .error e => .error e
      | .ok v => .ok (o.post c.attr v c.final, if c.useCaching then store v else cache)

/-- The calls of one report, one after the other with one cache, as in generic/stats_builder.py:395-500. -/
def resolveAll (o : ResObj X V) : (String → Option V) → List (ResCall X) → Except Err (List V)
  | _, [] => .ok []
  | cache, c :: cs =>
    match resolveAttr o cache c with
    | .error e => .error e
    | .ok (v, cache') =>
      match resolveAll o cache' cs with
      | .error e => .error e
      | .ok vs => .ok (v :: vs)

/-- `TradesType`, portfolio/enums.py. -/
inductive TradesKind where
  | entry
  | exit
  | positions
deriving DecidableEq

/-- Values of settings that `Portfolio.pre_resolve_attr` looks at. -/
inductive PfSetting where
  | trades (t : TradesKind)
  | flag (b : Bool)
  | other (n : Nat)
deriving DecidableEq

/-- `Portfolio.pre_resolve_attr`, portfolio/base.py:4792-4813, for settings of the expected types; `own` is the type of the
portfolio. -/
def pfPreResolve (own : TradesKind) (attr : String) (final : String → Option PfSetting) : String :=
  let attr := match final "use_asset_returns" with
    | some (.flag true) => if attr = "returns" then "asset_returns" else attr
    | _ => attr
  match final "trades_type" with
  | some (.trades t) =>
    if attr = "trades" ∧ t ≠ own then
      match t with
      | .entry => "entry_trades"
      | .exit => "exit_trades"
      | .positions => "positions"
    else attr
  | _ => attr

/-- `Portfolio.get_trades`, portfolio/base.py:4277-4283. -/
def pfGetTrades {R : Type} (own : TradesKind) (records : TradesKind → R) : R := records own

end Vbt
