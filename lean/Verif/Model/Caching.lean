import Verif.Model.Sim

/-!
# Caching decorators: `vectorbt/utils/decorators.py`

Objects, classes and functions are identified by numbers, names by strings.  The locks are not modelled (one thread).
-/

namespace Vbt

/-- `CacheCondition.func`: a cached property with its function, a callable with its attribute `func` if it has one, a name, or
anything else. -/
inductive CondFunc where
  | property (func : Nat)
  | callable (func : Option Nat)
  | name (s : String)
  | bad
deriving DecidableEq

/-- `CacheCondition.cls` and `CacheCondition.base_cls`: a class, a name, or anything else. -/
inductive CondCls where
  | cls (id : Nat)
  | name (s : String)
  | bad
deriving DecidableEq

/-- `CacheCondition.flags`: a dictionary or anything else. -/
inductive CondFlags where
  | dict (items : List (String × Int))
  | bad
deriving DecidableEq

/-- `CacheCondition.rank`: an integer or anything else. -/
inductive CondRank where
  | int (r : Int)
  | bad
deriving DecidableEq

/-- `CacheCondition`, utils/decorators.py:104-123. -/
structure CacheCond where
  instance_ : Option Nat := none
  func : Option CondFunc := none
  cls : Option CondCls := none
  baseCls : Option CondCls := none
  flags : Option CondFlags := none
  rank : Option CondRank := none
deriving DecidableEq

/-- The arguments of `should_cache`: the name, the instance with its class and its bases (`inspect.getmro`, the class first), the
function and its attribute `func`, and the flags. -/
structure CacheCall where
  funcName : String
  instance_ : Nat
  clsId : Nat
  clsName : String
  mro : List (Nat × String)
  func : Option Nat
  innerFunc : Option Nat
  flags : List (String × Int)

/-- `caching` in the settings. -/
structure CacheSettings where
  enabled : Bool
  whitelist : List CacheCond
  blacklist : List CacheCond

/-- `start_rank`, utils/decorators.py:194. -/
def startRank : Int := 100

/-- The check of `instance`, decorators.py:200-202: does the condition pass? -/
def condInstance (x : CacheCall) (c : CacheCond) : Except Err Bool :=
  match c.instance_ with
  | none => .ok true
  | some i => .ok (decide (x.instance_ = i))

/-- The check of `func`, decorators.py:203-214. -/
def condFunc (x : CacheCall) (c : CacheCond) : Except Err Bool :=
  match c.func with
  | none => .ok true
  | some (.property f) => .ok (decide (x.func = some f))
  | some (.callable (some g)) =>
    match x.innerFunc with
    | some f => .ok (decide (f = g))
    | none => .error (.typeError "func must be either a callable or a string")
  | some (.callable none) => .error (.typeError "func must be either a callable or a string")
  | some (.name s) => .ok (decide (x.funcName = s))
  | some .bad => .error (.typeError "func must be either a callable or a string")

/-- The check of `cls`, decorators.py:215-223. -/
def condCls (x : CacheCall) (c : CacheCond) : Except Err Bool :=
  match c.cls with
  | none => .ok true
  | some (.cls k) => .ok (decide (x.clsId = k))
  | some (.name s) => .ok (decide (x.clsName = s))
  | some .bad => .error (.typeError "cls must be either a class or a string")

/-- The check of `base_cls`, decorators.py:224-229; `is_instance_of`, utils/checks.py:371-375. -/
def condBase (x : CacheCall) (c : CacheCond) : Except Err Bool :=
  match c.baseCls with
  | none => .ok true
  | some (.cls k) => .ok (decide (k ∈ x.mro.map Prod.fst))
  | some (.name s) => .ok (decide (s ∈ x.mro.map Prod.snd))
  | some .bad => .error (.typeError "base_cls must be either a class or a string")

/-- The check of `flags`, decorators.py:230-235. -/
def condFlags (x : CacheCall) (c : CacheCond) : Except Err Bool :=
  match c.flags with
  | none => .ok true
  | some (.dict items) => .ok (items.all fun p => decide (x.flags.lookup p.1 = some p.2))
  | some .bad => .error (.typeError "flags must be a dict")

/-- The ranking, decorators.py:243-275; `ranks` is the list of twelve ranks. -/
def condRankOf (c : CacheCond) (ranks : Nat → Int) : Int :=
  if c.instance_.isSome && c.func.isSome then ranks 0
  else if c.instance_.isSome && c.flags.isSome then ranks 1
  else if c.instance_.isSome then ranks 2
  else if c.cls.isSome && c.func.isSome then ranks 3
  else if c.cls.isSome && c.flags.isSome then ranks 4
  else if c.cls.isSome then ranks 5
  else if c.baseCls.isSome && c.func.isSome then ranks 6
  else if c.baseCls.isSome && c.flags.isSome then ranks 7
  else if c.baseCls.isSome then ranks 8
  else if c.func.isSome && c.flags.isSome then ranks 9
  else if c.func.isSome then ranks 10
  else if c.flags.isSome then ranks 11
  else startRank

/-- The choice of ranks, decorators.py:236-241. -/
def condRanks (c : CacheCond) : Except Err (Nat → Int) :=
  match c.rank with
  | none => .ok fun k => k
  | some (.int r) => .ok fun _ => r
  | some .bad => .error (.typeError "rank must be an integer")

/-- `_get_condition_rank`, utils/decorators.py:196-275. -/
def conditionRank (x : CacheCall) (c : CacheCond) : Except Err Int :=
  match condInstance x c with
  | .error e => .error e
  | .ok false => .ok startRank
  | .ok true =>
    match condFunc x c with
    | .error e => .error e
    | .ok false => .ok startRank
    | .ok true =>
      match condCls x c with
      | .error e => .error e
      | .ok false => .ok startRank
      | .ok true =>
        match condBase x c with
        | .error e => .error e
        | .ok false => .ok startRank
        | .ok true =>
          match condFlags x c with
          | .error e => .error e
          | .ok false => .ok startRank
          | .ok true =>
            match condRanks c with
            | .error e => .error e
            | .ok ranks => .ok (condRankOf c ranks)

/-- One condition of a list: `rank = min(rank, _get_condition_rank(cond))`, decorators.py:280, 285. -/
def condRankStep (x : CacheCall) (r : Int) (c : CacheCond) : Except Err Int :=
  match conditionRank x c with
  | .error e => .error e
  | .ok k => .ok (min r k)

/-- `should_cache`, utils/decorators.py:126-289. -/
def shouldCache (s : CacheSettings) (x : CacheCall) : Except Err Bool :=
  match loopE (condRankStep x) startRank s.whitelist with
  | .error e => .error e
  | .ok w =>
    match loopE (condRankStep x) startRank s.blacklist with
    | .error e => .error e
    | .ok b => .ok (if w = b then s.enabled else decide (w < b))

/-! ## Cached properties -/

/-- The cache of an instance: `instance.__dict__` restricted to cached attributes, by attribute name. -/
abbrev AttrCache (V : Type) := List (String × V)

/-- `cached_property.__get__`, utils/decorators.py:326-340.  `on` is the decision of `should_cache`; `compute` the function
applied to the instance as it is now. -/
def propertyGet {V : Type} (name : String) (on : Bool) (compute : Except Err V) (cache : AttrCache V) :
    AttrCache V × Except Err V :=
  if on then
    match cache.lookup ("__cached_" ++ name) with
    | some v => (cache, .ok v)
    | none =>
      match compute with
      | .error e => (cache, .error e)
      | .ok v => (("__cached_" ++ name, v) :: cache, .ok v)
  else (cache, compute)

/-- `cached_property.clear_cache`, utils/decorators.py:313-316. -/
def propertyClear {V : Type} (name : String) (cache : AttrCache V) : AttrCache V :=
  cache.filter fun p => decide (p.1 ≠ "__cached_" ++ name)

/-- An access to the cached properties of one instance. -/
inductive PropOp (V : Type) where
  | get (name : String) (on : Bool) (compute : Except Err V)
  | clear (name : String)

/-- The effect of an access; the value of a `get`. -/
def propStep {V : Type} (cache : AttrCache V) : PropOp V → AttrCache V × Option (Except Err V)
  | .get name on compute => let r := propertyGet name on compute cache; (r.1, some r.2)
  | .clear name => (propertyClear name cache, none)

/-- The cache after a history of accesses. -/
def propRun {V : Type} (cache : AttrCache V) (ops : List (PropOp V)) : AttrCache V := ops.foldl (fun c o => (propStep c o).1) cache

/-! ## Cached methods -/

/-- `functools.lru_cache`: entries from most to least recently used. -/
abbrev Lru (K V : Type) := List (K × V)

/-- A call of a function wrapped by `lru_cache(maxsize)`, `maxsize > 0`: a hit moves the entry to the front, a miss computes the
value, and evicts the least recently used entry when full.  An exception is not stored. -/
def lruCall {K V : Type} [DecidableEq K] (maxsize : Nat) (key : K) (compute : Except Err V) (c : Lru K V) :
    Lru K V × Except Err V :=
  match c.lookup key with
  | some v => ((key, v) :: c.filter (fun p => decide (p.1 ≠ key)), .ok v)
  | none =>
    match compute with
    | .error e => (c, .error e)
    | .ok v => (((key, v) :: c).take maxsize, .ok v)

/-- `cached_method`, utils/decorators.py:406-440: the wrapped method with decision `on` and arguments `key`; `none` are arguments
that cannot be hashed. -/
def methodCall {K V : Type} [DecidableEq K] (maxsize : Nat) (on : Bool) (key : Option K) (compute : Except Err V)
    (c : Option (Lru K V)) : Option (Lru K V) × Except Err V :=
  if on then
    let c' : Lru K V := c.getD []
    match key with
    | none => (some c', compute)
    | some k => let r := lruCall maxsize k compute c'; (some r.1, r.2)
  else (c, compute)

/-- A use of a cached method of one instance. -/
inductive MethodOp (K V : Type) where
  | call (on : Bool) (key : Option K) (compute : Except Err V)
  | clear

/-- The effect of a use; `clear_cache`, utils/decorators.py:442-445, removes the wrapped function. -/
def methodStep {K V : Type} [DecidableEq K] (maxsize : Nat) (c : Option (Lru K V)) :
    MethodOp K V → Option (Lru K V) × Option (Except Err V)
  | .call on key compute => let r := methodCall maxsize on key compute c; (r.1, some r.2)
  | .clear => (none, none)

/-- The state after a history of uses. -/
def methodRun {K V : Type} [DecidableEq K] (maxsize : Nat) (c : Option (Lru K V)) (ops : List (MethodOp K V)) : Option (Lru K V) :=
  ops.foldl (fun c o => (methodStep maxsize c o).1) c

end Vbt
