import Verif.Model.Caching
import Verif.Lemmas.Sim
import Mathlib.Data.Finset.Card
import Mathlib.Data.List.Basic
import Mathlib.Order.Basic

/-!
# C64: cache decisions follow the most specific condition
-/

namespace Vbt

/-! ## The specification -/

/-- The function of a call is the one a condition names. -/
def FuncMatches (x : CacheCall) : CondFunc → Prop
  | .property f => x.func = some f
  | .callable g => ∃ f, g = some f ∧ x.innerFunc = some f
  | .name s => x.funcName = s
  | .bad => False

/-- The class of a call is the one a condition names. -/
def ClsMatches (x : CacheCall) : CondCls → Prop
  | .cls k => x.clsId = k
  | .name s => x.clsName = s
  | .bad => False

/-- A base of the class of a call is the one a condition names. -/
def BaseMatches (x : CacheCall) : CondCls → Prop
  | .cls k => ∃ s, (k, s) ∈ x.mro
  | .name s => ∃ k, (k, s) ∈ x.mro
  | .bad => False

/-- The flags of a call contain those of a condition. -/
def FlagsMatch (x : CacheCall) : CondFlags → Prop
  | .dict items => ∀ k v, (k, v) ∈ items → x.flags.lookup k = some v
  | .bad => False

/-- Everything a condition supplies holds for the call. -/
def CondMatches (x : CacheCall) (c : CacheCond) : Prop :=
  (∀ i, c.instance_ = some i → x.instance_ = i) ∧ (∀ f, c.func = some f → FuncMatches x f) ∧
    (∀ k, c.cls = some k → ClsMatches x k) ∧ (∀ k, c.baseCls = some k → BaseMatches x k) ∧
    ∀ fl, c.flags = some fl → FlagsMatch x fl

/-- How wide a condition is: one instance, one class, all subclasses, anything. -/
def condScope (c : CacheCond) : Int :=
  if c.instance_ ≠ none then 0 else if c.cls ≠ none then 1 else if c.baseCls ≠ none then 2 else 3

/-- Within a scope: by function, by flags, neither; without a scope: function and flags, function, flags. -/
def condDetail (c : CacheCond) : Int :=
  if condScope c < 3 then if c.func ≠ none then 0 else if c.flags ≠ none then 1 else 2
  else if c.func ≠ none then if c.flags ≠ none then 0 else 1 else 2

/-- A condition that supplies something. -/
def CacheCond.NonEmpty (c : CacheCond) : Prop :=
  c.instance_ ≠ none ∨ c.func ≠ none ∨ c.cls ≠ none ∨ c.baseCls ≠ none ∨ c.flags ≠ none

/-- The documented rank: the own rank of the condition, or three times the scope plus the detail. -/
def specRank (c : CacheCond) : Int :=
  match c.rank with
  | some (.int r) => r
  | _ => 3 * condScope c + condDetail c

/-! ## Ranks -/

theorem condInstance_ok {x : CacheCall} {c : CacheCond} {b : Bool} (h : condInstance x c = .ok b) :
    b = true ↔ ∀ i, c.instance_ = some i → x.instance_ = i := by
  unfold condInstance at h
  split at h
  · rename_i e
    cases h
    rw [e]
    exact ⟨fun _ i h => (by cases h), fun _ => rfl⟩
  · rename_i i e
    cases h
    rw [e, decide_eq_true_iff]
    exact ⟨fun h j hj => by cases hj; exact h, fun h => h i rfl⟩

theorem condFunc_ok {x : CacheCall} {c : CacheCond} {b : Bool} (h : condFunc x c = .ok b) :
    b = true ↔ ∀ f, c.func = some f → FuncMatches x f := by
  unfold condFunc at h
  split at h
  · rename_i e
    cases h
    rw [e]
    exact ⟨fun _ i h => (Option.some_ne_none _ h.symm).elim, fun _ => rfl⟩
  · rename_i f e
    cases h
    rw [e, decide_eq_true_iff]
    exact ⟨fun h j hj => by cases hj; exact h, fun h => h _ rfl⟩
  · rename_i g e
    split at h
    · rename_i f hf
      cases h
      rw [e, decide_eq_true_iff]
      constructor
      · intro h j hj
        cases hj
        exact ⟨g, rfl, h ▸ hf⟩
      · intro h
        obtain ⟨f', e1, e2⟩ := h _ rfl
        cases e1
        rw [hf] at e2
        exact Option.some.inj e2
    · cases h
  · cases h
  · rename_i s e
    cases h
    rw [e, decide_eq_true_iff]
    exact ⟨fun h j hj => by cases hj; exact h, fun h => h _ rfl⟩
  · cases h

theorem condCls_ok {x : CacheCall} {c : CacheCond} {b : Bool} (h : condCls x c = .ok b) :
    b = true ↔ ∀ k, c.cls = some k → ClsMatches x k := by
  unfold condCls at h
  split at h
  · rename_i e
    cases h
    rw [e]
    exact ⟨fun _ i h => (Option.some_ne_none _ h.symm).elim, fun _ => rfl⟩
  · rename_i f e
    cases h
    rw [e, decide_eq_true_iff]
    exact ⟨fun h j hj => by cases hj; exact h, fun h => h _ rfl⟩
  · rename_i f e
    cases h
    rw [e, decide_eq_true_iff]
    exact ⟨fun h j hj => by cases hj; exact h, fun h => h _ rfl⟩
  · cases h

theorem condBase_ok {x : CacheCall} {c : CacheCond} {b : Bool} (h : condBase x c = .ok b) :
    b = true ↔ ∀ k, c.baseCls = some k → BaseMatches x k := by
  unfold condBase at h
  split at h
  · rename_i e
    cases h
    rw [e]
    exact ⟨fun _ i h => (Option.some_ne_none _ h.symm).elim, fun _ => rfl⟩
  · rename_i k e
    cases h
    rw [e, decide_eq_true_iff, List.mem_map]
    constructor
    · rintro ⟨p, hp, rfl⟩ j hj
      cases hj
      exact ⟨p.2, hp⟩
    · intro h
      obtain ⟨s, hs⟩ := h _ rfl
      exact ⟨_, hs, rfl⟩
  · rename_i s e
    cases h
    rw [e, decide_eq_true_iff, List.mem_map]
    constructor
    · rintro ⟨p, hp, rfl⟩ j hj
      cases hj
      exact ⟨p.1, hp⟩
    · intro h
      obtain ⟨k, hk⟩ := h _ rfl
      exact ⟨_, hk, rfl⟩
  · cases h

theorem condFlags_ok {x : CacheCall} {c : CacheCond} {b : Bool} (h : condFlags x c = .ok b) :
    b = true ↔ ∀ fl, c.flags = some fl → FlagsMatch x fl := by
  unfold condFlags at h
  split at h
  · rename_i e
    cases h
    rw [e]
    exact ⟨fun _ i h => (Option.some_ne_none _ h.symm).elim, fun _ => rfl⟩
  · rename_i items e
    cases h
    rw [e, List.all_eq_true]
    constructor
    · intro h j hj
      cases hj
      intro k v hkv
      exact of_decide_eq_true (h (k, v) hkv)
    · rintro h ⟨k, v⟩ hp
      exact decide_eq_true (h _ rfl k v hp)
  · cases h

theorem condRankOf_default (c : CacheCond) (hne : c.NonEmpty) : condRankOf c (fun k => k) = 3 * condScope c + condDetail c := by
  obtain ⟨i, f, k, b, fl, r⟩ := c
  unfold CacheCond.NonEmpty at hne
  unfold condRankOf condDetail condScope
  cases i <;> cases f <;> cases k <;> cases b <;> cases fl <;> simp at hne ⊢

theorem condRankOf_const (c : CacheCond) (hne : c.NonEmpty) (r : Int) : condRankOf c (fun _ => r) = r := by
  obtain ⟨i, f, k, b, fl, r'⟩ := c
  unfold CacheCond.NonEmpty at hne
  unfold condRankOf
  cases i <;> cases f <;> cases k <;> cases b <;> cases fl <;> simp at hne ⊢

theorem condRankOf_empty (c : CacheCond) (hne : ¬ c.NonEmpty) (ranks : Nat → Int) : condRankOf c ranks = 100 := by
  obtain ⟨i, f, k, b, fl, r'⟩ := c
  unfold CacheCond.NonEmpty at hne
  unfold condRankOf
  cases i <;> cases f <;> cases k <;> cases b <;> cases fl <;> simp [startRank] at hne ⊢

/-- **C64** (rank).  A condition has its documented rank if all it supplies holds for the call, and 100 if something does not or
it supplies nothing. -/
theorem C64_rank {x : CacheCall} {c : CacheCond} {r : Int} (h : conditionRank x c = .ok r) :
    (CondMatches x c ∧ c.NonEmpty → r = specRank c) ∧ (¬ (CondMatches x c ∧ c.NonEmpty) → r = 100) := by
  unfold conditionRank at h
  split at h
  · cases h
  · rename_i e1
    cases h
    refine ⟨fun hm => ?_, fun _ => rfl⟩
    exact absurd ((condInstance_ok e1).mpr hm.1.1) (by decide)
  rename_i e1
  split at h
  · cases h
  · rename_i e2
    cases h
    refine ⟨fun hm => ?_, fun _ => rfl⟩
    exact absurd ((condFunc_ok e2).mpr hm.1.2.1) (by decide)
  rename_i e2
  split at h
  · cases h
  · rename_i e3
    cases h
    refine ⟨fun hm => ?_, fun _ => rfl⟩
    exact absurd ((condCls_ok e3).mpr hm.1.2.2.1) (by decide)
  rename_i e3
  split at h
  · cases h
  · rename_i e4
    cases h
    refine ⟨fun hm => ?_, fun _ => rfl⟩
    exact absurd ((condBase_ok e4).mpr hm.1.2.2.2.1) (by decide)
  rename_i e4
  split at h
  · cases h
  · rename_i e5
    cases h
    refine ⟨fun hm => ?_, fun _ => rfl⟩
    exact absurd ((condFlags_ok e5).mpr hm.1.2.2.2.2) (by decide)
  rename_i e5
  have hm : CondMatches x c := ⟨(condInstance_ok e1).mp rfl, (condFunc_ok e2).mp rfl, (condCls_ok e3).mp rfl,
    (condBase_ok e4).mp rfl, (condFlags_ok e5).mp rfl⟩
  split at h
  · cases h
  · rename_i ranks hr
    cases h
    refine ⟨fun hne => ?_, fun hn => condRankOf_empty c (fun hne => hn ⟨hm, hne⟩) _⟩
    unfold condRanks at hr
    unfold specRank
    split at hr
    · rename_i e
      cases hr
      rw [e]
      exact condRankOf_default c hne.2
    · rename_i r e
      cases hr
      rw [e]
      exact condRankOf_const c hne.2 r
    · cases hr

/-- **C64** (order of ranks).  Among conditions without own rank, a narrower scope has a better rank than a wider one, whatever
else they supply; the ranks are 0 to 11. -/
theorem C64_narrower (c d : CacheCond) (hc : c.rank = none) (hd : d.rank = none) :
    (condScope c < condScope d → specRank c < specRank d) ∧ 0 ≤ specRank c ∧ specRank c ≤ 11 := by
  have hb : ∀ c : CacheCond, 0 ≤ condDetail c ∧ condDetail c ≤ 2 ∧ 0 ≤ condScope c ∧ condScope c ≤ 3 := by
    intro c
    obtain ⟨i, f, k, b, fl, r'⟩ := c
    unfold condDetail condScope
    cases i <;> cases f <;> cases k <;> cases b <;> cases fl <;> simp
  unfold specRank
  rw [hc, hd]
  dsimp only
  obtain ⟨c1, c2, c3, c4⟩ := hb c
  obtain ⟨d1, d2, d3, d4⟩ := hb d
  omega

/-! ## The decision -/

/-- A list of conditions with best rank `r`: `r` is 100 or the rank of a matching condition, and no matching one is better. -/
def BestRank (x : CacheCall) (conds : List CacheCond) (r : Int) : Prop :=
  r ≤ 100 ∧ (r = 100 ∨ ∃ c ∈ conds, CondMatches x c ∧ c.NonEmpty ∧ specRank c = r) ∧
    ∀ c ∈ conds, CondMatches x c → c.NonEmpty → r ≤ specRank c

theorem rankLoop_best {x : CacheCall} : ∀ (conds : List CacheCond) (r0 r : Int), loopE (condRankStep x) r0 conds = .ok r →
    r ≤ r0 ∧ (r = r0 ∨ r = 100 ∨ ∃ c ∈ conds, CondMatches x c ∧ c.NonEmpty ∧ specRank c = r) ∧
      ∀ c ∈ conds, CondMatches x c → c.NonEmpty → r ≤ specRank c := by
  intro conds
  induction conds with
  | nil =>
    intro r0 r h
    cases h
    exact ⟨le_refl _, Or.inl rfl, fun c hc => by cases hc⟩
  | cons c cs ih =>
    intro r0 r h
    obtain ⟨b, e1, e2⟩ := loopE_cons_ok h
    unfold condRankStep at e1
    split at e1
    · cases e1
    · rename_i k hk
      cases e1
      obtain ⟨h1, h2, h3⟩ := ih _ _ e2
      obtain ⟨k1, k2⟩ := C64_rank hk
      refine ⟨le_trans h1 (min_le_left _ _), ?_, ?_⟩
      · rcases h2 with h2 | h2 | ⟨d, hd, hdd⟩
        · rcases le_total r0 k with hle | hle
          · left; rw [h2, min_eq_left hle]
          · right
            rw [h2, min_eq_right hle]
            by_cases hm : CondMatches x c ∧ c.NonEmpty
            · exact Or.inr ⟨c, List.mem_cons_self, hm.1, hm.2, (k1 hm).symm⟩
            · exact Or.inl (k2 hm)
        · exact Or.inr (Or.inl h2)
        · exact Or.inr (Or.inr ⟨d, List.mem_cons_of_mem _ hd, hdd⟩)
      · intro d hd hm hne
        rcases List.mem_cons.mp hd with rfl | hd
        · rw [← k1 ⟨hm, hne⟩]
          exact le_trans h1 (min_le_right _ _)
        · exact h3 d hd hm hne

theorem rankLoop_best' {x : CacheCall} {conds : List CacheCond} {r : Int} (h : loopE (condRankStep x) startRank conds = .ok r) :
    BestRank x conds r := by
  obtain ⟨h1, h2, h3⟩ := rankLoop_best conds _ _ h
  refine ⟨h1, ?_, h3⟩
  rcases h2 with h2 | h2 | h2
  · exact Or.inl h2
  · exact Or.inl h2
  · exact Or.inr h2

theorem BestRank.unique {x : CacheCall} {conds : List CacheCond} {r r' : Int} (h : BestRank x conds r) (h' : BestRank x conds r') :
    r = r' := by
  obtain ⟨a1, a2, a3⟩ := h
  obtain ⟨b1, b2, b3⟩ := h'
  apply le_antisymm
  · rcases b2 with rfl | ⟨c, hc, hm, hne, rfl⟩
    · exact a1
    · exact a3 c hc hm hne
  · rcases a2 with rfl | ⟨c, hc, hm, hne, rfl⟩
    · exact b1
    · exact b3 c hc hm hne

/-- **C64** (decision).  If the best rank of the whitelist differs from that of the blacklist, the better one decides; if they are
equal, the global flag does. -/
theorem C64_decision {s : CacheSettings} {x : CacheCall} {b : Bool} {w k : Int} (h : shouldCache s x = .ok b)
    (hw : BestRank x s.whitelist w) (hk : BestRank x s.blacklist k) :
    (w < k → b = true) ∧ (k < w → b = false) ∧ (w = k → b = s.enabled) := by
  unfold shouldCache at h
  split at h
  · cases h
  · rename_i w' hw'
    split at h
    · cases h
    · rename_i k' hk'
      have e1 := (rankLoop_best' hw').unique hw
      have e2 := (rankLoop_best' hk').unique hk
      subst e1 e2
      cases h
      refine ⟨fun h => ?_, fun h => ?_, fun h => ?_⟩
      · rw [if_neg (ne_of_lt h)]; exact decide_eq_true h
      · rw [if_neg (ne_of_gt h)]; exact decide_eq_false (by omega)
      · rw [if_pos h]

/-- **C64** (no condition).  If no condition matches, the global flag decides. -/
theorem C64_default {s : CacheSettings} {x : CacheCall} {b : Bool} (h : shouldCache s x = .ok b)
    (hno : ∀ c, c ∈ s.whitelist ∨ c ∈ s.blacklist → CondMatches x c → ¬ c.NonEmpty) : b = s.enabled := by
  refine (C64_decision h (w := 100) (k := 100) ?_ ?_).2.2 rfl
  · exact ⟨le_refl _, Or.inl rfl, fun c hc hm hne => absurd hne (hno c (Or.inl hc) hm)⟩
  · exact ⟨le_refl _, Or.inl rfl, fun c hc hm hne => absurd hne (hno c (Or.inr hc) hm)⟩

/-- **C64** (narrowest scope).  Without own ranks, a matching whitelist condition whose scope is narrower than that of every
matching blacklist condition switches caching on, and the other way round. -/
theorem C64_scope {s : CacheSettings} {x : CacheCall} {b : Bool} (h : shouldCache s x = .ok b)
    (hr : ∀ c, c ∈ s.whitelist ∨ c ∈ s.blacklist → c.rank = none) :
    (∀ c ∈ s.whitelist, CondMatches x c → c.NonEmpty →
      (∀ d ∈ s.blacklist, CondMatches x d → d.NonEmpty → condScope c < condScope d) → b = true) ∧
    (∀ d ∈ s.blacklist, CondMatches x d → d.NonEmpty →
      (∀ c ∈ s.whitelist, CondMatches x c → c.NonEmpty → condScope d < condScope c) → b = false) := by
  have hex : ∃ w k, BestRank x s.whitelist w ∧ BestRank x s.blacklist k := by
    unfold shouldCache at h
    split at h
    · cases h
    · rename_i w' hw'
      split at h
      · cases h
      · rename_i k' hk'
        exact ⟨w', k', rankLoop_best' hw', rankLoop_best' hk'⟩
  obtain ⟨w, k, hw, hk⟩ := hex
  obtain ⟨d1, d2, _⟩ := C64_decision h hw hk
  refine ⟨fun c hc hm hne hall => d1 ?_, fun d hd hm hne hall => d2 ?_⟩
  · have h1 := hw.2.2 c hc hm hne
    have h2 := (C64_narrower c c (hr c (Or.inl hc)) (hr c (Or.inl hc))).2.2
    rcases hk.2.1 with e | ⟨d, hd, hdm, hdne, e⟩
    · omega
    · have := (C64_narrower c d (hr c (Or.inl hc)) (hr d (Or.inr hd))).1 (hall d hd hdm hdne)
      omega
  · have h1 := hk.2.2 d hd hm hne
    have h2 := (C64_narrower d d (hr d (Or.inr hd)) (hr d (Or.inr hd))).2.2
    rcases hw.2.1 with e | ⟨c, hc, hcm, hcne, e⟩
    · omega
    · have := (C64_narrower d c (hr d (Or.inr hd)) (hr c (Or.inl hc))).1 (hall c hc hcm hcne)
      omega

/-! ## Cached properties -/

/-- No clearing of `name` and no successful cached computation of it. -/
def QuietOps {V : Type} (name : String) (ops : List (PropOp V)) : Prop :=
  ∀ op ∈ ops, op ≠ .clear name ∧ ∀ v, op ≠ .get name true (.ok v)

/-- The beginning, or just cleared. -/
def FreshStart {V : Type} (name : String) (ops : List (PropOp V)) : Prop := ops = [] ∨ ∃ q, ops = q ++ [.clear name]

/-- `v` is the first value computed with caching on since the beginning or the last clearing. -/
def FirstSince {V : Type} (name : String) (ops : List (PropOp V)) (v : V) : Prop :=
  ∃ q q2 p2, ops = q ++ q2 ++ .get name true (.ok v) :: p2 ∧ FreshStart name q ∧ QuietOps name q2 ∧ PropOp.clear name ∉ p2

theorem attr_inj {a b : String} (h : "__cached_" ++ a = "__cached_" ++ b) : a = b := by
  have := congrArg String.toList h
  rw [String.toList_append, String.toList_append] at this
  exact String.toList_inj.mp (List.append_cancel_left this)

theorem lookup_filter_ne {V : Type} (c : List (String × V)) (a b : String) :
    (c.filter fun p => decide (p.1 ≠ a)).lookup b = if b = a then none else c.lookup b := by
  induction c with
  | nil => simp
  | cons p c ih =>
    obtain ⟨k, v⟩ := p
    by_cases hk : k = a
    · rw [List.filter_cons_of_neg (by simpa using hk), ih]
      by_cases hb : b = a
      · rw [if_pos hb, if_pos hb]
      · rw [if_neg hb, if_neg hb, List.lookup_cons]
        have : (b == k) = false := by rw [beq_eq_false_iff_ne]; exact fun e => hb (e.trans hk)
        rw [this]
    · rw [List.filter_cons_of_pos (by simpa using hk), List.lookup_cons, List.lookup_cons, ih]
      by_cases hb : b = a
      · rw [if_pos hb, if_pos hb]
        have : (b == k) = false := by rw [beq_eq_false_iff_ne]; exact fun e => hk (e.symm.trans hb)
        rw [this]
      · rw [if_neg hb, if_neg hb]

/-- One access changes what is held for `name` only through that name. -/
theorem propStep_lookup {V : Type} (name : String) (cache : AttrCache V) (op : PropOp V) :
    (propStep cache op).1.lookup ("__cached_" ++ name) =
      match op with
      | .get n on compute => if n = name ∧ on = true then
          match cache.lookup ("__cached_" ++ name) with
          | some v => some v
          | none => compute.toOption
        else cache.lookup ("__cached_" ++ name)
      | .clear n => if n = name then none else cache.lookup ("__cached_" ++ name) := by
  cases op with
  | clear n =>
    show (propertyClear n cache).lookup _ = _
    unfold propertyClear
    rw [lookup_filter_ne]
    dsimp only
    by_cases h : n = name
    · rw [if_pos h, if_pos (by rw [h])]
    · rw [if_neg h, if_neg (fun e => h (attr_inj e).symm)]
  | get n on compute =>
    show (propertyGet n on compute cache).1.lookup _ = _
    dsimp only
    unfold propertyGet
    cases on with
    | false =>
      rw [if_neg (by decide), if_neg (fun h => by cases h.2)]
    | true =>
      rw [if_pos rfl]
      by_cases h : n = name
      · subst h
        rw [if_pos ⟨rfl, rfl⟩]
        cases hc : cache.lookup ("__cached_" ++ n) with
        | some v => exact hc
        | none =>
          dsimp only
          cases compute with
          | error e => exact hc
          | ok v => rw [List.lookup_cons, beq_self_eq_true]; rfl
      · rw [if_neg (fun e => h e.1)]
        cases hc : cache.lookup ("__cached_" ++ n) with
        | some v => rfl
        | none =>
          dsimp only
          cases compute with
          | error e => rfl
          | ok v =>
            have : (("__cached_" ++ name) == ("__cached_" ++ n)) = false := by
              rw [beq_eq_false_iff_ne]; exact fun e => h (attr_inj e).symm
            rw [List.lookup_cons, this]

theorem propRun_append {V : Type} (c : AttrCache V) (a b : List (PropOp V)) : propRun c (a ++ b) = propRun (propRun c a) b :=
  List.foldl_append

/-- What is held after a history is the first value computed since the last clearing. -/
theorem held_iff {V : Type} (name : String) (ops : List (PropOp V)) :
    (∀ v, (propRun [] ops).lookup ("__cached_" ++ name) = some v ↔ FirstSince name ops v) ∧
      ((propRun [] ops).lookup ("__cached_" ++ name) = none ↔ ∃ q q2, ops = q ++ q2 ∧ FreshStart name q ∧ QuietOps name q2) := by
  have fwd : (∀ v, (propRun [] ops).lookup ("__cached_" ++ name) = some v → FirstSince name ops v) ∧
      ((propRun [] ops).lookup ("__cached_" ++ name) = none → ∃ q q2, ops = q ++ q2 ∧ FreshStart name q ∧ QuietOps name q2) := by
    induction ops using List.reverseRecOn with
    | nil =>
      exact ⟨fun v h => (by cases h), fun _ => ⟨[], [], rfl, Or.inl rfl, fun _ h => by cases h⟩⟩
    | append_singleton ops op ih =>
      obtain ⟨ih1, ih2⟩ := ih
      have he : propRun [] (ops ++ [op]) = (propStep (propRun [] ops) op).1 := propRun_append [] ops [op]
      rw [he, propStep_lookup]
      have keep : ∀ v, (propRun [] ops).lookup ("__cached_" ++ name) = some v → op ≠ .clear name → FirstSince name (ops ++ [op]) v := by
        intro v hv hop
        obtain ⟨q, q2, p2, e, h1, h2, h3⟩ := ih1 v hv
        refine ⟨q, q2, p2 ++ [op], by rw [e]; simp, h1, h2, ?_⟩
        rw [List.mem_append, List.mem_singleton]
        exact fun h => h.elim h3 fun h => hop h.symm
      have quiet : (propRun [] ops).lookup ("__cached_" ++ name) = none → op ≠ .clear name → (∀ v, op ≠ .get name true (.ok v)) →
          ∃ q q2, ops ++ [op] = q ++ q2 ∧ FreshStart name q ∧ QuietOps name q2 := by
        intro hn ho1 ho2
        obtain ⟨q, q2, e, h1, h2⟩ := ih2 hn
        refine ⟨q, q2 ++ [op], by rw [e, List.append_assoc], h1, ?_⟩
        intro o ho
        rcases List.mem_append.mp ho with ho | ho
        · exact h2 o ho
        · rw [List.mem_singleton.mp ho]; exact ⟨ho1, ho2⟩
      cases op with
      | clear n =>
        dsimp only
        by_cases h : n = name
        · rw [if_pos h]
          subst h
          exact ⟨fun v h => (by cases h), fun _ => ⟨ops ++ [.clear n], [], by simp, Or.inr ⟨ops, rfl⟩, fun _ h => by cases h⟩⟩
        · rw [if_neg h]
          have ho : (PropOp.clear n : PropOp V) ≠ .clear name := fun e => h (PropOp.clear.inj e)
          exact ⟨fun v hv => keep v hv ho, fun hn => quiet hn ho fun v e => by cases e⟩
      | get n on compute =>
        have ho : (PropOp.get n on compute : PropOp V) ≠ .clear name := fun e => by cases e
        dsimp only
        by_cases h : n = name ∧ on = true
        · rw [if_pos h]
          obtain ⟨rfl, rfl⟩ := h
          cases hc : (propRun [] ops).lookup ("__cached_" ++ n) with
          | some w =>
            exact ⟨fun v hv => keep v (hc.trans hv) ho, fun e => by cases e⟩
          | none =>
            obtain ⟨q, q2, e, h1, h2⟩ := ih2 hc
            cases compute with
            | ok w =>
              refine ⟨fun v hv => ?_, fun e => by cases e⟩
              cases hv
              exact ⟨q, q2, [], by rw [e], h1, h2, by simp⟩
            | error er =>
              exact ⟨fun v hv => (by cases hv), fun _ => quiet hc ho fun v e => by cases e⟩
        · rw [if_neg h]
          refine ⟨fun v hv => keep v hv ho, fun hn => quiet hn ho fun v e => ?_⟩
          obtain ⟨e1, e2, _⟩ := PropOp.get.inj e
          exact h ⟨e1, e2⟩
  have quietRun : ∀ (q2 : List (PropOp V)) (c : AttrCache V), QuietOps name q2 → c.lookup ("__cached_" ++ name) = none →
      (propRun c q2).lookup ("__cached_" ++ name) = none := by
    intro q2
    induction q2 with
    | nil => intro c _ h; exact h
    | cons o os ih =>
      intro c hq hc
      refine ih _ (fun x hx => hq x (List.mem_cons_of_mem _ hx)) ?_
      rw [propStep_lookup]
      obtain ⟨g1, g2⟩ := hq o List.mem_cons_self
      cases o with
      | clear n =>
        dsimp only
        split
        · rfl
        · exact hc
      | get n on compute =>
        dsimp only
        rw [hc]
        by_cases h : n = name ∧ on = true
        · rw [if_pos h]
          obtain ⟨rfl, rfl⟩ := h
          cases compute with
          | ok v => exact absurd rfl (g2 v)
          | error e => rfl
        · rw [if_neg h]
  have startRun : ∀ q : List (PropOp V), FreshStart name q → (propRun [] q).lookup ("__cached_" ++ name) = none := by
    rintro q (rfl | ⟨q', rfl⟩)
    · rfl
    · rw [propRun_append]
      show (propStep (propRun [] q') (.clear name)).1.lookup _ = none
      rw [propStep_lookup]
      exact if_pos rfl
  have keepRun : ∀ (p2 : List (PropOp V)) (c : AttrCache V) (v : V), PropOp.clear name ∉ p2 →
      c.lookup ("__cached_" ++ name) = some v → (propRun c p2).lookup ("__cached_" ++ name) = some v := by
    intro p2
    induction p2 with
    | nil => intro c v _ h; exact h
    | cons o os ih =>
      intro c v hq hc
      refine ih _ v (fun h => hq (List.mem_cons_of_mem _ h)) ?_
      rw [propStep_lookup]
      cases o with
      | clear n =>
        dsimp only
        have : n ≠ name := fun e => hq (e ▸ List.mem_cons_self)
        rw [if_neg this, hc]
      | get n on compute =>
        dsimp only
        rw [hc]
        exact ite_self _
  refine ⟨fun v => ⟨fwd.1 v, ?_⟩, fwd.2, ?_⟩
  · rintro ⟨q, q2, p2, rfl, h1, h2, h3⟩
    rw [propRun_append]
    refine keepRun p2 _ v h3 ?_
    rw [propStep_lookup]
    dsimp only
    rw [if_pos ⟨rfl, rfl⟩, propRun_append, quietRun q2 _ h2 (startRun q h1)]
    rfl
  · rintro ⟨q, q2, rfl, h1, h2⟩
    rw [propRun_append]
    exact quietRun q2 _ h2 (startRun q h1)

/-- **C64** (cached property).  After any history of accesses to an instance, a cached access returns the first value computed for
this property with caching on since the last clearing; if there is none, or with caching off, it computes the value now. -/
theorem C64_property {V : Type} (name : String) (pre : List (PropOp V)) (on : Bool) (compute : Except Err V) :
    (on = false → (propertyGet name on compute (propRun [] pre)).2 = compute) ∧
    (on = true → ∀ v, FirstSince name pre v → (propertyGet name on compute (propRun [] pre)).2 = .ok v) ∧
    (on = true → (¬ ∃ v, FirstSince name pre v) → (propertyGet name on compute (propRun [] pre)).2 = compute) := by
  obtain ⟨h1, _⟩ := held_iff name pre
  refine ⟨?_, ?_, ?_⟩
  · rintro rfl
    rfl
  · rintro rfl v hv
    unfold propertyGet
    rw [if_pos rfl, (h1 v).mpr hv]
  · rintro rfl hno
    unfold propertyGet
    rw [if_pos rfl]
    cases hc : (propRun [] pre).lookup ("__cached_" ++ name) with
    | some v => exact absurd ⟨v, (h1 v).mp hc⟩ hno
    | none => cases compute <;> rfl

/-! ## Cached methods -/

variable {K V : Type} [DecidableEq K]

theorem methodRun_append (m : Nat) (c : Option (Lru K V)) (a b : List (MethodOp K V)) :
    methodRun m c (a ++ b) = methodRun m (methodRun m c a) b := List.foldl_append

theorem mem_of_lookup' {c : List (K × V)} {k : K} {v : V} (h : c.lookup k = some v) : (k, v) ∈ c := by
  induction c with
  | nil => cases h
  | cons p c ih =>
    rw [List.lookup_cons] at h
    by_cases e : k = p.1
    · subst e
      rw [beq_self_eq_true] at h
      cases h
      exact List.mem_cons_self
    · rw [beq_eq_false_iff_ne.mpr e] at h
      exact List.mem_cons_of_mem _ (ih h)

/-- Entries after a call were there before or belong to the call. -/
theorem lruCall_mem {m : Nat} {key : K} {compute : Except Err V} {c : Lru K V} {p : K × V}
    (h : p ∈ (lruCall m key compute c).1) : p ∈ c ∨ (p.1 = key ∧ compute = .ok p.2) := by
  unfold lruCall at h
  split at h
  · rename_i v hv
    rcases List.mem_cons.mp h with rfl | h
    · exact Or.inl (mem_of_lookup' hv)
    · exact Or.inl (List.mem_filter.mp h).1
  · cases compute with
    | error e => exact Or.inl h
    | ok v =>
      rcases List.mem_cons.mp (List.mem_of_mem_take h) with rfl | h
      · exact Or.inr ⟨rfl, rfl⟩
      · exact Or.inl h

/-- The value was computed by an earlier cached call with the same arguments since the last clearing. -/
def ComputedSince (ops : List (MethodOp K V)) (k : K) (v : V) : Prop :=
  ∃ p1 p2, ops = p1 ++ .call true (some k) (.ok v) :: p2 ∧ MethodOp.clear ∉ p2

theorem methodRun_mem {m : Nat} (ops : List (MethodOp K V)) :
    ∀ c, methodRun m none ops = some c → ∀ p ∈ c, ComputedSince ops p.1 p.2 := by
  induction ops using List.reverseRecOn with
  | nil => intro c h; cases h
  | append_singleton ops op ih =>
    intro c h p hp
    have he : methodRun m none (ops ++ [op]) = (methodStep m (methodRun m none ops) op).1 := methodRun_append m none ops [op]
    rw [he] at h
    have keep : op ≠ .clear → ComputedSince ops p.1 p.2 → ComputedSince (ops ++ [op]) p.1 p.2 := by
      rintro ho ⟨p1, p2, e, h2⟩
      refine ⟨p1, p2 ++ [op], by rw [e]; simp, ?_⟩
      rw [List.mem_append, List.mem_singleton]
      exact fun h => h.elim h2 fun h => ho h.symm
    cases op with
    | clear => cases h
    | call on key compute =>
      have ho : (MethodOp.call on key compute : MethodOp K V) ≠ .clear := fun e => by cases e
      have hold : ∀ q, q ∈ (methodRun m none ops).getD [] → ComputedSince ops q.1 q.2 := by
        intro q hq
        cases hc : methodRun m none ops with
        | none => rw [hc] at hq; cases hq
        | some c' => rw [hc] at hq; exact ih c' hc q hq
      change (methodCall m on key compute (methodRun m none ops)).1 = some c at h
      unfold methodCall at h
      cases on with
      | false =>
        rw [if_neg (by decide)] at h
        exact keep ho (ih c h p hp)
      | true =>
        rw [if_pos rfl] at h
        cases key with
        | none =>
          have h := Option.some.inj h
          subst h
          exact keep ho (hold p hp)
        | some k =>
          have h := Option.some.inj h
          subst h
          rcases lruCall_mem hp with hq | ⟨e1, e2⟩
          · exact keep ho (hold p hq)
          · subst e1 e2
            exact ⟨ops, [], rfl, by simp⟩

/-- **C64** (cached method).  A call returns either the value computed now, or, with caching on and arguments that can be hashed,
a value that an earlier cached call with equal arguments computed since the last clearing. -/
theorem C64_method (m : Nat) (ops : List (MethodOp K V)) (on : Bool) (key : Option K) (compute : Except Err V) :
    (methodCall m on key compute (methodRun m none ops)).2 = compute ∨
      (on = true ∧ ∃ k v, key = some k ∧ (methodCall m on key compute (methodRun m none ops)).2 = .ok v ∧ ComputedSince ops k v) := by
  unfold methodCall
  cases on with
  | false => exact Or.inl rfl
  | true =>
    rw [if_pos rfl]
    cases key with
    | none => exact Or.inl rfl
    | some k =>
      dsimp only
      unfold lruCall
      split
      · rename_i v hv
        right
        refine ⟨rfl, k, v, rfl, rfl, ?_⟩
        cases hc : methodRun m none ops with
        | none => rw [hc] at hv; cases hv
        | some c => rw [hc] at hv; exact methodRun_mem ops c hc _ (mem_of_lookup' hv)
      · left
        cases compute <;> rfl

/-- **C64** (pure method).  If a method depends only on its arguments, caching does not change any result. -/
theorem C64_method_pure (m : Nat) (f : K → Except Err V) (ops : List (MethodOp K V))
    (hops : ∀ op ∈ ops, ∀ on k compute, op = .call on (some k) compute → compute = f k) (on : Bool) (k : K) :
    (methodCall m on (some k) (f k) (methodRun m none ops)).2 = f k := by
  rcases C64_method m ops on (some k) (f k) with h | ⟨_, k', v, e, h, p1, p2, e2, _⟩
  · exact h
  · cases e
    rw [h]
    exact hops (.call true (some k) (.ok v)) (by rw [e2]; simp) _ _ _ rfl

/-- **C64** (size).  Never more than `maxsize` values are held. -/
theorem C64_method_size (m : Nat) (ops : List (MethodOp K V)) : ∀ c, methodRun m none ops = some c → c.length ≤ m := by
  induction ops using List.reverseRecOn with
  | nil => intro c h; cases h
  | append_singleton ops op ih =>
    intro c h
    have he : methodRun m none (ops ++ [op]) = (methodStep m (methodRun m none ops) op).1 := methodRun_append m none ops [op]
    rw [he] at h
    have hold : ((methodRun m none ops).getD []).length ≤ m := by
      cases hc : methodRun m none ops with
      | none => exact Nat.zero_le _
      | some c' => exact ih c' hc
    cases op with
    | clear => cases h
    | call on key compute =>
      change (methodCall m on key compute (methodRun m none ops)).1 = some c at h
      unfold methodCall at h
      cases on with
      | false =>
        rw [if_neg (by decide)] at h
        exact ih c h
      | true =>
        rw [if_pos rfl] at h
        cases key with
        | none =>
          have h := Option.some.inj h
          subst h
          exact hold
        | some k =>
          have h := Option.some.inj h
          subst h
          show (lruCall m k compute ((methodRun m none ops).getD [])).1.length ≤ m
          unfold lruCall
          split
          · rename_i v hv
            have hm := mem_of_lookup' hv
            have : (((methodRun m none ops).getD []).filter fun p => decide (p.1 ≠ k)).length < ((methodRun m none ops).getD []).length :=
              List.length_filter_lt_length_iff_exists.mpr ⟨_, hm, by simp⟩
            rw [List.length_cons]
            omega
          · cases compute with
            | error e => exact hold
            | ok v => exact List.length_take_le _ _

/-- The entry of `k` is preceded only by distinct other keys from `S`. -/
def LruFront (S : Finset K) (k : K) (v : V) (c : Lru K V) : Prop :=
  ∃ a b, c = a ++ (k, v) :: b ∧ (a.map Prod.fst).Nodup ∧ (∀ p ∈ a, p.1 ∈ S ∧ p.1 ≠ k)

theorem LruFront.lookup {S : Finset K} {k : K} {v : V} {c : Lru K V} (h : LruFront S k v c) : c.lookup k = some v := by
  obtain ⟨a, b, rfl, h1, h2⟩ := h
  clear h1
  induction a with
  | nil => rw [List.nil_append, List.lookup_cons, beq_self_eq_true]
  | cons p a ih =>
    rw [List.cons_append, List.lookup_cons, beq_eq_false_iff_ne.mpr (fun e => (h2 p List.mem_cons_self).2 e.symm)]
    exact ih (fun q hq => h2 q (List.mem_cons_of_mem _ hq))

theorem LruFront.call {m : Nat} {S : Finset K} (hS : S.card < m) {k k' : K} {v : V} {c : Lru K V} (h : LruFront S k v c)
    (hk : k' ≠ k → k' ∈ S) (compute : Except Err V) : LruFront S k v (lruCall m k' compute c).1 := by
  have hl := h.lookup
  obtain ⟨a, b, rfl, h1, h2⟩ := h
  unfold lruCall
  by_cases e : k' = k
  · subst e
    rw [hl]
    exact ⟨[], _, rfl, List.nodup_nil, fun p hp => by cases hp⟩
  · have hfilter : (a ++ (k, v) :: b).filter (fun p => decide (p.1 ≠ k')) =
        a.filter (fun p => decide (p.1 ≠ k')) ++ (k, v) :: b.filter (fun p => decide (p.1 ≠ k')) := by
      rw [List.filter_append, List.filter_cons_of_pos (by simpa using fun h : k = k' => e h.symm)]
    split
    · rename_i w hw
      show LruFront S k v ((k', w) :: (a ++ (k, v) :: b).filter (fun p => decide (p.1 ≠ k')))
      rw [hfilter]
      refine ⟨(k', w) :: a.filter (fun p => decide (p.1 ≠ k')), _, rfl, ?_, ?_⟩
      · rw [List.map_cons, List.nodup_cons]
        refine ⟨?_, h1.sublist ((List.filter_sublist).map _)⟩
        intro hm
        obtain ⟨p, hp, ep⟩ := List.mem_map.mp hm
        exact of_decide_eq_true (List.mem_filter.mp hp).2 ep
      · intro p hp
        rcases List.mem_cons.mp hp with rfl | hp
        · exact ⟨hk e, e⟩
        · exact h2 p (List.mem_filter.mp hp).1
    · rename_i hw
      cases compute with
      | error er => exact ⟨a, b, rfl, h1, h2⟩
      | ok w =>
        have hnot : k' ∉ a.map Prod.fst := by
          intro hm
          have : ∀ l : List (K × V), k' ∈ l.map Prod.fst → l.lookup k' ≠ none := by
            intro l
            induction l with
            | nil => intro h; cases h
            | cons q l ih =>
              intro hq
              rw [List.lookup_cons]
              by_cases eq : k' = q.1
              · rw [eq, beq_self_eq_true]; exact Option.some_ne_none _
              · rw [beq_eq_false_iff_ne.mpr eq]
                exact ih ((List.mem_cons.mp hq).resolve_left eq)
          exact this _ (by rw [List.map_append]; exact List.mem_append_left _ hm) hw
        have hnd : (((k', w) :: a).map Prod.fst).Nodup := by
          rw [List.map_cons, List.nodup_cons]; exact ⟨hnot, h1⟩
        have hlen : ((k', w) :: a).length < m := by
          have hsub : (((k', w) :: a).map Prod.fst).toFinset ⊆ S := by
            intro x hx
            rw [List.mem_toFinset, List.map_cons, List.mem_cons] at hx
            rcases hx with rfl | hx
            · exact hk e
            · obtain ⟨p, hp, rfl⟩ := List.mem_map.mp hx
              exact (h2 p hp).1
          have hc := Finset.card_le_card hsub
          rw [List.toFinset_card_of_nodup hnd, List.length_map] at hc
          omega
        show LruFront S k v (((k', w) :: (a ++ (k, v) :: b)).take m)
        rw [← List.cons_append, List.take_append, List.take_of_length_le hlen.le]
        obtain ⟨j, hj⟩ : ∃ j, m - ((k', w) :: a).length = j + 1 := ⟨m - ((k', w) :: a).length - 1, by omega⟩
        rw [hj, List.take_succ_cons]
        refine ⟨_, _, rfl, hnd, ?_⟩
        intro p hp
        rcases List.mem_cons.mp hp with rfl | hp
        · exact ⟨hk e, e⟩
        · exact h2 p hp

/-- **C64** (hits).  A value returned by a cached call is returned by every later call with equal arguments, as long as the cache
is not cleared and fewer than `maxsize` other arguments are used in between. -/
theorem C64_method_hit {m : Nat} (pre post : List (MethodOp K V)) (k : K) (compute compute' : Except Err V) {v : V}
    (h : (methodCall m true (some k) compute (methodRun m none pre)).2 = .ok v) (hclear : MethodOp.clear ∉ post) (S : Finset K)
    (hS : S.card < m) (hpost : ∀ k' c, MethodOp.call true (some k') c ∈ post → k' ≠ k → k' ∈ S) :
    (methodCall m true (some k) compute' (methodRun m none (pre ++ .call true (some k) compute :: post))).2 = .ok v := by
  have hfront : ∃ c, methodRun m none (pre ++ .call true (some k) compute :: post) = some c ∧ LruFront S k v c := by
    rw [methodRun_append]
    have first : ∃ c, (methodStep m (methodRun m none pre) (.call true (some k) compute)).1 = some c ∧ LruFront S k v c := by
      refine ⟨_, rfl, ?_⟩
      change (lruCall m k compute ((methodRun m none pre).getD [])).2 = .ok v at h
      show LruFront S k v (lruCall m k compute ((methodRun m none pre).getD [])).1
      unfold lruCall at h ⊢
      cases hl : ((methodRun m none pre).getD []).lookup k with
      | some w =>
        rw [hl] at h
        cases h
        exact ⟨[], _, rfl, List.nodup_nil, fun p hp => by cases hp⟩
      | none =>
        rw [hl] at h
        cases compute with
        | error e => cases h
        | ok w =>
          cases h
          obtain ⟨j, rfl⟩ : ∃ j, m = j + 1 := ⟨m - 1, by omega⟩
          exact ⟨[], _, rfl, List.nodup_nil, fun p hp => by cases hp⟩
    show ∃ c, methodRun m (methodStep m (methodRun m none pre) (.call true (some k) compute)).1 post = some c ∧ _
    generalize (methodStep m (methodRun m none pre) (.call true (some k) compute)).1 = st at first
    clear h
    induction post generalizing st with
    | nil => exact first
    | cons op post ih =>
      obtain ⟨c, rfl, hc⟩ := first
      refine ih (fun hm => hclear (List.mem_cons_of_mem _ hm)) (fun k' c' hm => hpost k' c' (List.mem_cons_of_mem _ hm)) _ ?_
      cases op with
      | clear => exact absurd List.mem_cons_self hclear
      | call on key comp =>
        cases on with
        | false => exact ⟨c, rfl, hc⟩
        | true =>
          cases key with
          | none => exact ⟨c, rfl, hc⟩
          | some k' => exact ⟨_, rfl, hc.call hS (hpost k' comp List.mem_cons_self) comp⟩
  obtain ⟨c, hc, hf⟩ := hfront
  rw [hc]
  show (lruCall m k compute' c).2 = .ok v
  unfold lruCall
  rw [hf.lookup]

/-! ## Witnesses -/

/-- A property `f` with function 7 of an instance of class 1 with base 2. -/
def wCall : CacheCall := ⟨"f", 5, 1, "B", [(1, "B"), (2, "A")], some 7, none, [("my_flag", 1)]⟩

/-- A condition with a cached method as `func` makes every decision about a property fail with a `TypeError`, whatever property
and instance it is. -/
theorem C64_counterexample_method (s : CacheSettings) (x : CacheCall) (g : Option Nat) (hx : x.innerFunc = none) :
    ∃ msg, shouldCache { s with whitelist := { func := some (.callable g) } :: s.whitelist } x = .error (.typeError msg) := by
  have hr : ∃ msg, conditionRank x { func := some (.callable g) } = .error (.typeError msg) := by
    unfold conditionRank condInstance condFunc
    dsimp only
    cases g with
    | none => exact ⟨_, rfl⟩
    | some g => rw [hx]; exact ⟨_, rfl⟩
  obtain ⟨msg, hr⟩ := hr
  refine ⟨msg, ?_⟩
  unfold shouldCache
  rw [show loopE (condRankStep x) startRank ({ func := some (.callable g) } :: s.whitelist) = .error (.typeError msg) by
    rw [loopE, condRankStep, hr]]

/-- A condition whose own rank is 100 or more never has an effect. -/
theorem C64_counterexample_rank :
    shouldCache ⟨true, [], [{ func := some (.name "f"), rank := some (.int 100) }]⟩ wCall = .ok true := by decide +kernel

/-- Properties of the same name on one instance (an overridden property called through `super()`) share one cached value. -/
theorem C64_counterexample_name :
    (propertyGet "f" true (.ok 2) (propertyGet "f" true (.ok (1 : Int)) []).1).2 = .ok 1 := by decide +kernel

/-- Non-vacuity: a blacklisted base class against a whitelisted function of the class. -/
example : shouldCache ⟨false, [{ cls := some (.name "B"), func := some (.name "f") }], [{ baseCls := some (.cls 2) }]⟩ wCall =
      .ok true ∧
    shouldCache ⟨true, [{ flags := some (.dict [("my_flag", 1)]) }], [{ func := some (.property 7) }]⟩ wCall = .ok false ∧
    shouldCache ⟨true, [{ instance_ := some 5 }], [{ instance_ := some 5 }]⟩ wCall = .ok true := by decide +kernel

/-- Non-vacuity of the history theorems. -/
example : FirstSince "f" [.get "f" true (.ok 1), .clear "f", .get "f" false (.ok 2), .get "f" true (.ok (3 : Int)),
    .get "f" true (.ok 4)] 3 :=
  ⟨[.get "f" true (.ok 1), .clear "f"], [.get "f" false (.ok 2)], [.get "f" true (.ok 4)], rfl,
    Or.inr ⟨[.get "f" true (.ok 1)], rfl⟩,
    by intro op hop; rw [List.mem_singleton.mp hop]; exact ⟨fun e => (by cases e), fun v e => (by cases e)⟩,
    by intro h; rw [List.mem_singleton] at h; cases h⟩

end Vbt
