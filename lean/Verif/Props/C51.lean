import Verif.Spec.Config

/-!
# C51  Merging configuration dictionaries is right-biased and nested
-/

namespace Vbt

/-! ## Items -/

theorem CfgItems.get_put (k k' : String) (v : CfgVal) (x : CfgItems) :
    (x.put k v).get k' = if k' = k then some v else x.get k' := by
  match x with
  | .nil =>
    rw [CfgItems.put, CfgItems.get, CfgItems.get]
    by_cases h : k = k'
    · simp [h]
    · simp [h, Ne.symm h, CfgItems.get]
  | .cons a w rest =>
    have ih := CfgItems.get_put k k' v rest
    rw [CfgItems.put]
    by_cases h : a = k
    · subst h
      rw [if_pos rfl, CfgItems.get, CfgItems.get]
      by_cases h2 : a = k'
      · simp [h2]
      · simp [h2, Ne.symm h2]
    · rw [if_neg h, CfgItems.get, CfgItems.get, ih]
      by_cases h2 : a = k'
      · subst h2; simp [h]
      · simp [h2]

theorem CfgItems.mem_keys (k : String) (x : CfgItems) : k ∈ x.keys ↔ (x.get k).isSome = true := by
  match x with
  | .nil => simp [CfgItems.keys, CfgItems.get]
  | .cons a w rest =>
    have ih := CfgItems.mem_keys k rest
    rw [CfgItems.keys, CfgItems.get, List.mem_cons, ih]
    by_cases h : a = k
    · simp [h]
    · simp [h, Ne.symm h]

theorem CfgItems.keys_put (k : String) (v : CfgVal) (x : CfgItems) :
    (x.put k v).keys = if k ∈ x.keys then x.keys else x.keys ++ [k] := by
  match x with
  | .nil => simp [CfgItems.put, CfgItems.keys]
  | .cons a w rest =>
    have ih := CfgItems.keys_put k v rest
    rw [CfgItems.put]
    by_cases h : a = k
    · subst h
      simp [CfgItems.keys]
    · rw [if_neg h, CfgItems.keys, CfgItems.keys, ih]
      by_cases h2 : k ∈ rest.keys
      · simp [h2]
      · simp [h2, Ne.symm h]

/-! ## One update -/

/-- What a key gets that exists in both. -/
def mergeVal (nested : Bool) (old new : CfgVal) : CfgVal :=
  match new with
  | .atom a => .atom a
  | .dict kv ys =>
    match old with
    | .atom _ => .dict kv ys
    | .dict kx xs => if nested && !kv.isAtomic then .dict kx (updateDict true true false kx xs ys).1 else .dict kv ys

theorem setOrSkip_force (same : Bool) (kind : DictKind) (x : CfgItems) (k : String) (v : CfgVal) :
    setOrSkip true same kind x k v = (if same && (x.get k).isNone then x else x.put k v, none) := by
  unfold setOrSkip
  by_cases h : (same && (x.get k).isNone) = true
  · rw [if_pos h, if_pos h]
  · rw [if_neg h, if_neg h]
    cases kind <;> simp [setDictItem, configSetItem]

/-- The state after one item. -/
def putMerged (nested same : Bool) (x : CfgItems) (k : String) (v : CfgVal) : CfgItems :=
  match x.get k with
  | none => if same then x else x.put k v
  | some old => x.put k (mergeVal nested old v)

theorem updateDict_cons (nested same : Bool) (kind : DictKind) (x : CfgItems) (k : String) (v : CfgVal) (rest : CfgItems)
    (h : ∀ kv ys, v = .dict kv ys → ∀ kx xs, (updateDict true true false kx xs ys).2 = none) :
    updateDict nested true same kind x (.cons k v rest) = updateDict nested true same kind (putMerged nested same x k v) rest := by
  rw [updateDict]
  unfold putMerged mergeVal updateItem
  cases v with
  | atom a =>
    simp only [setOrSkip_force, thenUpdate]
    cases hx : x.get k <;> cases same <;> simp
  | dict kv ys =>
    simp only
    cases hx : x.get k with
    | none => simp only [setOrSkip_force, hx, thenUpdate]; cases same <;> simp
    | some old =>
      cases old with
      | atom b => simp only [setOrSkip_force, hx, thenUpdate]; cases same <;> simp
      | dict kx xs =>
        simp only
        by_cases hn : (nested && !kv.isAtomic) = true
        · rw [if_pos hn, if_pos hn, updateChild]
          simp only [h kv ys rfl kx xs, thenUpdate]
        · rw [if_neg hn, if_neg hn, setOrSkip_force, hx]
          cases same <;> simp [thenUpdate]

theorem updateDict_force (y : CfgItems) (nested same : Bool) (kind : DictKind) (x : CfgItems) :
    (updateDict nested true same kind x y).2 = none := by
  match y with
  | .nil => rw [updateDict]
  | .cons k (.atom a) rest =>
    rw [updateDict_cons _ _ _ _ _ _ _ (fun _ _ h => by cases h)]
    exact updateDict_force rest nested same kind _
  | .cons k (.dict kv ys) rest =>
    rw [updateDict_cons _ _ _ _ _ _ _ (fun _ zs h kx xs => by
      cases h
      exact updateDict_force ys true false kx xs)]
    exact updateDict_force rest nested same kind _

theorem updateDict_cons' (nested same : Bool) (kind : DictKind) (x : CfgItems) (k : String) (v : CfgVal) (rest : CfgItems) :
    updateDict nested true same kind x (.cons k v rest) = updateDict nested true same kind (putMerged nested same x k v) rest :=
  updateDict_cons _ _ _ _ _ _ _ (fun _ ys _ kx xs => updateDict_force ys true false kx xs)

theorem putMerged_get (nested same : Bool) (x : CfgItems) (k k' : String) (v : CfgVal) :
    (putMerged nested same x k v).get k' = if k' = k then
      (match x.get k with
      | none => if same then none else some v
      | some old => some (mergeVal nested old v)) else x.get k' := by
  unfold putMerged
  cases hx : x.get k with
  | none =>
    by_cases h : k' = k
    · subst h; cases same <;> simp [hx, CfgItems.get_put]
    · cases same <;> simp [h, CfgItems.get_put]
  | some old => simp only [CfgItems.get_put]

/-- Each key of the updated dictionary. -/
theorem updateDict_get (y : CfgItems) (hy : y.keys.Nodup) (nested same : Bool) (kind : DictKind) (x : CfgItems) (k : String) :
    (updateDict nested true same kind x y).1.get k =
      match y.get k with
      | none => x.get k
      | some v =>
        match x.get k with
        | none => if same then none else some v
        | some old => some (mergeVal nested old v) := by
  match y with
  | .nil => rw [updateDict]; rfl
  | .cons a w rest =>
    rw [CfgItems.keys, List.nodup_cons] at hy
    have ih := updateDict_get rest hy.2 nested same kind (putMerged nested same x a w) k
    rw [updateDict_cons', ih, CfgItems.get]
    by_cases h : a = k
    · subst h
      have hr : rest.get a = none := by
        have := hy.1
        rw [CfgItems.mem_keys] at this
        simpa using this
      rw [hr, if_pos rfl]
      simp only [putMerged_get, if_true]
    · rw [if_neg h, putMerged_get, if_neg (Ne.symm h)]

theorem putMerged_keys (nested : Bool) (x : CfgItems) (k : String) (v : CfgVal) :
    (putMerged nested false x k v).keys = if k ∈ x.keys then x.keys else x.keys ++ [k] := by
  unfold putMerged
  cases hx : x.get k with
  | none => simp [CfgItems.keys_put]
  | some old => simp [CfgItems.keys_put]

/-- The keys keep their order; new keys follow in the order of the other dictionary. -/
theorem C51_keys {y : CfgItems} (hy : y.keys.Nodup) (nested : Bool) (kind : DictKind) (x : CfgItems) :
    (updateDict nested true false kind x y).1.keys = x.keys ++ y.keys.filter (fun k => decide (k ∉ x.keys)) := by
  match y with
  | .nil => rw [updateDict, CfgItems.keys]; simp
  | .cons a w rest =>
    rw [CfgItems.keys, List.nodup_cons] at hy
    have ih := C51_keys hy.2 nested kind (putMerged nested false x a w)
    rw [updateDict_cons', ih, putMerged_keys, CfgItems.keys]
    by_cases h : a ∈ x.keys
    · rw [if_pos h, List.filter_cons_of_neg (by simpa using h)]
    · rw [if_neg h, List.filter_cons_of_pos (by simpa using h)]
      simp only [List.append_assoc, List.singleton_append, List.mem_append, List.mem_singleton, not_or]
      congr 2
      apply List.filter_congr
      intro k hk
      have : k ≠ a := fun h => hy.1 (h ▸ hk)
      simp [this]

/-! ## Paths -/

theorem CfgItems.Ok.of_get {x : CfgItems} (h : x.Ok) {k : String} {v : CfgVal} (hv : x.get k = some v) : v.Ok := by
  match x with
  | .nil => simp [CfgItems.get] at hv
  | .cons a w rest =>
    rw [CfgItems.Ok] at h
    rw [CfgItems.get] at hv
    by_cases hk : a = k
    · rw [if_pos hk] at hv
      cases hv
      exact h.1
    · rw [if_neg hk] at hv
      exact h.2.of_get hv

/-- Right-biased: what replaces in the new value stands in the result. -/
theorem mergeVal_leaf {p : List String} {old new w : CfgVal} (hok : new.Ok) (h : new.at p = some w) (hw : w.Leaf) :
    (mergeVal true old new).at p = some w := by
  induction p generalizing old new with
  | nil =>
    simp only [CfgVal.at, Option.some.injEq] at h
    subst h
    unfold mergeVal
    cases new with
    | atom a => rfl
    | dict kv ys =>
      cases old with
      | atom b => rfl
      | dict kx xs =>
        have : kv.isAtomic = true := hw
        simp [this, CfgVal.at]
  | cons k p ih =>
    cases new with
    | atom a => simp [CfgVal.at] at h
    | dict kv ys =>
      unfold mergeVal
      cases old with
      | atom b => exact h
      | dict kx xs =>
        simp only
        by_cases hn : kv.isAtomic = true
        · simp only [hn, Bool.not_true, Bool.and_false, Bool.false_eq_true, if_false]
          exact h
        · rw [Bool.not_eq_true] at hn
          simp only [hn, Bool.not_false, Bool.and_true, if_true]
          rw [CfgVal.at] at h ⊢
          rw [CfgVal.Ok] at hok
          rw [updateDict_get ys hok.1]
          cases hy : ys.get k with
          | none => rw [hy] at h; cases h
          | some v =>
            rw [hy] at h
            simp only at h ⊢
            cases hx : xs.get k with
            | none => exact h
            | some o => exact ih (hok.2.of_get hy) h

/-- Nested: a path the new value says nothing about keeps what the old one has. -/
theorem mergeVal_silent {p : List String} {old new : CfgVal} (hok : new.Ok) (h : new.Silent p) :
    (mergeVal true old new).at p = old.at p := by
  induction p generalizing old new with
  | nil => cases new <;> exact absurd h (by simp [CfgVal.Silent])
  | cons k p ih =>
    cases new with
    | atom a => exact absurd h (by simp [CfgVal.Silent])
    | dict kv ys =>
      rw [CfgVal.Silent] at h
      rw [CfgVal.Ok] at hok
      unfold mergeVal
      cases old with
      | atom b =>
        simp only [CfgVal.at]
        -- the new dictionary has nothing at the path
        have key : ∀ (q : List String) (v : CfgVal), v.Silent q → v.at q = none := by
          intro q
          induction q with
          | nil => intro v hv; cases v <;> exact absurd hv (by simp [CfgVal.Silent])
          | cons j q ihq =>
            intro v hv
            cases v with
            | atom a => rfl
            | dict kw zs =>
              rw [CfgVal.Silent] at hv
              rw [CfgVal.at]
              cases hz : zs.get j with
              | none => rfl
              | some u =>
                rw [hz] at hv
                exact ihq u hv.2
        have := key (k :: p) (.dict kv ys) (by rw [CfgVal.Silent]; exact h)
        rw [CfgVal.at] at this
        exact this
      | dict kx xs =>
        simp only [h.1, Bool.not_false, Bool.and_true, if_true]
        rw [CfgVal.at, CfgVal.at, updateDict_get ys hok.1]
        cases hy : ys.get k with
        | none => rfl
        | some v =>
          have h2 := h.2
          rw [hy] at h2
          simp only at h2 ⊢
          cases hx : xs.get k with
          | none =>
            simp only [Bool.false_eq_true, if_false]
            have := ih (old := .atom 0) (hok.2.of_get hy) h2
            have e : mergeVal true (.atom 0) v = v := by cases v <;> rfl
            rw [e] at this
            rw [this]
            cases p with
            | nil => cases v <;> exact absurd h2 (by simp [CfgVal.Silent])
            | cons j q => rfl
          | some o => exact ih (hok.2.of_get hy) h2

/-! ## Merging -/

theorem CfgItems.get_eq_nil {x : CfgItems} (h : x = .nil) (k : String) : x.get k = none := by rw [h]; rfl

theorem mergeTwo_eq {x y : DictKind × CfgItems} (hx : x.1.isAtomic = false) (hy : y.1.isAtomic = false) :
    CfgVal.dict (mergeTwo true false x y).1 (mergeTwo true false x y).2 = mergeVal true (.dict x.1 x.2) (.dict y.1 y.2) ∨
    (x.2 = .nil ∧ mergeTwo true false x y = y ∧ x.1 = .plain ∧ y.1 = .plain) := by
  unfold mergeTwo mergeVal
  by_cases h : x.1 = .plain ∧ y.1 = .plain ∧ x.2 = .nil
  · right
    simp only [if_pos h, hy, Bool.or_false, Bool.false_eq_true, if_false]
    exact ⟨h.2.2, trivial, h.1, h.2.1⟩
  · left
    simp [if_neg h, hx, hy]

theorem mergeTwo_at_leaf {x y : DictKind × CfgItems} {p : List String} {w : CfgVal} (hx : x.1 = .plain) (hy : y.1 = .plain)
    (hok : (CfgVal.dict y.1 y.2).Ok) (h : (CfgVal.dict y.1 y.2).at p = some w) (hw : w.Leaf) :
    (CfgVal.dict (mergeTwo true false x y).1 (mergeTwo true false x y).2).at p = some w := by
  rcases mergeTwo_eq (x := x) (y := y) (by rw [hx]; rfl) (by rw [hy]; rfl) with e | ⟨-, e, -⟩
  · rw [e]; exact mergeVal_leaf hok h hw
  · rw [e]; exact h

theorem mergeTwo_at_silent {x y : DictKind × CfgItems} {p : List String} (hx : x.1 = .plain) (hy : y.1 = .plain)
    (hok : (CfgVal.dict y.1 y.2).Ok) (h : (CfgVal.dict y.1 y.2).Silent p) :
    (CfgVal.dict (mergeTwo true false x y).1 (mergeTwo true false x y).2).at p = (CfgVal.dict x.1 x.2).at p := by
  rcases mergeTwo_eq (x := x) (y := y) (by rw [hx]; rfl) (by rw [hy]; rfl) with e | ⟨e0, e, -⟩
  · rw [e]; exact mergeVal_silent hok h
  · rw [e, e0]
    have := mergeVal_silent (old := .atom 0) hok h
    have e' : mergeVal true (.atom 0) (CfgVal.dict y.1 y.2) = CfgVal.dict y.1 y.2 := rfl
    rw [e'] at this
    rw [this]
    cases p with
    | nil => exact absurd h (by simp [CfgVal.Silent])
    | cons k p => rfl

theorem mergeTwo_kind {nested same : Bool} {x y : DictKind × CfgItems} (hx : x.1 = .plain) (hy : y.1 = .plain) :
    (mergeTwo nested same x y).1 = .plain := by
  unfold mergeTwo
  have ha : DictKind.plain.isAtomic = false := rfl
  by_cases h : x.1 = .plain ∧ y.1 = .plain ∧ x.2 = .nil
  · rw [if_pos h]
    simp only [hy, ha, Bool.or_self, Bool.false_eq_true, if_false]
  · rw [if_neg h]
    simp only [hx, hy, ha, Bool.or_self, Bool.false_eq_true, if_false, if_true]

theorem mergeAll_silent {x : DictKind × CfgItems} {ys : List (DictKind × CfgItems)} {p : List String} (hx : x.1 = .plain)
    (hy : ∀ y ∈ ys, y.1 = .plain ∧ (CfgVal.dict y.1 y.2).Ok ∧ (CfgVal.dict y.1 y.2).Silent p) :
    (CfgVal.dict (mergeAll true false x ys).1 (mergeAll true false x ys).2).at p = (CfgVal.dict x.1 x.2).at p := by
  induction ys generalizing x with
  | nil => rfl
  | cons y ys ih =>
    obtain ⟨h1, h2, h3⟩ := hy y (by simp)
    rw [mergeAll, ih (mergeTwo_kind hx h1) (fun z hz => hy z (List.mem_cons_of_mem _ hz)), mergeTwo_at_silent hx h1 h2 h3]

theorem mergeAll_append (nested same : Bool) (x : DictKind × CfgItems) (ys zs : List (DictKind × CfgItems)) :
    mergeAll nested same x (ys ++ zs) = mergeAll nested same (mergeAll nested same x ys) zs := by
  induction ys generalizing x with
  | nil => rfl
  | cons y ys ih => rw [List.cons_append, mergeAll, ih, mergeAll]

theorem mergeAll_kind {nested same : Bool} {x : DictKind × CfgItems} {ys : List (DictKind × CfgItems)} (hx : x.1 = .plain)
    (hy : ∀ y ∈ ys, y.1 = .plain) : (mergeAll nested same x ys).1 = .plain := by
  induction ys generalizing x with
  | nil => exact hx
  | cons y ys ih =>
    rw [mergeAll]
    exact ih (mergeTwo_kind hx (hy y (by simp))) (fun z hz => hy z (List.mem_cons_of_mem _ hz))

/-! ## Conversion of the arguments -/

mutual
theorem CfgVal.convert_ok (v : CfgVal) (h : v.Ok) : v.convert.Ok := by
  match v with
  | .atom x => exact trivial
  | .dict kind items =>
    rw [CfgVal.Ok] at h
    rw [CfgVal.convert, CfgVal.Ok]
    exact ⟨by rw [CfgItems.convert_keys]; exact h.1, CfgItems.convert_ok items h.2⟩
theorem CfgItems.convert_ok (x : CfgItems) (h : x.Ok) : x.convert.Ok := by
  match x with
  | .nil => exact trivial
  | .cons k v rest =>
    rw [CfgItems.Ok] at h
    rw [CfgItems.convert, CfgItems.Ok]
    exact ⟨CfgVal.convert_ok v h.1, CfgItems.convert_ok rest h.2⟩
theorem CfgItems.convert_keys (x : CfgItems) : x.convert.keys = x.keys := by
  match x with
  | .nil => rfl
  | .cons k v rest => rw [CfgItems.convert, CfgItems.keys, CfgItems.keys, CfgItems.convert_keys rest]
end

theorem CfgItems.convert_get (x : CfgItems) (k : String) : x.convert.get k = (x.get k).map CfgVal.convert := by
  match x with
  | .nil => rfl
  | .cons a v rest =>
    have ih := CfgItems.convert_get rest k
    rw [CfgItems.convert, CfgItems.get, CfgItems.get, ih]
    split <;> rfl

theorem CfgVal.convert_at (p : List String) (v : CfgVal) : v.convert.at p = (v.at p).map CfgVal.convert := by
  induction p generalizing v with
  | nil => rfl
  | cons k p ih =>
    cases v with
    | atom x => rfl
    | dict kind items =>
      rw [CfgVal.convert, CfgVal.at, CfgVal.at, CfgItems.convert_get]
      cases items.get k with
      | none => rfl
      | some v => exact ih v

theorem CfgVal.convert_leaf {v : CfgVal} (h : v.Leaf) : v.convert.Leaf := by
  cases v with
  | atom x => exact trivial
  | dict kind items =>
    have : kind.isAtomic = true := h
    rw [CfgVal.convert, this]
    rfl

theorem CfgVal.convert_silent (p : List String) (v : CfgVal) (h : v.Silent p) : v.convert.Silent p := by
  induction p generalizing v with
  | nil => cases v <;> exact absurd h (by simp [CfgVal.Silent])
  | cons k p ih =>
    cases v with
    | atom x => exact absurd h (by simp [CfgVal.Silent])
    | dict kind items =>
      rw [CfgVal.Silent] at h
      rw [CfgVal.convert, CfgVal.Silent, CfgItems.convert_get, h.1]
      refine ⟨rfl, ?_⟩
      have h2 := h.2
      cases hg : items.get k with
      | none => exact trivial
      | some v =>
        rw [hg] at h2
        exact ih v h2

/-- An argument of `merge_dicts` that is not `None` and not an atomic dictionary. -/
def PlainArg (d : Option (DictKind × CfgItems)) : Prop :=
  ∀ x, d = some x → x.1.isAtomic = false ∧ (CfgVal.dict x.1 x.2).Ok

theorem PlainArg.convert {d : Option (DictKind × CfgItems)} (h : PlainArg d) :
    (convertToDict true d).1 = .plain ∧ (CfgVal.dict (convertToDict true d).1 (convertToDict true d).2).Ok := by
  cases d with
  | none => exact ⟨rfl, by simp [convertToDict, CfgVal.Ok, CfgItems.Ok, CfgItems.keys]⟩
  | some x =>
    obtain ⟨kind, items⟩ := x
    obtain ⟨h1, h2⟩ := h _ rfl
    simp only at h1 h2
    simp only [convertToDict, h1, Bool.false_eq_true, if_false, if_true]
    have := CfgVal.convert_ok _ h2
    rw [CfgVal.convert, h1] at this
    exact ⟨trivial, by simpa using this⟩

/-- An argument says nothing about a path. -/
def SilentArg (p : List String) (d : Option (DictKind × CfgItems)) : Prop :=
  ∀ x, d = some x → (CfgVal.dict x.1 x.2).Silent p

/-- Merging any number of dictionaries (or `None`s): at every path stands what the last dictionary says that says anything
about the path; dictionaries that are not atomic are merged key by key at any depth, atomic ones replace. -/
theorem C51_last_wins {pre post : List (Option (DictKind × CfgItems))} {kind : DictKind} {items : CfgItems}
    {p : List String} {w : CfgVal} (hpre : ∀ d ∈ pre, PlainArg d) (hd : PlainArg (some (kind, items)))
    (hpost : ∀ d ∈ post, PlainArg d ∧ SilentArg p d) (hlen : 2 ≤ pre.length + 1 + post.length)
    (hat : (CfgVal.dict kind items).at p = some w) (hw : w.Leaf) (hp : p ≠ []) :
    ∃ out, mergeDicts true false (pre ++ some (kind, items) :: post) = .ok out ∧
      (CfgVal.dict out.1 out.2).at p = some w.convert := by
  -- the merged dictionary is a fold
  have hfold : ∀ x ys, ys ≠ [] → mergeDicts true false (x :: ys) =
      .ok (mergeAll true false (convertToDict true x) (ys.map (convertToDict true))) := by
    intro x ys hne
    cases ys with
    | nil => exact absurd rfl hne
    | cons y ys => rfl
  have hpost' : ∀ y ∈ post.map (convertToDict true), y.1 = .plain ∧ (CfgVal.dict y.1 y.2).Ok ∧ (CfgVal.dict y.1 y.2).Silent p := by
    intro y hy
    obtain ⟨d, hd, rfl⟩ := List.mem_map.mp hy
    obtain ⟨h1, h2⟩ := hpost d hd
    refine ⟨h1.convert.1, h1.convert.2, ?_⟩
    cases d with
    | none =>
      cases p with
      | nil => exact absurd rfl hp
      | cons k p =>
        simp [convertToDict, CfgVal.Silent, CfgItems.get, DictKind.isAtomic]
    | some x =>
      have := CfgVal.convert_silent p _ (h2 x rfl)
      obtain ⟨kx, ix⟩ := x
      have hk : kx.isAtomic = false := (h1 _ rfl).1
      rw [CfgVal.convert, hk] at this
      simpa [convertToDict, hk] using this
  have hk : kind.isAtomic = false := (hd _ rfl).1
  have hat' : (CfgVal.dict (convertToDict true (some (kind, items))).1 (convertToDict true (some (kind, items))).2).at p =
      some w.convert := by
    have := CfgVal.convert_at p (.dict kind items)
    rw [hat, Option.map_some, CfgVal.convert] at this
    exact this
  cases pre with
  | nil =>
    rw [List.nil_append, hfold _ _ (by rintro rfl; simp at hlen)]
    refine ⟨_, rfl, ?_⟩
    rw [mergeAll_silent hd.convert.1 hpost', hat']
  | cons d0 pre =>
    rw [List.cons_append, hfold _ _ (by simp)]
    refine ⟨_, rfl, ?_⟩
    rw [List.map_append, List.map_cons, mergeAll_append, mergeAll]
    have hk1 : (mergeAll true false (convertToDict true d0) (pre.map (convertToDict true))).1 = .plain := by
      apply mergeAll_kind (hpre d0 (by simp)).convert.1
      intro y hy
      obtain ⟨d, hd, rfl⟩ := List.mem_map.mp hy
      exact (hpre d (List.mem_cons_of_mem _ hd)).convert.1
    rw [mergeAll_silent (mergeTwo_kind hk1 hd.convert.1) hpost']
    exact mergeTwo_at_leaf hk1 hd.convert.1 hd.convert.2 hat' (CfgVal.convert_leaf hw)

/-- Merging does not invent anything: a path no dictionary says anything about is missing. -/
theorem C51_nothing_else {dicts : List (Option (DictKind × CfgItems))} {out : DictKind × CfgItems} {p : List String}
    (hd : ∀ d ∈ dicts, PlainArg d ∧ SilentArg p d) (hp : p ≠ []) (h : mergeDicts true false dicts = .ok out) :
    (CfgVal.dict out.1 out.2).at p = none := by
  have hs : ∀ d, PlainArg d → SilentArg p d → (CfgVal.dict (convertToDict true d).1 (convertToDict true d).2).Silent p := by
    intro d h1 h2
    cases d with
    | none =>
      cases p with
      | nil => exact absurd rfl hp
      | cons k p => simp [convertToDict, CfgVal.Silent, CfgItems.get, DictKind.isAtomic]
    | some x =>
      have := CfgVal.convert_silent p _ (h2 x rfl)
      obtain ⟨kx, ix⟩ := x
      have hk : kx.isAtomic = false := (h1 _ rfl).1
      rw [CfgVal.convert, hk] at this
      simpa [convertToDict, hk] using this
  unfold mergeDicts at h
  cases dicts with
  | nil => cases h
  | cons x dicts =>
    cases dicts with
    | nil => cases h
    | cons y dicts =>
      simp only [List.map_cons, Except.ok.injEq] at h
      subst h
      have hx := hd x (by simp)
      rw [mergeAll_silent hx.1.convert.1]
      · have h1 := mergeVal_silent (old := .atom 0) hx.1.convert.2 (hs x hx.1 hx.2)
        have e' : ∀ k i, mergeVal true (.atom 0) (CfgVal.dict k i) = CfgVal.dict k i := fun _ _ => rfl
        rw [e'] at h1
        rw [h1]
        cases p with
        | nil => exact absurd rfl hp
        | cons k p => rfl
      · intro z hz
        rw [← List.map_cons] at hz
        obtain ⟨d, hd', rfl⟩ := List.mem_map.mp hz
        have hdd := hd d (List.mem_cons_of_mem _ hd')
        exact ⟨hdd.1.convert.1, hdd.1.convert.2, hs d hdd.1 hdd.2⟩

/-- An atomic dictionary passed as an argument replaces everything before it, and is replaced by the next argument. -/
theorem C51_atomic (nested same : Bool) (x y : DictKind × CfgItems) (h : x.1.isAtomic = true ∨ y.1.isAtomic = true) :
    mergeTwo nested same x y = y := by
  unfold mergeTwo
  by_cases h0 : x.1 = .plain ∧ y.1 = .plain ∧ x.2 = .nil
  · simp [if_pos h0]
  · have : (x.1.isAtomic || y.1.isAtomic) = true := by
      rcases h with h | h <;> simp [h]
    simp [if_neg h0, this]

/-- Without nesting each key has the value of the last dictionary containing it. -/
theorem C51_not_nested {x y : CfgItems} (hy : y.keys.Nodup) (kind : DictKind) (k : String) :
    (updateDict false true false kind x y).1.get k = if (y.get k).isSome then y.get k else x.get k := by
  rw [updateDict_get y hy]
  cases h : y.get k with
  | none => rfl
  | some v =>
    cases x.get k with
    | none => rfl
    | some old =>
      simp only [Option.isSome_some, if_true, Option.some.injEq]
      unfold mergeVal
      cases v with
      | atom a => rfl
      | dict kv ys => cases old <;> simp

/-- With `same_keys` no key is added to a first dictionary that is not empty. -/
theorem C51_same_keys_partial {x y : CfgItems} {nested : Bool} (hx : x ≠ .nil) :
    (mergeTwo nested true (.plain, x) (.plain, y)).2.keys = x.keys := by
  have key : ∀ (y x : CfgItems), (updateDict nested true true .plain x y).1.keys = x.keys := by
    intro y
    match y with
    | .nil => intro x; rw [updateDict]
    | .cons k v rest =>
      intro x
      rw [updateDict_cons']
      have ih : ∀ x, (updateDict nested true true .plain x rest).1.keys = x.keys := by
        intro x
        exact C51_same_aux nested rest x
      rw [ih]
      unfold putMerged
      cases h : x.get k with
      | none => simp
      | some old =>
        simp only
        rw [CfgItems.keys_put, if_pos ((CfgItems.mem_keys k x).mpr (by rw [h]; rfl))]
  unfold mergeTwo
  rw [if_neg (by simp [hx])]
  simp [DictKind.isAtomic, key]
where
  C51_same_aux (nested : Bool) (y x : CfgItems) : (updateDict nested true true .plain x y).1.keys = x.keys := by
    match y with
    | .nil => rw [updateDict]
    | .cons k v rest =>
      rw [updateDict_cons', C51_same_aux nested rest]
      unfold putMerged
      cases h : x.get k with
      | none => simp
      | some old =>
        simp only
        rw [CfgItems.keys_put, if_pos ((CfgItems.mem_keys k x).mpr (by rw [h]; rfl))]

/-- `same_keys` is not respected if the first dictionary is empty. -/
theorem C51_counterexample_empty :
    (mergeDicts true true [some (.plain, .nil), some (.plain, .cons "a" (.atom 1) .nil)]).toOption =
      some (.plain, .cons "a" (.atom 1) .nil) := by decide +kernel

/-- `same_keys` is not respected in child dictionaries. -/
theorem C51_counterexample_child :
    (mergeDicts true true [some (.plain, .cons "a" (.dict .plain (.cons "b" (.atom 1) .nil)) .nil),
      some (.plain, .cons "a" (.dict .plain (.cons "c" (.atom 2) .nil)) .nil)]).toOption =
      some (.plain, .cons "a" (.dict .plain (.cons "b" (.atom 1) (.cons "c" (.atom 2) .nil))) .nil) := by decide +kernel

/-- Merging is not associative: a number between two dictionaries. -/
theorem C51_not_associative : ∃ a b c : DictKind × CfgItems,
    mergeTwo true false (mergeTwo true false a b) c ≠ mergeTwo true false a (mergeTwo true false b c) :=
  ⟨(.plain, .cons "a" (.dict .plain (.cons "b" (.atom 1) .nil)) .nil), (.plain, .cons "a" (.atom 5) .nil),
    (.plain, .cons "a" (.dict .plain (.cons "c" (.atom 2) .nil)) .nil), by decide +kernel⟩

/-! ## The hypotheses can be met -/

/-- `{"a": {"b": 1, "c": 2}, "d": atomic_dict(e=3)}`, as a config. -/
def wLeft : DictKind × CfgItems := (.config true true,
  .cons "a" (.dict .plain (.cons "b" (.atom 1) (.cons "c" (.atom 2) .nil))) (.cons "d" (.dict .atomic (.cons "e" (.atom 3) .nil)) .nil))

/-- `{"a": {"c": 4, "f": 5}}`. -/
def wRight : DictKind × CfgItems := (.plain, .cons "a" (.dict .plain (.cons "c" (.atom 4) (.cons "f" (.atom 5) .nil))) .nil)

theorem wRight_ok : PlainArg (some wRight) := by
  rintro _ ⟨⟩
  simp [wRight, CfgVal.Ok, CfgItems.Ok, CfgItems.keys, DictKind.isAtomic]

theorem wLeft_ok : PlainArg (some wLeft) := by
  rintro _ ⟨⟩
  simp [wLeft, CfgVal.Ok, CfgItems.Ok, CfgItems.keys, DictKind.isAtomic]

example : ∃ out, mergeDicts true false [some wLeft, none, some wRight] = .ok out ∧
    (CfgVal.dict out.1 out.2).at ["a", "c"] = some (.atom 4) :=
  C51_last_wins (pre := [some wLeft, none]) (post := []) (p := ["a", "c"]) (w := .atom 4) (by
      intro d hd
      rw [List.mem_cons, List.mem_singleton] at hd
      rcases hd with rfl | rfl
      · exact wLeft_ok
      · rintro _ ⟨⟩) wRight_ok (by simp) (by simp) rfl trivial (by simp)

example : ∃ out, mergeDicts true false [some wLeft, some wRight] = .ok out ∧
    (CfgVal.dict out.1 out.2).at ["d"] = some (.dict .atomic (.cons "e" (.atom 3) .nil)) :=
  C51_last_wins (pre := []) (post := [some wRight]) (p := ["d"]) (w := .dict .atomic (.cons "e" (.atom 3) .nil)) (by simp) wLeft_ok (by
      intro d hd
      rw [List.mem_singleton] at hd
      subst hd
      refine ⟨wRight_ok, ?_⟩
      rintro _ ⟨⟩
      simp [wRight, CfgVal.Silent, CfgItems.get, DictKind.isAtomic]) (by simp) rfl rfl (by simp)

end Vbt
