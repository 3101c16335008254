import Verif.Spec.ConfigOps
import Verif.Props.C51

/-!
# C52: read-only and frozen configs stay that way, and reset restores
-/

namespace Vbt

theorem CfgItems.put_same {k : String} {v : CfgVal} {x : CfgItems} (h : x.get k = some v) : x.put k v = x := by
  match x with
  | .nil => simp [CfgItems.get] at h
  | .cons a w rest =>
    rw [CfgItems.get] at h
    rw [CfgItems.put]
    by_cases ha : a = k
    · rw [if_pos ha] at h ⊢
      cases h
      rfl
    · rw [if_neg ha] at h ⊢
      rw [CfgItems.put_same h]

theorem CfgItems.Sealed.of_get {x : CfgItems} (h : x.Sealed) {k : String} {v : CfgVal} (hv : x.get k = some v) : v.Sealed := by
  match x with
  | .nil => simp [CfgItems.get] at hv
  | .cons a w rest =>
    rw [CfgItems.Sealed] at h
    rw [CfgItems.get] at hv
    by_cases hk : a = k
    · rw [if_pos hk] at hv
      cases hv
      exact h.1
    · rw [if_neg hk] at hv
      exact CfgItems.Sealed.of_get h.2 hv

/-! ## Read-only -/

theorem setOrSkip_readonly (same : Bool) {kind : DictKind} (hk : kind.isReadonly = true) (x : CfgItems) (k : String)
    (v : CfgVal) : (setOrSkip false same kind x k v).1 = x := by
  unfold setOrSkip
  split
  · rfl
  · cases kind with
    | plain => cases hk
    | atomic => cases hk
    | config ro fr =>
      have : ro = true := hk
      subst this
      rfl
    | atomicConfig ro fr =>
      have : ro = true := hk
      subst this
      rfl

theorem updateItem_readonly {nested same : Bool} {kind : DictKind} (hk : kind.isReadonly = true) {x : CfgItems} {k : String}
    {v : CfgVal} {child} (hc : nested = true → ∀ kx xs, x.get k = some (.dict kx xs) → (child kx xs).1 = xs) :
    (updateItem nested false same kind x k v child).1 = x := by
  unfold updateItem
  cases v with
  | atom a => exact setOrSkip_readonly _ hk _ _ _
  | dict kv ys =>
    cases hg : x.get k with
    | none => exact setOrSkip_readonly _ hk _ _ _
    | some w =>
      cases w with
      | atom a => exact setOrSkip_readonly _ hk _ _ _
      | dict kx xs =>
        simp only
        by_cases hn : (nested && !kv.isAtomic) = true
        · rw [if_pos hn]
          simp only
          have hnn : nested = true := by revert hn; cases nested <;> simp
          rw [hc hnn kx xs hg]
          exact CfgItems.put_same hg
        · rw [if_neg hn]
          exact setOrSkip_readonly _ hk _ _ _

theorem thenUpdate_fst {r : CfgItems × Option Err} {next} {x : CfgItems} (h1 : r.1 = x) (h2 : (next x).1 = x) :
    (thenUpdate r next).1 = x := by
  unfold thenUpdate
  cases r.2 with
  | some e => exact h1
  | none => simp only; rw [h1]; exact h2

/-- `update_dict` without force does not change a read-only config whose children are read-only configs. -/
theorem updateDict_sealed (y : CfgItems) {nested same : Bool} {kind : DictKind} (hk : kind.isReadonly = true) {x : CfgItems}
    (hx : nested = true → x.Sealed) : (updateDict nested false same kind x y).1 = x := by
  match y with
  | .nil => rw [updateDict]
  | .cons k (.atom a) rest =>
    rw [updateDict]
    refine thenUpdate_fst (updateItem_readonly hk ?_) (updateDict_sealed rest hk hx)
    intro _ kx xs _
    rw [updateChild]
  | .cons k (.dict kv ys) rest =>
    rw [updateDict]
    refine thenUpdate_fst (updateItem_readonly hk ?_) (updateDict_sealed rest hk hx)
    intro hn kx xs hg
    have hs := (hx hn).of_get hg
    rw [CfgVal.Sealed] at hs
    rw [updateChild]
    exact updateDict_sealed ys hs.1 (fun _ => hs.2)

/-- What a read-only config keeps. -/
theorem run_readonly {c : Cfg} (hr : c.readonly = true) {op : CfgOp} (hu : op.Unforced) (ho : op.Own)
    (hf : c.items.Sealed ∨ op.Flat c.nested) : (op.run c).1 = c := by
  cases op with
  | setItem k v force =>
    have : force = false := hu
    subst this
    simp [CfgOp.run, Cfg.setItem, configSetItem, hr]
  | setAttr k v =>
    simp only [CfgOp.run]
    split
    · simp [Cfg.setItem, configSetItem, hr]
    · rfl
  | delItem k force =>
    have : force = false := hu
    subst this
    simp [CfgOp.run, Cfg.delItem, Cfg.guardRemove, hr]
  | delAttr k =>
    simp only [CfgOp.run]
    split
    · simp [Cfg.delItem, Cfg.guardRemove, hr]
    · rfl
  | pop k d force =>
    have : force = false := hu
    subst this
    simp [CfgOp.run, Cfg.pop, Cfg.guardRemove, hr]
  | popItem force =>
    have : force = false := hu
    subst this
    simp [CfgOp.run, Cfg.popItem, Cfg.guardRemove, hr]
  | clear force =>
    have : force = false := hu
    subst this
    simp [CfgOp.run, Cfg.clear, Cfg.guardRemove, hr]
  | update o n force =>
    have : force = false := hu
    subst this
    have : (updateDict (n.getD c.nested) false false (.config c.readonly c.frozen) c.items o).1 = c.items := by
      refine updateDict_sealed o (by simpa [DictKind.isReadonly] using hr) ?_
      intro hn
      rcases hf with h | h
      · exact h
      · simp only [CfgOp.Flat] at h
        rw [h] at hn
        cases hn
    simp only [CfgOp.run, Cfg.update, this]
  | resetTo force =>
    have : force = false := hu
    subst this
    simp [CfgOp.run, Cfg.resetTo, hr]
  | checkpoint force =>
    have : force = false := hu
    subst this
    simp [CfgOp.run, Cfg.checkpoint, hr]
  | setDefault k v => exact absurd ho id
  | ior o => exact absurd ho id

/-- No history of unforced calls of the methods of `Config` changes a read-only config: not its items, not the dictionary it
is reset to, not its flags.  The methods `setdefault` and `|=` that `Config` inherits, and nested updates of children that
are not read-only configs themselves, are excluded: for them it is false (see the counterexamples). -/
theorem C52_readonly_partial {c : Cfg} (hr : c.readonly = true) {ops : List CfgOp}
    (hops : ∀ op ∈ ops, op.Unforced ∧ op.Own ∧ (c.items.Sealed ∨ op.Flat c.nested)) : runOps c ops = c := by
  induction ops with
  | nil => rfl
  | cons op ops ih =>
    rw [runOps]
    obtain ⟨h1, h2, h3⟩ := hops op (by simp)
    rw [run_readonly hr h1 h2 h3]
    exact ih (fun o ho => hops o (List.mem_cons_of_mem _ ho))

/-- Whatever is excluded above, the keys, and the values that are not dictionaries, stay: nested updates reach only into
child dictionaries. -/
def ShallowEq (x y : CfgItems) : Prop :=
  x.keys = y.keys ∧ ∀ k a, x.get k = some (.atom a) ↔ y.get k = some (.atom a)

theorem ShallowEq.refl (x : CfgItems) : ShallowEq x x := ⟨rfl, fun _ _ => Iff.rfl⟩

theorem ShallowEq.trans {x y z : CfgItems} (h1 : ShallowEq x y) (h2 : ShallowEq y z) : ShallowEq x z :=
  ⟨h1.1.trans h2.1, fun k a => (h1.2 k a).trans (h2.2 k a)⟩

theorem updateItem_shallow {nested same : Bool} {kind : DictKind} (hk : kind.isReadonly = true) (x : CfgItems) (k : String)
    (v : CfgVal) (child) : ShallowEq x (updateItem nested false same kind x k v child).1 := by
  have hset : ShallowEq x (setOrSkip false same kind x k v).1 := by
    rw [setOrSkip_readonly same hk]
    exact ShallowEq.refl x
  unfold updateItem
  cases v with
  | atom a => exact hset
  | dict kv ys =>
    cases hg : x.get k with
    | none => exact hset
    | some w =>
      cases w with
      | atom a => exact hset
      | dict kx xs =>
        simp only
        by_cases hn : (nested && !kv.isAtomic) = true
        · rw [if_pos hn]
          simp only
          refine ⟨?_, fun k' a => ?_⟩
          · rw [CfgItems.keys_put, if_pos ((CfgItems.mem_keys k x).mpr (by rw [hg]; rfl))]
          · rw [CfgItems.get_put]
            by_cases hkk : k' = k
            · rw [if_pos hkk, hkk, hg]; simp
            · rw [if_neg hkk]
        · rw [if_neg hn]
          exact hset

theorem updateDict_shallow (y : CfgItems) {nested same : Bool} {kind : DictKind} (hk : kind.isReadonly = true) (x : CfgItems) :
    ShallowEq x (updateDict nested false same kind x y).1 := by
  match y with
  | .nil => rw [updateDict]; exact ShallowEq.refl x
  | .cons k v rest =>
    rw [updateDict]
    have h1 := updateItem_shallow (nested := nested) (same := same) hk x k v (fun kx xs => updateChild false kx xs v)
    unfold thenUpdate
    cases h2 : (updateItem nested false same kind x k v (fun kx xs => updateChild false kx xs v)).2 with
    | some e => exact h1
    | none => exact h1.trans (updateDict_shallow rest hk _)

theorem runOps_readonly {c : Cfg} (hr : c.readonly = true) {ops : List CfgOp} (hops : ∀ op ∈ ops, op.Unforced ∧ op.Own) :
    ShallowEq c.items (runOps c ops).items ∧ (runOps c ops).reset = c.reset ∧ (runOps c ops).readonly = true := by
  induction ops generalizing c with
  | nil => exact ⟨ShallowEq.refl _, rfl, hr⟩
  | cons op ops ih =>
    rw [runOps]
    obtain ⟨h1, h2⟩ := hops op (by simp)
    have hrest : ∀ o ∈ ops, o.Unforced ∧ o.Own := fun o ho => hops o (List.mem_cons_of_mem _ ho)
    by_cases hf : op.Flat c.nested
    · rw [run_readonly hr h1 h2 (Or.inr hf)]
      exact ih hr hrest
    · cases op with
      | update o n force =>
        have : force = false := h1
        subst this
        obtain ⟨a1, a2, a3⟩ := ih (c := (CfgOp.run c (.update o n false)).1) (by exact hr) hrest
        have hs := updateDict_shallow o (nested := n.getD c.nested) (same := false) (kind := .config c.readonly c.frozen)
          (by simpa [DictKind.isReadonly] using hr) c.items
        exact ⟨hs.trans a1, a2, a3⟩
      | _ => exact absurd trivial hf

/-- With nested updates of any children: the keys, the values that are not dictionaries, and the dictionary the config is
reset to stay the same. -/
theorem C52_readonly_shallow {c : Cfg} (hr : c.readonly = true) {ops : List CfgOp} (hops : ∀ op ∈ ops, op.Unforced ∧ op.Own) :
    (runOps c ops).items.keys = c.items.keys ∧ (runOps c ops).reset = c.reset ∧
      ∀ k a, c.items.get k = some (.atom a) ↔ (runOps c ops).items.get k = some (.atom a) := by
  obtain ⟨h1, h2, -⟩ := runOps_readonly hr hops
  exact ⟨h1.1.symm, h2, h1.2⟩

/-- `setdefault` adds a key to a read-only and frozen config. -/
theorem C52_counterexample_setdefault :
    (runOps (Cfg.new .nil none true true false true) [.setDefault "a" (.atom 1)]).items = .cons "a" (.atom 1) .nil := by
  decide +kernel

/-- `|=` replaces a value of a read-only config. -/
theorem C52_counterexample_ior :
    (runOps (Cfg.new (.cons "a" (.atom 1) .nil) none true true false true) [.ior (.cons "a" (.atom 2) .nil)]).items =
      .cons "a" (.atom 2) .nil := by
  decide +kernel

/-- A nested update changes the child dictionary of a read-only config, without an exception. -/
theorem C52_counterexample_nested :
    CfgOp.run (Cfg.new (.cons "a" (.dict .plain (.cons "b" (.atom 1) .nil)) .nil) none true true true true)
      (.update (.cons "a" (.dict .plain (.cons "b" (.atom 2) .nil)) .nil) none false) =
      (⟨.cons "a" (.dict .plain (.cons "b" (.atom 2) .nil)) .nil, .cons "a" (.dict .plain (.cons "b" (.atom 1) .nil)) .nil,
        true, true, true, true⟩, none) := by
  decide +kernel

/-! ## Frozen -/

theorem CfgItems.get_none_of_keys {x : CfgItems} {k : String} (h : k ∉ x.keys) : x.get k = none := by
  rw [CfgItems.mem_keys] at h
  cases hg : x.get k with
  | none => rfl
  | some v => rw [hg] at h; exact absurd rfl h

/-- Every turn of `update_dict` leaves the dictionary or sets one key. -/
theorem updateItem_cases {nested force same : Bool} {kind : DictKind} {x : CfgItems} {k : String} {v : CfgVal} {child} :
    (updateItem nested force same kind x k v child).1 = x ∨
      (∃ w, (updateItem nested force same kind x k v child).1 = x.put k w ∧
        ((x.get k).isSome = true ∨ ∃ y, setDictItem force kind x k v = .ok y)) := by
  have hset : (setOrSkip force same kind x k v).1 = x ∨
      (∃ w, (setOrSkip force same kind x k v).1 = x.put k w ∧
        ((x.get k).isSome = true ∨ ∃ y, setDictItem force kind x k v = .ok y)) := by
    unfold setOrSkip
    split
    · exact Or.inl rfl
    · cases h : setDictItem force kind x k v with
      | error e => exact Or.inl rfl
      | ok y =>
        right
        refine ⟨v, ?_, Or.inr ⟨y, rfl⟩⟩
        have hcfg : ∀ ro fr, configSetItem ro fr force x k v = .ok y → y = x.put k v := by
          intro ro fr hc
          unfold configSetItem at hc
          split at hc
          · cases hc
          · split at hc
            · cases hc
            · cases hc; rfl
        cases kind with
        | plain => cases h; rfl
        | atomic => cases h; rfl
        | config ro fr => exact hcfg ro fr h
        | atomicConfig ro fr => exact hcfg ro fr h
  unfold updateItem
  cases v with
  | atom a => exact hset
  | dict kv ys =>
    cases hg : x.get k with
    | none => rw [hg] at hset; exact hset
    | some w =>
      cases w with
      | atom a => rw [hg] at hset; exact hset
      | dict kx xs =>
        simp only
        by_cases hn : (nested && !kv.isAtomic) = true
        · rw [if_pos hn]
          exact Or.inr ⟨_, rfl, Or.inl rfl⟩
        · rw [if_neg hn]
          rw [hg] at hset; exact hset

theorem updateItem_frozen {nested same ro : Bool} {x : CfgItems} {k : String} {v : CfgVal} {child} :
    (updateItem nested false same (.config ro true) x k v child).1.keys = x.keys := by
  rcases updateItem_cases (nested := nested) (force := false) (same := same) (kind := .config ro true) (x := x) (k := k)
    (v := v) (child := child) with h | ⟨w, h, h2⟩
  · rw [h]
  · rw [h, CfgItems.keys_put, if_pos]
    rw [CfgItems.mem_keys]
    rcases h2 with h2 | ⟨y, h2⟩
    · exact h2
    · unfold setDictItem configSetItem at h2
      simp only at h2
      split at h2
      · cases h2
      · split at h2
        · cases h2
        · rename_i hs
          simp only [Bool.not_false, Bool.true_and, Bool.not_eq_true, Option.isNone_eq_false_iff] at hs
          exact hs

theorem updateDict_frozen (y : CfgItems) {nested same ro : Bool} (x : CfgItems) :
    (updateDict nested false same (.config ro true) x y).1.keys = x.keys := by
  match y with
  | .nil => rw [updateDict]
  | .cons k v rest =>
    rw [updateDict]
    have h1 : (updateItem nested false same (.config ro true) x k v (fun kx xs => updateChild false kx xs v)).1.keys = x.keys :=
      updateItem_frozen
    unfold thenUpdate
    cases h2 : (updateItem nested false same (.config ro true) x k v (fun kx xs => updateChild false kx xs v)).2 with
    | some e => exact h1
    | none => exact (updateDict_frozen rest _).trans h1

theorem sameKeys_of_keys {x y : CfgItems} (h : x.keys = y.keys) : SameKeys x y := by
  intro k
  have := CfgItems.mem_keys k x
  rw [h, CfgItems.mem_keys] at this
  exact Bool.eq_iff_iff.mpr this.symm

/-- Resetting puts the items of the stored dictionary into an empty one. -/
theorem reset_get {y : CfgItems} (hy : y.keys.Nodup) (kind : DictKind) (k : String) :
    (updateDict false true false kind .nil y).1.get k = y.get k := by
  rw [updateDict_get y hy]
  cases y.get k with
  | none => rfl
  | some v => rfl

/-- The keys of the items and of the stored dictionary. -/
structure FrozenInv (c c' : Cfg) : Prop where
  frozen : c'.frozen = true
  nodup : c'.reset.keys.Nodup
  nodupItems : c'.items.keys.Nodup
  items : SameKeys c.items c'.items
  reset : SameKeys c.items c'.reset

theorem FrozenInv.put {c c' : Cfg} (h : FrozenInv c c') {x : CfgItems} (hx : x.keys = c'.items.keys) :
    FrozenInv c { c' with items := x } :=
  ⟨h.frozen, h.nodup, by show x.keys.Nodup; rw [hx]; exact h.nodupItems,
    fun k => (h.items k).trans (sameKeys_of_keys hx.symm k), h.reset⟩

theorem setItem_frozen {c : Cfg} (hf : c.frozen = true) (k : String) (v : CfgVal) :
    (c.setItem k v false).1 = c ∨ ∃ x, (c.setItem k v false).1 = { c with items := x } ∧ x.keys = c.items.keys := by
  unfold Cfg.setItem
  cases h : configSetItem c.readonly c.frozen false c.items k v with
  | error e => exact Or.inl rfl
  | ok x =>
    right
    refine ⟨x, rfl, ?_⟩
    unfold configSetItem at h
    split at h
    · cases h
    · split at h
      · cases h
      · rename_i hs
        cases h
        rw [hf] at hs
        simp only [Bool.not_false, Bool.true_and, Bool.not_eq_true, Option.isNone_eq_false_iff] at hs
        rw [CfgItems.keys_put, if_pos ((CfgItems.mem_keys k _).mpr hs)]

theorem guardRemove_frozen {c : Cfg} (hf : c.frozen = true) : ∃ e, c.guardRemove false = some e := by
  unfold Cfg.guardRemove
  by_cases hr : c.readonly = true
  · exact ⟨_, by rw [if_pos (by simp [hr])]⟩
  · exact ⟨_, by rw [if_neg (by simp [hr]), if_pos (by simp [hf])]⟩

theorem keys_nodup_reset {y : CfgItems} (hy : y.keys.Nodup) (kind : DictKind) :
    (updateDict false true false kind .nil y).1.keys = y.keys := by
  rw [C51_keys hy]
  simp [CfgItems.keys]

theorem FrozenInv.run {c c' : Cfg} (h : FrozenInv c c') {op : CfgOp} (hu : op.Unforced) (ho : op.Own) :
    FrozenInv c (op.run c').1 := by
  obtain ⟨e, he⟩ := guardRemove_frozen h.frozen
  have hset : ∀ k v, FrozenInv c (c'.setItem k v false).1 := by
    intro k v
    rcases setItem_frozen h.frozen k v with h1 | ⟨x, h1, h2⟩
    · rw [h1]; exact h
    · rw [h1]; exact h.put h2
  have hdel : ∀ k, FrozenInv c (c'.delItem k false).1 := by
    intro k
    simp only [Cfg.delItem, he]
    exact h
  cases op with
  | setItem k v force =>
    have : force = false := hu
    subst this
    exact hset k v
  | setAttr k v =>
    simp only [CfgOp.run]
    split
    · exact hset k v
    · exact h
  | delItem k force =>
    have : force = false := hu
    subst this
    exact hdel k
  | delAttr k =>
    simp only [CfgOp.run]
    split
    · exact hdel k
    · exact h
  | pop k d force =>
    have : force = false := hu
    subst this
    simp only [CfgOp.run, Cfg.pop, he]
    exact h
  | popItem force =>
    have : force = false := hu
    subst this
    simp only [CfgOp.run, Cfg.popItem, he]
    exact h
  | clear force =>
    have : force = false := hu
    subst this
    simp only [CfgOp.run, Cfg.clear, he]
    exact h
  | update o n force =>
    have : force = false := hu
    subst this
    simp only [CfgOp.run, Cfg.update]
    refine h.put ?_
    rw [h.frozen]
    exact updateDict_frozen o _
  | resetTo force =>
    simp only [CfgOp.run, Cfg.resetTo]
    split
    · exact h
    · simp only [Cfg.update, Cfg.clear, Cfg.guardRemove, Bool.not_true, Bool.false_and, Bool.false_eq_true, if_false,
        Option.getD_some]
      exact ⟨h.frozen, h.nodup, by
          show (updateDict false true false _ .nil c'.reset).1.keys.Nodup
          rw [keys_nodup_reset h.nodup]; exact h.nodup,
        fun k => by
          show _ = ((updateDict false true false _ .nil c'.reset).1.get k).isSome
          rw [reset_get h.nodup]; exact h.reset k, h.reset⟩
  | checkpoint force =>
    simp only [CfgOp.run, Cfg.checkpoint]
    split
    · exact h
    · exact ⟨h.frozen, h.nodupItems, h.nodupItems, h.items, h.items⟩
  | setDefault k v => exact absurd ho id
  | ior o => exact absurd ho id

/-- No history of unforced calls of the methods of `Config` adds or removes a key of a frozen config that was created
without a separate dictionary to reset to.  `setdefault` and `|=`, which `Config` inherits, are excluded. -/
theorem C52_frozen_partial {dct : CfgItems} (hd : dct.keys.Nodup) {ro nested asAttrs : Bool} {ops : List CfgOp}
    (hops : ∀ op ∈ ops, op.Unforced ∧ op.Own) (k : String) :
    ((runOps (Cfg.new dct none ro true nested asAttrs) ops).items.get k).isSome = (dct.get k).isSome := by
  have key : ∀ (c c' : Cfg) (ops : List CfgOp), (∀ op ∈ ops, op.Unforced ∧ op.Own) → FrozenInv c c' →
      FrozenInv c (runOps c' ops) := by
    intro c c' ops
    induction ops generalizing c' with
    | nil => intro _ h; exact h
    | cons op ops ih =>
      intro ho h
      rw [runOps]
      obtain ⟨h1, h2⟩ := ho op (by simp)
      exact ih _ (fun o hoo => ho o (List.mem_cons_of_mem _ hoo)) (h.run h1 h2)
  have h0 : FrozenInv (Cfg.new dct none ro true nested asAttrs) (Cfg.new dct none ro true nested asAttrs) :=
    ⟨rfl, hd, hd, fun _ => rfl, fun _ => rfl⟩
  exact ((key _ _ ops hops h0).items k).symm

/-- With a separate dictionary, `reset` exchanges the keys of a frozen config. -/
theorem C52_counterexample_reset_keys :
    (runOps (Cfg.new (.cons "a" (.atom 1) .nil) (some (.cons "b" (.atom 2) .nil)) false true false false)
      [.resetTo false]).items = .cons "b" (.atom 2) .nil := by
  decide +kernel

/-! ## Reset -/

/-- `x` followed by `y`. -/
def CfgItems.append : CfgItems → CfgItems → CfgItems
  | .nil, y => y
  | .cons k v rest, y => .cons k v (rest.append y)

theorem CfgItems.put_new {k : String} {v : CfgVal} {x : CfgItems} (h : k ∉ x.keys) : x.put k v = x.append (.cons k v .nil) := by
  match x with
  | .nil => rfl
  | .cons a w rest =>
    rw [CfgItems.keys, List.mem_cons, not_or] at h
    rw [CfgItems.put, if_neg (Ne.symm h.1), CfgItems.put_new h.2]
    rfl

theorem CfgItems.append_assoc (x y z : CfgItems) : (x.append y).append z = x.append (y.append z) := by
  match x with
  | .nil => rfl
  | .cons k v rest => rw [CfgItems.append, CfgItems.append, CfgItems.append, CfgItems.append_assoc rest y z]

theorem CfgItems.append_nil (x : CfgItems) : x.append .nil = x := by
  match x with
  | .nil => rfl
  | .cons k v rest => rw [CfgItems.append, CfgItems.append_nil rest]

theorem updateDict_append (y : CfgItems) (hy : y.keys.Nodup) (kind : DictKind) (x : CfgItems)
    (hd : ∀ k ∈ y.keys, k ∉ x.keys) : (updateDict false true false kind x y).1 = x.append y := by
  match y with
  | .nil =>
    rw [updateDict]
    exact (CfgItems.append_nil x).symm
  | .cons k v rest =>
    rw [CfgItems.keys, List.nodup_cons] at hy
    have hk : k ∉ x.keys := hd k (by simp [CfgItems.keys])
    rw [updateDict_cons']
    have hp : putMerged false false x k v = x.put k v := by
      unfold putMerged
      rw [CfgItems.get_none_of_keys hk]
      rfl
    rw [hp, updateDict_append rest hy.2 kind (x.put k v), CfgItems.put_new hk, CfgItems.append_assoc]
    · rfl
    · intro a ha
      rw [CfgItems.keys_put, if_neg hk]
      intro hmem
      rcases List.mem_append.mp hmem with h1 | h1
      · exact hd a (by simp [CfgItems.keys, ha]) h1
      · rw [List.mem_singleton] at h1
        subst h1
        exact hy.1 ha

/-- `reset` gives the stored dictionary. -/
theorem resetTo_items {c : Cfg} (hc : c.reset.keys.Nodup) {force : Bool} (h : force = true ∨ c.readonly = false) :
    (c.resetTo force).1.items = c.reset ∧ (c.resetTo force).2 = none := by
  unfold Cfg.resetTo
  rw [if_neg (by rcases h with h | h <;> simp [h])]
  have hcl : (c.clear true).1 = { c with items := .nil } := rfl
  rw [hcl]
  unfold Cfg.update
  simp only [Option.getD_some]
  refine ⟨?_, updateDict_force _ _ _ _ _⟩
  rw [updateDict_append _ hc _ _ (by simp [CfgItems.keys])]
  rfl

/-- No key twice, in the items and in the stored dictionary. -/
def Cfg.Tidy (c : Cfg) : Prop := c.items.keys.Nodup ∧ c.reset.keys.Nodup

theorem put_nodup {x : CfgItems} (h : x.keys.Nodup) (k : String) (v : CfgVal) : (x.put k v).keys.Nodup := by
  rw [CfgItems.keys_put]
  split
  · exact h
  · rename_i hk
    exact List.nodup_append.mpr ⟨h, by simp, by intro a ha b hb; simp at hb; subst hb; intro hab; exact hk (hab ▸ ha)⟩

theorem updateDict_nodup (y : CfgItems) {nested force same : Bool} {kind : DictKind} {x : CfgItems} (h : x.keys.Nodup) :
    (updateDict nested force same kind x y).1.keys.Nodup := by
  match y with
  | .nil => rw [updateDict]; exact h
  | .cons k v rest =>
    rw [updateDict]
    have h1 : (updateItem nested force same kind x k v (fun kx xs => updateChild force kx xs v)).1.keys.Nodup := by
      rcases updateItem_cases (nested := nested) (force := force) (same := same) (kind := kind) (x := x) (k := k) (v := v)
        (child := fun kx xs => updateChild force kx xs v) with h2 | ⟨w, h2, -⟩
      · rw [h2]; exact h
      · rw [h2]; exact put_nodup h k w
    unfold thenUpdate
    cases h2 : (updateItem nested force same kind x k v (fun kx xs => updateChild force kx xs v)).2 with
    | some e => exact h1
    | none => exact updateDict_nodup rest h1

theorem del_sublist (k : String) (x : CfgItems) : List.Sublist (x.del k).keys x.keys := by
  match x with
  | .nil => exact List.Sublist.refl _
  | .cons a w rest =>
    rw [CfgItems.del]
    by_cases h : a = k
    · rw [if_pos h]; exact List.sublist_cons_self _ _
    · rw [if_neg h]; exact (del_sublist k rest).cons_cons a

theorem dropLast_sublist (x : CfgItems) : List.Sublist x.dropLast.keys x.keys := by
  match x with
  | .nil => exact List.Sublist.refl _
  | .cons a w .nil => exact List.nil_sublist _
  | .cons a w (.cons b v rest) =>
    rw [CfgItems.dropLast]
    exact (dropLast_sublist (.cons b v rest)).cons_cons a

theorem putAll_nodup {x : CfgItems} (h : x.keys.Nodup) (y : CfgItems) : (x.putAll y).keys.Nodup := by
  match y with
  | .nil => exact h
  | .cons k v rest => exact putAll_nodup (put_nodup h k v) rest

/-- What one call does to the stored dictionary. -/
theorem run_reset {c : Cfg} (hc : c.Tidy) (op : CfgOp) :
    (op.run c).1.Tidy ∧ (op.run c).1.readonly = c.readonly ∧
      ((op.run c).1.reset = c.reset ∨ ∃ force, op = .checkpoint force ∧ (op.run c).1.reset = c.items) := by
  obtain ⟨hi, hr⟩ := hc
  have hset : ∀ k v force, (c.setItem k v force).1.Tidy ∧ (c.setItem k v force).1.readonly = c.readonly ∧
      (c.setItem k v force).1.reset = c.reset := by
    intro k v force
    unfold Cfg.setItem configSetItem
    by_cases h1 : (!force && c.readonly) = true
    · rw [if_pos h1]; exact ⟨⟨hi, hr⟩, rfl, rfl⟩
    · rw [if_neg h1]
      by_cases h2 : (!force && c.frozen && (c.items.get k).isNone) = true
      · rw [if_pos h2]; exact ⟨⟨hi, hr⟩, rfl, rfl⟩
      · rw [if_neg h2]; exact ⟨⟨put_nodup hi k v, hr⟩, rfl, rfl⟩
  have hdel : ∀ k force, (c.delItem k force).1.Tidy ∧ (c.delItem k force).1.readonly = c.readonly ∧
      (c.delItem k force).1.reset = c.reset := by
    intro k force
    unfold Cfg.delItem
    cases c.guardRemove force with
    | some e => exact ⟨⟨hi, hr⟩, rfl, rfl⟩
    | none =>
      simp only
      split
      · exact ⟨⟨hi, hr⟩, rfl, rfl⟩
      · exact ⟨⟨hi.sublist (del_sublist k _), hr⟩, rfl, rfl⟩
  have same : c.Tidy ∧ c.readonly = c.readonly ∧ (c.reset = c.reset ∨ False) := ⟨⟨hi, hr⟩, rfl, Or.inl rfl⟩
  cases op with
  | setItem k v force =>
    obtain ⟨h1, h2, h3⟩ := hset k v force
    exact ⟨h1, h2, Or.inl h3⟩
  | setAttr k v =>
    simp only [CfgOp.run]
    split
    · obtain ⟨h1, h2, h3⟩ := hset k v false
      exact ⟨h1, h2, Or.inl h3⟩
    · exact ⟨⟨hi, hr⟩, rfl, Or.inl rfl⟩
  | delItem k force =>
    obtain ⟨h1, h2, h3⟩ := hdel k force
    exact ⟨h1, h2, Or.inl h3⟩
  | delAttr k =>
    simp only [CfgOp.run]
    split
    · obtain ⟨h1, h2, h3⟩ := hdel k false
      exact ⟨h1, h2, Or.inl h3⟩
    · exact ⟨⟨hi, hr⟩, rfl, Or.inl rfl⟩
  | pop k d force =>
    simp only [CfgOp.run, Cfg.pop]
    cases c.guardRemove force with
    | some e => exact ⟨⟨hi, hr⟩, rfl, Or.inl rfl⟩
    | none =>
      simp only
      split
      · exact ⟨⟨hi, hr⟩, rfl, Or.inl rfl⟩
      · exact ⟨⟨hi.sublist (del_sublist k _), hr⟩, rfl, Or.inl rfl⟩
  | popItem force =>
    simp only [CfgOp.run, Cfg.popItem]
    cases c.guardRemove force with
    | some e => exact ⟨⟨hi, hr⟩, rfl, Or.inl rfl⟩
    | none =>
      simp only
      split
      · exact ⟨⟨hi, hr⟩, rfl, Or.inl rfl⟩
      · exact ⟨⟨hi.sublist (dropLast_sublist _), hr⟩, rfl, Or.inl rfl⟩
  | clear force =>
    simp only [CfgOp.run, Cfg.clear]
    cases c.guardRemove force with
    | some e => exact ⟨⟨hi, hr⟩, rfl, Or.inl rfl⟩
    | none => exact ⟨⟨by simp [CfgItems.keys], hr⟩, rfl, Or.inl rfl⟩
  | update o n force => exact ⟨⟨updateDict_nodup o hi, hr⟩, rfl, Or.inl rfl⟩
  | resetTo force =>
    simp only [CfgOp.run, Cfg.resetTo]
    split
    · exact ⟨⟨hi, hr⟩, rfl, Or.inl rfl⟩
    · exact ⟨⟨updateDict_nodup c.reset (x := .nil) (by simp [CfgItems.keys]), hr⟩, rfl, Or.inl rfl⟩
  | checkpoint force =>
    simp only [CfgOp.run, Cfg.checkpoint]
    split
    · exact ⟨⟨hi, hr⟩, rfl, Or.inl rfl⟩
    · exact ⟨⟨hi, hi⟩, rfl, Or.inr ⟨force, rfl, rfl⟩⟩
  | setDefault k v =>
    simp only [CfgOp.run]
    split
    · exact ⟨⟨put_nodup hi k v, hr⟩, rfl, Or.inl rfl⟩
    · exact ⟨⟨hi, hr⟩, rfl, Or.inl rfl⟩
  | ior o => exact ⟨⟨putAll_nodup hi o, hr⟩, rfl, Or.inl rfl⟩

theorem runOps_noCheckpoint {c : Cfg} (hc : c.Tidy) {ops : List CfgOp} (hops : ∀ op ∈ ops, op.NoCheckpoint) :
    (runOps c ops).Tidy ∧ (runOps c ops).readonly = c.readonly ∧ (runOps c ops).reset = c.reset := by
  induction ops generalizing c with
  | nil => exact ⟨hc, rfl, rfl⟩
  | cons op ops ih =>
    rw [runOps]
    obtain ⟨h1, h2, h3⟩ := run_reset hc op
    obtain ⟨a1, a2, a3⟩ := ih h1 (fun o ho => hops o (List.mem_cons_of_mem _ ho))
    refine ⟨a1, a2.trans h2, a3.trans ?_⟩
    rcases h3 with h3 | ⟨force, h3, -⟩
    · exact h3
    · have hn := hops op (by simp)
      rw [h3] at hn
      exact absurd hn id

theorem runOps_tidy {c : Cfg} (hc : c.Tidy) (ops : List CfgOp) : (runOps c ops).Tidy ∧ (runOps c ops).readonly = c.readonly := by
  induction ops generalizing c with
  | nil => exact ⟨hc, rfl⟩
  | cons op ops ih =>
    rw [runOps]
    obtain ⟨h1, h2, -⟩ := run_reset hc op
    obtain ⟨a1, a2⟩ := ih h1
    exact ⟨a1, a2.trans h2⟩

theorem runOps_append (c : Cfg) (a b : List CfgOp) : runOps c (a ++ b) = runOps (runOps c a) b := by
  induction a generalizing c with
  | nil => rfl
  | cons op a ih => exact ih _

/-- After any history without checkpoints, forced or not, `reset` (forced, or of a config that is not read-only) restores
exactly the items at creation, in their order; or those of `reset_dct` if that was given.  The full claim also needs that
children are not shared, see `C52_counterexample_shared`. -/
theorem C52_reset_partial {dct : CfgItems} {resetDct : Option CfgItems} (hd : dct.keys.Nodup)
    (hr : (resetDct.getD dct).keys.Nodup) {ro frozen nested asAttrs force : Bool} (hf : force = true ∨ ro = false)
    {ops : List CfgOp} (hops : ∀ op ∈ ops, op.NoCheckpoint) :
    (runOps (Cfg.new dct resetDct ro frozen nested asAttrs) (ops ++ [.resetTo force])).items = resetDct.getD dct := by
  have hc : (Cfg.new dct resetDct ro frozen nested asAttrs).Tidy := ⟨hd, hr⟩
  obtain ⟨h1, h2, h3⟩ := runOps_noCheckpoint hc hops
  rw [runOps_append]
  show (Cfg.resetTo _ force).1.items = _
  rw [(resetTo_items h1.2 (by rw [h2]; exact hf)).1, h3]
  rfl

/-- After a checkpoint `reset` restores the items at the checkpoint. -/
theorem C52_checkpoint_partial {c : Cfg} (hc : c.Tidy) {force1 force2 : Bool} (h1 : force1 = true ∨ c.readonly = false)
    (h2 : force2 = true ∨ c.readonly = false) (before : List CfgOp) {after : List CfgOp}
    (hops : ∀ op ∈ after, op.NoCheckpoint) :
    (runOps c (before ++ [.checkpoint force1] ++ after ++ [.resetTo force2])).items = (runOps c before).items := by
  obtain ⟨t1, t2⟩ := runOps_tidy hc before
  rw [runOps_append, runOps_append, runOps_append]
  have hck : runOps (runOps c before) [.checkpoint force1] = { runOps c before with reset := (runOps c before).items } := by
    show (Cfg.checkpoint _ force1).1 = _
    unfold Cfg.checkpoint
    rw [if_neg (by rw [t2]; rcases h1 with h | h <;> simp [h])]
  rw [hck]
  obtain ⟨a1, a2, a3⟩ := runOps_noCheckpoint (c := { runOps c before with reset := (runOps c before).items })
    ⟨t1.1, t1.1⟩ hops
  show (Cfg.resetTo _ force2).1.items = _
  rw [(resetTo_items a1.2 (by rw [a2]; exact t2.symm ▸ h2)).1, a3]

/-! ## The hypotheses can be met -/

/-- `{"a": 1, "b": Config({"c": 2}, readonly=True)}`. -/
def wCfg (ro fr : Bool) : Cfg :=
  Cfg.new (.cons "a" (.atom 1) (.cons "b" (.dict (.config true false) (.cons "c" (.atom 2) .nil)) .nil)) none ro fr true true

example : (wCfg true false).items.Sealed := by
  simp [wCfg, Cfg.new, CfgItems.Sealed, CfgVal.Sealed, DictKind.isReadonly]

example : (runOps (wCfg true false) [.setItem "a" (.atom 5) false, .update (.cons "b" (.dict .plain (.cons "c" (.atom 3) .nil))
    .nil) none false, .clear false]) = wCfg true false := by decide +kernel

example : (runOps (wCfg false true) [.setItem "a" (.atom 5) false, .setItem "z" (.atom 5) false, .pop "a" none false]).items.keys
    = ["a", "b"] := by decide +kernel

example : (runOps (wCfg false true) [.setItem "a" (.atom 5) false, .clear true, .setItem "z" (.atom 5) true, .resetTo false]) =
    wCfg false true := by decide +kernel

end Vbt
