import Verif.Model.Template
import Verif.Props.C51

/-! # C65: template substitution reaches every template -/

namespace Vbt

/-! ## Specification: what can be reached in an object -/

/-- A step into a container: the value of a key, the element at a position, an element of a set. -/
inductive TStep where
  | key (k : String)
  | idx (i : Nat)
  | elem
deriving DecidableEq

/-- The direct contents of an object with the steps to them. -/
def TObj.children : TObj → List (TStep × TObj)
  | .val _ => []
  | .tmpl _ => []
  | .dict _ _ keys vals => ((List.range vals.toList.length).map fun i => .key (keys.getD i "")).zip vals.toList
  | .list _ xs => ((List.range xs.toList.length).map .idx).zip xs.toList
  | .tuple _ xs => ((List.range xs.toList.length).map .idx).zip xs.toList
  | .set _ xs => xs.toList.map fun x => (.elem, x)

/-- `z` stands in `x` at the end of a path. -/
inductive TReach : TObj → List TStep → TObj → Prop where
  | here (x : TObj) : TReach x [] x
  | step {x y z : TObj} {s : TStep} {p : List TStep} : (s, y) ∈ x.children → TReach y p z → TReach x (s :: p) z

/-- The reference of a dictionary or a list. -/
def TObj.ref : TObj → Option Nat
  | .dict ref _ _ _ => ref
  | .list ref _ => ref
  | _ => none

/-- The class of an object with its keys and its number of elements; a set may shrink. -/
inductive TShape where
  | val (v : CfgVal)
  | tmpl
  | dict (kind : DictKind) (keys : List String) (n : Nat)
  | list (n : Nat)
  | tuple (named : Option Nat) (n : Nat)
  | set (frozen : Bool)
deriving DecidableEq

/-- See `TShape`. -/
def TObj.shape : TObj → TShape
  | .val v => .val v
  | .tmpl _ => .tmpl
  | .dict _ kind keys vals => .dict kind keys vals.toList.length
  | .list _ xs => .list xs.toList.length
  | .tuple named xs => .tuple named xs.toList.length
  | .set frozen _ => .set frozen

/-! ## Lemmas -/

theorem TObjs.toList_ofList (l : List TObj) : (TObjs.ofList l).toList = l := by
  induction l with
  | nil => rfl
  | cons x l ih => rw [TObjs.ofList, TObjs.toList, ih]

theorem TObjs.hasTemplates_iff (xs : TObjs) : xs.hasTemplates = true ↔ ∃ x ∈ xs.toList, x.hasTemplates = true := by
  match xs with
  | .nil => simp [TObjs.hasTemplates, TObjs.toList]
  | .cons x rest =>
    rw [TObjs.hasTemplates, TObjs.toList]
    have ih := TObjs.hasTemplates_iff rest
    by_cases h : x.hasTemplates = true
    · simp [h]
    · rw [if_neg h, ih]; simp [h]

mutual
theorem TObj.subst_free (E : TmplEnv) (m : DictKind × CfgItems) (safe mc : Bool) (x : TObj) (h : x.hasTemplates = false) :
    x.subst E m safe mc = .ok x := by
  match x with
  | .val v => rfl
  | .tmpl t => cases h
  | .dict ref kind keys vals =>
    rw [TObj.hasTemplates] at h
    rw [TObj.subst, h]; rfl
  | .list ref xs =>
    rw [TObj.hasTemplates] at h
    rw [TObj.subst, h]; rfl
  | .tuple ref xs =>
    rw [TObj.hasTemplates] at h
    rw [TObj.subst, h]; rfl
  | .set ref xs =>
    rw [TObj.hasTemplates] at h
    rw [TObj.subst, h]; rfl
end

/-- Elements are substituted one by one. -/
theorem TObjs.subst_forall {E : TmplEnv} {m : DictKind × CfgItems} {safe : Bool} {xs ys : TObjs}
    (h : xs.subst E m safe = .ok ys) : List.Forall₂ (fun x y => x.subst E m safe true = .ok y) xs.toList ys.toList := by
  match xs with
  | .nil => rw [TObjs.subst] at h; cases h; exact .nil
  | .cons x rest =>
    rw [TObjs.subst] at h
    cases hx : x.subst E m safe true with
    | error e => rw [hx] at h; cases h
    | ok y =>
      rw [hx] at h
      cases hr : rest.subst E m safe with
      | error e => rw [hr] at h; cases h
      | ok ys' =>
        rw [hr] at h
        cases h
        exact .cons hx (TObjs.subst_forall hr)

theorem zip_forall {α : Type} {R : TObj → TObj → Prop} {ks : List α} {xs ys : List TObj} (h : List.Forall₂ R xs ys) :
    (∀ k x, (k, x) ∈ ks.zip xs → ∃ y, R x y ∧ (k, y) ∈ ks.zip ys) ∧
    (∀ k y, (k, y) ∈ ks.zip ys → ∃ x, R x y ∧ (k, x) ∈ ks.zip xs) := by
  induction h generalizing ks with
  | nil => simp
  | @cons x y xs ys hxy h ih =>
    cases ks with
    | nil => simp
    | cons k ks =>
      obtain ⟨i1, i2⟩ := @ih ks
      simp only [List.zip_cons_cons, List.mem_cons, Prod.mk.injEq]
      constructor
      · rintro k' x' (⟨rfl, rfl⟩ | hm)
        · exact ⟨y, hxy, .inl ⟨rfl, rfl⟩⟩
        · obtain ⟨y', hy, hm⟩ := i1 k' x' hm
          exact ⟨y', hy, .inr hm⟩
      · rintro k' y' (⟨rfl, rfl⟩ | hm)
        · exact ⟨x, hxy, .inl ⟨rfl, rfl⟩⟩
        · obtain ⟨x', hx, hm⟩ := i2 k' y' hm
          exact ⟨x', hx, .inr hm⟩

theorem orKeep_ok {safe : Bool} {obj out : TObj} {r : Except Err TObj} (h : orKeep safe obj r = .ok out) :
    r = .ok out ∨ (safe = true ∧ out = obj ∧ ∃ e, r = .error e) := by
  cases r with
  | ok y => left; simpa [orKeep] using h
  | error e =>
    right
    cases safe with
    | false => simp [orKeep] at h
    | true =>
      rw [orKeep, if_pos rfl, Except.ok.injEq] at h
      exact ⟨rfl, h.symm, e, rfl⟩

theorem exmap_ok {α β : Type} {f : α → β} {r : Except Err α} {y : β} (h : r.map f = .ok y) : ∃ x, r = .ok x ∧ f x = y := by
  cases r with
  | error e => cases h
  | ok x => exact ⟨x, rfl, by simpa [Except.map] using h⟩

/-- With `safe` nothing raises. -/
theorem TObj.subst_safe_ok (E : TmplEnv) (m : DictKind × CfgItems) (mc : Bool) (x : TObj) :
    ∃ y, x.subst E m true mc = .ok y := by
  have key : ∀ obj r, ∃ y, orKeep true obj r = .ok y := by
    intro obj r
    cases r with
    | ok y => exact ⟨y, rfl⟩
    | error e => exact ⟨obj, rfl⟩
  cases x with
  | val v => exact ⟨_, rfl⟩
  | tmpl t => rw [TObj.subst]; exact key _ _
  | dict ref kind keys vals =>
    rw [TObj.subst]
    split
    · exact key _ _
    · exact ⟨_, rfl⟩
  | list ref xs =>
    rw [TObj.subst]
    split
    · exact key _ _
    · exact ⟨_, rfl⟩
  | tuple ref xs =>
    rw [TObj.subst]
    split
    · exact key _ _
    · exact ⟨_, rfl⟩
  | set ref xs =>
    rw [TObj.subst]
    split
    · exact key _ _
    · exact ⟨_, rfl⟩

theorem TObjs.subst_safe_ok (E : TmplEnv) (m : DictKind × CfgItems) (xs : TObjs) : ∃ ys, xs.subst E m true = .ok ys := by
  match xs with
  | .nil => exact ⟨_, rfl⟩
  | .cons x rest =>
    obtain ⟨y, hy⟩ := TObj.subst_safe_ok E m true x
    obtain ⟨ys, hys⟩ := TObjs.subst_safe_ok E m rest
    rw [TObjs.subst, hy, hys]
    exact ⟨_, rfl⟩

/-- The children of the result are the substituted children. -/
def SameChildren (E : TmplEnv) (m : DictKind × CfgItems) (safe : Bool) (x y : TObj) : Prop :=
  (∀ s c, (s, c) ∈ x.children → ∃ d, c.subst E m safe true = .ok d ∧ (s, d) ∈ y.children) ∧
  (∀ s d, (s, d) ∈ y.children → ∃ c, c.subst E m safe true = .ok d ∧ (s, c) ∈ x.children)

theorem SameChildren.free {E : TmplEnv} {m : DictKind × CfgItems} {safe : Bool} {x : TObj}
    (h : ∀ s c, (s, c) ∈ x.children → c.hasTemplates = false) : SameChildren E m safe x x :=
  ⟨fun s c hc => ⟨c, c.subst_free E m safe true (h s c hc), hc⟩,
   fun s c hc => ⟨c, c.subst_free E m safe true (h s c hc), hc⟩⟩

theorem TObjs.child_free {α : Type} {ks : List α} {xs : TObjs} (h : ¬ xs.hasTemplates = true) :
    ∀ s c, (s, c) ∈ ks.zip xs.toList → c.hasTemplates = false := by
  intro s c hc
  rw [TObjs.hasTemplates_iff] at h
  have := (List.of_mem_zip hc).2
  by_contra hne
  exact h ⟨c, this, by simpa using hne⟩

/-- One level of the substitution of a container. -/
theorem TObj.subst_children {E : TmplEnv} {m : DictKind × CfgItems} {safe mc : Bool} {x y : TObj}
    (h : x.subst E m safe mc = .ok y) (hx : ∀ t, x ≠ .tmpl t) :
    SameChildren E m safe x y ∨ (safe = true ∧ y = x ∧ ∃ frozen xs, x = .set frozen xs) := by
  cases x with
  | val v =>
    rw [TObj.subst] at h; cases h
    exact .inl (SameChildren.free (fun s c hc => by cases hc))
  | tmpl t => exact absurd rfl (hx t)
  | dict ref kind keys vals =>
    left
    rw [TObj.subst] at h
    by_cases ht : vals.hasTemplates = true
    · rw [if_pos ht] at h
      rcases orKeep_ok h with h | ⟨rfl, rfl, e, h⟩
      · obtain ⟨ys, hys, rfl⟩ := exmap_ok h
        have hf := TObjs.subst_forall hys
        unfold SameChildren
        simp only [TObj.children, ← hf.length_eq]
        exact zip_forall hf
      · obtain ⟨ys, hys⟩ := TObjs.subst_safe_ok E m vals
        rw [hys] at h; cases h
    · rw [if_neg ht] at h
      cases h
      exact SameChildren.free (TObjs.child_free ht)
  | list ref xs =>
    left
    rw [TObj.subst] at h
    by_cases ht : xs.hasTemplates = true
    · rw [if_pos ht] at h
      rcases orKeep_ok h with h | ⟨rfl, rfl, e, h⟩
      · obtain ⟨ys, hys, rfl⟩ := exmap_ok h
        have hf := TObjs.subst_forall hys
        unfold SameChildren
        simp only [TObj.children, ← hf.length_eq]
        exact zip_forall hf
      · obtain ⟨ys, hys⟩ := TObjs.subst_safe_ok E m xs
        rw [hys] at h; cases h
    · rw [if_neg ht] at h
      cases h
      exact SameChildren.free (TObjs.child_free ht)
  | tuple ref xs =>
    left
    rw [TObj.subst] at h
    by_cases ht : xs.hasTemplates = true
    · rw [if_pos ht] at h
      rcases orKeep_ok h with h | ⟨rfl, rfl, e, h⟩
      · obtain ⟨ys, hys, rfl⟩ := exmap_ok h
        have hf := TObjs.subst_forall hys
        unfold SameChildren
        simp only [TObj.children, ← hf.length_eq]
        exact zip_forall hf
      · obtain ⟨ys, hys⟩ := TObjs.subst_safe_ok E m xs
        rw [hys] at h; cases h
    · rw [if_neg ht] at h
      cases h
      exact SameChildren.free (TObjs.child_free ht)
  | set frozen xs =>
    rw [TObj.subst] at h
    by_cases ht : xs.hasTemplates = true
    · rw [if_pos ht] at h
      rcases orKeep_ok h with h | ⟨rfl, rfl, e, h⟩
      · left
        cases hys : xs.subst E m safe with
        | error e => rw [hys] at h; cases h
        | ok ys =>
          rw [hys] at h
          change buildSet E frozen ys = .ok y at h
          unfold buildSet at h
          by_cases hh : ys.hashable E = true
          · rw [if_pos hh, Except.ok.injEq] at h
            subst h
            have hf := TObjs.subst_forall hys
            unfold SameChildren
            simp only [TObj.children, TObjs.toList_ofList]
            have hz := @zip_forall TStep _ (xs.toList.map fun _ => .elem) _ _ hf
            have e1 : ∀ c, c ∈ xs.toList → ∃ d, c.subst E m safe true = .ok d ∧ d ∈ ys.toList := by
              intro c hc
              obtain ⟨i, hi, rfl⟩ := List.mem_iff_getElem.mp hc
              have hl := hf.length_eq
              exact ⟨ys.toList[i]'(by omega), (List.forall₂_iff_get.mp hf).2 i hi (by omega), List.getElem_mem _⟩
            have e2 : ∀ d, d ∈ ys.toList → ∃ c, c.subst E m safe true = .ok d ∧ c ∈ xs.toList := by
              intro c hc
              obtain ⟨i, hi, rfl⟩ := List.mem_iff_getElem.mp hc
              have hl := hf.length_eq
              exact ⟨xs.toList[i]'(by omega), (List.forall₂_iff_get.mp hf).2 i (by omega) hi, List.getElem_mem _⟩
            constructor
            · intro s c hc
              obtain ⟨c', hc', heq⟩ := List.mem_map.mp hc
              cases heq
              obtain ⟨d, hd, hm⟩ := e1 c hc'
              exact ⟨d, hd, List.mem_map.mpr ⟨d, List.mem_eraseDups.mpr hm, rfl⟩⟩
            · intro s d hd
              obtain ⟨d', hd', heq⟩ := List.mem_map.mp hd
              cases heq
              obtain ⟨c, hc, hm⟩ := e2 d (List.mem_eraseDups.mp hd')
              exact ⟨c, hc, List.mem_map.mpr ⟨c, hm, rfl⟩⟩
          · rw [if_neg hh] at h; cases h
      · right; exact ⟨rfl, rfl, frozen, xs, rfl⟩
    · left
      rw [if_neg ht] at h
      cases h
      refine SameChildren.free fun s c hc => ?_
      obtain ⟨c', hc', heq⟩ := List.mem_map.mp hc
      cases heq
      rw [TObjs.hasTemplates_iff] at ht
      by_contra hne
      exact ht ⟨c, hc', by simpa using hne⟩

theorem mem_zip_of_mem {ks : List TStep} {xs : List TObj} (hl : ks.length = xs.length) {x : TObj} (hx : x ∈ xs) :
    ∃ s, (s, x) ∈ ks.zip xs := by
  obtain ⟨i, hi, rfl⟩ := List.mem_iff_getElem.mp hx
  refine ⟨ks[i]'(by omega), List.mem_iff_getElem.mpr ⟨i, by rw [List.length_zip]; omega, ?_⟩⟩
  rw [List.getElem_zip]

mutual
theorem TObj.find (x : TObj) (h : x.hasTemplates = true) : ∃ p t, TReach x p (.tmpl t) := by
  match x with
  | .val v => cases h
  | .tmpl t => exact ⟨[], t, .here _⟩
  | .dict ref kind keys vals =>
    obtain ⟨y, hy, p, t, hr⟩ := TObjs.find vals h
    obtain ⟨s, hs⟩ := mem_zip_of_mem
      (ks := (List.range vals.toList.length).map fun i => TStep.key (keys.getD i "")) (by simp) hy
    exact ⟨s :: p, t, .step hs hr⟩
  | .list ref xs =>
    obtain ⟨y, hy, p, t, hr⟩ := TObjs.find xs h
    obtain ⟨s, hs⟩ := mem_zip_of_mem (ks := (List.range xs.toList.length).map .idx) (by simp) hy
    exact ⟨s :: p, t, .step hs hr⟩
  | .tuple ref xs =>
    obtain ⟨y, hy, p, t, hr⟩ := TObjs.find xs h
    obtain ⟨s, hs⟩ := mem_zip_of_mem (ks := (List.range xs.toList.length).map .idx) (by simp) hy
    exact ⟨s :: p, t, .step hs hr⟩
  | .set frozen xs =>
    obtain ⟨y, hy, p, t, hr⟩ := TObjs.find xs h
    exact ⟨.elem :: p, t, .step (List.mem_map.mpr ⟨y, hy, rfl⟩) hr⟩
theorem TObjs.find (xs : TObjs) (h : xs.hasTemplates = true) : ∃ x ∈ xs.toList, ∃ p t, TReach x p (.tmpl t) := by
  match xs with
  | .nil => cases h
  | .cons x rest =>
    rw [TObjs.hasTemplates] at h
    by_cases hx : x.hasTemplates = true
    · obtain ⟨p, t, hr⟩ := TObj.find x hx
      exact ⟨x, by simp [TObjs.toList], p, t, hr⟩
    · rw [if_neg hx] at h
      obtain ⟨y, hy, p, t, hr⟩ := TObjs.find rest h
      exact ⟨y, by simp [TObjs.toList, hy], p, t, hr⟩
end

/-- A container stays a container of the same class. -/
theorem TObj.subst_shape {E : TmplEnv} {m : DictKind × CfgItems} {safe mc : Bool} {x y : TObj}
    (h : x.subst E m safe mc = .ok y) (hx : ∀ t, x ≠ .tmpl t) : y.shape = x.shape := by
  cases x with
  | val v => rw [TObj.subst] at h; cases h; rfl
  | tmpl t => exact absurd rfl (hx t)
  | dict ref kind keys vals =>
    rw [TObj.subst] at h
    by_cases ht : vals.hasTemplates = true
    · rw [if_pos ht] at h
      rcases orKeep_ok h with h | ⟨_, rfl, _⟩
      · obtain ⟨ys, hys, rfl⟩ := exmap_ok h
        rw [TObj.shape, TObj.shape, (TObjs.subst_forall hys).length_eq]
      · rfl
    · rw [if_neg ht] at h; cases h; rfl
  | list ref xs =>
    rw [TObj.subst] at h
    by_cases ht : xs.hasTemplates = true
    · rw [if_pos ht] at h
      rcases orKeep_ok h with h | ⟨_, rfl, _⟩
      · obtain ⟨ys, hys, rfl⟩ := exmap_ok h
        rw [TObj.shape, TObj.shape, (TObjs.subst_forall hys).length_eq]
      · rfl
    · rw [if_neg ht] at h; cases h; rfl
  | tuple named xs =>
    rw [TObj.subst] at h
    by_cases ht : xs.hasTemplates = true
    · rw [if_pos ht] at h
      rcases orKeep_ok h with h | ⟨_, rfl, _⟩
      · obtain ⟨ys, hys, rfl⟩ := exmap_ok h
        rw [TObj.shape, TObj.shape, (TObjs.subst_forall hys).length_eq]
      · rfl
    · rw [if_neg ht] at h; cases h; rfl
  | set frozen xs =>
    rw [TObj.subst] at h
    by_cases ht : xs.hasTemplates = true
    · rw [if_pos ht] at h
      rcases orKeep_ok h with h | ⟨_, rfl, _⟩
      · cases hys : xs.subst E m safe with
        | error e => rw [hys] at h; cases h
        | ok ys =>
          rw [hys] at h
          change buildSet E frozen ys = .ok y at h
          unfold buildSet at h
          by_cases hh : ys.hashable E = true
          · rw [if_pos hh, Except.ok.injEq] at h; subst h; rfl
          · rw [if_neg hh] at h; cases h
      · rfl
    · rw [if_neg ht] at h; cases h; rfl

/-- Without `safe`, containers with templates are copied. -/
theorem TObj.subst_ref {E : TmplEnv} {m : DictKind × CfgItems} {x y : TObj}
    (h : x.subst E m false true = .ok y) (hx : x.hasTemplates = true) :
    y.ref = none := by
  cases x with
  | val v => cases hx
  | tmpl t =>
    rw [TObj.subst] at h
    rcases orKeep_ok h with h | ⟨h, _⟩
    · obtain ⟨v, hv, rfl⟩ := exmap_ok h; rfl
    · cases h
  | dict ref kind keys vals =>
    rw [TObj.hasTemplates] at hx
    rw [TObj.subst, if_pos hx] at h
    rcases orKeep_ok h with h | ⟨h, _⟩
    · obtain ⟨v, hv, rfl⟩ := exmap_ok h; rfl
    · cases h
  | list ref xs =>
    rw [TObj.hasTemplates] at hx
    rw [TObj.subst, if_pos hx] at h
    rcases orKeep_ok h with h | ⟨h, _⟩
    · obtain ⟨v, hv, rfl⟩ := exmap_ok h; rfl
    · cases h
  | tuple ref xs =>
    rw [TObj.hasTemplates] at hx
    rw [TObj.subst, if_pos hx] at h
    rcases orKeep_ok h with h | ⟨h, _⟩
    · obtain ⟨v, hv, rfl⟩ := exmap_ok h; rfl
    · cases h
  | set frozen xs =>
    rw [TObj.hasTemplates] at hx
    rw [TObj.subst, if_pos hx] at h
    rcases orKeep_ok h with h | ⟨h, _⟩
    · cases hys : xs.subst E m false with
      | error e => rw [hys] at h; cases h
      | ok ys =>
        rw [hys] at h
        change buildSet E frozen ys = .ok y at h
        unfold buildSet at h
        by_cases hh : ys.hashable E = true
        · rw [if_pos hh, Except.ok.injEq] at h; subst h; rfl
        · rw [if_neg hh] at h; cases h
    · cases h

/-! ## Theorems -/

theorem TReach.free {x z : TObj} {p : List TStep} (h : TReach x p z) (hx : x.hasTemplates = false) :
    z.hasTemplates = false := by
  induction h with
  | here x => exact hx
  | @step x y z s p hm hr ih =>
    apply ih
    have key : ∀ {α : Type} (ks : List α) (xs : TObjs) (a : α), xs.hasTemplates = false → (a, y) ∈ ks.zip xs.toList →
        y.hasTemplates = false := fun ks xs a h hm => TObjs.child_free (by rw [h]; simp) a y hm
    cases x with
    | val v => cases hm
    | tmpl t => cases hm
    | dict ref kind keys vals => exact key _ vals _ hx hm
    | list ref xs => exact key _ xs _ hx hm
    | tuple ref xs => exact key _ xs _ hx hm
    | set frozen xs =>
      obtain ⟨c, hc, heq⟩ := List.mem_map.mp hm
      cases heq
      by_contra hne
      have : xs.hasTemplates = true := (TObjs.hasTemplates_iff xs).mpr ⟨y, hc, by simpa using hne⟩
      rw [TObj.hasTemplates, this] at hx
      cases hx

/-- An object is found to have templates exactly when a template can be reached in it, at any depth. -/
theorem C65_has_templates (x : TObj) : x.hasTemplates = true ↔ ∃ p t, TReach x p (.tmpl t) := by
  constructor
  · exact TObj.find x
  · rintro ⟨p, t, h⟩
    by_contra hne
    have := h.free (by simpa using hne)
    cases this

/-- An object without templates is returned as it is: the same object, whatever the mapping. -/
theorem C65_free (E : TmplEnv) (m : DictKind × CfgItems) (safe mc : Bool) {x : TObj}
    (h : ∀ p t, ¬ TReach x p (.tmpl t)) : x.subst E m safe mc = .ok x := by
  apply TObj.subst_free
  by_contra hne
  obtain ⟨p, t, hr⟩ := (C65_has_templates x).mp (by simpa using hne)
  exact h p t hr

theorem TObj.subst_tmpl {E : TmplEnv} {m : DictKind × CfgItems} {safe mc : Bool} {t : Tmpl} {y : TObj}
    (h : (TObj.tmpl t).subst E m safe mc = .ok y) :
    (∃ v, t.resolve E m = .ok v ∧ y = .val v) ∨ (safe = true ∧ (∃ e, t.resolve E m = .error e) ∧ y = .tmpl t) := by
  rw [TObj.subst] at h
  rcases orKeep_ok h with h | ⟨rfl, rfl, e, h⟩
  · obtain ⟨v, hv, rfl⟩ := exmap_ok h
    exact .inl ⟨v, hv, rfl⟩
  · right
    refine ⟨rfl, ?_, rfl⟩
    cases hr : t.resolve E m with
    | ok v => rw [hr] at h; cases h
    | error e => exact ⟨e, rfl⟩

/-- Every template, at any depth, is replaced by the value it stands for, and everything else stays where it is. -/
theorem C65_replaced {E : TmplEnv} {m : DictKind × CfgItems} {mc : Bool} {x y : TObj}
    (h : x.subst E m false mc = .ok y) {p : List TStep} :
    (∀ t, TReach x p (.tmpl t) → ∃ v, t.resolve E m = .ok v ∧ TReach y p (.val v)) ∧
    (∀ v, TReach x p (.val v) → TReach y p (.val v)) := by
  induction p generalizing x y mc with
  | nil =>
    constructor
    · intro t hr
      cases hr
      rcases TObj.subst_tmpl h with ⟨v, hv, rfl⟩ | ⟨h, _⟩
      · exact ⟨v, hv, .here _⟩
      · cases h
    · intro v hr
      cases hr
      rw [TObj.subst] at h
      cases h
      exact .here _
  | cons s p ih =>
    have key : ∀ c, (s, c) ∈ x.children → ∃ d, c.subst E m false true = .ok d ∧ (s, d) ∈ y.children := by
      intro c hc
      rcases TObj.subst_children h (by rintro t rfl; cases hc) with hs | ⟨h, _⟩
      · exact hs.1 s c hc
      · cases h
    constructor
    · intro t hr
      cases hr with
      | step hm hr =>
        obtain ⟨d, hd, hdm⟩ := key _ hm
        obtain ⟨v, hv, hr⟩ := (ih hd).1 t hr
        exact ⟨v, hv, .step hdm hr⟩
    · intro v hr
      cases hr with
      | step hm hr =>
        obtain ⟨d, hd, hdm⟩ := key _ hm
        exact .step hdm ((ih hd).2 v hr)

/-- Nothing else appears: what stands in the result stood in the object or is the value of a template that stood there, and
no template is left. -/
theorem C65_nothing_else {E : TmplEnv} {m : DictKind × CfgItems} {mc : Bool} {x y : TObj}
    (h : x.subst E m false mc = .ok y) {p : List TStep} :
    (∀ v, TReach y p (.val v) → TReach x p (.val v) ∨ ∃ t, TReach x p (.tmpl t) ∧ t.resolve E m = .ok v) ∧
    (∀ t, ¬ TReach y p (.tmpl t)) := by
  induction p generalizing x y mc with
  | nil =>
    by_cases hx : ∃ t, x = .tmpl t
    · obtain ⟨t, rfl⟩ := hx
      rcases TObj.subst_tmpl h with ⟨v, hv, rfl⟩ | ⟨h, _⟩
      · refine ⟨fun w hw => ?_, fun t hr => ?_⟩
        · cases hw
          exact .inr ⟨t, .here _, hv⟩
        · cases hr
      · cases h
    · have hx' : ∀ t, x ≠ .tmpl t := fun t ht => hx ⟨t, ht⟩
      have hs := TObj.subst_shape h hx'
      refine ⟨fun w hw => ?_, fun t hr => ?_⟩
      · cases hw
        cases x with
        | val v => cases hs; exact .inl (.here _)
        | tmpl t => exact absurd rfl (hx' t)
        | dict | list | tuple | set => cases hs
      · cases hr
        cases x with
        | tmpl t => exact absurd rfl (hx' t)
        | val | dict | list | tuple | set => cases hs
  | cons s p ih =>
    have key : ∀ d, (s, d) ∈ y.children → ∃ c, c.subst E m false true = .ok d ∧ (s, c) ∈ x.children := by
      intro d hd
      by_cases hx : ∃ t, x = .tmpl t
      · obtain ⟨t, rfl⟩ := hx
        rcases TObj.subst_tmpl h with ⟨v, hv, rfl⟩ | ⟨h, _⟩
        · cases hd
        · cases h
      · rcases TObj.subst_children h (fun t ht => hx ⟨t, ht⟩) with hs | ⟨h, _⟩
        · exact hs.2 s d hd
        · cases h
    refine ⟨fun v hr => ?_, fun t hr => ?_⟩
    · cases hr with
      | step hm hr =>
        obtain ⟨c, hc, hcm⟩ := key _ hm
        rcases (ih hc).1 v hr with hr | ⟨t, hr, hv⟩
        · exact .inl (.step hcm hr)
        · exact .inr ⟨t, .step hcm hr, hv⟩
    · cases hr with
      | step hm hr =>
        obtain ⟨c, hc, hcm⟩ := key _ hm
        exact (ih hc).2 t hr

/-- With `safe` nothing raises: every template is replaced or still there, and outside sets it is replaced exactly when it
has a value. -/
theorem C65_safe (E : TmplEnv) (m : DictKind × CfgItems) (mc : Bool) (x : TObj) :
    ∃ y, x.subst E m true mc = .ok y ∧
      (∀ p t, TReach x p (.tmpl t) → TReach y p (.tmpl t) ∨ ∃ v, t.resolve E m = .ok v ∧ TReach y p (.val v)) ∧
      (∀ p t, TStep.elem ∉ p → TReach x p (.tmpl t) →
        match t.resolve E m with
        | .ok v => TReach y p (.val v)
        | .error _ => TReach y p (.tmpl t)) := by
  obtain ⟨y, hy⟩ := TObj.subst_safe_ok E m mc x
  refine ⟨y, hy, ?_, ?_⟩
  · intro p
    induction p generalizing x y mc with
    | nil =>
      intro t hr
      cases hr
      rcases TObj.subst_tmpl hy with ⟨v, hv, rfl⟩ | ⟨_, _, rfl⟩
      · exact .inr ⟨v, hv, .here _⟩
      · exact .inl (.here _)
    | cons s p ih =>
      intro t hr
      cases hr with
      | step hm hr =>
        rcases TObj.subst_children hy (by rintro t rfl; cases hm) with hs | ⟨_, rfl, _⟩
        · obtain ⟨d, hd, hdm⟩ := hs.1 _ _ hm
          rcases ih true _ d hd t hr with hr | ⟨v, hv, hr⟩
          · exact .inl (.step hdm hr)
          · exact .inr ⟨v, hv, .step hdm hr⟩
        · exact .inl (.step hm hr)
  · intro p
    induction p generalizing x y mc with
    | nil =>
      intro t _ hr
      cases hr
      rcases TObj.subst_tmpl hy with ⟨v, hv, rfl⟩ | ⟨_, ⟨e, he⟩, rfl⟩
      · rw [hv]; exact .here _
      · rw [he]; exact .here _
    | cons s p ih =>
      intro t hp hr
      rw [List.mem_cons, not_or] at hp
      cases hr with
      | step hm hr =>
        rcases TObj.subst_children hy (by rintro t rfl; cases hm) with hs | ⟨_, _, frozen, xs, rfl⟩
        · obtain ⟨d, hd, hdm⟩ := hs.1 _ _ hm
          have := ih true _ d hd t hp.2 hr
          cases hv : t.resolve E m with
          | ok v => rw [hv] at this; exact .step hdm this
          | error e => rw [hv] at this; exact .step hdm this
        · obtain ⟨c, hc, heq⟩ := List.mem_map.mp hm
          cases heq
          exact absurd rfl hp.1

/-- The caller's objects are not changed: a dictionary or a list of the caller that stands in the result stands there with
the contents it had, and it contains no templates. -/
theorem C65_no_mutation {E : TmplEnv} {m : DictKind × CfgItems} {x y z : TObj} {p : List TStep} {r : Nat}
    (h : x.subst E m false true = .ok y) (hz : TReach y p z) (hr : z.ref = some r) :
    TReach x p z ∧ z.hasTemplates = false := by
  induction hz generalizing x with
  | here y =>
    by_cases hx : x.hasTemplates = true
    · have := TObj.subst_ref h hx
      rw [this] at hr
      cases hr
    · have hx' : x.hasTemplates = false := by simpa using hx
      rw [TObj.subst_free E m false true x hx'] at h
      cases h
      exact ⟨.here _, hx'⟩
  | @step y c z s p hm hz ih =>
    by_cases hx : ∃ t, x = .tmpl t
    · obtain ⟨t, rfl⟩ := hx
      rcases TObj.subst_tmpl h with ⟨v, hv, rfl⟩ | ⟨h, _⟩
      · cases hm
      · cases h
    · rcases TObj.subst_children h (fun t ht => hx ⟨t, ht⟩) with hs | ⟨h, _⟩
      · obtain ⟨c', hc, hcm⟩ := hs.2 _ _ hm
        obtain ⟨h1, h2⟩ := ih hc hr
        exact ⟨.step hcm h1, h2⟩
      · cases h

/-- With `make_copy=False` the outermost dictionary or list is the caller's. -/
theorem C65_in_place {E : TmplEnv} {m : DictKind × CfgItems} {x y : TObj} (h : x.subst E m false false = .ok y)
    (hx : ∀ t, x ≠ .tmpl t) : y.ref = x.ref := by
  cases x with
  | val v => rw [TObj.subst] at h; cases h; rfl
  | tmpl t => exact absurd rfl (hx t)
  | dict ref kind keys vals =>
    rw [TObj.subst] at h
    by_cases ht : vals.hasTemplates = true
    · rw [if_pos ht] at h
      rcases orKeep_ok h with h | ⟨h, _⟩
      · obtain ⟨ys, hys, rfl⟩ := exmap_ok h; rfl
      · cases h
    · rw [if_neg ht] at h; cases h; rfl
  | list ref xs =>
    rw [TObj.subst] at h
    by_cases ht : xs.hasTemplates = true
    · rw [if_pos ht] at h
      rcases orKeep_ok h with h | ⟨h, _⟩
      · obtain ⟨ys, hys, rfl⟩ := exmap_ok h; rfl
      · cases h
    · rw [if_neg ht] at h; cases h; rfl
  | tuple named xs =>
    rw [TObj.subst] at h
    by_cases ht : xs.hasTemplates = true
    · rw [if_pos ht] at h
      rcases orKeep_ok h with h | ⟨h, _⟩
      · obtain ⟨ys, hys, rfl⟩ := exmap_ok h; rfl
      · cases h
    · rw [if_neg ht] at h; cases h; rfl
  | set frozen xs =>
    rw [TObj.subst] at h
    by_cases ht : xs.hasTemplates = true
    · rw [if_pos ht] at h
      rcases orKeep_ok h with h | ⟨h, _⟩
      · cases hys : xs.subst E m false with
        | error e => rw [hys] at h; cases h
        | ok ys =>
          rw [hys] at h
          change buildSet E frozen ys = .ok y at h
          unfold buildSet at h
          by_cases hh : ys.hashable E = true
          · rw [if_pos hh, Except.ok.injEq] at h; subst h; rfl
          · rw [if_neg hh] at h; cases h
      · cases h
    · rw [if_neg ht] at h; cases h; rfl

/-- Containers keep their class, their keys and their length. -/
theorem C65_shape {E : TmplEnv} {m : DictKind × CfgItems} {mc : Bool} {x y z : TObj} {p : List TStep}
    (h : x.subst E m false mc = .ok y) (hz : TReach x p z) (ht : ∀ t, z ≠ .tmpl t) :
    ∃ w, TReach y p w ∧ w.shape = z.shape := by
  induction hz generalizing y mc with
  | here x => exact ⟨y, .here _, TObj.subst_shape h ht⟩
  | @step x c z s p hm hz ih =>
    rcases TObj.subst_children h (by rintro t rfl; cases hm) with hs | ⟨h, _⟩
    · obtain ⟨d, hd, hdm⟩ := hs.1 _ _ hm
      obtain ⟨w, hw, hsh⟩ := ih hd ht
      exact ⟨w, .step hdm hw, hsh⟩
    · cases h

theorem CfgItems.restrict_get (names : List String) (x : CfgItems) (k : String) :
    (x.restrict names).get k = if k ∈ names then x.get k else none := by
  match x with
  | .nil => rw [CfgItems.restrict, CfgItems.get]; split <;> rfl
  | .cons a v rest =>
    have ih := CfgItems.restrict_get names rest k
    rw [CfgItems.restrict]
    by_cases ha : a ∈ names
    · rw [if_pos ha, CfgItems.get, CfgItems.get]
      by_cases hk : a = k
      · subst hk; rw [if_pos rfl, if_pos rfl, if_pos ha]
      · rw [if_neg hk, if_neg hk, ih]
    · rw [if_neg ha, ih, CfgItems.get]
      by_cases hk : a = k
      · subst hk; rw [if_neg ha, if_neg ha]
      · rw [if_neg hk]

/-- What a template sees: an entry of the explicit mapping, unless it is a dictionary, overrides the template's own entry,
which is seen when the explicit mapping has none.  A function gets the names of its arguments only, and a `string.Template`
sees the explicit mapping only. -/
theorem C65_override_partial (E : TmplEnv) {m : DictKind × CfgItems} {o : Option (DictKind × CfgItems)} (id : Nat)
    (hm : PlainArg (some m)) (ho : PlainArg o) :
    ∃ names : CfgItems,
      (∀ k v, m.2.get k = some v → v.Leaf → names.get k = some v.convert) ∧
      (∀ k, m.2.get k = none → names.get k = ((o.getD (.plain, .nil)).2.get k).map CfgVal.convert) ∧
      (∀ key, Tmpl.resolve E m ⟨id, .rep key, o⟩ =
        match names.get key with | none => .error (.keyError key) | some v => .ok v) ∧
      (∀ text, Tmpl.resolve E m ⟨id, .sub text, o⟩ = E.format text names) ∧
      (∀ code, Tmpl.resolve E m ⟨id, .expr code, o⟩ = E.eval code names) ∧
      (∀ f args, ∃ kwargs, Tmpl.resolve E m ⟨id, .func f args, o⟩ = E.call f kwargs ∧
        ∀ k, kwargs.get k = if k ∈ args then names.get k else none) ∧
      (∀ text, Tmpl.resolve E m ⟨id, .plain text, o⟩ = E.format text m.2) := by
  have hown : PlainArg (some (o.getD (.plain, .nil))) := by
    cases o with
    | none =>
      rintro x hx
      cases hx
      exact ⟨rfl, by simp [CfgVal.Ok, CfgItems.Ok, CfgItems.keys]⟩
    | some x => exact ho
  suffices hs : ∀ own : DictKind × CfgItems, o.getD (.plain, .nil) = own → _ from hs _ rfl
  intro own he
  rw [he] at hown
  obtain ⟨mk, mi⟩ := m
  obtain ⟨ok, oi⟩ := own
  have hmk : mk.isAtomic = false := (hm _ rfl).1
  have hok : ok.isAtomic = false := (hown _ rfl).1
  have c1 := hm.convert
  have c2 := hown.convert
  simp only [convertToDict, hmk, hok, Bool.false_eq_true, if_false, if_true] at c1 c2
  have hmerge : mergeDicts true false [some (ok, oi), some (mk, mi)] =
      .ok (mergeTwo true false (.plain, oi.convert) (.plain, mi.convert)) := by
    simp [mergeDicts, convertToDict, hmk, hok, mergeAll]
  refine ⟨(mergeTwo true false (.plain, oi.convert) (.plain, mi.convert)).2, ?_, ?_, ?_, ?_, ?_, ?_, fun _ => rfl⟩
  · intro k v hv hl
    have := mergeTwo_at_leaf (x := (.plain, oi.convert)) (y := (.plain, mi.convert)) (p := [k]) (w := v.convert) rfl rfl c1.2
      (by rw [CfgVal.at, CfgItems.convert_get, hv]; rfl) (CfgVal.convert_leaf hl)
    rw [CfgVal.at] at this
    cases hg : (mergeTwo true false (DictKind.plain, oi.convert) (DictKind.plain, mi.convert)).2.get k with
    | none => rw [hg] at this; cases this
    | some u => rw [hg] at this; simpa [CfgVal.at] using this
  · intro k hk
    rw [he]
    have := mergeTwo_at_silent (x := (.plain, oi.convert)) (y := (.plain, mi.convert)) (p := [k]) rfl rfl c1.2
      (by rw [CfgVal.Silent, CfgItems.convert_get, hk]; exact ⟨rfl, trivial⟩)
    rw [CfgVal.at, CfgVal.at, CfgItems.convert_get] at this
    cases hg : (mergeTwo true false (DictKind.plain, oi.convert) (DictKind.plain, mi.convert)).2.get k with
    | none =>
      rw [hg] at this
      cases ho : oi.get k with
      | none => rfl
      | some u => rw [ho] at this; simp [CfgVal.at] at this
    | some w =>
      rw [hg] at this
      cases ho : oi.get k with
      | none => rw [ho] at this; simp [CfgVal.at] at this
      | some u => rw [ho] at this; simpa [CfgVal.at] using this
  · intro key
    simp only [Tmpl.resolve, he, hmerge]
    rfl
  · intro text
    simp only [Tmpl.resolve, he, hmerge]
  · intro code
    simp only [Tmpl.resolve, he, hmerge]
  · intro f args
    refine ⟨_, by simp only [Tmpl.resolve, he, hmerge]; rfl, fun k => ?_⟩
    exact CfgItems.restrict_get args _ k

/-! ## Where the claim fails -/

/-- An environment: functions and expressions return 7, string templates 8. -/
def wTmplEnv : TmplEnv := ⟨fun _ _ => .ok (.atom 7), fun _ _ => .ok (.atom 7), fun _ _ => .ok (.atom 8), fun n => n ≠ 3⟩

/-- A dictionary in the explicit mapping does not override a dictionary of the template: they are merged. -/
theorem C65_counterexample_nested :
    (Tmpl.resolve wTmplEnv (.plain, .cons "a" (.dict .plain (.cons "x" (.atom 1) .nil)) .nil)
      ⟨0, .rep "a", some (.plain, .cons "a" (.dict .plain (.cons "y" (.atom 2) .nil)) .nil)⟩).toOption =
    some (.dict .plain (.cons "y" (.atom 2) (.cons "x" (.atom 1) .nil))) := by
  decide +kernel

/-- A list in which a dictionary holds a template, next to a tuple and a dictionary without templates. -/
def wTmplObj : TObj :=
  .list (some 0) (.cons (.dict (some 1) .plain ["k"] (.cons (.tmpl ⟨0, .rep "a", none⟩) .nil))
    (.cons (.tuple none (.cons (.set false (.cons (.tmpl ⟨1, .func 0 ["a"], none⟩) (.cons (.val (.atom 7)) .nil))) .nil))
      (.cons (.dict (some 2) .plain ["z"] (.cons (.val (.atom 5)) .nil)) .nil)))

/-- The mapping `{'a': 9}`. -/
def wTmplMap : DictKind × CfgItems := (.plain, .cons "a" (.atom 9) .nil)

theorem wTmpl_subst : (wTmplObj.subst wTmplEnv wTmplMap false true).toOption =
    some (.list none (.cons (.dict none .plain ["k"] (.cons (.val (.atom 9)) .nil))
      (.cons (.tuple none (.cons (.set false (.cons (.val (.atom 7)) .nil)) .nil))
        (.cons (.dict (some 2) .plain ["z"] (.cons (.val (.atom 5)) .nil)) .nil)))) := by
  decide +kernel

/-! ## The hypotheses can be met -/

example : ∃ y, wTmplObj.subst wTmplEnv wTmplMap false true = .ok y ∧ TReach y [.idx 0, .key "k"] (.val (.atom 9)) ∧
    y.hasTemplates = false ∧ TReach y [.idx 2] (.dict (some 2) .plain ["z"] (.cons (.val (.atom 5)) .nil)) := by
  have h := wTmpl_subst
  cases hs : wTmplObj.subst wTmplEnv wTmplMap false true with
  | error e => rw [hs] at h; cases h
  | ok y =>
    refine ⟨y, rfl, ?_, ?_, ?_⟩
    · obtain ⟨v, hv, hr⟩ := (C65_replaced hs (p := [.idx 0, .key "k"])).1 ⟨0, .rep "a", none⟩
        (.step (y := .dict (some 1) .plain ["k"] (.cons (.tmpl ⟨0, .rep "a", none⟩) .nil)) (by decide)
          (.step (by decide) (.here _)))
      have : (Tmpl.resolve wTmplEnv wTmplMap ⟨0, .rep "a", none⟩).toOption = some (.atom 9) := by decide +kernel
      rw [hv] at this
      cases this
      exact hr
    · by_contra hne
      obtain ⟨p, t, hr⟩ := (C65_has_templates y).mp (by simpa using hne)
      exact (C65_nothing_else hs).2 t hr
    · rw [hs] at h
      cases h
      exact .step (by decide) (.here _)

/-- `PlainArg` for the override theorem. -/
example : PlainArg (some wTmplMap) := by
  rintro x hx
  cases hx
  exact ⟨rfl, by simp [wTmplMap, CfgVal.Ok, CfgItems.Ok, CfgItems.keys]⟩

/-- With `safe` a template in a set whose value has no hash stays. -/
example : ((TObj.set false (.cons (.tmpl ⟨0, .rep "a", none⟩) .nil)).subst wTmplEnv
    (.plain, .cons "a" (.atom 3) .nil) true true).toOption = some (.set false (.cons (.tmpl ⟨0, .rep "a", none⟩) .nil)) := by
  decide +kernel

end Vbt
