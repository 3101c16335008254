import Verif.Spec.Mapping
import Mathlib.Data.List.Pairwise

namespace Vbt

theorem keyFunc_same {s t : String} : (keyFunc {} s).toList = (keyFunc {} t).toList ↔ SameName s t := by
  simp [keyFunc, SameName]

theorem keyFunc_opts (o : MapOpts) (hc : o.ignoreCase = true) (hu : o.ignoreUnderscores = true) : keyFunc o = keyFunc {} := by
  funext s
  simp [keyFunc, hc, hu]

theorem items_snoc_go (d : PyDict) : ∀ acc : PyDict, (acc ++ d).Pairwise (fun a b => a.1.key ≠ b.1.key) →
    d.foldl (fun acc e =>
      if acc.any (fun a => a.1.key = e.1.key) then acc.map (fun a => if a.1.key = e.1.key then (a.1, e.2) else a)
      else acc ++ [e]) acc = acc ++ d := by
  induction d with
  | nil => simp
  | cons e d ih =>
    intro acc h
    have hno : acc.any (fun a => decide (a.1.key = e.1.key)) = false := by
      rw [List.any_eq_false]
      intro a ha
      have := (List.pairwise_append.mp h).2.2 a ha e (by simp)
      simpa using this
    rw [List.foldl_cons, if_neg (by rw [hno]; simp), ih (acc ++ [e]) (by simpa using h)]
    simp

theorem items_distinct {d : PyDict} (h : d.Pairwise fun a b => a.1.key ≠ b.1.key) : d.items = d := by
  have := items_snoc_go d [] (by simpa using h)
  simpa [PyDict.items] using this

theorem find_distinct {d : PyDict} (h : d.Pairwise fun a b => a.1.key ≠ b.1.key) {k v : Item} (hm : (k, v) ∈ d) :
    d.find k.key = some v := by
  unfold PyDict.find
  cases hf : d.reverse.find? fun e => decide (e.1.key = k.key) with
  | none =>
    have := List.find?_eq_none.mp hf (k, v) (by simpa using hm)
    simp at this
  | some e =>
    have hk : e.1.key = k.key := by simpa using List.find?_some hf
    have he : e ∈ d := by simpa using List.mem_of_find?_eq_some hf
    by_cases heq : e = (k, v)
    · rw [heq]; rfl
    · have hs : Std.Symm fun (a b : Item × Item) => a.1.key ≠ b.1.key := ⟨fun a b h => Ne.symm h⟩
      exact absurd hk (h.forall he hm heq)

theorem find_missing {d : PyDict} {k : Key} (h : ∀ e ∈ d, e.1.key ≠ k) : d.find k = none := by
  unfold PyDict.find
  rw [List.find?_eq_none.mpr]
  · rfl
  · intro e he
    simpa using h e (by simpa using he)

/-- The mapping of a sane enum. -/
theorem enumMapping_ok {fields : List (String × Int)} (h : EnumOk fields) :
    enumMapping fields = (fields.map fun f => (Item.int f.2, Item.str f.1)) ++ [(Item.int (-1), Item.none)] := by
  unfold enumMapping
  rw [if_neg]
  simp only [List.any_eq_true, decide_eq_true_eq, not_exists, not_and]
  exact h.sentinel

theorem enumMapping_keys {fields : List (String × Int)} (h : EnumOk fields) :
    (enumMapping fields).Pairwise fun a b => a.1.key ≠ b.1.key := by
  rw [enumMapping_ok h, List.pairwise_append]
  refine ⟨?_, by simp, ?_⟩
  · rw [List.pairwise_map]
    exact h.values.imp fun hab => by simpa [Item.key] using hab
  · intro a ha b hb
    obtain ⟨f, hf, rfl⟩ := List.mem_map.mp ha
    rw [List.mem_singleton.mp hb]
    simp only [Item.key, ne_eq, Key.num.injEq, Int.cast_inj]
    exact h.sentinel f hf

theorem newMapping_append (o : MapOpts) (a b : List (Item × Item)) : ∀ s, newMapping o (a ++ b) s = newMapping o b (newMapping o a s) := by
  induction a with
  | nil => intro s; rfl
  | cons e a ih =>
    intro s
    obtain ⟨k, v⟩ := e
    simp only [List.cons_append, newMapping]
    split <;> exact ih _

theorem newMapping_names (o : MapOpts) (fields : List (String × Int)) : ∀ s,
    newMapping o (fields.map fun f => (Item.str f.1, Item.int f.2)) s =
      (s.1 ++ fields.map (fun f => (Item.str (keyFunc o f.1), Item.int f.2)), s.2) := by
  induction fields with
  | nil => intro s; simp [newMapping]
  | cons f fields ih =>
    intro s
    rw [List.map_cons, newMapping, if_neg (by simp [Item.isNull]), ih]
    simp

theorem newMapping_ints (o : MapOpts) (fields : List (String × Int)) : ∀ s,
    newMapping o (fields.map fun f => (Item.int f.2, Item.str f.1)) s =
      (s.1 ++ fields.map (fun f => (Item.int f.2, Item.str f.1)), s.2) := by
  induction fields with
  | nil => intro s; simp [newMapping]
  | cons f fields ih =>
    intro s
    rw [List.map_cons, newMapping, if_neg (by simp [Item.isNull]), ih]
    · simp
    · intro t h; cases h

/-- The dictionary of names. -/
def nameDict (fields : List (String × Int)) : PyDict := fields.map fun f => (Item.str (keyFunc {} f.1), Item.int f.2)

theorem fields_mapping {fields : List (String × Int)} (h : EnumOk fields) (o : MapOpts) (hc : o.ignoreCase = true)
    (hu : o.ignoreUnderscores = true) :
    newMapping o (reverseMapping (enumMapping fields)).items ([], o.naSentinel) = (nameDict fields, .int (-1)) := by
  have hr : reverseMapping (enumMapping fields) =
      (fields.map fun f => (Item.str f.1, Item.int f.2)) ++ [(Item.none, Item.int (-1))] := by
    unfold reverseMapping
    rw [items_distinct (enumMapping_keys h), enumMapping_ok h]
    simp
  have hd : (reverseMapping (enumMapping fields)).Pairwise fun a b => a.1.key ≠ b.1.key := by
    rw [hr, List.pairwise_append]
    refine ⟨?_, by simp, ?_⟩
    · rw [List.pairwise_map]
      refine h.names.imp fun {a b} hab => ?_
      simp only [Item.key, ne_eq, Key.str.injEq]
      intro he
      exact hab (by unfold SameName; rw [String.toList_inj.mp he])
    · intro a ha b hb
      obtain ⟨f, hf, rfl⟩ := List.mem_map.mp ha
      rw [List.mem_singleton.mp hb]
      simp [Item.key]
  rw [items_distinct hd, hr, newMapping_append, newMapping_names, keyFunc_opts o hc hu]
  simp [newMapping, Item.isNull, nameDict]

theorem nameDict_keys {fields : List (String × Int)} (h : EnumOk fields) :
    (nameDict fields).Pairwise fun a b => a.1.key ≠ b.1.key := by
  unfold nameDict
  rw [List.pairwise_map]
  refine h.names.imp fun {a b} hab => ?_
  simp only [Item.key, ne_eq, Key.str.injEq, keyFunc_same]
  exact hab

theorem values_mapping {fields : List (String × Int)} (h : EnumOk fields) (o : MapOpts) :
    newMapping o (enumMapping fields).items ([], o.naSentinel) = (enumMapping fields, o.naSentinel) := by
  rw [items_distinct (enumMapping_keys h), enumMapping_ok h, newMapping_append, newMapping_ints]
  simp [newMapping, Item.isNull]

theorem mapEnumFields_eq {fields : List (String × Int)} (h : EnumOk fields) (x : MapObj) (ignore : List (Option ItemKind)) :
    mapEnumFields fields x ignore = mapObj { ignoreType := ignore } (nameDict fields, .int (-1)) x := by
  unfold mapEnumFields applyMapping
  rw [fields_mapping h { ignoreType := ignore } rfl rfl]

theorem mapEnumValues_eq {fields : List (String × Int)} (h : EnumOk fields) (x : MapObj) (ignore : List (Option ItemKind)) :
    mapEnumValues fields x ignore = mapObj { ignoreType := ignore } (enumMapping fields, .none) x := by
  unfold mapEnumValues applyMapping
  rw [values_mapping h { ignoreType := ignore }]

/-- A name through the dictionary of names. -/
theorem convert_name {fields : List (String × Int)} (h : EnumOk fields) (ignore : List (Option ItemKind)) {n s : String} {v : Int}
    (hm : (n, v) ∈ fields) (hs : SameName s n) :
    convertValue { ignoreType := ignore } (nameDict fields, .int (-1)) (.str s) = .ok (.int v) := by
  have hk : (Item.str (keyFunc {} s)).key = (Item.str (keyFunc {} n)).key := by
    simp only [Item.key, Key.str.injEq, keyFunc_same]; exact hs
  have hf := find_distinct (nameDict_keys h) (k := .str (keyFunc {} n)) (v := .int v) (List.mem_map.mpr ⟨(n, v), hm, rfl⟩)
  unfold convertValue
  simp only [Item.isNull, Bool.false_eq_true, if_false, keyFunc_opts { ignoreType := ignore } rfl rfl, hk, hf]

theorem convert_unknown_name {fields : List (String × Int)} (ignore : List (Option ItemKind)) {s : String}
    (hs : ∀ f ∈ fields, ¬ SameName s f.1) :
    convertValue { ignoreType := ignore } (nameDict fields, .int (-1)) (.str s) = .error (.keyError "key") := by
  have hf : (nameDict fields).find (Item.str (keyFunc {} s)).key = none := by
    apply find_missing
    intro e he
    obtain ⟨f, hf, rfl⟩ := List.mem_map.mp he
    simp only [Item.key, ne_eq, Key.str.injEq, keyFunc_same]
    intro hc
    exact hs f hf (by unfold SameName at *; exact hc.symm)
  unfold convertValue
  simp only [Item.isNull, Bool.false_eq_true, if_false, keyFunc_opts { ignoreType := ignore } rfl rfl, hf]

/-- Numbers are no names. -/
theorem convert_number {fields : List (String × Int)} (ignore : List (Option ItemKind)) {x : Item} (hn : x.isNull = false)
    (hs : x.kind ≠ .str) : convertValue { ignoreType := ignore } (nameDict fields, .int (-1)) x = .error (.keyError "key") := by
  have hf : (nameDict fields).find x.key = none := by
    apply find_missing
    intro e he
    obtain ⟨f, hf, rfl⟩ := List.mem_map.mp he
    cases x with
    | none => simp [Item.isNull] at hn
    | str s => exact absurd rfl hs
    | int i => simp [Item.key]
    | flt x => cases x <;> simp [Item.key]
    | bool b => simp [Item.key]
  unfold convertValue
  cases x with
  | none => simp [Item.isNull] at hn
  | str s => exact absurd rfl hs
  | int i => simp [Item.isNull, hf]
  | flt x => simp [hn, hf]
  | bool b => simp [Item.isNull, hf]

end Vbt
