import Verif.Lemmas.Mapping
import Verif.Lemmas.Witness

/-!
# C105 — Names and numbers of options

`map_enum_fields` and `map_enum_values` turn the names of options (`direction="longonly"`) into the numbers the simulators work with and
back.
-/

namespace Vbt
open F

theorem fieldOf_convert {fields : List (String × Int)} (h : EnumOk fields) (ignore : List (Option ItemKind)) {x y : Item} :
    convertValue { ignoreType := ignore } (nameDict fields, .int (-1)) x = .ok y ↔ FieldOf fields x y := by
  constructor
  · intro hc
    cases hn : x.isNull with
    | true =>
      have hx : x = .none ∨ x = .flt .nan := by
        cases x with
        | none => exact .inl rfl
        | flt x => cases x <;> simp [Item.isNull, F.isnan] at hn ⊢
        | str s => simp [Item.isNull] at hn
        | int s => simp [Item.isNull] at hn
        | bool s => simp [Item.isNull] at hn
      unfold convertValue at hc
      rw [if_pos hn] at hc
      cases hc
      exact .inr ⟨hx, rfl⟩
    | false =>
      by_cases hs : x.kind = .str
      · cases x with
        | str s =>
          by_cases hk : ∃ f ∈ fields, SameName s f.1
          · obtain ⟨⟨n, v⟩, hm, hsn⟩ := hk
            rw [convert_name h ignore hm hsn] at hc
            cases hc
            exact .inl ⟨s, n, v, rfl, hm, hsn, rfl⟩
          · push Not at hk
            rw [convert_unknown_name ignore hk] at hc
            cases hc
        | none => cases hs
        | flt x => cases hs
        | int x => cases hs
        | bool x => cases hs
      · rw [convert_number ignore hn hs] at hc
        cases hc
  · rintro (⟨s, n, v, rfl, hm, hs, rfl⟩ | ⟨rfl | rfl, rfl⟩)
    · exact convert_name h ignore hm hs
    · rfl
    · rfl

theorem convert_error {fields : List (String × Int)} (ignore : List (Option ItemKind)) {x : Item} {e : Err}
    (hc : convertValue { ignoreType := ignore } (nameDict fields, .int (-1)) x = .error e) : e = .keyError "key" := by
  unfold convertValue at hc
  split at hc
  · cases hc
  · dsimp only at hc
    split at hc
    · cases hc
    · simp at hc; exact hc.symm

/-- The enums of the library are sane. -/
theorem C105_enums : ∀ e ∈ libraryEnums, EnumOk e.2 := by decide +kernel

/-- A name, in whatever case and with whatever underscores, gives the value of its field. -/
theorem C105_name {fields : List (String × Int)} (h : EnumOk fields) {s n : String} {v : Int} (hm : (n, v) ∈ fields) (hs : SameName s n) :
    mapEnumFields fields (.scalar (.str s)) = .ok (.scalar (.int v)) := by
  rw [mapEnumFields_eq h, mapObj, if_neg (by simp [compatKinds, Item.kind]), convert_name h _ hm hs]

/-- A name that no field has is an error. -/
theorem C105_unknown {fields : List (String × Int)} (h : EnumOk fields) {s : String} (hs : ∀ f ∈ fields, ¬ SameName s f.1) :
    mapEnumFields fields (.scalar (.str s)) = .error (.keyError "key") := by
  rw [mapEnumFields_eq h, mapObj, if_neg (by simp [compatKinds, Item.kind]), convert_unknown_name _ hs]

/-- Integers are left as they are, whether or not they are values of the enum. -/
theorem C105_int {fields : List (String × Int)} (h : EnumOk fields) (i : Int) :
    mapEnumFields fields (.scalar (.int i)) = .ok (.scalar (.int i)) := by
  rw [mapEnumFields_eq h, mapObj, if_pos (by simp [compatKinds, Item.kind])]

/-- Missing values give -1; other floats and booleans are errors, even if they equal a value. -/
theorem C105_others {fields : List (String × Int)} (h : EnumOk fields) :
    mapEnumFields fields (.scalar .none) = .ok (.scalar (.int (-1))) ∧
    mapEnumFields fields (.scalar (.flt nan)) = .ok (.scalar (.int (-1))) ∧
    (∀ x, x ≠ nan → mapEnumFields fields (.scalar (.flt x)) = .error (.keyError "key")) ∧
    (∀ b, mapEnumFields fields (.scalar (.bool b)) = .error (.keyError "key")) := by
  refine ⟨?_, ?_, ?_, ?_⟩
  · rw [mapEnumFields_eq h]; rfl
  · rw [mapEnumFields_eq h]; rfl
  · intro x hx
    rw [mapEnumFields_eq h, mapObj, if_neg (by simp [compatKinds, Item.kind]), convert_number _ ?_ (by simp [Item.kind])]
    cases x <;> simp [Item.isNull, F.isnan] at hx ⊢
  · intro b
    rw [mapEnumFields_eq h, mapObj, if_neg (by simp [compatKinds, Item.kind]), convert_number _ rfl (by simp [Item.kind])]

/-- Accumulation modes may also be booleans, which are left as they are (base.py:2774). -/
theorem C105_accumulate {fields : List (String × Int)} (h : EnumOk fields) (b : Bool) :
    mapEnumFields fields (.scalar (.bool b)) [some .int, some .bool] = .ok (.scalar (.bool b)) := by
  rw [mapEnumFields_eq h, mapObj, if_pos (by simp [compatKinds, Item.kind])]

theorem convertAll_iff (o : MapOpts) (m : PyDict × Item) : ∀ (l r : List Item),
    convertAll o m l = .ok r ↔ List.Forall₂ (fun x y => convertValue o m x = .ok y) l r
  | [], r => by
    simp only [convertAll, List.forall₂_nil_left_iff]
    constructor
    · intro h; cases h; rfl
    · rintro rfl; rfl
  | x :: xs, r => by
    rw [convertAll]
    constructor
    · intro h
      cases hx : convertValue o m x with
      | error e => rw [hx] at h; cases h
      | ok y =>
        rw [hx] at h
        dsimp only at h
        cases hxs : convertAll o m xs with
        | error e => rw [hxs] at h; cases h
        | ok ys => rw [hxs] at h; cases h; exact .cons hx ((convertAll_iff o m xs ys).mp hxs)
    · intro h
      cases h with
      | cons hx hxs => rw [hx]; dsimp only; rw [(convertAll_iff o m xs _).mpr hxs]

theorem convertAll_error (o : MapOpts) (m : PyDict × Item) (P : Err → Prop) (hP : ∀ x e, convertValue o m x = .error e → P e) :
    ∀ (l : List Item) (e : Err), convertAll o m l = .error e → P e
  | [], e, h => by cases h
  | x :: xs, e, h => by
    rw [convertAll] at h
    cases hx : convertValue o m x with
    | error e' => rw [hx] at h; cases h; exact hP x _ hx
    | ok y =>
      rw [hx] at h
      dsimp only at h
      cases hxs : convertAll o m xs with
      | error e' => rw [hxs] at h; cases h; exact convertAll_error o m P hP xs _ hxs
      | ok ys => rw [hxs] at h; cases h

theorem convertAll_fieldOf {fields : List (String × Int)} (h : EnumOk fields) (ignore : List (Option ItemKind)) (l r : List Item) :
    convertAll { ignoreType := ignore } (nameDict fields, .int (-1)) l = .ok r ↔ List.Forall₂ (FieldOf fields) l r := by
  rw [convertAll_iff]
  constructor <;> intro hf <;> exact hf.imp fun x y hxy => by
    first | exact (fieldOf_convert h ignore).mp hxy | exact (fieldOf_convert h ignore).mpr hxy

theorem mapArray_names {fields : List (String × Int)} (h : EnumOk fields) {d : ItemKind} {l : List Item} (hd : d ≠ .int)
    (hl : ∀ x, l.head? = some x → x.kind ≠ .int) (res : ItemKind × List Item) :
    mapArray { ignoreType := [some .int] } (nameDict fields, .int (-1)) d l = .ok res ↔
      List.Forall₂ (FieldOf fields) l res.2 ∧ res.1 = if l = [] then d else .object := by
  obtain ⟨d', r⟩ := res
  cases l with
  | nil =>
    simp only [mapArray, List.forall₂_nil_left_iff, if_true]
    constructor
    · intro hh; cases hh; exact ⟨rfl, rfl⟩
    · rintro ⟨rfl, rfl⟩; rfl
  | cons x xs =>
    have hx := hl x rfl
    have hcomp : compatArray { ignoreType := [some .int] } d x = false := by
      unfold compatArray
      split
      · simp [compatKinds, hd]
      · split
        · simp [compatKinds, hx]
        · simp [compatKinds, hd]
    rw [mapArray, if_neg (by rw [hcomp]; simp), if_neg (by simp)]
    cases hc : convertAll { ignoreType := [some .int] } (nameDict fields, .int (-1)) (x :: xs) with
    | error e =>
      refine ⟨fun hh => (by cases hh), fun hh => ?_⟩
      rw [(convertAll_fieldOf h _ _ _).mpr hh.1] at hc
      cases hc
    | ok ys =>
      have hy := (convertAll_fieldOf h _ _ _).mp hc
      constructor
      · intro hh; cases hh; exact ⟨hy, rfl⟩
      · rintro ⟨hf, rfl⟩
        have := (convertAll_fieldOf h [some .int] _ _).mpr hf
        rw [hc] at this
        cases this
        rfl

/-- An array (a series, an index) that does not start with an integer is converted value by value: it succeeds exactly when each value is
a name or missing, and the results stand at the places of the names. -/
theorem C105_array {fields : List (String × Int)} (h : EnumOk fields) {d : ItemKind} {l : List Item} (hd : d ≠ .int)
    (hl : ∀ x, l.head? = some x → x.kind ≠ .int) (y : MapObj) :
    mapEnumFields fields (.array d l) = .ok y ↔
      ∃ r, y = .array (if l = [] then d else .object) r ∧ List.Forall₂ (FieldOf fields) l r := by
  rw [mapEnumFields_eq h, mapObj]
  constructor
  · intro hh
    cases hm : mapArray { ignoreType := [some .int] } (nameDict fields, .int (-1)) d l with
    | error e => rw [hm] at hh; cases hh
    | ok res =>
      have := (mapArray_names h hd hl res).mp hm
      rw [hm] at hh
      cases hh
      exact ⟨res.2, by rw [this.2], this.1⟩
  · rintro ⟨r, rfl, hf⟩
    rw [(mapArray_names h hd hl (if l = [] then d else .object, r)).mpr ⟨hf, rfl⟩]

/-- An array that cannot be converted is the error of a missing key. -/
theorem C105_array_error {fields : List (String × Int)} (h : EnumOk fields) {d : ItemKind} {l : List Item} {e : Err}
    (he : mapEnumFields fields (.array d l) = .error e) : e = .keyError "key" := by
  rw [mapEnumFields_eq h, mapObj] at he
  cases l with
  | nil => cases he
  | cons x xs =>
    rw [mapArray] at he
    split at he
    · rename_i hm
      split at hm
      · cases hm
      · split at hm
        · rename_i hc
          cases hm
          cases he
          exact convertAll_error _ _ (fun e => e = .keyError "key") (fun x e hx => convert_error _ hx) _ _ hc
        · cases hm
    · cases he

/-- **The first value decides**: an array of integers, and an array of objects that starts with an integer, is left as it is; the names
behind the first value stay names. -/
theorem C105_first_decides {fields : List (String × Int)} (h : EnumOk fields) (i : Int) (l : List Item) :
    (∀ x, mapEnumFields fields (.array .int (.int x :: l)) = .ok (.array .int (.int x :: l))) ∧
    mapEnumFields fields (.array .object (.int i :: l)) = .ok (.array .object (.int i :: l)) := by
  refine ⟨fun x => ?_, ?_⟩
  · rw [mapEnumFields_eq h, mapObj, mapArray, if_pos (by simp [compatArray, compatKinds])]
  · rw [mapEnumFields_eq h, mapObj, mapArray, if_pos (by simp [compatArray, compatKinds, Item.kind])]

theorem mapObjs_iff (o : MapOpts) (m : PyDict × Item) : ∀ (l r : List MapObj),
    mapObjs o m l = .ok r ↔ List.Forall₂ (fun x y => mapObj o m x = .ok y) l r
  | [], r => by
    simp only [mapObjs, List.forall₂_nil_left_iff]
    constructor
    · intro h; cases h; rfl
    · rintro rfl; rfl
  | x :: xs, r => by
    rw [mapObjs]
    constructor
    · intro h
      cases hx : mapObj o m x with
      | error e => rw [hx] at h; cases h
      | ok y =>
        rw [hx] at h
        dsimp only at h
        cases hxs : mapObjs o m xs with
        | error e => rw [hxs] at h; cases h
        | ok ys => rw [hxs] at h; cases h; exact .cons hx ((mapObjs_iff o m xs ys).mp hxs)
    · intro h
      cases h with
      | cons hx hxs => rw [hx]; dsimp only; rw [(mapObjs_iff o m xs _).mpr hxs]

/-- A tuple or list is converted element by element, each on its own terms, and stays a tuple or list. -/
theorem C105_list {fields : List (String × Int)} (h : EnumOk fields) (l : List MapObj) (y : MapObj) :
    mapEnumFields fields (.seq l) = .ok y ↔
      ∃ r, y = .seq r ∧ List.Forall₂ (fun a b => mapEnumFields fields a = .ok b) l r := by
  have hr : ∀ r, List.Forall₂ (fun a b => mapEnumFields fields a = .ok b) l r ↔
      mapObjs { ignoreType := [some .int] } (nameDict fields, .int (-1)) l = .ok r := by
    intro r
    rw [mapObjs_iff]
    constructor <;> intro hf <;> exact hf.imp fun a b hab => by
      first
        | (rw [mapEnumFields_eq h] at hab; exact hab)
        | (rw [mapEnumFields_eq h]; exact hab)
  rw [mapEnumFields_eq h, mapObj]
  constructor
  · intro hh
    cases hm : mapObjs { ignoreType := [some .int] } (nameDict fields, .int (-1)) l with
    | error e => rw [hm] at hh; cases hh
    | ok res => rw [hm] at hh; cases hh; exact ⟨res, rfl, (hr res).mpr hm⟩
  · rintro ⟨r, rfl, hf⟩
    rw [(hr r).mp hf]

theorem mapCols_iff (o : MapOpts) (m : PyDict × Item) : ∀ (l r : List (ItemKind × List Item)),
    mapCols o m l = .ok r ↔ List.Forall₂ (fun x y => mapArray o m x.1 x.2 = .ok y) l r
  | [], r => by
    simp only [mapCols, List.forall₂_nil_left_iff]
    constructor
    · intro h; cases h; rfl
    · rintro rfl; rfl
  | (d, x) :: xs, r => by
    rw [mapCols]
    constructor
    · intro h
      cases hx : mapArray o m d x with
      | error e => rw [hx] at h; cases h
      | ok y =>
        rw [hx] at h
        dsimp only at h
        cases hxs : mapCols o m xs with
        | error e => rw [hxs] at h; cases h
        | ok ys => rw [hxs] at h; cases h; exact .cons hx ((mapCols_iff o m xs ys).mp hxs)
    · intro h
      cases h with
      | cons hx hxs => rw [hx]; dsimp only; rw [(mapCols_iff o m xs _).mpr hxs]

/-- The columns of a frame are converted as series, each on its own terms. -/
theorem C105_frame {fields : List (String × Int)} (h : EnumOk fields) (cols : List (ItemKind × List Item)) (y : MapObj) :
    mapEnumFields fields (.frame cols) = .ok y ↔
      ∃ r, y = .frame r ∧
        List.Forall₂ (fun (a b : ItemKind × List Item) => mapEnumFields fields (.array a.1 a.2) = .ok (.array b.1 b.2)) cols r := by
  have ha : ∀ a b : ItemKind × List Item, mapEnumFields fields (.array a.1 a.2) = .ok (.array b.1 b.2) ↔
      mapArray { ignoreType := [some .int] } (nameDict fields, .int (-1)) a.1 a.2 = .ok b := by
    intro a b
    rw [mapEnumFields_eq h, mapObj]
    cases mapArray { ignoreType := [some .int] } (nameDict fields, .int (-1)) a.1 a.2 with
    | error e =>
      constructor
      · intro hh; cases hh
      · intro hh; cases hh
    | ok res =>
      obtain ⟨d, r⟩ := res
      obtain ⟨d', r'⟩ := b
      constructor
      · intro hh; cases hh; rfl
      · intro hh; cases hh; rfl
  have hr : ∀ r, List.Forall₂ (fun (a b : ItemKind × List Item) => mapEnumFields fields (.array a.1 a.2) = .ok (.array b.1 b.2)) cols r ↔
      mapCols { ignoreType := [some .int] } (nameDict fields, .int (-1)) cols = .ok r := by
    intro r
    rw [mapCols_iff]
    exact ⟨fun hf => hf.imp fun a b hab => (ha a b).mp hab, fun hf => hf.imp fun a b hab => (ha a b).mpr hab⟩
  rw [mapEnumFields_eq h, mapObj]
  constructor
  · intro hh
    cases hm : mapCols { ignoreType := [some .int] } (nameDict fields, .int (-1)) cols with
    | error e => rw [hm] at hh; cases hh
    | ok res => rw [hm] at hh; cases hh; exact ⟨res, rfl, (hr res).mpr hm⟩
  · rintro ⟨r, rfl, hf⟩
    rw [(hr r).mp hf]

theorem fieldOf_int {fields : List (String × Int)} {x y : Item} (h : FieldOf fields x y) : ∃ i, y = .int i := by
  rcases h with ⟨_, _, v, _, _, _, rfl⟩ | ⟨_, rfl⟩
  · exact ⟨v, rfl⟩
  · exact ⟨-1, rfl⟩

theorem mapArray_again {fields : List (String × Int)} (h : EnumOk fields) {d : ItemKind} {l : List Item} {res : ItemKind × List Item}
    (hm : mapArray { ignoreType := [some .int] } (nameDict fields, .int (-1)) d l = .ok res) :
    mapArray { ignoreType := [some .int] } (nameDict fields, .int (-1)) res.1 res.2 = .ok res := by
  cases l with
  | nil => cases hm; rfl
  | cons x xs =>
    rw [mapArray] at hm
    by_cases hc : compatArray { ignoreType := [some .int] } d x = true
    · rw [if_pos hc] at hm
      cases hm
      rw [mapArray, if_pos hc]
    · rw [if_neg hc] at hm
      cases hr : convertAll { ignoreType := [some .int] } (nameDict fields, .int (-1)) (x :: xs) with
      | error e => rw [hr] at hm; cases hm
      | ok r =>
        rw [hr] at hm
        cases hm
        have hf := (convertAll_fieldOf h _ _ _).mp hr
        cases hf with
        | cons hxy _ =>
          obtain ⟨i, rfl⟩ := fieldOf_int hxy
          rw [mapArray, if_pos (by simp [compatArray, compatKinds, Item.kind])]

theorem forall₂_right_mem {α β : Type} {R : α → β → Prop} {l : List α} {r : List β} (h : List.Forall₂ R l r) {b : β} (hb : b ∈ r) :
    ∃ a ∈ l, R a b := by
  induction h with
  | nil => cases hb
  | cons hxy _ ih =>
    rcases List.mem_cons.mp hb with rfl | hb
    · exact ⟨_, List.mem_cons_self, hxy⟩
    · obtain ⟨a, ha, hr⟩ := ih hb
      exact ⟨a, List.mem_cons_of_mem _ ha, hr⟩

mutual

theorem mapObj_again {fields : List (String × Int)} (h : EnumOk fields) : ∀ {x y : MapObj},
    mapObj { ignoreType := [some .int] } (nameDict fields, .int (-1)) x = .ok y →
    mapObj { ignoreType := [some .int] } (nameDict fields, .int (-1)) y = .ok y
  | .scalar x, y, hm => by
    rw [mapObj] at hm
    by_cases hc : compatKinds x.kind [some .int] = true
    · rw [if_pos hc] at hm
      cases hm
      rw [mapObj, if_pos hc]
    · rw [if_neg hc] at hm
      cases hr : convertValue { ignoreType := [some .int] } (nameDict fields, .int (-1)) x with
      | error e => rw [hr] at hm; cases hm
      | ok r =>
        rw [hr] at hm
        cases hm
        obtain ⟨i, rfl⟩ := fieldOf_int ((fieldOf_convert h _).mp hr)
        rw [mapObj, if_pos (by simp [compatKinds, Item.kind])]
  | .seq l, y, hm => by
    rw [mapObj] at hm
    cases hr : mapObjs { ignoreType := [some .int] } (nameDict fields, .int (-1)) l with
    | error e => rw [hr] at hm; cases hm
    | ok r =>
      rw [hr] at hm
      cases hm
      rw [mapObj, mapObjs_again h hr]
  | .array d l, y, hm => by
    rw [mapObj] at hm
    cases hr : mapArray { ignoreType := [some .int] } (nameDict fields, .int (-1)) d l with
    | error e => rw [hr] at hm; cases hm
    | ok r =>
      rw [hr] at hm
      cases hm
      rw [mapObj, mapArray_again h hr]
  | .frame cols, y, hm => by
    rw [mapObj] at hm
    cases hr : mapCols { ignoreType := [some .int] } (nameDict fields, .int (-1)) cols with
    | error e => rw [hr] at hm; cases hm
    | ok r =>
      rw [hr] at hm
      cases hm
      have hf := (mapCols_iff _ _ _ _).mp hr
      rw [mapObj, (mapCols_iff _ _ r r).mpr]
      rw [List.forall₂_same]
      intro b hb
      obtain ⟨a, _, hab⟩ := forall₂_right_mem hf hb
      exact mapArray_again h hab

theorem mapObjs_again {fields : List (String × Int)} (h : EnumOk fields) : ∀ {x y : List MapObj},
    mapObjs { ignoreType := [some .int] } (nameDict fields, .int (-1)) x = .ok y →
    mapObjs { ignoreType := [some .int] } (nameDict fields, .int (-1)) y = .ok y
  | [], y, hm => by cases hm; rfl
  | x :: xs, y, hm => by
    rw [mapObjs] at hm
    cases hx : mapObj { ignoreType := [some .int] } (nameDict fields, .int (-1)) x with
    | error e => rw [hx] at hm; cases hm
    | ok b =>
      rw [hx] at hm
      dsimp only at hm
      cases hxs : mapObjs { ignoreType := [some .int] } (nameDict fields, .int (-1)) xs with
      | error e => rw [hxs] at hm; cases hm
      | ok bs =>
        rw [hxs] at hm
        cases hm
        rw [mapObjs, mapObj_again h hx]
        dsimp only
        rw [mapObjs_again h hxs]

end

/-- Converting what is converted changes nothing, whatever the object. -/
theorem C105_again {fields : List (String × Int)} (h : EnumOk fields) {x y : MapObj} (hm : mapEnumFields fields x = .ok y) :
    mapEnumFields fields y = .ok y := by
  rw [mapEnumFields_eq h] at hm ⊢
  exact mapObj_again h hm

/-- Back: the value of a field, as an integer, a float or a boolean, gives its name as it is written; -1 and missing values give `None`;
other numbers are errors and strings stay. -/
theorem C105_value {fields : List (String × Int)} (h : EnumOk fields) :
    (∀ n v, (n, v) ∈ fields → ∀ x : Item, x.key = .num v → mapEnumValues fields (.scalar x) = .ok (.scalar (.str n))) ∧
    (∀ x : Item, x.isNull = true ∨ x.key = .num (-1) → mapEnumValues fields (.scalar x) = .ok (.scalar .none)) ∧
    (∀ x : Item, x.isNull = false → x.kind ≠ .str → x.key ≠ .num (-1) → (∀ f ∈ fields, x.key ≠ .num f.2) →
      mapEnumValues fields (.scalar x) = .error (.keyError "key")) ∧
    (∀ s, mapEnumValues fields (.scalar (.str s)) = .ok (.scalar (.str s))) := by
  have hnum : ∀ (x : Item) (q : ℚ), x.key = .num q → x.isNull = false ∧ x.kind ≠ .str := by
    intro x q hx
    cases x with
    | none => cases hx
    | str s => cases hx
    | int i => exact ⟨rfl, by simp [Item.kind]⟩
    | bool b => exact ⟨rfl, by simp [Item.kind]⟩
    | flt y => cases y <;> simp [Item.key, Item.isNull, Item.kind, F.isnan] at hx ⊢
  have hconv : ∀ (x : Item), x.isNull = false → x.kind ≠ .str → mapEnumValues fields (.scalar x) =
      match (enumMapping fields).find x.key with
      | some v => .ok (.scalar v)
      | none => .error (.keyError "key") := by
    intro x hn hk
    rw [mapEnumValues_eq h, mapObj, if_neg (by simp [compatKinds, hk])]
    unfold convertValue
    cases x with
    | str s => exact absurd rfl hk
    | none => simp [Item.isNull] at hn
    | int i => rw [if_neg (by simp [hn])]; dsimp only; cases (enumMapping fields).find (Item.int i).key <;> rfl
    | bool i => rw [if_neg (by simp [hn])]; dsimp only; cases (enumMapping fields).find (Item.bool i).key <;> rfl
    | flt i => rw [if_neg (by simp [hn])]; dsimp only; cases (enumMapping fields).find (Item.flt i).key <;> rfl
  refine ⟨?_, ?_, ?_, ?_⟩
  · intro n v hm x hx
    rw [hconv x (hnum x _ hx).1 (hnum x _ hx).2, hx]
    have := find_distinct (enumMapping_keys h) (k := .int v) (v := .str n) (by
      rw [enumMapping_ok h]
      exact List.mem_append_left _ (List.mem_map.mpr ⟨(n, v), hm, rfl⟩))
    simp only [Item.key] at this
    rw [this]
  · rintro x (hx | hx)
    · have hk : ¬ compatKinds x.kind [some .str] = true := by
        cases x <;> simp [compatKinds, Item.kind, Item.isNull] at hx ⊢
      have hc : convertValue { ignoreType := [some .str] } (enumMapping fields, .none) x = .ok .none := by
        unfold convertValue
        rw [if_pos hx]
      rw [mapEnumValues_eq h, mapObj, if_neg hk, hc]
    · rw [hconv x (hnum x _ hx).1 (hnum x _ hx).2, hx]
      have := find_distinct (enumMapping_keys h) (k := .int (-1)) (v := .none) (by
        rw [enumMapping_ok h]
        simp)
      simp only [Item.key, Int.cast_neg, Int.cast_one] at this
      rw [this]
  · intro x hn hk h1 hf
    rw [hconv x hn hk, find_missing]
    intro e he
    rw [enumMapping_ok h] at he
    rcases List.mem_append.mp he with he | he
    · obtain ⟨f, hm, rfl⟩ := List.mem_map.mp he
      exact fun hh => hf f hm hh.symm
    · rw [List.mem_singleton.mp he]
      intro hh
      apply h1
      rw [← hh]
      simp [Item.key]
  · intro s
    rw [mapEnumValues_eq h, mapObj, if_pos (by simp [compatKinds, Item.kind])]

/-- From a value to its name and back is the value; from any spelling to the value and back is the name as it is written. -/
theorem C105_round_trip {fields : List (String × Int)} (h : EnumOk fields) {n s : String} {v : Int} (hm : (n, v) ∈ fields)
    (hs : SameName s n) :
    (mapEnumValues fields (.scalar (.int v)) >>= fun y => mapEnumFields fields y) = .ok (.scalar (.int v)) ∧
    (mapEnumFields fields (.scalar (.str s)) >>= fun y => mapEnumValues fields y) = .ok (.scalar (.str n)) ∧
    (mapEnumValues fields (.scalar (.int (-1))) >>= fun y => mapEnumFields fields y) = .ok (.scalar (.int (-1))) := by
  refine ⟨?_, ?_, ?_⟩
  · rw [(C105_value h).1 n v hm (.int v) rfl]
    exact C105_name h hm rfl
  · rw [C105_name h hm hs]
    exact (C105_value h).1 n v hm (.int v) rfl
  · rw [(C105_value h).2.1 (.int (-1)) (.inr (by simp [Item.key]))]
    exact (C105_others h).1

/-- The directions. -/
def directionEnum : List (String × Int) := [("LongOnly", 0), ("ShortOnly", 1), ("Both", 2)]

example : EnumOk directionEnum := by decide +kernel
example : SameName "long_only" "LongOnly" ∧ SameName "SHORTONLY" "ShortOnly" ∧ ¬ SameName "long" "LongOnly" := by decide +kernel

def MapObj.isItems (l : List Item) : MapObj → Bool
  | .scalar x => l = [x]
  | .array _ r => l = r
  | _ => false

example : okAnd (mapEnumFields directionEnum (.array .str [.str "Long_Only", .str "both"])) (MapObj.isItems [.int 0, .int 2]) := by
  decide +kernel

/-- An array of objects that starts with an integer keeps the names behind it; the list of the same values is converted. -/
theorem C105_mixed :
    mapEnumFields directionEnum (.array .object [.int 0, .str "both"]) = .ok (.array .object [.int 0, .str "both"]) ∧
    mapEnumFields directionEnum (.seq [.scalar (.int 0), .scalar (.str "both")]) = .ok (.seq [.scalar (.int 0), .scalar (.int 2)]) ∧
    mapEnumFields directionEnum (.array .object [.str "both", .int 0]) = .error (.keyError "key") := by
  have h : EnumOk directionEnum := by decide +kernel
  refine ⟨(C105_first_decides h 0 _).2, (C105_list h _ _).mpr ⟨_, rfl, .cons (C105_int h 0) (.cons ?_ .nil)⟩, ?_⟩
  · exact C105_name h (n := "Both") (by decide) (by decide +kernel)
  · exact raised_iff.mp (by decide +kernel)

/-- With `ignore_missing` a name that is not found does not come back as it was: its case and its underscores are lost. -/
theorem C105_missing :
    okAnd (applyMapping { ignoreMissing := true } [(.str "A", .int 1)] (.scalar (.str "Not_There"))) (MapObj.isItems [.str "notthere"]) := by
  decide +kernel

/-- Of two fields of one value only the last can be named. -/
theorem C105_alias :
    mapEnumFields [("Buy", 0), ("Long", 0)] (.scalar (.str "Buy")) = .error (.keyError "key") ∧
    okAnd (mapEnumFields [("Buy", 0), ("Long", 0)] (.scalar (.str "Long"))) (MapObj.isItems [.int 0]) :=
  ⟨raised_iff.mp (by decide +kernel), by decide +kernel⟩

/-- Names of a mapping that differ in case only share the value of the last. -/
theorem C105_collision :
    okAnd (applyMapping {} [(.str "close", .int 0), (.str "Close", .int 3)] (.scalar (.str "close"))) (MapObj.isItems [.int 3]) := by
  decide +kernel

end Vbt
