import Verif.Model.Mapping

/-! # Names of enums -/

namespace Vbt

/-- Two names are the same when they differ in case and underscores only. -/
def SameName (s t : String) : Prop :=
  (s.toList.map Char.toLower).filter (fun c => c ≠ '_') = (t.toList.map Char.toLower).filter (fun c => c ≠ '_')

instance (s t : String) : Decidable (SameName s t) := inferInstanceAs (Decidable (_ = _))

/-- A sane enum: no two fields of the same name or value, and -1 is no value. -/
structure EnumOk (fields : List (String × Int)) : Prop where
  names : fields.Pairwise fun a b => ¬ SameName a.1 b.1
  values : fields.Pairwise fun a b => a.2 ≠ b.2
  sentinel : ∀ f ∈ fields, f.2 ≠ -1

instance (fields : List (String × Int)) : Decidable (EnumOk fields) :=
  decidable_of_iff (fields.Pairwise (fun a b => ¬ SameName a.1 b.1) ∧ fields.Pairwise (fun a b => a.2 ≠ b.2) ∧
    ∀ f ∈ fields, f.2 ≠ -1) ⟨fun h => ⟨h.1, h.2.1, h.2.2⟩, fun h => ⟨h.1, h.2, h.3⟩⟩

/-- What a scalar that is no integer stands for: a name for the value of its field, a missing value for -1. -/
def FieldOf (fields : List (String × Int)) (x y : Item) : Prop :=
  (∃ s n v, x = .str s ∧ (n, v) ∈ fields ∧ SameName s n ∧ y = .int v) ∨ ((x = .none ∨ x = .flt .nan) ∧ y = .int (-1))

end Vbt
