import Verif.Spec.RustGeneric
import Verif.Model.RustGeneric

/-!
# Outcomes of two engines

What it means that two implementations agree on results of any kind, and on arrays in particular.
-/

namespace Vbt

/-- Whenever `y` returns, `x` returns a related value; and if `strict`, whenever `y` raises, `x` raises the same. -/
def Agrees {V W : Type} (strict : Bool) (R : V → W → Prop) (x : Except Err V) (y : Except Err W) : Prop :=
  match y with
  | .ok w => ∃ v, x = .ok v ∧ R v w
  | .error e => strict = true → x = .error e

/-- An array of `nrows` rows and `ncols` columns with these cells. -/
def IsArray (nrows ncols : Nat) (u : RsGen.View2) (v : Nat → Nat → F) : Prop :=
  u.nrows = nrows ∧ u.ncols = ncols ∧ SameCells nrows ncols u.get v

/-- Both parts of a pair are related. -/
def BothRel {V W V' W' : Type} (R : V → W → Prop) (S : V' → W' → Prop) (p : V × V') (q : W × W') : Prop := R p.1 q.1 ∧ S p.2 q.2

/-- Two dictionaries have the same keys in the same order, up to the hash functions, and related values. -/
def DictRel {K H H' V W : Type} (h : K → H) (h' : K → H') (R : V → W → Prop) (d : List (H × V)) (d' : List (H' × W)) : Prop :=
  List.Forall₂ (fun p q => ∃ k, p.1 = h k ∧ q.1 = h' k ∧ R p.2 q.2) d d'

/-- Two hash functions have the same collisions. -/
def SameCollisions {K H H' : Type} (h : K → H) (h' : K → H') : Prop := ∀ k l, h k = h l ↔ h' k = h' l

end Vbt
