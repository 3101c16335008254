import Verif.Model.RustRecon
import Verif.Spec.Books
import Verif.Lemmas.Sound

/-!
# Vocabulary for comparing assets, cash and value of the engines
-/

namespace Vbt

/-- An array with `nc` columns in row-major order, read by row and column. -/
def unflatten {β : Type} (nc : Nat) (a : Nat → β) (i c : Nat) : β := a (i * nc + c)

/-- A function of the Numba engine, given by its results for the columns, and a function of the Rust engine over all of them:
either all columns succeed and are read back from the array, or the first column that raises a `ValueError` raises it in both. -/
def ByColumns {β ρ : Type} (nc : Nat) (reads : ρ → Nat → β → Prop) (numba : Nat → Except Err β) (rust : Except Err ρ) : Prop :=
  (∃ out, rust = .ok out ∧ ∀ col < nc, ∃ g, numba col = .ok g ∧ reads out col g) ∨
  ∃ m, rust = .error (.valueError m) ∧ ∃ col < nc, numba col = .error (.valueError m) ∧ ∀ c < col, ∃ g, numba c = .ok g

/-- The column in rows `0..nr`. -/
def ReadsColumn (nr nc : Nat) (out : Nat → F) (col : Nat) (g : Nat → F) : Prop := ∀ i < nr, unflatten nc out i col = g i

/-- All numbers of the array are represented. -/
def RepArray (A : Arith) (nr nc : Nat) (a : Nat → F) : Prop := ∀ i < nr, ∀ c < nc, F.Rep A (unflatten nc a i c)

/-- The call sequences hold positions in their group. -/
def CallsInGroup (callSeq : Nat → Nat → Nat) (lens : List Nat) (nr : Nat) : Prop :=
  ∀ i < nr, ∀ g < lens.length, ∀ k < lens.getD g 0, callSeq i (firstCol lens g + k) < lens.getD g 0

/-- The cell is called. -/
def CalledCell (callSeq : Nat → Nat → Nat) (lens : List Nat) (nr i c : Nat) : Prop :=
  i < nr ∧ ∃ g < lens.length, ∃ k < lens.getD g 0, c = firstCol lens g + callSeq i (firstCol lens g + k)

end Vbt
