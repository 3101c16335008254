import Verif.Model.Flex

/-!
# Broadcasting as defined by NumPy

Shapes are aligned at their last dimensions; a dimension of length one is repeated.
-/

namespace Vbt

/-- The shape can be broadcast to the target. -/
def Broadcastable (shape target : List Nat) : Prop :=
  shape.length ≤ target.length ∧
  List.Forall₂ (fun d n => d = 1 ∨ d = n) shape (target.drop (target.length - shape.length))

/-- `np.broadcast_to`. -/
def NArr.broadcastTo {α : Type} (a : NArr α) (target : List Nat) : NArr α where
  shape := target
  get := fun idx =>
    a.get (List.zipWith (fun d j => if d = 1 then 0 else j) a.shape (idx.drop (target.length - a.shape.length)))

/-- `a[:, None]` of a 1-d array. -/
def NArr.asColumn {α : Type} (a : NArr α) : NArr α where
  shape := a.shape ++ [1]
  get := fun idx => a.get (idx.take a.shape.length)

/-- What is broadcast: a 1-d array is a row with `flex_2d`, otherwise a column. -/
def NArr.operand {α : Type} (a : NArr α) (flex2d : Bool) : NArr α :=
  if a.shape.length = 1 ∧ flex2d = false then a.asColumn else a

/-- `idx` is the index of an element of an array of this shape. -/
def InShape (shape idx : List Nat) : Prop := List.Forall₂ (fun j d => j < d) idx shape

end Vbt
