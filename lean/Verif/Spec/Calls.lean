import Verif.Model.FlexSim

/-!
# Which callbacks are called, and when
-/

namespace Vbt

/-- A call of a callback: the row, the group, and for orders the number of the call in the segment and the column. -/
inductive Call where
  | preSim
  | postSim
  | preGroup (g : Nat)
  | postGroup (g : Nat)
  | preRow (i : Nat)
  | postRow (i : Nat)
  | preSegment (i g : Nat)
  | postSegment (i g : Nat)
  | order (i g k col : Nat)
  | postOrder (i g k col : Nat)
  | flexOrder (i g k : Nat)
deriving DecidableEq

/-- The same callbacks, which also write down that they are called. -/
def noting {M : Type} (c : Call) (f : CbState → M → Except Err (CbArrays × M)) (s : CbState) (m : M × List Call) :
    Except Err (CbArrays × (M × List Call)) :=
  match f s m.1 with
  | .error e => .error e
  | .ok (a, m') => .ok (a, (m', m.2 ++ [c]))

/-- The same callbacks, which also write down that they are called. -/
def Callbacks.noted {M : Type} (cb : Callbacks M) : Callbacks (M × List Call) where
  preSim := noting .preSim cb.preSim
  postSim := noting .postSim cb.postSim
  preGroup g := noting (.preGroup g.1) (cb.preGroup g)
  postGroup g := noting (.postGroup g.1) (cb.postGroup g)
  preRow i := noting (.preRow i) (cb.preRow i)
  postRow i := noting (.postRow i) (cb.postRow i)
  preSeg x := noting (.preSegment x.i x.group) (cb.preSeg x)
  postSeg x := noting (.postSegment x.i x.group) (cb.postSeg x)
  order x col k now s m :=
    match cb.order x col k now s m.1 with
    | .error e => .error e
    | .ok (o, a, m') => .ok (o, a, (m', m.2 ++ [.order x.i x.group k col]))
  postOrder x col k before res after := noting (.postOrder x.i x.group k col) (cb.postOrder x col k before res after)

/-- The same for a flexible order function. -/
def notedFlex {M : Type} (fo : FlexOrder M) : FlexOrder (M × List Call) := fun x k s m =>
  match fo x k s m.1 with
  | .error e => .error e
  | .ok (c, o, a, m') => .ok (c, o, a, (m', m.2 ++ [.flexOrder x.i x.group k]))

/-- The calls of a segment around those of its orders. -/
def segmentCalls (X : CbInputs) (i g : Nat) (orders : List Call) : List Call :=
  (if X.callPre || X.segMask i g then [.preSegment i g] else []) ++
  (if X.segMask i g then orders else []) ++
  (if X.callPost || X.segMask i g then [.postSegment i g] else [])

/-- The calls of the orders of a segment of `n` columns; `col k` is the column of slot `k`. -/
def orderCalls (i g n : Nat) (col : Nat → Nat) : List Call :=
  (List.range n).flatMap fun k => [.order i g k (col k), .postOrder i g k (col k)]

/-- The calls of a flexible order function that returned the given columns one after the other, then -1. -/
def flexCalls (i g : Nat) (cols : List Nat) : List Call :=
  (List.range cols.length).flatMap (fun k => [.flexOrder i g k, .postOrder i g k (cols.getD k 0)]) ++
    [.flexOrder i g cols.length]

/-- The calls of a simulation group by group; `seg i g` are those of a segment. -/
def groupWiseCalls (rows : Nat) (groups : List Nat) (seg : Nat → Nat → List Call) : List Call :=
  [.preSim] ++ (groups.flatMap fun g => [.preGroup g] ++ (List.range rows).flatMap (fun i => seg i g) ++ [.postGroup g]) ++
    [.postSim]

/-- The calls of a simulation row by row. -/
def rowWiseCalls (rows : Nat) (groups : List Nat) (seg : Nat → Nat → List Call) : List Call :=
  [.preSim] ++ ((List.range rows).flatMap fun i => [.preRow i] ++ groups.flatMap (fun g => seg i g) ++ [.postRow i]) ++
    [.postSim]

/-- The callbacks leave the call sequence alone. -/
structure KeepsCallSeq {M : Type} (cb : Callbacks M) : Prop where
  preSim : ∀ s m a m', cb.preSim s m = .ok (a, m') → a.callSeq = s.arr.callSeq
  postSim : ∀ s m a m', cb.postSim s m = .ok (a, m') → a.callSeq = s.arr.callSeq
  preGroup : ∀ g s m a m', cb.preGroup g s m = .ok (a, m') → a.callSeq = s.arr.callSeq
  postGroup : ∀ g s m a m', cb.postGroup g s m = .ok (a, m') → a.callSeq = s.arr.callSeq
  preRow : ∀ i s m a m', cb.preRow i s m = .ok (a, m') → a.callSeq = s.arr.callSeq
  postRow : ∀ i s m a m', cb.postRow i s m = .ok (a, m') → a.callSeq = s.arr.callSeq
  preSeg : ∀ x s m a m', cb.preSeg x s m = .ok (a, m') → a.callSeq = s.arr.callSeq
  postSeg : ∀ x s m a m', cb.postSeg x s m = .ok (a, m') → a.callSeq = s.arr.callSeq
  order : ∀ x col k now s m o a m', cb.order x col k now s m = .ok (o, a, m') → a.callSeq = s.arr.callSeq
  postOrder : ∀ x col k b r c s m a m', cb.postOrder x col k b r c s m = .ok (a, m') → a.callSeq = s.arr.callSeq

end Vbt
