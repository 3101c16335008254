import Verif.Spec.Calls

/-!
# What callbacks see
-/

namespace Vbt

/-- The same balances, and the same positions of the last records. -/
structure SameBooks (a b : CbArrays) : Prop where
  cash : b.cash = a.cash
  position : b.position = a.position
  debt : b.debt = a.debt
  free : b.free = a.free
  lastOidx : b.lastOidx = a.lastOidx
  lastLidx : b.lastLidx = a.lastLidx

/-- Whatever the callbacks write to the arrays, the arrays before and after are related by `R`. -/
structure Keeps {M : Type} (R : CbArrays → CbArrays → Prop) (cb : Callbacks M) : Prop where
  preSim : ∀ s m a m', cb.preSim s m = .ok (a, m') → R s.arr a
  postSim : ∀ s m a m', cb.postSim s m = .ok (a, m') → R s.arr a
  preGroup : ∀ g s m a m', cb.preGroup g s m = .ok (a, m') → R s.arr a
  postGroup : ∀ g s m a m', cb.postGroup g s m = .ok (a, m') → R s.arr a
  preRow : ∀ i s m a m', cb.preRow i s m = .ok (a, m') → R s.arr a
  postRow : ∀ i s m a m', cb.postRow i s m = .ok (a, m') → R s.arr a
  preSeg : ∀ x s m a m', cb.preSeg x s m = .ok (a, m') → R s.arr a
  postSeg : ∀ x s m a m', cb.postSeg x s m = .ok (a, m') → R s.arr a
  order : ∀ x col k now s m o a m', cb.order x col k now s m = .ok (o, a, m') → R s.arr a
  postOrder : ∀ x col k b r c s m a m', cb.postOrder x col k b r c s m = .ok (a, m') → R s.arr a

/-- The same for a flexible order function. -/
def FlexKeeps {M : Type} (R : CbArrays → CbArrays → Prop) (fo : FlexOrder M) : Prop :=
  ∀ x k s m c o a m', fo x k s m = .ok (c, o, a, m') → R s.arr a

/-- Positions are left alone. -/
def SamePosition (a b : CbArrays) : Prop := b.position = a.position

/-- Cash is left alone. -/
def SameCash (a b : CbArrays) : Prop := b.cash = a.cash

/-- Cash may be changed, but not made negative. -/
def CashNotNegative (a b : CbArrays) : Prop :=
  (∀ k, F.lt (a.cash k) F.zero = false) → ∀ k, F.lt (b.cash k) F.zero = false

/-- The positions of the last records are left alone. -/
def SameLast (a b : CbArrays) : Prop := b.lastOidx = a.lastOidx ∧ b.lastLidx = a.lastLidx

/-- All orders of the order function satisfy `G`. -/
def OrdersAre {M : Type} (G : Order → Prop) (cb : Callbacks M) : Prop :=
  ∀ x col k now s m o a m', cb.order x col k now s m = .ok (o, a, m') → G o

/-- All orders of the flexible order function satisfy `G`. -/
def FlexOrdersAre {M : Type} (G : Order → Prop) (fo : FlexOrder M) : Prop :=
  ∀ x k s m c o a m', fo x k s m = .ok (c, o, a, m') → G o

open Classical in
/-- The same callback, which raises if it sees a state without `P`. -/
noncomputable def guarding {M R : Type} (P : CbState → Prop) (e : Err) (f : CbState → M → Except Err R) (s : CbState) (m : M) :
    Except Err R := if P s then f s m else .error e

/-- The same callbacks, which raise if they see a state without `P`. -/
noncomputable def Callbacks.guarded {M : Type} (P : CbState → Prop) (e : Err) (cb : Callbacks M) : Callbacks M where
  preSim := guarding P e cb.preSim
  postSim := guarding P e cb.postSim
  preGroup g := guarding P e (cb.preGroup g)
  postGroup g := guarding P e (cb.postGroup g)
  preRow i := guarding P e (cb.preRow i)
  postRow i := guarding P e (cb.postRow i)
  preSeg x := guarding P e (cb.preSeg x)
  postSeg x := guarding P e (cb.postSeg x)
  order x col k now := guarding P e (cb.order x col k now)
  postOrder x col k before res after := guarding P e (cb.postOrder x col k before res after)

/-- The same for a flexible order function. -/
noncomputable def guardedFlex {M : Type} (P : CbState → Prop) (e : Err) (fo : FlexOrder M) : FlexOrder M := fun x k =>
  guarding P e (fo x k)

/-- Every state seen by a callback in a simulation, and the state at its end, satisfies `P`: callbacks that raise otherwise,
whatever the error, make no difference. -/
structure Seen {M : Type} (P : CbState → Prop) (run : Callbacks M → FlexOrder M → Except Err (CbState × M)) (cb : Callbacks M)
    (fo : FlexOrder M) : Prop where
  during : ∀ e, run (cb.guarded P e) (guardedFlex P e fo) = run cb fo
  atEnd : ∀ s m, run cb fo = .ok (s, m) → P s

end Vbt
