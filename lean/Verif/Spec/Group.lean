import Verif.Model.Callback
import Verif.Lemmas.TwoRuns

/-! What a group sees of a simulation, and callbacks that depend only on their own group. -/

namespace Vbt

/-- Whether a column belongs to a group (group, from_col, group_len). -/
def ownsCol (g : Nat × Nat × Nat) (c : Nat) : Prop := g.2.1 ≤ c ∧ c < g.2.1 + g.2.2

/-- Whether a balance (of a group if cash is shared, otherwise of a column) belongs to a group. -/
def ownsKey (sharing : Bool) (g : Nat × Nat × Nat) (k : Nat) : Prop := if sharing then k = g.1 else ownsCol g k

instance (g : Nat × Nat × Nat) (c : Nat) : Decidable (ownsCol g c) := by unfold ownsCol; infer_instance

/-- The cells of the columns of a group. -/
def ownsCell (g : Nat × Nat × Nat) (x : Nat × Nat) : Bool := decide (ownsCol g x.2)

/-- Two states that a group cannot tell apart: the same balances, the same records in the same order up to their ids, and the
same memory as far as it belongs to the group (`mem`). -/
structure SameGroup {M : Type} (sharing : Bool) (mem : Nat × Nat × Nat → M → M → Prop) (g : Nat × Nat × Nat)
    (s t : CbState × M) : Prop where
  cash : ∀ k, ownsKey sharing g k → s.1.arr.cash k = t.1.arr.cash k
  free : ∀ k, ownsKey sharing g k → s.1.arr.free k = t.1.arr.free k
  value : ∀ k, ownsKey sharing g k → s.1.arr.value k = t.1.arr.value k
  second : ∀ k, ownsKey sharing g k → s.1.arr.second k = t.1.arr.second k
  ret : ∀ k, ownsKey sharing g k → s.1.arr.ret k = t.1.arr.ret k
  temp : ∀ k, ownsKey sharing g k → s.1.temp k = t.1.temp k
  position : ∀ c, ownsCol g c → s.1.arr.position c = t.1.arr.position c
  debt : ∀ c, ownsCol g c → s.1.arr.debt c = t.1.arr.debt c
  valPrice : ∀ c, ownsCol g c → s.1.arr.valPrice c = t.1.arr.valPrice c
  posRec : ∀ c, ownsCol g c → s.1.arr.posRec c = t.1.arr.posRec c
  callSeq : ∀ i c, ownsCol g c → s.1.arr.callSeq i c = t.1.arr.callSeq i c
  view : viewOf (ownsCell g) s.1.buf = viewOf (ownsCell g) t.1.buf
  mem : mem g s.2 t.2

/-- A callback of the group `g`: called in states that `g` cannot tell apart it does the same, and it leaves alone what the
other groups `gs` see. -/
def LocalHook {M : Type} (sharing : Bool) (mem : Nat × Nat × Nat → M → M → Prop) (gs : List (Nat × Nat × Nat))
    (g : Nat × Nat × Nat) (f : CbState → M → Except Err (CbArrays × M)) : Prop :=
  ∀ (s t : CbState × M) a m, SameGroup sharing mem g s t → f s.1 s.2 = .ok (a, m) →
    (∃ a' m', f t.1 t.2 = .ok (a', m') ∧ SameGroup sharing mem g ({ s.1 with arr := a }, m) ({ t.1 with arr := a' }, m')) ∧
    ∀ h ∈ gs, h ≠ g → SameGroup sharing mem h s ({ s.1 with arr := a }, m)

/-- An order function of the group `g`, which also returns the same order. -/
def LocalOrderFn {M : Type} (sharing : Bool) (mem : Nat × Nat × Nat → M → M → Prop) (gs : List (Nat × Nat × Nat))
    (g : Nat × Nat × Nat) (f : CbState → M → Except Err (Order × CbArrays × M)) : Prop :=
  ∀ (s t : CbState × M) o a m, SameGroup sharing mem g s t → f s.1 s.2 = .ok (o, a, m) →
    (∃ a' m', f t.1 t.2 = .ok (o, a', m') ∧
      SameGroup sharing mem g ({ s.1 with arr := a }, m) ({ t.1 with arr := a' }, m')) ∧
    ∀ h ∈ gs, h ≠ g → SameGroup sharing mem h s ({ s.1 with arr := a }, m)

/-- Callbacks that depend only on their own group.  Those of one simulator only (for groups and for rows) and the one after
the simulation do nothing; the one before the simulation is arbitrary. -/
structure OwnGroupOnly {M : Type} (sharing : Bool) (mem : Nat × Nat × Nat → M → M → Prop) (gs : List (Nat × Nat × Nat))
    (cb : Callbacks M) : Prop where
  equiv : ∀ g, Equivalence (mem g)
  preSeg : ∀ g ∈ gs, ∀ i, LocalHook sharing mem gs g (cb.preSeg (segCtx g i))
  postSeg : ∀ g ∈ gs, ∀ i, LocalHook sharing mem gs g (cb.postSeg (segCtx g i))
  order : ∀ g ∈ gs, ∀ i col k now, LocalOrderFn sharing mem gs g (cb.order (segCtx g i) col k now)
  postOrder : ∀ g ∈ gs, ∀ i col k now res after, LocalHook sharing mem gs g (cb.postOrder (segCtx g i) col k now res after)
  preGroup : ∀ g s m, cb.preGroup g s m = .ok (s.arr, m)
  postGroup : ∀ g s m, cb.postGroup g s m = .ok (s.arr, m)
  preRow : ∀ i s m, cb.preRow i s m = .ok (s.arr, m)
  postRow : ∀ i s m, cb.postRow i s m = .ok (s.arr, m)
  postSim : ∀ s m, cb.postSim s m = .ok (s.arr, m)

end Vbt
