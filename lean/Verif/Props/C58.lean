import Verif.Lemmas.OrderCallbacks
import Verif.Props.C57
import Verif.Props.C13

/-! # C58: simulation from orders is an instance of callback simulation -/

namespace Vbt
open F

section
variable {A : Arith} {inp : Inputs} {sharing remember fillPos : Bool} {init : Nat → F} {rows : Nat}

theorem orderCallbacks_preGroup (g : Nat × Nat × Nat) (s : CbState × (Nat → F)) :
    callHook ((orderCallbacks A inp sharing remember).preGroup g) s = .ok s := callHook_idle (fun _ _ => rfl) s

theorem orderCallbacks_postGroup (g : Nat × Nat × Nat) (s : CbState × (Nat → F)) :
    callHook ((orderCallbacks A inp sharing remember).postGroup g) s = .ok s := callHook_idle (fun _ _ => rfl) s

theorem orderCallbacks_preSim (s : CbState × (Nat → F)) :
    callHook (orderCallbacks A inp sharing remember).preSim s = .ok s := callHook_idle (fun _ _ => rfl) s

theorem orderCallbacks_postSim (s : CbState × (Nat → F)) :
    callHook (orderCallbacks A inp sharing remember).postSim s = .ok s := callHook_idle (fun _ _ => rfl) s

/-- Between two groups. -/
structure LockGroup (remember : Bool) (init : Nat → F) (gi : Nat) (s : SimState) (t : CbState × (Nat → F)) : Prop where
  position : s.position = t.1.arr.position
  debt : s.debt = t.1.arr.debt
  vp : remember = true → s.valPrice = t.2
  oidx : s.oidx = t.1.oidx
  lidx : s.lidx = t.1.lidx
  buf : s.buf = t.1.buf
  later : ∀ k, gi ≤ k → t.1.arr.cash k = init k ∧ t.1.arr.free k = init k

theorem group_follows {g : Nat × Nat × Nat} (hone : sharing = false → g.2.2 = 1 ∧ g.2.1 = g.1)
    (hvp : remember = true ∨ ∀ i c, (!(resolveValPrice inp i c).isnan || !inp.ffillValPrice) = true)
    {s : SimState} {t : CbState × (Nat → F)} (h : LockGroup remember init g.1 s t) :
    Follows (fillPos = false) (LockGroup remember init (g.1 + 1)) (simGroup A inp sharing init rows s g)
      (groupLoop A (orderCbInputs inp sharing fillPos) (orderCallbacks A inp sharing remember) rows t g) := by
  unfold simGroup groupLoop groupLoopWith
  rw [andThen_id_left (orderCallbacks_preGroup g), andThen_id_right (orderCallbacks_postGroup g)]
  refine Follows.mono (R := Lockstep remember init g.1) (Follows.loop _ (fun s t i _ hst => row_follows hone hvp i hst) ?_) ?_
  · have h0 := h.later g.1 (Nat.le_refl _)
    exact ⟨h0.1.symm, h0.2.symm, h.position, h.debt, h.vp, h.oidx, h.lidx, h.buf, fun k hk => h.later k (Nat.le_of_lt hk)⟩
  · intro s' t' h'
    exact ⟨h'.position, h'.debt, h'.vp, h'.oidx, h'.lidx, h'.buf, fun k hk => h'.later k hk⟩

theorem groups_follow
    (hvp : remember = true ∨ ∀ i c, (!(resolveValPrice inp i c).isnan || !inp.ffillValPrice) = true) (lens : List Nat)
    (gi fc : Nat) (hone : sharing = false → fc = gi ∧ ∀ l ∈ lens, l = 1)
    {s : SimState} {t : CbState × (Nat → F)} (h : LockGroup remember init gi s t) :
    Follows (fillPos = false) (LockGroup remember init (gi + lens.length))
      (loopE (simGroup A inp sharing init rows) s (layoutFrom gi fc lens))
      (loopE (groupLoop A (orderCbInputs inp sharing fillPos) (orderCallbacks A inp sharing remember) rows) t
        (layoutFrom gi fc lens)) := by
  induction lens generalizing gi fc s t with
  | nil => exact Follows.ok h
  | cons l ls ih =>
    rw [layoutFrom, loopE, loopE]
    have hg := group_follows (A := A) (inp := inp) (sharing := sharing) (remember := remember) (fillPos := fillPos)
      (init := init) (rows := rows) (g := (gi, fc, l)) (fun hs => ⟨(hone hs).2 l List.mem_cons_self, (hone hs).1⟩) hvp h
    cases hq : groupLoop A (orderCbInputs inp sharing fillPos) (orderCallbacks A inp sharing remember) rows t (gi, fc, l) with
    | error e =>
      refine ⟨fun _ ht => (by cases ht), fun h3 e' he => ?_⟩
      cases he
      rw [hg.2 h3 _ hq]
    | ok t1 =>
      obtain ⟨s1, hs, hR⟩ := hg.1 t1 hq
      rw [hs]
      rw [List.length_cons, show gi + (ls.length + 1) = gi + 1 + ls.length by omega]
      refine ih (gi + 1) (fc + l) (fun hs => ?_) hR
      have h1 := hone hs
      exact ⟨by have := h1.2 l List.mem_cons_self; omega, fun k hk => h1.2 k (List.mem_cons_of_mem _ hk)⟩

end

section
variable {A : Arith} {inp : Inputs} {remember fillPos : Bool} {rows cols : Nat} {lens : List Nat} {initCash : List F}
  {callSeq : Nat → Nat → Nat} {maxOrders : Option Nat} {maxLogs : Nat} {junk : Nat → TradeRec}

/-- The callback simulator with the order function of the arrays is followed by the simulation from orders. -/
theorem orders_follow (hlens : ∀ l ∈ lens, 0 < l)
    (hvp : remember = true ∨ ∀ i c, (!(resolveValPrice inp i c).isnan || !inp.ffillValPrice) = true) :
    Follows (fillPos = false) (fun s t => s.buf = t.1.buf ∧ s.position = t.1.arr.position ∧ s.debt = t.1.arr.debt)
      (simulateFromOrders A inp rows cols lens initCash maxOrders maxLogs)
      (simulateNb A (orderCbInputs inp (isGrouped lens) fillPos) (orderCallbacks A inp (isGrouped lens) remember)
        (fun _ => nan) rows cols lens initCash callSeq maxOrders maxLogs junk) := by
  unfold simulateFromOrders simulateNb checkedSim
  have esh : (orderCbInputs inp (isGrouped lens) fillPos).sharing = isGrouped lens := rfl
  rw [esh]
  simp only
  split
  · exact ⟨fun _ ht => (by cases ht), fun _ e he => by cases he; rfl⟩
  split
  · exact ⟨fun _ ht => (by cases ht), fun _ e he => by cases he; rfl⟩
  split
  · exact ⟨fun _ ht => (by cases ht), fun _ e he => by cases he; rfl⟩
  rw [andThen_id_left orderCallbacks_preSim, andThen_id_right orderCallbacks_postSim]
  refine Follows.mono (groups_follow hvp lens 0 0 ?_ ?_) ?_
  · intro hs
    refine ⟨rfl, fun l hl => ?_⟩
    have h1 := hlens l hl
    unfold isGrouped at hs
    rw [List.any_eq_false] at hs
    have := hs l hl
    simp only [decide_eq_true_eq] at this
    omega
  · exact ⟨rfl, rfl, fun _ => rfl, rfl, rfl, rfl, fun _ _ => ⟨rfl, rfl⟩⟩
  · intro s t h
    exact ⟨h.buf, h.position, h.debt⟩

/-- Whenever the callback simulator succeeds, the simulation from orders succeeds with the same order and log records and the
same positions and debts, if the callbacks keep their own valuation prices or if none has to be carried over. -/
theorem C58_refines (hlens : ∀ l ∈ lens, 0 < l)
    (hvp : remember = true ∨ ∀ i c, (!(resolveValPrice inp i c).isnan || !inp.ffillValPrice) = true)
    {t : CbState × (Nat → F)}
    (h : simulateNb A (orderCbInputs inp (isGrouped lens) fillPos) (orderCallbacks A inp (isGrouped lens) remember)
        (fun _ => nan) rows cols lens initCash callSeq maxOrders maxLogs junk = .ok t) :
    ∃ s, simulateFromOrders A inp rows cols lens initCash maxOrders maxLogs = .ok s ∧
      s.buf.orders = t.1.buf.orders ∧ s.buf.logs = t.1.buf.logs ∧ s.position = t.1.arr.position ∧
      s.debt = t.1.arr.debt := by
  obtain ⟨s, h1, h2, h3, h4⟩ := (orders_follow hlens hvp).1 t h
  exact ⟨s, h1, by rw [h2], by rw [h2], h3, h4⟩

/-- Without position records the two are equivalent: each succeeds if the other does, with the same records, and otherwise
both raise the same exception. -/
theorem C58_equivalent (hlens : ∀ l ∈ lens, 0 < l)
    (hvp : remember = true ∨ ∀ i c, (!(resolveValPrice inp i c).isnan || !inp.ffillValPrice) = true) :
    (simulateFromOrders A inp rows cols lens initCash maxOrders maxLogs).map (fun s => (s.buf.orders, s.buf.logs)) =
    (simulateNb A (orderCbInputs inp (isGrouped lens) false) (orderCallbacks A inp (isGrouped lens) remember)
        (fun _ => nan) rows cols lens initCash callSeq maxOrders maxLogs junk).map
      (fun t => (t.1.buf.orders, t.1.buf.logs)) := by
  have h := orders_follow (A := A) (rows := rows) (cols := cols) (initCash := initCash) (fillPos := false)
    (callSeq := callSeq) (maxOrders := maxOrders) (maxLogs := maxLogs) (junk := junk) hlens hvp
  cases hq : simulateNb A (orderCbInputs inp (isGrouped lens) false) (orderCallbacks A inp (isGrouped lens) remember)
        (fun _ => nan) rows cols lens initCash callSeq maxOrders maxLogs junk with
  | error e => rw [h.2 rfl e hq]; rfl
  | ok t =>
    obtain ⟨s, h1, h2, -, -⟩ := h.1 t hq
    rw [h1]
    simp only [Except.map, h2]

end

/-- Valuation at 8 in the first row and at the previous valuation price in the second; 50% of the value is the target. -/
def wCarried : Inputs :=
  { simpleInputs (fun i _ => if i = 0 then fin 4 else fin (1/2)) wCbClose (fun _ _ => 0) false false with
    sizeType := fun i _ => if i = 0 then SizeType.Amount else SizeType.TargetPercent
    valPrice := fun i _ => if i = 0 then fin 8 else nan }

/-- The order function has to keep valuation prices: the callback simulator overwrites its own with the close at the end of a
row, so that callbacks that rely on them size the second order differently. -/
theorem C58_counterexample_memoryless :
    (simulateFromOrders Arith.std wCarried 2 1 [1] [fin 100] none 2).toOption.map (fun s => s.buf.orders.length) = some 2 ∧
    (simulateFromOrders Arith.std wCarried 2 1 [1] [fin 100] none 2).toOption.map (fun s => s.buf.orders.map (·.size)) ≠
    (simulateNb Arith.std (orderCbInputs wCarried false true) (orderCallbacks Arith.std wCarried false false)
      (fun _ => nan) 2 1 [1] [fin 100] (fun _ _ => 0) none 2 (fun _ => wNoRec)).toOption.map
        (fun t => t.1.buf.orders.map (·.size)) ∧
    (simulateFromOrders Arith.std wCarried 2 1 [1] [fin 100] none 2).toOption.map (fun s => s.buf.orders.map (·.size)) =
    (simulateNb Arith.std (orderCbInputs wCarried false true) (orderCallbacks Arith.std wCarried false true)
      (fun _ => nan) 2 1 [1] [fin 100] (fun _ _ => 0) none 2 (fun _ => wNoRec)).toOption.map
        (fun t => t.1.buf.orders.map (·.size)) := by
  refine ⟨?_, ?_, ?_⟩ <;> decide +kernel

/-- Two groups with cash sharing and sorted calls, target percentages: the callback simulator succeeds with six orders. -/
def wTargets : Inputs :=
  { simpleInputs (fun i c => if i = 0 then (if c = 0 then fin (3/4) else fin (1/4)) else (if c = 0 then fin 0 else fin (9/10)))
      wCbClose (fun _ c => if c = 1 then 1 else 0) true true with
    sizeType := fun _ _ => SizeType.TargetPercent }

example : okAnd (simulateNb Arith.std (orderCbInputs wTargets (isGrouped [2, 1]) true)
      (orderCallbacks Arith.std wTargets (isGrouped [2, 1]) true)
      (fun _ => nan) 2 3 [2, 1] [fin 100, fin 50] (fun _ _ => 0) none 6 (fun _ => wNoRec))
    (fun t => t.1.buf.orders.length = 6 && t.1.buf.logs.length = 6) = true := by
  decide +kernel

example : ∀ i c, (!(resolveValPrice wTargets i c).isnan || !wTargets.ffillValPrice) = true := by
  intro i c
  have : resolveValPrice wTargets i c = wCbClose i c := rfl
  rw [this]
  unfold wCbClose
  split <;> rfl

end Vbt
