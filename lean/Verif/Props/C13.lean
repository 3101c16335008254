import Verif.Lemmas.Sim
import Verif.Lemmas.SigSim
import Verif.Lemmas.Witness

/-!
# C13  Order and log records are well formed   (every arithmetic)
-/

namespace Vbt
open F

/-- The claim, on the lists of records returned for a shape. -/
structure WellFormed (rows cols : Nat) (orders : List OrderRec) (logs : List LogRec) : Prop where
  /-- ids are 0, 1, 2, ... in the order written -/
  orderIds : orders.map (·.id) = List.range orders.length
  logIds : logs.map (·.id) = List.range logs.length
  /-- rows and columns are inside of the shape -/
  orderIn : ∀ o ∈ orders, o.idx < rows ∧ o.col < cols
  logIn : ∀ l ∈ logs, l.idx < rows ∧ l.col < cols
  /-- records of one column are in strictly increasing row order -/
  orderRows : orders.Pairwise fun a b => a.col = b.col → a.idx < b.idx
  logRows : logs.Pairwise fun a b => a.col = b.col → a.idx < b.idx
  /-- a log record has an order id exactly if its order was filled, and then points to that order -/
  logOrder : ∀ l ∈ logs, if l.resStatus = OrderStatus.Filled then
      ∃ o : OrderRec, l.orderId = o.id ∧ orders[o.id]? = some o ∧ o.idx = l.idx ∧ o.col = l.col ∧ o.size = l.resSize ∧
        o.price = l.resPrice ∧ o.fees = l.resFees ∧ o.side = l.resSide
    else l.orderId = -1

theorem WellFormed.of_appends {s s' : SimState} {rows cols : Nat} {cells : List (Nat × Nat)}
    (h : Appends s s' cells) (hc : CellsOk True rows 0 cols cells)
    (h1 : s.buf.orders = []) (h2 : s.buf.logs = []) (h3 : s.oidx = 0) (h4 : s.lidx = 0) :
    WellFormed rows cols s'.buf.orders s'.buf.logs ∧ s'.oidx = s'.buf.orders.length ∧
      s'.lidx = s'.buf.logs.length := by
  obtain ⟨os, ls, a1, a2, a3, a4, a5, a6, a7, a8, a9⟩ := h.app
  rw [h1, List.nil_append] at a1
  rw [h2, List.nil_append] at a2
  rw [h3] at a7; rw [h4] at a8
  rw [h3, zero_add] at a5; rw [h4, zero_add] at a6
  rw [a1, a2]
  have hid : os.map (·.id) = List.range os.length := by rw [List.range_eq_range']; exact a7
  refine ⟨⟨hid, by rw [List.range_eq_range']; exact a8, ?_, ?_, ?_, ?_, ?_⟩, a5, a6⟩
  · intro o ho
    have := hc.mem _ (a3.subset (List.mem_map_of_mem ho))
    exact ⟨this.1, this.2.2⟩
  · intro o ho
    have := hc.mem _ (a4.subset (List.mem_map_of_mem ho))
    exact ⟨this.1, this.2.2⟩
  · have := (hc.ord trivial).sublist a3
    rw [List.pairwise_map] at this
    exact this
  · have := (hc.ord trivial).sublist a4
    rw [List.pairwise_map] at this
    exact this
  · intro l hl
    obtain ⟨b1, b2⟩ := a9 l hl
    split
    · rename_i hf
      obtain ⟨-, o, ho, e1, e2, e3, e4, e5, e6, e7⟩ := b2 (b1 hf)
      refine ⟨o, e1, ?_, e2.symm, e3.symm, e4.symm, e5.symm, e6.symm, e7.symm⟩
      obtain ⟨n, hn, rfl⟩ := List.getElem_of_mem ho
      have : (os.map (·.id))[n]? = (List.range os.length)[n]? := by rw [hid]
      rw [List.getElem?_map, List.getElem?_eq_getElem hn, List.getElem?_range hn] at this
      simp only [Option.map_some, Option.some.injEq] at this
      rw [this]
      exact List.getElem?_eq_getElem hn
    · rename_i hf
      by_contra hne
      exact hf (b2 hne).1

/-- **C13** for `simulate_from_orders_nb`: every shape, grouping, permutation call sequence and input. -/
theorem C13_from_orders {A inp rows cols lens initCash mo ml s}
    (h : simulateFromOrders A inp rows cols lens initCash mo ml = .ok s)
    (hseq : isGrouped lens = true → ∀ x ∈ layout lens, ∀ i < rows, CallSeqOk inp i x.2.1 x.2.2) :
    WellFormed rows cols s.buf.orders s.buf.logs ∧ s.oidx = s.buf.orders.length ∧ s.lidx = s.buf.logs.length := by
  obtain ⟨cells, hc, ha⟩ := simulateFromOrders_appends (nd := True) h (fun _ => hseq)
  exact WellFormed.of_appends ha hc rfl rfl rfl rfl

/-- **C13** (from signals).  The same for both simulators from signals. -/
theorem C13_from_signals {A inp cell rows cols lens initCash mo ml s}
    (h : simulateSig A inp cell rows cols lens initCash mo ml = .ok s)
    (hseq : isGrouped lens = true → ∀ x ∈ layout lens, ∀ i < rows, SigSeqOk inp i x.2.1 x.2.2) :
    WellFormed rows cols s.sim.buf.orders s.sim.buf.logs ∧ s.sim.oidx = s.sim.buf.orders.length ∧
      s.sim.lidx = s.sim.buf.logs.length := by
  obtain ⟨cells, hc, ha⟩ := simulateSig_appends (nd := True) h (fun _ => hseq)
  exact WellFormed.of_appends ha hc rfl rfl rfl rfl

/-- A simple input for examples: every cell trades `size i c` at `close i c`, everything logged. -/
def simpleInputs (size close : Nat → Nat → F) (callSeq : Nat → Nat → Nat) (auto upd : Bool) : Inputs :=
  { size := size, price := fun _ _ => pinf, sizeType := fun _ _ => SizeType.Amount,
    direction := fun _ _ => Direction.Both, fees := fun _ _ => fin (1/100), fixedFees := fun _ _ => fin 0,
    slippage := fun _ _ => fin 0, minSize := fun _ _ => fin 0, maxSize := fun _ _ => pinf, gran := fun _ _ => nan,
    rejectProb := fun _ _ => fin 0, lockCash := fun _ _ => false, allowPartial := fun _ _ => true,
    raiseReject := fun _ _ => false, log := fun _ _ => true, valPrice := fun _ _ => pinf, close := close,
    callSeq := callSeq, draw := fun _ _ => fin 0, autoCallSeq := auto, ffillValPrice := true, updateValue := upd }

/-- Non-vacuity: 2 rows, groups of 2 and 1 columns sharing cash, reversed call sequence: four orders and two
ignored calls (size 0), ids and links as claimed. -/
example : ∃ inp s, simulateFromOrders Arith.std inp 2 3 [2, 1] [fin 100, fin 50] none 6 = .ok s ∧
    (∀ x ∈ layout [2, 1], ∀ i < 2, CallSeqOk inp i x.2.1 x.2.2) ∧
    s.buf.orders.map OrderRec.cell = [(0, 1), (0, 0), (1, 0), (0, 2)] ∧
    s.buf.logs.map (·.orderId) = [0, 1, -1, 2, 3, -1] := by
  let size : Nat → Nat → F := fun i c => if i = 1 ∧ c ≥ 1 then fin 0 else if i = 1 then fin (-3) else fin (c + 1)
  let inp := simpleInputs size (fun i c => fin (i + c + 1)) (fun _ c => if c = 0 then 1 else 0) false true
  obtain ⟨s, h, hs⟩ := okAnd_iff (x := simulateFromOrders Arith.std inp 2 3 [2, 1] [fin 100, fin 50] none 6)
    (f := fun s => decide (s.buf.orders.map OrderRec.cell = [(0, 1), (0, 0), (1, 0), (0, 2)] ∧
      s.buf.logs.map (·.orderId) = [0, 1, -1, 2, 3, -1])) (by decide +kernel)
  exact ⟨inp, s, h, by unfold CallSeqOk; decide, of_decide_eq_true hs⟩

end Vbt
