import Verif.Props.C76

/-!
# C77: a flexible order function that follows the call sequence is an order function
-/

namespace Vbt

/-- The flexible order function that goes through the call sequence and asks an order function for each column, as in the
example of `flex_simulate_nb`, portfolio/nb.py:4592-4609. The example keeps its sorted sequence in an array of its own; here it
is the call sequence of the simulation. -/
def walk {M : Type} (X : CbInputs) (cb : Callbacks M) : FlexOrder M := fun x k s m =>
  if k < x.len then
    if s.arr.callSeq x.i (x.fromCol + k) ≥ x.len then .error (.valueError "Call index exceeds bounds of the group")
    else
      match cb.order x (x.fromCol + s.arr.callSeq x.i (x.fromCol + k)) k
          (nowAt s.arr (keyOf X x (x.fromCol + s.arr.callSeq x.i (x.fromCol + k)))
            (x.fromCol + s.arr.callSeq x.i (x.fromCol + k))) s m with
      | .error e => .error e
      | .ok (o, a, m') => .ok ((x.fromCol + s.arr.callSeq x.i (x.fromCol + k) : Nat), o, a, m')
  else .ok (-1, {}, s.arr, m)

/-- The order function does not change the current values of the column it is asked for. -/
def OrderLooks {M : Type} (X : CbInputs) (cb : Callbacks M) : Prop :=
  ∀ x col k now s m o a m', cb.order x col k now s m = .ok (o, a, m') →
    nowAt a (keyOf X x col) col = nowAt s.arr (keyOf X x col) col

theorem loopE_congr {σ α : Type} {f g : σ → α → Except Err σ} {l : List α} (h : ∀ x ∈ l, ∀ s, f s x = g s x) (s : σ) :
    loopE f s l = loopE g s l := by
  induction l generalizing s with
  | nil => rfl
  | cons x xs ih =>
    rw [loopE, loopE, h x (by simp) s]
    cases g s x with
    | error e => rfl
    | ok s' => exact ih (fun y hy => h y (List.mem_cons_of_mem _ hy)) s'

section
variable {M : Type} {A : Arith} {X : CbInputs} {cb : Callbacks M} {draw : Nat → Nat → Nat → F}

theorem flexLoop_walk (ho : OrderLooks X cb) {x : SegCtx}
    (hd : ∀ col k, x.fromCol ≤ col → col < x.fromCol + x.len → draw x.i col k = X.draw x.i (x.fromCol + k))
    (n k fuel : Nat) (hn : k + n = x.len) (hf : n < fuel) (s : CbState × M) :
    flexLoop A X cb (walk X cb) draw x fuel k s = loopE (cbSlot A X cb x) s (List.range' k n) := by
  induction n generalizing k fuel s with
  | zero =>
    obtain ⟨fuel, rfl⟩ : ∃ f, fuel = f + 1 := ⟨fuel - 1, by omega⟩
    rw [flexLoop]
    unfold walk
    rw [if_neg (by omega)]
    simp only [if_true]
    rfl
  | succ n ih =>
    obtain ⟨fuel, rfl⟩ : ∃ f, fuel = f + 1 := ⟨fuel - 1, by omega⟩
    rw [flexLoop, List.range'_succ, loopE, cbSlot_place]
    unfold walk
    rw [if_pos (by omega)]
    simp only
    by_cases hc : s.1.arr.callSeq x.i (x.fromCol + k) ≥ x.len
    · rw [if_pos hc, if_pos hc]
    · rw [if_neg hc, if_neg hc]
      generalize hcol : x.fromCol + s.1.arr.callSeq x.i (x.fromCol + k) = col
      unfold keyOf
      cases hor : cb.order x col k (nowAt s.1.arr (if X.sharing then x.group else col) col) s.1 s.2 with
      | error e => rfl
      | ok r =>
        obtain ⟨o, a, m1⟩ := r
        simp only
        have hlt : x.fromCol ≤ col ∧ col < x.fromCol + x.len := by omega
        rw [if_neg (by omega), if_neg (by omega)]
        have hnow := ho x col k _ s.1 s.2 o a m1 hor
        unfold keyOf at hnow
        simp only [Int.toNat_natCast]
        rw [hd col k hlt.1 hlt.2, ← hnow]
        unfold nowAt
        cases placeOrder A X cb x col k _ o (X.draw x.i (x.fromCol + k)) a m1 s.1 with
        | error e => rfl
        | ok s' => exact ih (k + 1) fuel (by omega) (by omega) s'

variable {fuel : Nat} {m : M} {rows cols : Nat} {lens : List Nat} {initCash : List F} {callSeq : Nat → Nat → Nat}
  {maxOrders : Option Nat} {maxLogs : Nat} {junk : Nat → TradeRec}

theorem flexSegment_walk (ho : OrderLooks X cb) {x : SegCtx}
    (hd : ∀ col k, x.fromCol ≤ col → col < x.fromCol + x.len → draw x.i col k = X.draw x.i (x.fromCol + k))
    (hf : x.len < fuel) (s : CbState × M) :
    flexSegment A X cb (walk X cb) draw fuel x s = segment A X cb x s := by
  unfold flexSegment segment
  congr 1
  funext t
  rw [flexLoop_walk ho hd x.len 0 fuel (by omega) hf t, List.range_eq_range']

/-- The draws are the same in the same places. -/
def SameDraws (X : CbInputs) (lens : List Nat) (draw : Nat → Nat → Nat → F) : Prop :=
  ∀ g < lens.length, ∀ i col k, firstCol lens g ≤ col → col < firstCol lens g + lens.getD g 0 →
    draw i col k = X.draw i (firstCol lens g + k)

theorem layout_mem {g : Nat × Nat × Nat} (h : g ∈ layout lens) :
    g.1 < lens.length ∧ g.2.1 = firstCol lens g.1 ∧ g.2.2 = lens.getD g.1 0 ∧ g.2.2 ∈ lens := by
  rw [layout_range, List.mem_map] at h
  obtain ⟨j, hj, rfl⟩ := h
  rw [List.mem_range] at hj
  refine ⟨hj, rfl, rfl, ?_⟩
  simp only [List.getD_eq_getElem?_getD, List.getElem?_eq_getElem hj, Option.getD_some]
  exact List.getElem_mem _

/-- `flex_simulate_nb` with a flexible order function that goes through the call sequence does what `simulate_nb` does, in
every respect: the result, the state, the memory of the callbacks, and the errors. -/
theorem C77_flex (ho : OrderLooks X cb) (hd : SameDraws X lens draw) (hf : ∀ n ∈ lens, n < fuel) :
    flexSimulateNb A X cb (walk X cb) draw fuel m rows cols lens initCash callSeq maxOrders maxLogs junk =
      simulateNb A X cb m rows cols lens initCash callSeq maxOrders maxLogs junk := by
  unfold flexSimulateNb simulateNb
  rw [groupLoop_fun]
  congr 3
  funext s
  refine loopE_congr (fun g hg s => ?_) s
  obtain ⟨h1, h2, h3, h4⟩ := layout_mem hg
  unfold groupLoopWith
  congr 2
  funext s
  refine loopE_congr (fun i _ s => ?_) s
  exact flexSegment_walk ho (fun col k hc1 hc2 => by
    simp only [segCtx, h2, h3] at hc1 hc2 ⊢
    exact hd g.1 h1 i col k hc1 hc2) (hf _ h4) s

/-- The same row by row. -/
theorem C77_flex_row_wise (ho : OrderLooks X cb) (hd : SameDraws X lens draw) (hf : ∀ n ∈ lens, n < fuel) :
    flexSimulateRowWiseNb A X cb (walk X cb) draw fuel m rows cols lens initCash callSeq maxOrders maxLogs junk =
      simulateRowWiseNb A X cb m rows cols lens initCash callSeq maxOrders maxLogs junk := by
  unfold flexSimulateRowWiseNb simulateRowWiseNb
  rw [rowLoop_fun]
  congr 3
  funext s
  refine loopE_congr (fun i _ s => ?_) s
  unfold rowLoopWith
  congr 2
  funext s
  refine loopE_congr (fun g hg s => ?_) s
  obtain ⟨h1, h2, h3, h4⟩ := layout_mem hg
  exact flexSegment_walk ho (fun col k hc1 hc2 => by
    simp only [segCtx, h2, h3] at hc1 hc2 ⊢
    exact hd g.1 h1 i col k hc1 hc2) (hf _ h4) s

end

/-! ## Examples -/

example : OrderLooks wCalls wCb := by
  intro x col k now s m o a m' h
  cases h
  rfl

example : SameDraws wCalls [2] (fun _ _ _ => F.zero) := fun _ _ _ _ _ _ _ => rfl

example : okAnd (flexSimulateNb Arith.std wCalls wCb (walk wCalls wCb) (fun _ _ _ => F.zero) 3 () 3 2 [2] [.fin 100]
      (fun _ c => 1 - c) none 0 (fun _ => wNoRec))
    (fun r => r.1.buf.orders.map (fun o => (o.idx, o.col, o.size)) = [(0, 1, .fin 4), (0, 0, .fin 4), (2, 1, .fin (20 / 11))])
    := by
  decide +kernel

/-- An order function that writes to the balances. -/
def wMeddling : Callbacks Unit :=
  { wCb with order := fun _ _ _ _ s m => .ok ({ wBuy with size := .fin 20 }, { s.arr with cash := fun _ => .fin 1000, free := fun _ => .fin 1000 }, m) }

/-- An order function that writes to the arrays is not covered: `simulate_nb` has read the balances before it is called,
`flex_simulate_nb` reads them afterwards. -/
theorem C77_counterexample_writes :
    okAnd (simulateNb Arith.std wCbIn wMeddling () 1 1 [1] [.fin 100] (fun _ _ => 0) none 0 (fun _ => wNoRec))
      (fun r => r.1.buf.orders.map (·.size) = [.fin 10]) ∧
    okAnd (flexSimulateNb Arith.std wCbIn wMeddling (walk wCbIn wMeddling) (fun _ _ _ => F.zero) 3 () 1 1 [1] [.fin 100]
        (fun _ _ => 0) none 0 (fun _ => wNoRec))
      (fun r => r.1.buf.orders.map (·.size) = [.fin 20]) := by
  decide +kernel

end Vbt
