import Verif.Lemmas.Ledger
import Verif.Props.C45

/-! # Flows and series reconstructed from order records -/

namespace Vbt
open F

/-- Ids ascend. -/
def IdsUp (l : List OrderRec) : Prop := l.Pairwise fun a b => a.id ≤ b.id

theorem IdsUp.of_range {l : List OrderRec} (h : l.map (·.id) = List.range l.length) : IdsUp l := by
  have : (l.map (·.id)).Pairwise (· ≤ ·) := by
    rw [h]; exact List.pairwise_lt_range.imp (fun h => Nat.le_of_lt h)
  rw [List.pairwise_map] at this
  exact this

theorem IdsUp.filter {l : List OrderRec} (h : IdsUp l) (p : OrderRec → Bool) : IdsUp (l.filter p) :=
  List.Pairwise.filter p h

theorem columnRecords_eq (orders : List OrderRec) (junk : Nat → Nat) (col : Nat) :
    columnRecords orders junk col = orders.filter fun o => o.col = col := C45_records orders (·.col) junk col

theorem ledger_map_concat {A : Arith} {x : F} {l : List OrderRec} {d : OrderRec → F} {o : OrderRec} :
    ledger A x ((l ++ [o]).map d) = addNb A (ledger A x (l.map d)) (d o) := by
  simp [ledger]

/-- The loops over the records of a column succeed for ascending ids; if a step adds `d` in the record's row, then
row `j` ends up with the ledger of the records of that row. -/
theorem flow_loop {A : Arith} {step : FlowState → OrderRec → Except Err FlowState} {d : OrderRec → F}
    (hstep : ∀ s o, s.lastId ≤ o.id →
      ∃ s', step s o = .ok s' ∧ s'.lastId = o.id ∧ s'.out = setAt s.out o.idx (addNb A (s.out o.idx) (d o)))
    {l : List OrderRec} (hid : IdsUp l) :
    ∃ s, loopE step FlowState.start l = .ok s ∧
      ∀ j, s.out j = ledger A zero ((l.filter fun o => o.idx = j).map d) := by
  have key : ∀ (l pre : List OrderRec) (s : FlowState), IdsUp l → (∀ o ∈ l, s.lastId ≤ o.id) →
      (∀ j, s.out j = ledger A zero ((pre.filter fun o => o.idx = j).map d)) →
      ∃ s', loopE step s l = .ok s' ∧ ∀ j, s'.out j = ledger A zero (((pre ++ l).filter fun o => o.idx = j).map d) := by
    intro l
    induction l with
    | nil => intro pre s _ _ hs; exact ⟨s, rfl, by simpa using hs⟩
    | cons o l ih =>
      intro pre s hup hle hs
      obtain ⟨s1, e, h1, h2⟩ := hstep s o (hle o List.mem_cons_self)
      obtain ⟨h3, h4⟩ := List.pairwise_cons.mp hup
      obtain ⟨s', e', h5⟩ := ih (pre ++ [o]) s1 h4 (fun x hx => by rw [h1]; exact_mod_cast h3 x hx) (fun j => by
        rw [h2, List.filter_append]
        by_cases hj : o.idx = j
        · subst hj
          rw [show List.filter (fun x : OrderRec => decide (x.idx = o.idx)) [o] = [o] by simp, ledger_map_concat, ← hs]
          simp [setAt]
        · rw [show List.filter (fun x : OrderRec => decide (x.idx = j)) [o] = [] by simp [hj], List.append_nil, ← hs]
          simp only [setAt]
          rw [if_neg (fun h => hj h.symm)])
      refine ⟨s', by rw [loopE, e]; exact e', fun j => ?_⟩
      rw [h5, List.append_assoc]; rfl
  obtain ⟨s, e, h⟩ := key l [] FlowState.start hid (fun o _ => by show (-1 : Int) ≤ _; omega) (fun j => rfl)
  exact ⟨s, e, h⟩

theorem assetFlow_both {A : Arith} {orders : List OrderRec} {junk col}
    (hid : IdsUp (orders.filter fun o => o.col = col)) :
    ∃ f, assetFlow A Direction.Both orders junk col = .ok f ∧
      ∀ j, f j = ledger A zero (((orders.filter fun o => o.col = col).filter fun o => o.idx = j).map signedSize) := by
  obtain ⟨s, e, h⟩ := flow_loop (A := A) (step := assetFlowStep A Direction.Both) (d := signedSize) (by
    intro s o hle
    refine ⟨{ s with lastId := o.id, position := addNb A s.position (signedSize o),
                     out := setAt s.out o.idx (addNb A (s.out o.idx) (signedSize o)) }, ?_, rfl, rfl⟩
    unfold assetFlowStep
    rw [if_neg (by omega)]
    rfl) hid
  refine ⟨s.out, ?_, h⟩
  unfold assetFlow
  rw [columnRecords_eq, e]

theorem cashFlow_total {A : Arith} {orders : List OrderRec} {junk col}
    (hid : IdsUp (orders.filter fun o => o.col = col)) :
    ∃ f, cashFlow A false orders junk col = .ok f ∧
      ∀ j, f j = ledger A zero (((orders.filter fun o => o.col = col).filter fun o => o.idx = j).map (orderFlow A)) := by
  obtain ⟨s, e, h⟩ := flow_loop (A := A) (step := cashFlowStep A false) (d := orderFlow A) (by
    intro s o hle
    refine ⟨{ s with lastId := o.id, position := addNb A s.position (signedSize o),
                     out := setAt s.out o.idx (addNb A (s.out o.idx) (orderFlow A o)) }, ?_, rfl, rfl⟩
    unfold cashFlowStep
    rw [if_neg (by omega)]
    rfl) hid
  refine ⟨s.out, ?_, h⟩
  unfold cashFlow
  rw [columnRecords_eq, e]

/-- Rows strictly increase. -/
def RowsUp (l : List OrderRec) : Prop := l.Pairwise fun a b => a.idx < b.idx

theorem RowsUp.split {l : List OrderRec} (h : RowsUp l) (i : Nat) :
    l.filter (fun o => o.idx ≤ i + 1) = l.filter (fun o => o.idx ≤ i) ++ l.filter (fun o => o.idx = i + 1) := by
  induction l with
  | nil => rfl
  | cons o l ih =>
    obtain ⟨h1, h2⟩ := List.pairwise_cons.mp h
    have ih := ih h2
    by_cases ho : o.idx ≤ i
    · rw [List.filter_cons_of_pos (by simp; omega), List.filter_cons_of_pos (by simp; omega),
        List.filter_cons_of_neg (by simp; omega), ih]; rfl
    · have hn : l.filter (fun x => decide (x.idx ≤ i)) = [] := by
        rw [List.filter_eq_nil_iff]
        intro x hx
        have := h1 x hx
        simp; omega
      rw [hn, List.nil_append] at ih
      rw [List.filter_cons_of_neg (p := fun x : OrderRec => decide (x.idx ≤ i)) (by simp; omega), hn, List.nil_append]
      by_cases ho' : o.idx = i + 1
      · rw [List.filter_cons_of_pos (by simp; omega), List.filter_cons_of_pos (by simp; omega), ih]
      · rw [List.filter_cons_of_neg (by simp; omega), List.filter_cons_of_neg (by simp; omega), ih]

theorem RowsUp.at_most_one {l : List OrderRec} (h : RowsUp l) (j : Nat) :
    l.filter (fun o => o.idx = j) = [] ∨ ∃ o ∈ l, l.filter (fun o => o.idx = j) = [o] := by
  induction l with
  | nil => exact Or.inl rfl
  | cons o l ih =>
    obtain ⟨h1, h2⟩ := List.pairwise_cons.mp h
    by_cases ho : o.idx = j
    · right
      refine ⟨o, List.mem_cons_self, ?_⟩
      rw [List.filter_cons_of_pos (by simpa using ho), List.filter_eq_nil_iff.mpr]
      intro x hx
      have := h1 x hx
      simp; omega
    · rw [List.filter_cons_of_neg (by simpa using ho)]
      rcases ih h2 with h | ⟨x, hx, h⟩
      · exact Or.inl h
      · exact Or.inr ⟨x, List.mem_cons_of_mem _ hx, h⟩

section
variable {r t : ℚ}

theorem ledger_settled (hr : r < 1) (ht : 0 ≤ t) {x : F} (hx : Settled t x) {ds : List F} (hd : ∀ d ∈ ds, Settled t d) :
    Settled t (ledger (Arith.exact r t) x ds) := by
  induction ds generalizing x with
  | nil => exact hx
  | cons d ds ih =>
    refine ih ?_ (fun y hy => hd y (List.mem_cons_of_mem _ hy))
    obtain ⟨a, rfl, ha⟩ := hx
    obtain ⟨b, rfl, hb⟩ := hd d List.mem_cons_self
    exact addNb_settled hr ht ha hb

/-- Accumulating per-row flows is the ledger of the records up to the row. -/
theorem cashAt_ledger (hr : r < 1) (ht : 0 ≤ t) {init : F} (hx : Settled t init) {l : List OrderRec} (hl : RowsUp l)
    {d : OrderRec → F} (hd : ∀ o ∈ l, Settled t (d o)) {flow : Nat → F}
    (hf : ∀ j, flow j = ledger (Arith.exact r t) zero ((l.filter fun o => o.idx = j).map d)) (i : Nat) :
    cashAt (Arith.exact r t) init flow i =
      ledger (Arith.exact r t) init ((l.filter fun o => o.idx ≤ i).map d) := by
  have step : ∀ (x : F) (j : Nat), Settled t x → addNb (Arith.exact r t) x (flow j) =
      ledger (Arith.exact r t) x ((l.filter fun o => o.idx = j).map d) := by
    intro x j hx
    rw [hf]
    rcases hl.at_most_one j with h | ⟨o, ho, h⟩
    · obtain ⟨q, rfl, hq⟩ := hx
      rw [h]
      exact not_snap_zero_right hr ht hq
    · obtain ⟨q, hq, hq'⟩ := hd o ho
      rw [h]
      simp only [ledger, List.map_cons, List.map_nil, List.foldl_cons, List.foldl_nil, hq]
      rw [not_snap_zero_left hr ht hq']
  induction i with
  | zero =>
    rw [cashAt, step init 0 hx]
    congr 2
    apply List.filter_congr
    intro o _
    simp
  | succ i ih =>
    rw [cashAt, hl.split, List.map_append, ledger_append, ih, step]
    refine ledger_settled hr ht hx ?_
    intro y hy
    obtain ⟨o, ho, rfl⟩ := List.mem_map.mp hy
    exact hd o (List.mem_of_mem_filter ho)

theorem assetsAt_eq (A : Arith) (flow : Nat → F) (i : Nat) : assetsAt A flow i = cashAt A zero flow i := by
  induction i with
  | zero => rfl
  | succ i ih => rw [assetsAt, cashAt, ih]

end

/-! ## Without tolerances: sums -/

/-- The rational number of a finite float (0 otherwise). -/
def F.toQ : F → ℚ
  | fin q => q
  | _ => 0

theorem sum_filter_or {α : Type} (f : α → ℚ) (l : List α) (p q : α → Bool) (h : ∀ x ∈ l, ¬ (p x = true ∧ q x = true)) :
    ((l.filter fun x => p x || q x).map f).sum = ((l.filter p).map f).sum + ((l.filter q).map f).sum := by
  induction l with
  | nil => simp
  | cons x l ih =>
    have ih := ih (fun y hy => h y (List.mem_cons_of_mem _ hy))
    have hx := h x List.mem_cons_self
    rcases hp : p x <;> rcases hq : q x <;> simp_all <;> ring

theorem ledger_sum {x : ℚ} {α : Type} {l : List α} {d : α → F} (hd : ∀ o ∈ l, ∃ q, d o = fin q) :
    ledger (Arith.exact 0 0) (fin x) (l.map d) = fin (x + (l.map fun o => (d o).toQ).sum) := by
  induction l generalizing x with
  | nil => simp [ledger]
  | cons o l ih =>
    obtain ⟨q, hq⟩ := hd o List.mem_cons_self
    have := ih (x := x + q) (fun y hy => hd y (List.mem_cons_of_mem _ hy))
    rw [List.map_cons, ledger, List.foldl_cons, hq, addNb_zero_tol]
    refine this.trans ?_
    rw [List.map_cons, List.sum_cons, hq]
    congr 1
    show x + q + _ = x + (q + _)
    ring

theorem npSum_fin {r t : ℚ} {l : List Nat} {g : Nat → F} (h : ∀ k ∈ l, ∃ q, g k = fin q) :
    npSum (Arith.exact r t) (l.map g) = fin ((l.map fun k => (g k).toQ).sum) := by
  have key : ∀ (l : List Nat) (x : ℚ), (∀ k ∈ l, ∃ q, g k = fin q) →
      (l.map g).foldl (add (Arith.exact r t)) (fin x) = fin (x + (l.map fun k => (g k).toQ).sum) := by
    intro l
    induction l with
    | nil => intro x _; simp
    | cons k l ih =>
      intro x h
      obtain ⟨q, hq⟩ := h k List.mem_cons_self
      rw [List.map_cons, List.foldl_cons, hq, add_exact, ih _ (fun y hy => h y (List.mem_cons_of_mem _ hy))]
      rw [List.map_cons, List.sum_cons, hq]
      congr 1
      show x + q + _ = x + (q + _)
      ring
  rw [npSum, key l 0 h, zero_add]

/-- Summing over the columns of a group the sums over the records of the column. -/
theorem sum_columns (f : OrderRec → ℚ) (l : List OrderRec) (p : OrderRec → Bool) (fc n : Nat) :
    ((List.range n).map fun k => (((l.filter fun o => o.col = fc + k).filter p).map f).sum).sum =
      (((l.filter fun o => fc ≤ o.col ∧ o.col < fc + n).filter p).map f).sum := by
  induction n with
  | zero =>
    have : l.filter (fun o => decide (fc ≤ o.col ∧ o.col < fc + 0)) = [] := by
      rw [List.filter_eq_nil_iff]
      intro o _
      simp only [decide_eq_true_eq]; omega
    rw [this]; simp
  | succ n ih =>
    rw [List.range_succ, List.map_append, List.sum_append, ih]
    simp only [List.filter_filter, List.map_cons, List.map_nil, List.sum_cons, List.sum_nil, add_zero]
    rw [← sum_filter_or]
    · congr 2
      apply List.filter_congr
      intro o _
      by_cases h1 : fc ≤ o.col <;> by_cases h2 : o.col < fc + n <;> by_cases h3 : o.col = fc + n <;>
        by_cases h4 : o.col < fc + (n + 1) <;> first | omega | simp [h1, h2, h3, h4]
      all_goals omega
    · rintro o _ ⟨h1, h2⟩
      simp at h1 h2
      omega

theorem cashAt_sum {init : ℚ} {flow : Nat → F} (hf : ∀ j, ∃ q, flow j = fin q) (i : Nat) :
    cashAt (Arith.exact 0 0) (fin init) flow i = fin (init + ((List.range (i + 1)).map fun j => (flow j).toQ).sum) := by
  induction i with
  | zero =>
    obtain ⟨q, hq⟩ := hf 0
    simp [cashAt, hq, addNb_zero_tol, F.toQ]
  | succ i ih =>
    obtain ⟨q, hq⟩ := hf (i + 1)
    rw [cashAt, ih, hq, addNb_zero_tol, List.range_succ (n := i + 1), List.map_append, List.sum_append]
    congr 1
    simp only [List.map_cons, List.map_nil, List.sum_cons, List.sum_nil, hq, F.toQ]
    ring

theorem sum_rows (f : OrderRec → ℚ) (l : List OrderRec) (i : Nat) :
    ((List.range (i + 1)).map fun j => ((l.filter fun o => o.idx = j).map f).sum).sum =
      ((l.filter fun o => o.idx ≤ i).map f).sum := by
  induction i with
  | zero => simp
  | succ i ih =>
    rw [List.range_succ, List.map_append, List.sum_append, ih]
    simp only [List.map_cons, List.map_nil, List.sum_cons, List.sum_nil, add_zero]
    rw [← sum_filter_or]
    · congr 2
      apply List.filter_congr
      intro o _
      by_cases h1 : o.idx ≤ i <;> by_cases h2 : o.idx = i + 1 <;> by_cases h3 : o.idx ≤ i + 1 <;>
        first | omega | simp [h1, h2, h3]
    · rintro o _ ⟨h1, h2⟩
      simp at h1 h2
      omega

end Vbt
