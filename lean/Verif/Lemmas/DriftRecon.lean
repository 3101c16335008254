import Verif.Lemmas.Drift

/-! # How far reconstructed series may drift from the records because of the tolerances -/

namespace Vbt
open F

section
variable {r t : ℚ}

theorem abs_sum_sub_le {α : Type} (l : List α) {f g e : α → ℚ} (h : ∀ x ∈ l, |f x - g x| ≤ e x) :
    |(l.map f).sum - (l.map g).sum| ≤ (l.map e).sum := by
  induction l with
  | nil => simp
  | cons x l ih =>
    simp only [List.map_cons, List.sum_cons]
    have e1 : f x + (l.map f).sum - (g x + (l.map g).sum) = (f x - g x) + ((l.map f).sum - (l.map g).sum) := by ring
    rw [e1]
    exact (abs_add_le _ _).trans
      (add_le_add (h x List.mem_cons_self) (ih fun y hy => h y (List.mem_cons_of_mem _ hy)))

theorem sum_lost {α : Type} (l : List α) (T : α → ℚ) (n : α → Nat) :
    (l.map fun x => lost r t (T x) (n x)).sum = lost r t (l.map T).sum (l.map n).sum := by
  induction l with
  | nil => simp [lost]
  | cons x l ih => simp only [List.map_cons, List.sum_cons, ih, lost_add]

theorem length_eq_sum {α : Type} (l : List α) : (l.length : ℚ) = (l.map fun _ => (1 : ℚ)).sum := by
  induction l with
  | nil => rfl
  | cons x l ih => rw [List.map_cons, List.sum_cons, List.length_cons, ← ih]; push_cast; ring

theorem cast_sum {α : Type} (l : List α) (n : α → Nat) : (((l.map n).sum : Nat) : ℚ) = (l.map fun x => (n x : ℚ)).sum := by
  induction l with
  | nil => rfl
  | cons x l ih => simp only [List.map_cons, List.sum_cons]; push_cast; rw [ih]

/-- Row by row the records up to row `i`. -/
theorem length_rows (l : List OrderRec) (i : Nat) :
    ((List.range (i + 1)).map fun j => (l.filter fun o => o.idx = j).length).sum =
      (l.filter fun o => o.idx ≤ i).length := by
  have := sum_rows (fun _ => 1) l i
  have h : (((((List.range (i + 1)).map fun j => (l.filter fun o => o.idx = j).length).sum : Nat)) : ℚ) =
      ((l.filter fun o => o.idx ≤ i).length : ℚ) := by
    rw [cast_sum, length_eq_sum, ← this]
    congr 1
    apply List.map_congr_left
    intro j _
    exact length_eq_sum _
  exact_mod_cast h

theorem length_columns (l : List OrderRec) (p : OrderRec → Bool) (fc n : Nat) :
    ((List.range n).map fun k => ((l.filter fun o => o.col = fc + k).filter p).length).sum =
      ((l.filter fun o => fc ≤ o.col ∧ o.col < fc + n).filter p).length := by
  have := sum_columns (fun _ => 1) l p fc n
  have h : ((((List.range n).map fun k => ((l.filter fun o => o.col = fc + k).filter p).length).sum : Nat) : ℚ) =
      (((l.filter fun o => fc ≤ o.col ∧ o.col < fc + n).filter p).length : ℚ) := by
    rw [cast_sum, length_eq_sum, ← this]
    congr 1
    apply List.map_congr_left
    intro j _
    exact length_eq_sum _
  exact_mod_cast h

/-- A series accumulated from flows each near to what the records of its row say. -/
theorem series_drift (hr0 : 0 ≤ r) (hr : r < 1) (ht : 0 ≤ t) {flow : Nat → F} {l : List OrderRec} {d v : OrderRec → ℚ}
    (hf : ∀ j, ∃ q, flow j = fin q ∧
      |q - ((l.filter fun o => o.idx = j).map d).sum| ≤
        lost r t ((l.filter fun o => o.idx = j).map v).sum (l.filter fun o => o.idx = j).length ∧
      |q| ≤ ((l.filter fun o => o.idx = j).map v).sum)
    (x : ℚ) (i : Nat) :
    ∃ c, cashAt (Arith.exact r t) (fin x) flow i = fin c ∧
      |c - (x + ((l.filter fun o => o.idx ≤ i).map d).sum)| ≤
        lost r t (2 * ((l.filter fun o => o.idx ≤ i).map v).sum) ((l.filter fun o => o.idx ≤ i).length + (i + 1)) := by
  obtain ⟨c, e, b⟩ := cashAt_drift hr0 hr ht (flow := flow) (fun j => let ⟨q, h, _⟩ := hf j; ⟨q, h⟩) x i
  refine ⟨c, e, ?_⟩
  have h1 := abs_sum_sub_le (List.range (i + 1)) (f := fun j => (flow j).val)
    (g := fun j => ((l.filter fun o => o.idx = j).map d).sum)
    (e := fun j => lost r t ((l.filter fun o => o.idx = j).map v).sum (l.filter fun o => o.idx = j).length) (fun j _ => by
      obtain ⟨q, h, h', -⟩ := hf j
      rw [h]; exact h')
  rw [sum_lost, sum_rows, sum_rows, length_rows] at h1
  have h2 : ((List.range (i + 1)).map fun j => |(flow j).val|).sum ≤ ((l.filter fun o => o.idx ≤ i).map v).sum := by
    rw [← sum_rows]
    refine sum_abs_le _ (fun j _ => ?_)
    obtain ⟨q, h, -, h'⟩ := hf j
    rw [h]; exact h'
  have h3 := b.trans (lost_mono hr0 hr ht h2 (le_refl (i + 1)))
  have e1 : c - (x + ((l.filter fun o => o.idx ≤ i).map d).sum) =
      (c - (x + ((List.range (i + 1)).map fun j => (flow j).val).sum)) +
      (((List.range (i + 1)).map fun j => (flow j).val).sum - ((l.filter fun o => o.idx ≤ i).map d).sum) := by ring
  rw [e1]
  refine (abs_add_le _ _).trans ((add_le_add h3 h1).trans (le_of_eq ?_))
  rw [lost_add, ← two_mul, Nat.add_comm]

/-- The flow of a row of a column. -/
theorem flow_drift (hr0 : 0 ≤ r) (hr : r < 1) (ht : 0 ≤ t) {l : List OrderRec} {g : OrderRec → F} {d v : OrderRec → ℚ}
    (hg : ∀ o ∈ l, g o = fin (d o) ∧ |d o| ≤ v o) :
    ∃ q, ledger (Arith.exact r t) zero (l.map g) = fin q ∧ |q - (l.map d).sum| ≤ lost r t (l.map v).sum l.length ∧
      |q| ≤ (l.map v).sum := by
  obtain ⟨c, e, b, m⟩ := ledger_drift hr0 hr ht (l := l) (d := g) (fun o ho => ⟨_, (hg o ho).1⟩) 0
  have h1 : (l.map fun o => (g o).val) = l.map d := List.map_congr_left fun o ho => by rw [(hg o ho).1]; rfl
  have h2 : (l.map fun o => |(g o).val|).sum ≤ (l.map v).sum := sum_abs_le _ fun o ho => by
    rw [(hg o ho).1]; exact (hg o ho).2
  refine ⟨c, e, ?_, ?_⟩
  · rw [h1, zero_add] at b
    exact b.trans (lost_mono hr0 hr ht h2 le_rfl)
  · rw [abs_zero, zero_add] at m
    exact m.trans h2

theorem Numbers.pos_flow {o : OrderRec} (h : Numbers o) :
    signedSize o = fin (moved o.side o.size.val) ∧ |moved o.side o.size.val| ≤ |o.size.val| :=
  ⟨h.signed, (abs_moved _ _).le⟩

theorem Numbers.cash_flow {o : OrderRec} (h : Numbers o) :
    orderFlow (Arith.exact r t) o = fin (-(moved o.side o.size.val) * o.price.val - o.fees.val) ∧
      |-(moved o.side o.size.val) * o.price.val - o.fees.val| ≤ |o.size.val * o.price.val| + |o.fees.val| :=
  ⟨h.flow, abs_flow_le _ _ _ _⟩

/-- The assets series of a column. -/
theorem assets_drift (hr0 : 0 ≤ r) (hr : r < 1) (ht : 0 ≤ t) {orders : List OrderRec} {junk : Nat → Nat} {col : Nat}
    (hv : ∀ o ∈ orders, o.col = col → Numbers o) (hid : IdsUp (orders.filter fun o => o.col = col)) (i : Nat) :
    ∃ flow c, assetFlow (Arith.exact r t) Direction.Both orders junk col = .ok flow ∧
      assetsAt (Arith.exact r t) flow i = fin c ∧
      |c - bookedPos ((orders.filter fun o => o.col = col).filter fun o => o.idx ≤ i)| ≤
        lost r t (2 * assetVolume ((orders.filter fun o => o.col = col).filter fun o => o.idx ≤ i))
          (((orders.filter fun o => o.col = col).filter fun o => o.idx ≤ i).length + (i + 1)) := by
  obtain ⟨flow, e, hf⟩ := assetFlow_both (A := Arith.exact r t) (junk := junk) hid
  have hn : ∀ o ∈ orders.filter (fun o => decide (o.col = col)), Numbers o := fun o ho =>
    hv o (List.mem_of_mem_filter ho) (of_decide_eq_true (List.mem_filter.mp ho).2)
  obtain ⟨c, ec, b⟩ := series_drift hr0 hr ht (flow := flow) (l := orders.filter fun o => o.col = col)
    (d := fun o => moved o.side o.size.val) (v := fun o => |o.size.val|) (fun j => by
      obtain ⟨q, h1, h2, h3⟩ := flow_drift hr0 hr ht (l := (orders.filter fun o => o.col = col).filter fun o => o.idx = j)
        (g := signedSize) (fun o ho => (hn o (List.mem_of_mem_filter ho)).pos_flow)
      exact ⟨q, by rw [hf, h1], h2, h3⟩) 0 i
  refine ⟨flow, c, e, by rw [assetsAt_eq]; exact ec, ?_⟩
  rw [zero_add] at b
  exact b

/-- The cash series of a column. -/
theorem cash_drift (hr0 : 0 ≤ r) (hr : r < 1) (ht : 0 ≤ t) {orders : List OrderRec} {junk : Nat → Nat} {col : Nat}
    (hv : ∀ o ∈ orders, o.col = col → Numbers o) (hid : IdsUp (orders.filter fun o => o.col = col)) (x : ℚ) (i : Nat) :
    ∃ flow c, cashFlow (Arith.exact r t) false orders junk col = .ok flow ∧
      cashAt (Arith.exact r t) (fin x) flow i = fin c ∧
      |c - (x + bookedCash ((orders.filter fun o => o.col = col).filter fun o => o.idx ≤ i))| ≤
        lost r t (2 * cashVolume ((orders.filter fun o => o.col = col).filter fun o => o.idx ≤ i))
          (((orders.filter fun o => o.col = col).filter fun o => o.idx ≤ i).length + (i + 1)) := by
  obtain ⟨flow, e, hf⟩ := cashFlow_total (A := Arith.exact r t) (junk := junk) hid
  have hn : ∀ o ∈ orders.filter (fun o => decide (o.col = col)), Numbers o := fun o ho =>
    hv o (List.mem_of_mem_filter ho) (of_decide_eq_true (List.mem_filter.mp ho).2)
  obtain ⟨c, ec, b⟩ := series_drift hr0 hr ht (flow := flow) (l := orders.filter fun o => o.col = col)
    (d := fun o => -(moved o.side o.size.val) * o.price.val - o.fees.val)
    (v := fun o => |o.size.val * o.price.val| + |o.fees.val|) (fun j => by
      obtain ⟨q, h1, h2, h3⟩ := flow_drift hr0 hr ht (l := (orders.filter fun o => o.col = col).filter fun o => o.idx = j)
        (g := orderFlow (Arith.exact r t)) (fun o ho => (hn o (List.mem_of_mem_filter ho)).cash_flow)
      exact ⟨q, by rw [hf, h1], h2, h3⟩) x i
  exact ⟨flow, c, e, ec, b⟩

/-- The cash series of a group of columns. -/
theorem cashGrouped_drift (hr0 : 0 ≤ r) (hr : r < 1) (ht : 0 ≤ t) {orders : List OrderRec} {junk : Nat → Nat} {fc len : Nat}
    (hv : ∀ o ∈ orders, Numbers o) (hid : IdsUp orders) (x : ℚ) (i : Nat) :
    ∃ (flow : Nat → Nat → F) (c : ℚ),
      (∀ k, ∃ f, cashFlow (Arith.exact r t) false orders junk k = .ok f ∧ ∀ j, flow j k = f j) ∧
      cashAt (Arith.exact r t) (fin x) (fun j => sumGrouped (Arith.exact r t) flow fc len j) i = fin c ∧
      |c - (x + bookedCash ((orders.filter fun o => fc ≤ o.col ∧ o.col < fc + len).filter fun o => o.idx ≤ i))| ≤
        lost r t (2 * cashVolume ((orders.filter fun o => fc ≤ o.col ∧ o.col < fc + len).filter fun o => o.idx ≤ i))
          (((orders.filter fun o => fc ≤ o.col ∧ o.col < fc + len).filter fun o => o.idx ≤ i).length + (i + 1)) := by
  choose f e hf using fun c => cashFlow_total (A := Arith.exact r t) (orders := orders) (junk := junk) (col := c)
    (hid.filter _)
  choose q hq hq1 hq2 using fun k j => flow_drift hr0 hr ht
    (l := (orders.filter fun o => o.col = k).filter fun o => o.idx = j) (g := orderFlow (Arith.exact r t))
    (fun o ho => (hv o (List.mem_of_mem_filter (List.mem_of_mem_filter ho))).cash_flow)
  have hfq : ∀ k j, f k j = fin (q k j) := fun k j => by rw [hf, hq]
  refine ⟨fun j k => f k j, ?_⟩
  obtain ⟨c, ec, b⟩ := series_drift hr0 hr ht (flow := fun j => sumGrouped (Arith.exact r t) (fun j k => f k j) fc len j)
    (l := orders.filter fun o => fc ≤ o.col ∧ o.col < fc + len)
    (d := fun o => -(moved o.side o.size.val) * o.price.val - o.fees.val)
    (v := fun o => |o.size.val * o.price.val| + |o.fees.val|) (fun j => by
      refine ⟨((List.range len).map fun k => q (fc + k) j).sum, ?_, ?_, ?_⟩
      · rw [sumGrouped, npSum_fin (fun k _ => ⟨_, hfq _ j⟩)]
        simp only [hfq, F.toQ]
      · rw [← sum_columns, ← sum_columns, ← length_columns, ← sum_lost]
        exact abs_sum_sub_le _ (fun k _ => hq1 (fc + k) j)
      · rw [← sum_columns]
        have h0 := abs_sum_sub_le (List.range len) (f := fun k => q (fc + k) j) (g := fun _ => 0)
          (e := fun k => ((((orders.filter fun o => o.col = fc + k).filter fun o => o.idx = j).map
            fun o => |o.size.val * o.price.val| + |o.fees.val|).sum)) (fun k _ => by rw [sub_zero]; exact hq2 (fc + k) j)
        simpa using h0) x i
  exact ⟨c, fun k => ⟨f k, e k, fun _ => rfl⟩, ec, b⟩

end

end Vbt
