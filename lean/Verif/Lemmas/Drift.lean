import Verif.Spec.Drift
import Verif.Lemmas.Simulated

/-! # How far balances may drift from their records because of the tolerances -/

namespace Vbt
open F

section
variable {r t : ℚ}

theorem ratio_nonneg (hr0 : 0 ≤ r) (hr : r < 1) : 0 ≤ r / (1 - r) := div_nonneg hr0 (by linarith)

/-- What `add_nb` may swallow is bounded by the amount added. -/
theorem Moves.drift (hr0 : 0 ≤ r) (hr : r < 1) (ht : 0 ≤ t) {a b c : ℚ} (h : Moves r t a b c) :
    |c - (a + b)| ≤ r / (1 - r) * |b| + t := by
  have hw := mul_nonneg (ratio_nonneg hr0 hr) (abs_nonneg b)
  rcases h with h | ⟨h, hle⟩
  · rw [h, sub_self, abs_zero]; linarith
  · rw [h, zero_sub, abs_neg]
    rcases le_max_iff.mp hle with h1 | h1
    · have ha : |a| ≤ |b| + |a + b| := by
        calc |a| = |(a + b) - b| := by rw [add_sub_cancel_right]
          _ ≤ |a + b| + |b| := abs_sub _ _
          _ = |b| + |a + b| := add_comm _ _
      have hm : max |a| |b| ≤ |b| + |a + b| := max_le ha (by linarith [abs_nonneg (a + b)])
      have h2 : |a + b| ≤ r * (|b| + |a + b|) := h1.trans (mul_le_mul_of_nonneg_left hm hr0)
      have h3 : |a + b| * (1 - r) ≤ r * |b| := by linarith
      have h4 : |a + b| ≤ r * |b| / (1 - r) := (le_div_iff₀ (by linarith)).mpr h3
      rw [div_mul_eq_mul_div]
      linarith
    · linarith

theorem addNb_drift (hr0 : 0 ≤ r) (hr : r < 1) (ht : 0 ≤ t) (a b : ℚ) :
    ∃ c, addNb (Arith.exact r t) (fin a) (fin b) = fin c ∧ |c - (a + b)| ≤ r / (1 - r) * |b| + t ∧
      |c| ≤ |a| + |b| := by
  obtain ⟨c, e, h⟩ := addNb_moves (t := t) hr0 hr a b
  refine ⟨c, e, h.drift hr0 hr ht, ?_⟩
  rcases h with h | ⟨h, -⟩
  · rw [h]; exact abs_add_le _ _
  · rw [h, abs_zero]; positivity

theorem lost_add {x y : ℚ} {m n : Nat} : lost r t x m + lost r t y n = lost r t (x + y) (m + n) := by
  unfold lost; push_cast; ring

theorem lost_nonneg (hr0 : 0 ≤ r) (hr : r < 1) (ht : 0 ≤ t) {x : ℚ} {n : Nat} (hx : 0 ≤ x) : 0 ≤ lost r t x n :=
  add_nonneg (mul_nonneg (ratio_nonneg hr0 hr) hx) (mul_nonneg (Nat.cast_nonneg _) ht)

theorem lost_mono (hr0 : 0 ≤ r) (hr : r < 1) (ht : 0 ≤ t) {x y : ℚ} {m n : Nat} (hx : x ≤ y) (hn : m ≤ n) :
    lost r t x m ≤ lost r t y n :=
  add_le_add (mul_le_mul_of_nonneg_left hx (ratio_nonneg hr0 hr))
    (mul_le_mul_of_nonneg_right (by exact_mod_cast hn) ht)

/-- Booking movements one by one. -/
theorem ledger_drift (hr0 : 0 ≤ r) (hr : r < 1) (ht : 0 ≤ t) {α : Type} {l : List α} {d : α → F}
    (hd : ∀ o ∈ l, ∃ q, d o = fin q) (x : ℚ) :
    ∃ c, ledger (Arith.exact r t) (fin x) (l.map d) = fin c ∧
      |c - (x + (l.map fun o => (d o).val).sum)| ≤ lost r t (l.map fun o => |(d o).val|).sum l.length ∧
      |c| ≤ |x| + (l.map fun o => |(d o).val|).sum := by
  induction l generalizing x with
  | nil => exact ⟨x, rfl, by simp [lost], by simp⟩
  | cons o l ih =>
    obtain ⟨q, hq⟩ := hd o List.mem_cons_self
    have hqv : (d o).val = q := by rw [hq]; rfl
    obtain ⟨c1, e1, b1, m1⟩ := addNb_drift hr0 hr ht x q
    obtain ⟨c, e, b, m⟩ := ih (fun y hy => hd y (List.mem_cons_of_mem _ hy)) c1
    refine ⟨c, ?_, ?_, ?_⟩
    · rw [List.map_cons, ledger, List.foldl_cons, hq, e1]; exact e
    · simp only [List.map_cons, List.sum_cons, hqv, List.length_cons]
      generalize (l.map fun o => (d o).val).sum = S at b ⊢
      generalize (l.map fun o => |(d o).val|).sum = T at b ⊢
      have : c - (x + (q + S)) = (c - (c1 + S)) + (c1 - (x + q)) := by ring
      rw [this]
      refine (abs_add_le _ _).trans ?_
      unfold lost at b ⊢
      push_cast
      linarith
    · simp only [List.map_cons, List.sum_cons, hqv]
      linarith

/-- Accumulating flows row by row. -/
theorem cashAt_drift (hr0 : 0 ≤ r) (hr : r < 1) (ht : 0 ≤ t) {flow : Nat → F} (hf : ∀ j, ∃ q, flow j = fin q)
    (x : ℚ) (i : Nat) :
    ∃ c, cashAt (Arith.exact r t) (fin x) flow i = fin c ∧
      |c - (x + ((List.range (i + 1)).map fun j => (flow j).val).sum)| ≤
        lost r t ((List.range (i + 1)).map fun j => |(flow j).val|).sum (i + 1) := by
  have key : cashAt (Arith.exact r t) (fin x) flow i =
      ledger (Arith.exact r t) (fin x) ((List.range (i + 1)).map flow) := by
    induction i with
    | zero => rfl
    | succ i ih => rw [cashAt, ih, List.range_succ (n := i + 1), List.map_append, ledger_append]; rfl
  obtain ⟨c, e, b, -⟩ := ledger_drift hr0 hr ht (l := List.range (i + 1)) (d := flow) (fun j _ => hf j) x
  refine ⟨c, key.trans e, ?_⟩
  simpa using b

/-! ## Flows of records -/

theorem Numbers.signed {o : OrderRec} (h : Numbers o) : signedSize o = fin (moved o.side o.size.val) := by
  obtain ⟨s, p, f, h1, h2, h3⟩ := h
  unfold signedSize moved
  split <;> simp [h1, F.val]

theorem Numbers.flow {o : OrderRec} (h : Numbers o) :
    orderFlow (Arith.exact r t) o = fin (-(moved o.side o.size.val) * o.price.val - o.fees.val) := by
  rw [orderFlow, h.signed]
  obtain ⟨s, p, f, h1, h2, h3⟩ := h
  simp [h1, h2, h3, F.val]

theorem abs_moved (side : Int) (s : ℚ) : |moved side s| = |s| := by
  unfold moved; split <;> simp

theorem abs_flow_le (side : Int) (s p f : ℚ) : |-(moved side s) * p - f| ≤ |s * p| + |f| := by
  refine (abs_sub _ _).trans ?_
  rw [abs_mul, abs_neg, abs_moved, abs_mul]

theorem assetVolume_nonneg (l : List OrderRec) : 0 ≤ assetVolume l := by
  apply List.sum_nonneg
  intro x hx
  obtain ⟨o, -, rfl⟩ := List.mem_map.mp hx
  exact abs_nonneg _

theorem cashVolume_nonneg (l : List OrderRec) : 0 ≤ cashVolume l := by
  apply List.sum_nonneg
  intro x hx
  obtain ⟨o, -, rfl⟩ := List.mem_map.mp hx
  positivity

theorem sum_abs_le {α : Type} (l : List α) {f g : α → ℚ} (h : ∀ x ∈ l, f x ≤ g x) : (l.map f).sum ≤ (l.map g).sum := by
  induction l with
  | nil => simp
  | cons x l ih =>
    rw [List.map_cons, List.map_cons, List.sum_cons, List.sum_cons]
    exact add_le_add (h x List.mem_cons_self) (ih fun y hy => h y (List.mem_cons_of_mem _ hy))

/-! ## Balances of a simulation -/

/-- A stored balance is within `e` of `v`, or already cleaned of a rest of up to `t` and within `e + t`. -/
def Near (t e v : ℚ) (x : F) : Prop := ∃ q, x = fin q ∧ (|q - v| ≤ e ∨ (Settled t x ∧ |q - v| ≤ e + t))

theorem Near.le {e v : ℚ} {x : F} (ht : 0 ≤ t) (h : Near t e v x) : ∃ q, x = fin q ∧ |q - v| ≤ e + t := by
  obtain ⟨q, hq, h | ⟨-, h⟩⟩ := h
  · exact ⟨q, hq, by linarith⟩
  · exact ⟨q, hq, h⟩

theorem snap_is_settled (ht : 0 ≤ t) (q : ℚ) : Settled t (snap (Arith.exact r t) (fin q)) := by
  unfold snap
  split
  · exact ⟨0, rfl, Or.inl rfl⟩
  · rename_i h
    refine ⟨q, rfl, Or.inr ?_⟩
    rw [isClose_exact] at h
    unfold Close at h
    push Not at h
    have := lt_of_le_of_lt (le_max_right _ _) h.2
    simpa using this

theorem Near.snapped {e v : ℚ} {x : F} (hr : r < 1) (ht : 0 ≤ t) (h : Near t e v x) :
    Near t e v (snap (Arith.exact r t) x) := by
  obtain ⟨q, rfl, h⟩ := h
  have hs := snap_is_settled (r := r) ht q
  rcases h with h | ⟨hset, h⟩
  · rcases snap_reads hr ht (fin q) with e1 | ⟨e1, q', hq', hle⟩
    · rw [e1]; exact ⟨q, rfl, Or.inl h⟩
    · cases hq'
      rw [e1] at hs ⊢
      refine ⟨0, rfl, Or.inr ⟨hs, ?_⟩⟩
      have : (0 : ℚ) - v = (q - v) - q := by ring
      rw [this]
      exact (abs_sub _ _).trans (by linarith)
  · rw [snap_settled hr ht hset]
    exact ⟨q, rfl, Or.inr ⟨hset, h⟩⟩

/-- How a snapped and then moved balance drifts. -/
theorem Near.move {e v T d : ℚ} {x y : F} (hr : r < 1) (ht : 0 ≤ t) {q0 q' : ℚ} (h : Near t e v x)
    (hread : snap (Arith.exact r t) x = fin q0) (hy : y = fin q') (hm : |q' - (q0 + d)| ≤ r / (1 - r) * T + t) :
    Near t (e + (r / (1 - r) * T + 2 * t)) (v + d) y := by
  obtain ⟨q1, h1, h2⟩ := (h.snapped (r := r) hr ht).le ht
  rw [hread] at h1
  cases h1
  refine ⟨q', hy, Or.inl ?_⟩
  have : q' - (v + d) = (q' - (q0 + d)) + (q0 - v) := by ring
  rw [this]
  exact (abs_add_le _ _).trans (by linarith)

/-- The state of a simulation near to what its order records say: positions of all columns, and the cash of the group
of columns `lo ≤ c < hi` started with `init`. -/
structure Drifted (r t : ℚ) (lo hi : Nat) (init : ℚ) (s : SimState) : Prop where
  pos : ∀ c, Near t (lost r t (assetVolume (s.buf.orders.filter (·.col = c))) (2 * (s.buf.orders.filter (·.col = c)).length))
    (bookedPos (s.buf.orders.filter (·.col = c))) (s.position c)
  cash : Near t (lost r t (cashVolume (s.buf.orders.filter fun o => lo ≤ o.col ∧ o.col < hi))
      (2 * (s.buf.orders.filter fun o => lo ≤ o.col ∧ o.col < hi).length))
    (init + bookedCash (s.buf.orders.filter fun o => lo ≤ o.col ∧ o.col < hi)) s.cash

/-- A fill moves the cash near to what its record says. -/
theorem fill_drift_cash (hr0 : 0 ≤ r) (hr : r < 1) (ht : 0 ≤ t) {i col group st upd o u b res st' b'}
    (h : processOrder (Arith.exact r t) i col group st upd o u b = .ok (res, st', b'))
    (hfill : res.status = OrderStatus.Filled) {s p f : ℚ} (hs : res.size = fin s) (hp : res.price = fin p)
    (hf : res.fees = fin f) {e1 v1 : ℚ} (hc : Near t e1 v1 st.cash) :
    Near t (e1 + (r / (1 - r) * (|s * p| + |f|) + 2 * t)) (v1 + (-(moved res.side s) * p - f)) st'.cash := by
  have hw := ratio_nonneg hr0 hr
  obtain ⟨es, hex, -, c1, c2, -⟩ := processOrder_inv h
  cases executeOrder_cases hex with
  | notFilled _ hn => exact absurd hfill (notFilled_status hn)
  | bought size percent lim fl _ _ hchk hres hpo _ hbf =>
    have hval := checkOrder_none hchk
    obtain ⟨hr', hcash, -, -⟩ := buyCommit_inv hbf.hcommit
    rw [hr'] at hs hp hf
    simp only at hs hp hf
    obtain ⟨p0, hp0, hp0'⟩ := hval.price
    obtain ⟨σ, hσ, hσ'⟩ := hval.slippage
    obtain ⟨φ, hfees, -⟩ := hval.fees
    obtain ⟨x, hfix, -⟩ := hval.fixedFees
    have hprice : buyPrice (Arith.exact r t) o = fin (p0 * (1 + σ)) := by simp [buyPrice, hp0, hσ]
    have hpp : 0 < p0 * (1 + σ) := mul_pos hp0' (by linarith)
    have hpe : p = p0 * (1 + σ) := by rw [hprice] at hp; exact (F.fin.inj hp).symm
    have hfin := hbf.hfinal
    rw [hprice] at hfin
    obtain ⟨hfe, hrq⟩ := buyFinal_conserve hpp.ne' hfees hfix hval.gran hfin hs
    have hff : f = s * p * φ + x := by rw [hfe, ← hpe] at hf; exact (F.fin.inj hf).symm
    have hside : res.side = OrderSide.Buy := by rw [hr']
    have hmv : moved res.side s = s := by rw [hside]; simp [moved, OrderSide.Buy, OrderSide.Sell]
    obtain ⟨q0, hq0, -⟩ := (hc.snapped (r := r) hr ht).le ht
    obtain ⟨c', hc', hm, -⟩ := addNb_drift hr0 hr ht q0 (-(s * p + (s * p * φ + x)))
    rw [hmv]
    refine hc.move hr ht hq0 (q' := c') ?_ ?_
    · rw [c1, hcash, hrq, ← hpe, neg_fin]
      exact (congrArg (fun z => addNb (Arith.exact r t) z _) hq0).trans hc'
    · rw [← hff] at hm
      have e : -s * p - f = -(s * p + f) := by ring
      rw [e]
      refine hm.trans ?_
      rw [abs_neg]
      have := mul_le_mul_of_nonneg_left (abs_add_le (s * p) f) hw
      linarith
  | sold size percent limit percent' _ _ hchk _ _ _ hsf =>
    obtain ⟨hr', hcash, -, -⟩ := sellCommit_inv hsf.hcommit hsf.hcover
    rw [hr'] at hs hp hf
    simp only at hs hp hf
    have hside : res.side = OrderSide.Sell := by rw [hr']
    have hmv : moved res.side s = -s := by rw [hside]; simp [moved]
    obtain ⟨q0, hq0, -⟩ := (hc.snapped (r := r) hr ht).le ht
    obtain ⟨v, hv, hm, -⟩ := addNb_drift hr0 hr ht (s * p) (-f)
    rw [hf, hs, hp] at hcash
    simp only [mul_exact, neg_fin] at hcash
    rw [hv] at hcash
    rw [hmv]
    refine hc.move hr ht hq0 (q' := q0 + v) ?_ ?_
    · rw [c1, hcash]
      exact (congrArg (fun z => add (Arith.exact r t) z _) hq0).trans (add_exact _ _ _ _)
    · have e : q0 + v - (q0 + (- -s * p - f)) = v - (s * p + -f) := by ring
      rw [e]
      refine hm.trans ?_
      rw [abs_neg]
      have := mul_le_mul_of_nonneg_left (show |f| ≤ |s * p| + |f| by linarith [abs_nonneg (s * p)]) hw
      linarith

/-- A fill moves the position near to what its record says. -/
theorem fill_drift_pos (hr0 : 0 ≤ r) (hr : r < 1) (ht : 0 ≤ t) {i col group st upd o u b res st' b'}
    (h : processOrder (Arith.exact r t) i col group st upd o u b = .ok (res, st', b'))
    (hfill : res.status = OrderStatus.Filled) {s : ℚ} (hs : res.size = fin s) {e2 v2 : ℚ} (hpos : Near t e2 v2 st.position) :
    Near t (e2 + (r / (1 - r) * |s| + 2 * t)) (v2 + moved res.side s) st'.position := by
  obtain ⟨es, hex, -, c1, c2, -⟩ := processOrder_inv h
  cases executeOrder_cases hex with
  | notFilled _ hn => exact absurd hfill (notFilled_status hn)
  | bought size percent lim fl _ _ hchk hres hpo _ hbf =>
    have hval := checkOrder_none hchk
    obtain ⟨hr', -, hposi, -⟩ := buyCommit_inv hbf.hcommit
    rw [hr'] at hs
    simp only at hs
    obtain ⟨P0, hP0, -⟩ := hval.position
    have hside : res.side = OrderSide.Buy := by rw [hr']
    have hmv : moved res.side s = s := by rw [hside]; simp [moved, OrderSide.Buy, OrderSide.Sell]
    obtain ⟨P', hP', hm', -⟩ := addNb_drift hr0 hr ht P0 s
    rw [hmv]
    refine hpos.move hr ht hP0 (q' := P') ?_ hm'
    rw [c2, hposi, hs]
    exact (congrArg (fun z => addNb (Arith.exact r t) z _) hP0).trans hP'
  | sold size percent limit percent' _ _ hchk _ _ _ hsf =>
    have hval := checkOrder_none hchk
    obtain ⟨hr', -, hposi, -⟩ := sellCommit_inv hsf.hcommit hsf.hcover
    rw [hr'] at hs
    simp only at hs
    obtain ⟨P0, hP0, -⟩ := hval.position
    have hside : res.side = OrderSide.Sell := by rw [hr']
    have hmv : moved res.side s = -s := by rw [hside]; simp [moved]
    obtain ⟨P', hP', hm', -⟩ := addNb_drift hr0 hr ht P0 (-s)
    rw [hmv, ← abs_neg s]
    refine hpos.move hr ht hP0 (q' := P') ?_ hm'
    rw [c2, hposi, hs, neg_fin]
    exact (congrArg (fun z => addNb (Arith.exact r t) z _) hP0).trans hP'

/-- A fill moves balances near to what its record says. -/
theorem fill_drift (hr0 : 0 ≤ r) (hr : r < 1) (ht : 0 ≤ t) {i col group st upd o u b res st' b'}
    (h : processOrder (Arith.exact r t) i col group st upd o u b = .ok (res, st', b'))
    (hfill : res.status = OrderStatus.Filled) {s p f : ℚ} (hs : res.size = fin s) (hp : res.price = fin p)
    (hf : res.fees = fin f) {e1 v1 e2 v2 : ℚ} (hc : Near t e1 v1 st.cash) (hpos : Near t e2 v2 st.position) :
    Near t (e1 + (r / (1 - r) * (|s * p| + |f|) + 2 * t)) (v1 + (-(moved res.side s) * p - f)) st'.cash ∧
    Near t (e2 + (r / (1 - r) * |s| + 2 * t)) (v2 + moved res.side s) st'.position :=
  ⟨fill_drift_cash hr0 hr ht h hfill hs hp hf hc, fill_drift_pos hr0 hr ht h hfill hs hpos⟩

/-- An order that is not filled leaves the balances, up to amounts close to zero. -/
theorem unfilled_snaps {A : Arith} {i col group st upd o u b res st' b'}
    (h : processOrder A i col group st upd o u b = .ok (res, st', b')) (hf : res.status ≠ OrderStatus.Filled) :
    st'.cash = snap A st.cash ∧ st'.position = snap A st.position := by
  obtain ⟨es, hex, -, e1, e2, -⟩ := processOrder_inv h
  cases executeOrder_cases hex with
  | notFilled he _ => exact ⟨by rw [e1, he]; rfl, by rw [e2, he]; rfl⟩
  | bought _ _ _ _ _ _ _ _ _ _ hbf => exact absurd (by rw [(buyCommit_inv hbf.hcommit).1]) hf
  | sold _ _ _ _ _ _ _ _ _ _ hsf => exact absurd (by rw [(sellCommit_inv hsf.hcommit hsf.hcover).1]) hf

theorem lost_concat {T d : ℚ} {n : Nat} :
    lost r t T (2 * n) + (r / (1 - r) * d + 2 * t) = lost r t (T + d) (2 * (n + 1)) := by
  unfold lost; push_cast; ring

theorem callOrder_drifted (hr0 : 0 ≤ r) (hr : r < 1) (ht : 0 ≤ t) {i col group value upd ffill o u s s'}
    {lo hi : Nat} {init : ℚ} (h : callOrder (Arith.exact r t) i col group value upd ffill o u s = .ok s')
    (h1 : lo ≤ col) (h2 : col < hi)
    (hv : ∀ x ∈ s'.buf.orders, Numbers x) (hs : Drifted r t lo hi init s) : Drifted r t lo hi init s' := by
  obtain ⟨res, st, b, hp, rfl⟩ := callOrder_inv h
  obtain ⟨es, hex, -, e1, e2, -, -, hrec, -⟩ := processOrder_inv hp
  rcases hrec with ⟨hf, -, -, hob, -⟩ | ⟨hf, -, hob, -⟩
  · simp only at hob
    obtain ⟨z, p, f, g1, g2, g3⟩ := hv (OrderRec.mk s.oidx col i res.size res.price res.fees res.side) (by
      show _ ∈ b.orders; rw [hob]; simp)
    simp only at g1 g2 g3
    obtain ⟨d1, d2⟩ := fill_drift hr0 hr ht hp hf g1 g2 g3 (hs.cash) (hs.pos col)
    simp only at d1 d2
    refine ⟨fun c => ?_, ?_⟩
    · simp only [setAt, hob, List.filter_append]
      by_cases hcc : c = col
      · subst hcc
        rw [if_pos rfl]
        rw [lost_concat] at d2
        simpa [assetVolume, bookedPos, g1, F.val] using d2
      · rw [if_neg hcc]
        have : (List.filter (fun x : OrderRec => decide (x.col = c))
          [OrderRec.mk s.oidx col i res.size res.price res.fees res.side]) = [] := by
          simp; exact fun h => hcc h.symm
        rw [this]
        simpa using hs.pos c
    · show Near _ _ _ st.cash
      simp only [hob, List.filter_append]
      rw [lost_concat] at d1
      simpa [cashVolume, bookedCash, g1, g2, g3, F.val, h1, h2, add_assoc] using d1
  · cases executeOrder_cases hex with
    | notFilled he _ =>
      have k1 : st.cash = snap (Arith.exact r t) s.cash := by rw [e1, he]; rfl
      have k2 : st.position = snap (Arith.exact r t) (s.position col) := by rw [e2, he]; rfl
      refine ⟨fun c => ?_, ?_⟩
      · simp only [setAt, hob]
        split
        · rename_i hcc; subst hcc; rw [k2]; exact (hs.pos c).snapped hr ht
        · exact hs.pos c
      · simp only [hob, k1]; exact hs.cash.snapped hr ht
    | bought _ _ _ _ _ _ _ _ _ _ hbf => exact absurd (by rw [(buyCommit_inv hbf.hcommit).1]) hf
    | sold _ _ _ _ _ _ _ _ _ _ hsf => exact absurd (by rw [(sellCommit_inv hsf.hcommit hsf.hcover).1]) hf

theorem RowPath.drifted (hr0 : 0 ≤ r) (hr : r < 1) (ht : 0 ≤ t) {G : Order → Prop} {lo hi i s s'} {init : ℚ}
    (h : RowPath (Arith.exact r t) G lo hi i s s')
    (hv : ∀ x ∈ s'.buf.orders, Numbers x) (hs : Drifted r t lo hi init s) : Drifted r t lo hi init s' := by
  induction h with
  | refl => exact hs
  | tweak _ h1 h2 h3 h4 h5 h6 h7 ih =>
    rw [h5] at hv
    have := ih hv
    exact ⟨by rw [h3, h5]; exact this.pos, by rw [h1, h5]; exact this.cash⟩
  | call h0 h1 h2 h3 h4 ih =>
    refine callOrder_drifted hr0 hr ht h4 h1 h2 hv (ih fun x hx => hv x ?_)
    obtain ⟨os, ls, a1, -⟩ := (callOrder_appends h4).app
    rw [a1]; exact List.mem_append_left _ hx

section
variable {σ : Type} {S : Simulator σ} {G : Order → Prop} {initCash : Nat → F}

theorem Simulator.Ok.rows_drifted (hr0 : 0 ≤ r) (hr : r < 1) (ht : 0 ≤ t)
    (hS : S.Ok (Arith.exact r t) G initCash) {x s s'} {l : List Nat} {init : ℚ}
    (h : loopE (S.row x) s l = .ok s') (hv : ∀ o ∈ (S.proj s').buf.orders, Numbers o)
    (hs : Drifted r t x.2.1 (x.2.1 + x.2.2) init (S.proj s)) :
    Drifted r t x.2.1 (x.2.1 + x.2.2) init (S.proj s') := by
  revert hv
  refine loopE_inv (P := fun a => (∀ o ∈ (S.proj a).buf.orders, Numbers o) →
    Drifted r t x.2.1 (x.2.1 + x.2.2) init (S.proj a)) ?_ (fun _ => hs) h
  intro a i a' hi ha hrow hv
  have hp := hS.row _ _ _ _ hrow
  exact hp.drifted hr0 hr ht hv (ha fun o ho => hv o (hp.adds.mem ho))

/-- At the beginning of a group none of its columns has records. -/
theorem Simulator.Ok.start_drifted (hS : S.Ok (Arith.exact r t) G initCash) {s : σ} {x : Nat × Nat × Nat} {q : ℚ}
    (hq : initCash x.1 = fin q) (hcol : ∀ o ∈ (S.proj s).buf.orders, o.col < x.2.1)
    (hs : ∀ c, Near t (lost r t (assetVolume ((S.proj s).buf.orders.filter (·.col = c)))
      (2 * ((S.proj s).buf.orders.filter (·.col = c)).length))
      (bookedPos ((S.proj s).buf.orders.filter (·.col = c))) ((S.proj s).position c)) :
    Drifted r t x.2.1 (x.2.1 + x.2.2) q (S.proj (S.start s x)) := by
  obtain ⟨b1, b2, b3, b4, b5⟩ := hS.start s x
  refine ⟨by rw [b3, b5]; exact hs, ?_⟩
  rw [b1, b5, List.filter_eq_nil_iff.mpr, hq]
  · exact ⟨q, rfl, Or.inl (by simp [lost, cashVolume, bookedCash])⟩
  · intro o ho
    have := hcol o ho
    simp; omega

theorem Simulator.Ok.run_drifted (hr0 : 0 ≤ r) (hr : r < 1) (ht : 0 ≤ t)
    (hS : S.Ok (Arith.exact r t) G initCash)
    {rows g c s s'} {lens : List Nat}
    (hcash : ∀ x ∈ layoutFrom g c lens, ∃ q, initCash x.1 = fin q)
    (h : S.run rows s (layoutFrom g c lens) = .ok s')
    (hv : ∀ o ∈ (S.proj s').buf.orders, Numbers o) (hcol : ∀ o ∈ (S.proj s).buf.orders, o.col < c)
    (hs : ∀ c, Near t (lost r t (assetVolume ((S.proj s).buf.orders.filter (·.col = c)))
      (2 * ((S.proj s).buf.orders.filter (·.col = c)).length))
      (bookedPos ((S.proj s).buf.orders.filter (·.col = c))) ((S.proj s).position c)) :
    ∀ c, Near t (lost r t (assetVolume ((S.proj s').buf.orders.filter (·.col = c)))
      (2 * ((S.proj s').buf.orders.filter (·.col = c)).length))
      (bookedPos ((S.proj s').buf.orders.filter (·.col = c))) ((S.proj s').position c) := by
  induction lens generalizing g c s with
  | nil => cases h; exact hs
  | cons l ls ih =>
    rw [layoutFrom] at h
    obtain ⟨s1, h1, h2⟩ := loopE_cons_ok h
    have hv1 : ∀ o ∈ (S.proj s1).buf.orders, Numbers o := fun o ho => hv o ((hS.run_adds h2).mem ho)
    obtain ⟨q, hq⟩ := hcash (g, c, l) (by rw [layoutFrom]; exact List.mem_cons_self)
    have hk1 := hS.rows_drifted hr0 hr ht (x := (g, c, l)) h1 hv1 (hS.start_drifted hq hcol hs)
    refine ih (fun x hx => hcash x (by rw [layoutFrom]; exact List.mem_cons_of_mem _ hx)) h2 ?_ hk1.pos
    intro o ho
    obtain ⟨os, e, q⟩ := hS.rows_adds h1
    rw [e, (hS.start s (g, c, l)).2.2.2.2] at ho
    rcases List.mem_append.mp ho with ho | ho
    · have := hcol o ho; omega
    · exact (q o ho).2.2

/-- After every row the balances are near to what the records so far say. -/
theorem Simulator.Ok.afterRow_drifted (hr0 : 0 ≤ r) (hr : r < 1) (ht : 0 ≤ t)
    (hS : S.Ok (Arith.exact r t) G initCash)
    {rows lens s00 grp i s sf} {x : ℚ}
    (hcash : ∀ x ∈ layout lens, ∃ q, initCash x.1 = fin q) (hx : initCash grp.1 = fin x)
    (hbuf : (S.proj s00).buf.orders = []) (hpos : ∀ c, (S.proj s00).position c = zero)
    (hs : S.AfterRow rows lens s00 grp i s) (h : S.run rows s00 (layout lens) = .ok sf)
    (hv : ∀ o ∈ (S.proj sf).buf.orders, Numbers o) :
    Drifted r t grp.2.1 (grp.2.1 + grp.2.2) x (S.proj s) := by
  have hv' : ∀ o ∈ (S.proj s).buf.orders, Numbers o := fun o ho => hv o ((hS.orders_at hbuf hs h).2 o ho)
  obtain ⟨pre, post, s0, hlay, h0, hi, h1⟩ := hs
  obtain ⟨l1, l2, hl, hpre, -, hfc, hpost⟩ := layoutFrom_parts hlay
  obtain ⟨b1, b2, b3, b4, b5⟩ := hS.start s0 grp
  have a1 := hS.rows_adds h1
  have hv0 : ∀ o ∈ (S.proj s0).buf.orders, Numbers o := fun o ho => hv' o (a1.mem (by rw [b5]; exact ho))
  subst hpre
  have hk := hS.run_drifted hr0 hr ht (fun x hx => hcash x (by rw [hlay]; exact List.mem_append_left _ hx)) h0 hv0
    (by rw [hbuf]; simp) (fun c => by
      rw [hpos, hbuf]; exact ⟨0, rfl, Or.inl (by simp [lost, assetVolume, bookedPos])⟩)
  refine hS.rows_drifted hr0 hr ht h1 hv' (hS.start_drifted hx ?_ hk)
  intro o ho
  obtain ⟨os, e, q⟩ := hS.run_adds h0
  rw [e, hbuf, List.nil_append] at ho
  have := q o ho
  omega

end

end

end Vbt
