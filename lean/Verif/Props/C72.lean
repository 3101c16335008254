import Verif.Model.Portfolio
import Verif.Props.C71

/-!
# C72  Long and short assets split the position

`assets`, `asset_flow` and `position_mask` by direction, against the position: the long part of a position is
`max position 0`, its short part `max (-position) 0`.
-/

namespace Vbt
open F

/-- The part of a position in a direction: a specification of its own. -/
def directedPart (direction : Int) (p : ℚ) : ℚ :=
  if direction = Direction.LongOnly then max p 0 else if direction = Direction.ShortOnly then max (-p) 0 else p

/-- `assets(direction)` is that part; long minus short is the whole. -/
theorem C72_assets (direction : Int) (p : ℚ) :
    directedAssets direction (fin p) = fin (directedPart direction p) ∧
    directedPart Direction.LongOnly p - directedPart Direction.ShortOnly p = directedPart Direction.Both p := by
  constructor
  · unfold directedAssets directedPart
    by_cases h1 : direction = Direction.LongOnly
    · rw [if_pos h1, if_pos h1]
      by_cases h : 0 < p
      · rw [if_pos (by simpa [gt] using h), max_eq_left h.le]
      · rw [if_neg (by simpa [gt] using h), max_eq_right (not_lt.mp h)]
    · rw [if_neg h1, if_neg h1]
      by_cases h2 : direction = Direction.ShortOnly
      · rw [if_pos h2, if_pos h2]
        by_cases h : p < 0
        · rw [if_pos (by simpa using h), max_eq_left (by linarith), neg_fin]
        · rw [if_neg (by simpa using h), max_eq_right (by linarith)]
      · rw [if_neg h2, if_neg h2]
  · simp only [directedPart, Direction.LongOnly, Direction.ShortOnly, Direction.Both]
    norm_num
    rcases le_total p 0 with h | h
    · rw [max_eq_right h, max_eq_left (by linarith)]; ring
    · rw [max_eq_left h, max_eq_right (by linarith)]; ring

/-- The mask is set exactly if there is something in this direction; for both directions, if the position is not zero,
for groups, if this is so for some column. -/
theorem C72_mask (direction : Int) (p : ℚ) :
    (positionMask direction (fin p) = true ↔ directedPart direction p ≠ 0) ∧
    (positionMask Direction.Both (fin p) = (positionMask Direction.LongOnly (fin p) ||
      positionMask Direction.ShortOnly (fin p))) := by
  have h : ∀ d, positionMask d (fin p) = true ↔ directedPart d p ≠ 0 := by
    intro d
    unfold positionMask
    rw [(C72_assets d p).1]
    simp
  refine ⟨h direction, ?_⟩
  rw [Bool.eq_iff_iff, Bool.or_eq_true, h, h, h]
  simp only [directedPart, Direction.LongOnly, Direction.ShortOnly, Direction.Both]
  norm_num
  exact ⟨fun h e => h e.symm, fun h e => h e.symm⟩

theorem C72_mask_grouped {mask : Nat → Nat → Bool} {fromCol len i : Nat} :
    positionMaskGrouped mask fromCol len i = true ↔ ∃ c, fromCol ≤ c ∧ c < fromCol + len ∧ mask i c = true := by
  unfold positionMaskGrouped
  rw [List.any_eq_true]
  constructor
  · rintro ⟨k, hk, h⟩
    exact ⟨fromCol + k, by omega, by have := List.mem_range.mp hk; omega, h⟩
  · rintro ⟨c, h1, h2, h⟩
    exact ⟨c - fromCol, List.mem_range.mpr (by omega), by rwa [show fromCol + (c - fromCol) = c by omega]⟩

theorem count_sum (l : List Bool) : (((l.filter id).length : ℕ) : ℚ) = (l.map fun b => if b then (1 : ℚ) else 0).sum := by
  induction l with
  | nil => simp
  | cons b l ih => cases b <;> simp [ih] <;> ring

theorem sum_flatMap_rows (f : Nat → Nat → Bool) (rows len : Nat) :
    ((((List.range rows).flatMap fun i => (List.range len).map fun k => f i k).map
      fun b => if b then (1 : ℚ) else 0).sum) =
    ((List.range rows).map fun i => ((List.range len).map fun k => if f i k then (1 : ℚ) else 0).sum).sum := by
  induction rows with
  | zero => simp
  | succ n ih =>
    rw [List.range_succ, List.flatMap_append, List.map_append, List.map_append, List.sum_append, List.sum_append, ih]
    simp only [List.flatMap_cons, List.flatMap_nil, List.append_nil, List.map_map, List.map_cons, List.map_nil,
      List.sum_cons, List.sum_nil, add_zero]
    rfl

theorem length_flatMap_rows (f : Nat → Nat → Bool) (rows len : Nat) :
    ((List.range rows).flatMap fun i => (List.range len).map fun k => f i k).length = rows * len := by
  induction rows with
  | zero => simp
  | succ n ih =>
    rw [List.range_succ, List.flatMap_append, List.length_append, ih]
    simp [Nat.succ_mul]

/-- The share of rows in which a column is in the market: a specification of its own. -/
def coverage (mask : Nat → Nat → Bool) (rows col : Nat) : ℚ :=
  ((List.range rows).map fun i => if mask i col then (1 : ℚ) else 0).sum / rows

/-- Coverage of a column is the share of rows with the mask set, between 0 and 1; coverage of a group is the average of
the coverages of its columns. -/
theorem C72_coverage {r t : ℚ} {mask : Nat → Nat → Bool} {rows : Nat} (hrows : 0 < rows) :
    (∀ c, positionCoverage (Arith.exact r t) mask rows c = fin (coverage mask rows c) ∧ 0 ≤ coverage mask rows c ∧
      coverage mask rows c ≤ 1) ∧
    (∀ fromCol len, 0 < len → positionCoverageGrouped (Arith.exact r t) mask rows fromCol len =
      fin (((List.range len).map fun k => coverage mask rows (fromCol + k)).sum / len)) := by
  have hr : (0 : ℚ) < rows := by exact_mod_cast hrows
  constructor
  · intro c
    refine ⟨?_, ?_, ?_⟩
    · unfold positionCoverage meanBool coverage
      rw [div_exact _ _ _ _ (by rw [List.length_map, List.length_range]; exact hr.ne'), count_sum, List.map_map,
        List.length_map, List.length_range]
      rfl
    · refine div_nonneg (List.sum_nonneg ?_) hr.le
      intro x hx
      obtain ⟨i, -, rfl⟩ := List.mem_map.mp hx
      split <;> norm_num
    · unfold coverage
      rw [div_le_one hr]
      have : ∀ n : ℕ, ((List.range n).map fun i => if mask i c then (1 : ℚ) else 0).sum ≤ n := by
        intro n
        induction n with
        | zero => simp
        | succ n ih =>
          rw [List.range_succ, List.map_append, List.sum_append]
          simp only [List.map_cons, List.map_nil, List.sum_cons, List.sum_nil, add_zero]
          push_cast
          split <;> linarith
      exact this rows
  · intro fromCol len hlen
    have hl : (0 : ℚ) < len := by exact_mod_cast hlen
    unfold positionCoverageGrouped meanBool
    rw [length_flatMap_rows (fun i k => mask i (fromCol + k)), div_exact _ _ _ _ (by
      push_cast; exact (mul_pos hr hl).ne'), count_sum, sum_flatMap_rows (fun i k => mask i (fromCol + k)), sum_swap]
    congr 1
    unfold coverage
    have : ∀ n : ℕ, ((List.range n).map fun k => ((List.range rows).map fun i =>
        if mask i (fromCol + k) then (1 : ℚ) else 0).sum / rows).sum =
        ((List.range n).map fun k => ((List.range rows).map fun i =>
        if mask i (fromCol + k) then (1 : ℚ) else 0).sum).sum / rows := by
      intro n
      induction n with
      | zero => simp
      | succ n ih =>
        rw [List.range_succ, List.map_append, List.sum_append, List.map_append, List.sum_append, ih]
        simp only [List.map_cons, List.map_nil, List.sum_cons, List.sum_nil, add_zero]
        rw [add_div]
    rw [this]
    push_cast
    field_simp

/-! ## Flows by direction -/

theorem longSize_part (a b : ℚ) : longSize (Arith.exact 0 0) (fin a) (fin b) = fin (max b 0 - max a 0) := by
  have c1 : (le (fin a) zero && le (fin b) zero) = decide (a ≤ 0 ∧ b ≤ 0) := by simp
  have c2 : (ge (fin a) zero && lt (fin b) zero) = decide (0 ≤ a ∧ b < 0) := by simp [ge]
  have c3 : (lt (fin a) zero && ge (fin b) zero) = decide (a < 0 ∧ 0 ≤ b) := by simp [ge]
  unfold longSize
  rw [c1, c2, c3]
  simp only [decide_eq_true_eq]
  by_cases h1 : a ≤ 0 ∧ b ≤ 0
  · rw [if_pos h1, max_eq_right h1.1, max_eq_right h1.2, sub_zero]
  rw [if_neg h1]
  by_cases h2 : 0 ≤ a ∧ b < 0
  · rw [if_pos h2, max_eq_left h2.1, max_eq_right h2.2.le, zero_sub, neg_fin]
  rw [if_neg h2]
  by_cases h3 : a < 0 ∧ 0 ≤ b
  · rw [if_pos h3, max_eq_right h3.1.le, max_eq_left h3.2, sub_zero]
  rw [if_neg h3, neg_fin, addNb_zero_tol]
  have hb : 0 ≤ b := by
    by_contra hb
    push Not at hb
    rcases le_total a 0 with h | h
    · exact h1 ⟨h, hb.le⟩
    · exact h2 ⟨h, hb⟩
  have ha : 0 ≤ a := by
    by_contra ha
    push Not at ha
    exact h3 ⟨ha, hb⟩
  rw [max_eq_left ha, max_eq_left hb, sub_eq_add_neg]

theorem shortSize_part (a b : ℚ) : shortSize (Arith.exact 0 0) (fin a) (fin b) = fin (max (-b) 0 - max (-a) 0) := by
  have c1 : (ge (fin a) zero && ge (fin b) zero) = decide (0 ≤ a ∧ 0 ≤ b) := by simp [ge]
  have c2 : (ge (fin a) zero && lt (fin b) zero) = decide (0 ≤ a ∧ b < 0) := by simp [ge]
  have c3 : (lt (fin a) zero && ge (fin b) zero) = decide (a < 0 ∧ 0 ≤ b) := by simp [ge]
  unfold shortSize
  rw [c1, c2, c3]
  simp only [decide_eq_true_eq]
  by_cases h1 : 0 ≤ a ∧ 0 ≤ b
  · rw [if_pos h1, max_eq_right (by linarith [h1.1]), max_eq_right (by linarith [h1.2]), sub_zero]
  rw [if_neg h1]
  by_cases h2 : 0 ≤ a ∧ b < 0
  · rw [if_pos h2, max_eq_left (by linarith [h2.2]), max_eq_right (by linarith [h2.1]), sub_zero, neg_fin]
  rw [if_neg h2]
  by_cases h3 : a < 0 ∧ 0 ≤ b
  · rw [if_pos h3, max_eq_right (by linarith [h3.2]), max_eq_left (by linarith [h3.1]), zero_sub, neg_neg]
  rw [if_neg h3, neg_fin, addNb_zero_tol]
  have ha : a < 0 := by
    by_contra ha
    push Not at ha
    rcases lt_or_ge b 0 with h | h
    · exact h2 ⟨ha, h⟩
    · exact h1 ⟨ha, h⟩
  have hb : b < 0 := by
    by_contra hb
    push Not at hb
    exact h3 ⟨ha, hb⟩
  rw [max_eq_left (by linarith), max_eq_left (by linarith)]
  congr 1; ring

/-- The position after the records up to row `i`. -/
def heldAfter (l : List OrderRec) (i : Nat) : ℚ :=
  ((l.filter fun o => o.idx ≤ i).map fun o => moved o.side o.size.val).sum

theorem dirFlow_loop {direction : Int} {l : List OrderRec} : ∀ {P : ℚ} {st : FlowState}, IdsUp l → RowsUp l →
    (∀ o ∈ l, ∃ s, o.size = fin s) → (∀ o ∈ l, st.lastId ≤ o.id) → st.position = fin P →
    (∀ j, ∃ q, st.out j = fin q) →
    ∃ st', loopE (assetFlowStep (Arith.exact 0 0) direction) st l = .ok st' ∧ (∀ j, ∃ q, st'.out j = fin q) ∧
      ∀ i, upTo st'.out i = upTo st.out i + (directedPart direction (P + heldAfter l i) - directedPart direction P) := by
  induction l with
  | nil => intro P st _ _ _ _ _ h; exact ⟨st, rfl, h, fun i => by simp [heldAfter]⟩
  | cons o l ih =>
    intro P st hid hrows hsz hle hP hout
    obtain ⟨h3, h4⟩ := List.pairwise_cons.mp hid
    obtain ⟨h5, h6⟩ := List.pairwise_cons.mp hrows
    obtain ⟨s, z1⟩ := hsz o List.mem_cons_self
    obtain ⟨q, hq⟩ := hout o.idx
    have hsg : signedSize o = fin (moved o.side s) := by unfold signedSize moved; split <;> simp [z1]
    have hflow : (if direction = Direction.LongOnly then longSize (Arith.exact 0 0) (fin P) (fin (P + moved o.side s))
        else if direction = Direction.ShortOnly then shortSize (Arith.exact 0 0) (fin P) (fin (P + moved o.side s))
        else fin (moved o.side s)) =
        fin (directedPart direction (P + moved o.side s) - directedPart direction P) := by
      unfold directedPart
      by_cases h1 : direction = Direction.LongOnly
      · rw [if_pos h1, if_pos h1, if_pos h1, longSize_part]
      · rw [if_neg h1, if_neg h1, if_neg h1]
        by_cases h2 : direction = Direction.ShortOnly
        · rw [if_pos h2, if_pos h2, if_pos h2, shortSize_part]
        · rw [if_neg h2, if_neg h2, if_neg h2, add_sub_cancel_left]
    have hstep : assetFlowStep (Arith.exact 0 0) direction st o =
        .ok (FlowState.mk o.id (fin (P + moved o.side s)) st.debt (setAt st.out o.idx
          (fin (q + (directedPart direction (P + moved o.side s) - directedPart direction P))))) := by
      unfold assetFlowStep
      have := hle o List.mem_cons_self
      rw [if_neg (by omega)]
      simp only [hP, hsg, addNb_zero_tol, hflow, hq]
    obtain ⟨st', g1, g2, g3⟩ := ih (P := P + moved o.side s) (st := FlowState.mk o.id (fin (P + moved o.side s)) st.debt
        (setAt st.out o.idx (fin (q + (directedPart direction (P + moved o.side s) - directedPart direction P))))) h4 h6
      (fun x hx => hsz x (List.mem_cons_of_mem _ hx)) (fun x hx => by
        show (o.id : Int) ≤ x.id
        exact_mod_cast h3 x hx) rfl (fun j => by
        show ∃ q, setAt _ _ _ j = fin q
        unfold setAt
        split
        · exact ⟨_, rfl⟩
        · exact hout j)
    refine ⟨st', by rw [loopE, hstep]; exact g1, g2, fun i => ?_⟩
    rw [g3, upTo_setAt _ _ _ _ _ hq]
    by_cases hi : o.idx ≤ i
    · have : heldAfter (o :: l) i = moved o.side s + heldAfter l i := by
        unfold heldAfter
        rw [List.filter_cons_of_pos (by simpa using hi), List.map_cons, List.sum_cons, z1]
        rfl
      rw [if_pos hi, this, ← add_assoc]
      ring
    · have hn : l.filter (fun x => decide (x.idx ≤ i)) = [] := by
        rw [List.filter_eq_nil_iff]
        intro x hx
        have := h5 x hx
        simp; omega
      have e1 : heldAfter (o :: l) i = 0 := by
        unfold heldAfter
        rw [List.filter_cons_of_neg (by simpa using hi), hn]; rfl
      have e2 : heldAfter l i = 0 := by unfold heldAfter; rw [hn]; rfl
      rw [if_neg hi, e1, e2]
      ring_nf

/-- Accumulating the flow in a direction gives the part of the position in this direction (zero tolerances). -/
theorem dirFlow_assets {direction : Int} {orders : List OrderRec} {junk : Nat → Nat} {c i : Nat}
    (hid : IdsUp (orders.filter fun o => o.col = c)) (hrows : RowsUp (orders.filter fun o => o.col = c))
    (hsz : ∀ o ∈ orders, ∃ s, o.size = fin s) :
    ∃ flow, assetFlow (Arith.exact 0 0) direction orders junk c = .ok flow ∧
      assetsAt (Arith.exact 0 0) flow i =
        fin (directedPart direction (heldAfter (orders.filter fun o => o.col = c) i)) := by
  obtain ⟨st', h1, h2, h3⟩ := dirFlow_loop (direction := direction) (l := orders.filter fun o => o.col = c) (P := 0)
    (st := FlowState.start) hid hrows (fun o ho => hsz o (List.mem_of_mem_filter ho))
    (fun o _ => by show (-1 : Int) ≤ _; omega) rfl (fun _ => ⟨0, rfl⟩)
  refine ⟨st'.out, ?_, ?_⟩
  · unfold assetFlow
    rw [columnRecords_eq, h1]
  · rw [assetsAt_eq, cashAt_sum h2]
    have h0 : upTo FlowState.start.out i = 0 := by simp [upTo, FlowState.start, F.toQ]
    have hz : directedPart direction 0 = 0 := by unfold directedPart; split <;> [simp; skip]; split <;> simp
    have := h3 i
    rw [h0, hz, zero_add, zero_add, sub_zero] at this
    rw [zero_add]
    exact congrArg fin this

/-- **C72** (flows, any column-major simulator, zero tolerances): the flows in a direction accumulate, row by row, to
`assets(direction)`, the part of the position held after that row. -/
theorem Simulated.directed {σ : Type} {S : Simulator σ} {rows cols lens initCash s00 sf grp i s} {junk : Nat → Nat}
    {direction : Int} (h : Simulated S 0 0 rows cols lens initCash s00 sf)
    (hs : S.AfterRow rows lens s00 grp i s)
    (hcash : ∀ x ∈ layout lens, ∃ q, initCash.getD x.1 nan = fin q)
    (hv : ∀ o ∈ (S.proj sf).buf.orders, ∃ s p f : ℚ, o.size = fin s ∧ o.price = fin p ∧ o.fees = fin f)
    {c : Nat} (h1 : grp.2.1 ≤ c) (h2 : c < grp.2.1 + grp.2.2) :
    ∃ flow P, assetFlow (Arith.exact 0 0) direction (S.proj sf).buf.orders junk c = .ok flow ∧
      (S.proj s).position c = fin P ∧ assetsAt (Arith.exact 0 0) flow i = fin (directedPart direction P) ∧
      directedAssets direction ((S.proj s).position c) = assetsAt (Arith.exact 0 0) flow i := by
  have hvis : ∀ o ∈ (S.proj sf).buf.orders, Visible 0 0 o := by
    intro o ho
    obtain ⟨s, p, f, h1, h2, h3⟩ := hv o ho
    refine ⟨s, p, f, h1, h2, h3, ?_, ?_⟩
    · by_cases h : s = 0
      · exact Or.inl h
      · exact Or.inr (abs_pos.mpr h)
    · by_cases h : -(moved o.side s) * p - f = 0
      · exact Or.inl h
      · right; rw [zero_mul, max_self]; exact abs_pos.mpr h
  have hset : ∀ x ∈ layout lens, Settled 0 (initCash.getD x.1 nan) ∧
      (((0 : ℚ) = 0 ∧ (0 : ℚ) = 0) ∨ lt (initCash.getD x.1 nan) zero = false) := fun y hy => ⟨by
    obtain ⟨q, hq⟩ := hcash y hy
    refine ⟨q, hq, ?_⟩
    by_cases h0 : q = 0
    · exact Or.inl h0
    · exact Or.inr (abs_pos.mpr h0), Or.inl ⟨rfl, rfl⟩⟩
  have hw := h.wf
  have hup : RowsUp ((S.proj sf).buf.orders.filter fun o => o.col = c) := by
    have := hw.orderRows.filter (fun o => decide (o.col = c))
    refine List.Pairwise.imp_of_mem ?_ this
    intro a b ha hb hab
    exact hab ((of_decide_eq_true (List.mem_filter.mp ha).2).trans (of_decide_eq_true (List.mem_filter.mp hb).2).symm)
  have hid := (IdsUp.of_range hw.orderIds).filter (fun o => decide (o.col = c))
  have hsz : ∀ o ∈ (S.proj sf).buf.orders, ∃ s, o.size = fin s := fun o ho => by
    obtain ⟨s, -, -, h, -⟩ := hv o ho; exact ⟨s, h⟩
  obtain ⟨flow, e, he⟩ := dirFlow_assets (direction := direction) (junk := junk) (i := i) hid hup hsz
  obtain ⟨fb, eb, hb⟩ := dirFlow_assets (direction := Direction.Both) (junk := junk) (i := i) hid hup hsz
  obtain ⟨fb', eb', hb'⟩ := h.assets (junk := junk) le_rfl (by norm_num) le_rfl hs hset hvis h1 h2
  rw [eb] at eb'
  cases eb'
  rw [hb] at hb'
  have hboth : ∀ p, directedPart Direction.Both p = p := by
    intro p; simp [directedPart, Direction.Both, Direction.LongOnly, Direction.ShortOnly]
  rw [hboth] at hb'
  refine ⟨flow, _, e, hb'.symm, he, ?_⟩
  rw [← hb', he, (C72_assets _ _).1]

/-- **C72** (flows, from orders, zero tolerances). -/
theorem C72_flows_partial {inp rows cols lens initCash mo ml sf grp i s} {junk : Nat → Nat} {direction : Int}
    (h : simulateFromOrders (Arith.exact 0 0) inp rows cols lens initCash mo ml = .ok sf)
    (hseq : isGrouped lens = true → ∀ x ∈ layout lens, ∀ i < rows, CallSeqOk inp i x.2.1 x.2.2)
    (hs : AfterRow (Arith.exact 0 0) inp rows lens (fun g => initCash.getD g nan) (initRecords rows cols mo ml) grp i s)
    (hcash : ∀ x ∈ layout lens, ∃ q, initCash.getD x.1 nan = fin q)
    (hv : ∀ o ∈ sf.buf.orders, ∃ s p f : ℚ, o.size = fin s ∧ o.price = fin p ∧ o.fees = fin f)
    {c : Nat} (h1 : grp.2.1 ≤ c) (h2 : c < grp.2.1 + grp.2.2) :
    ∃ flow P, assetFlow (Arith.exact 0 0) direction sf.buf.orders junk c = .ok flow ∧
      s.position c = fin P ∧ assetsAt (Arith.exact 0 0) flow i = fin (directedPart direction P) ∧
      directedAssets direction (s.position c) = assetsAt (Arith.exact 0 0) flow i :=
  (ordersSim_simulated h hseq (fun _ _ => Or.inl ⟨rfl, rfl⟩)).directed hs hcash hv h1 h2

/-- **C72** (flows, from signals, zero tolerances). -/
theorem C72_flows_signals_partial {inp cell rows cols lens initCash mo ml sf grp i s} {junk : Nat → Nat} {direction : Int}
    (h : simulateSig (Arith.exact 0 0) inp cell rows cols lens initCash mo ml = .ok sf)
    (hseq : isGrouped lens = true → ∀ x ∈ layout lens, ∀ i < rows, SigSeqOk inp i x.2.1 x.2.2)
    (hs : SigAfterRow (Arith.exact 0 0) inp cell rows lens (fun g => initCash.getD g nan) (initRecords rows cols mo ml)
      grp i s)
    (hcash : ∀ x ∈ layout lens, ∃ q, initCash.getD x.1 nan = fin q)
    (hv : ∀ o ∈ sf.sim.buf.orders, ∃ s p f : ℚ, o.size = fin s ∧ o.price = fin p ∧ o.fees = fin f)
    {c : Nat} (h1 : grp.2.1 ≤ c) (h2 : c < grp.2.1 + grp.2.2) :
    ∃ flow P, assetFlow (Arith.exact 0 0) direction sf.sim.buf.orders junk c = .ok flow ∧
      s.sim.position c = fin P ∧ assetsAt (Arith.exact 0 0) flow i = fin (directedPart direction P) ∧
      directedAssets direction (s.sim.position c) = assetsAt (Arith.exact 0 0) flow i :=
  (sigSim_simulated h hseq (Or.inl ⟨rfl, rfl⟩)).directed hs hcash hv h1 h2

/-- Non-vacuity: a position of 2 is reversed to −3 and closed; long and short flows, and the mask. -/
example : ∃ inp sf fl fs, simulateFromOrders (Arith.exact 0 0) inp 3 1 [1] [fin 100] none 0 = .ok sf ∧
    assetFlow (Arith.exact 0 0) Direction.LongOnly sf.buf.orders (fun _ => 0) 0 = .ok fl ∧
    assetFlow (Arith.exact 0 0) Direction.ShortOnly sf.buf.orders (fun _ => 0) 0 = .ok fs ∧
    (List.range 3).map fl = [fin 2, fin (-2), fin 0] ∧ (List.range 3).map fs = [fin 0, fin 3, fin (-3)] ∧
    (List.range 3).map (assetsAt (Arith.exact 0 0) fs) = [fin 0, fin 3, fin 0] := by
  let inp := { simpleInputs (fun i _ => if i = 0 then fin 2 else if i = 1 then fin (-5) else fin 3)
    (fun i _ => fin (10 + i)) (fun _ c => c) false true with log := fun _ _ => false, fees := fun _ _ => fin 0 }
  obtain ⟨sf, h, hsf⟩ := okAnd_iff (x := simulateFromOrders (Arith.exact 0 0) inp 3 1 [1] [fin 100] none 0)
    (f := fun s => okAnd (assetFlow (Arith.exact 0 0) Direction.LongOnly s.buf.orders (fun _ => 0) 0) fun fl =>
      okAnd (assetFlow (Arith.exact 0 0) Direction.ShortOnly s.buf.orders (fun _ => 0) 0) fun fs =>
      decide ((List.range 3).map fl = [fin 2, fin (-2), fin 0] ∧ (List.range 3).map fs = [fin 0, fin 3, fin (-3)] ∧
        (List.range 3).map (assetsAt (Arith.exact 0 0) fs) = [fin 0, fin 3, fin 0])) (by decide +kernel)
  obtain ⟨fl, h1, hf⟩ := okAnd_iff hsf
  obtain ⟨fs, h2, hf⟩ := okAnd_iff hf
  exact ⟨inp, sf, fl, fs, h, h1, h2, of_decide_eq_true hf⟩

/-- With the tolerances of the code flows in a direction lose every trade that is small next to the position, whatever its size, and the
losses add up: on top of 2e9 two purchases of 1 are in the flow of both directions and not in the flow of longs. -/
theorem C72_small_trades_lost : ∃ (orders : List OrderRec) (fb fl : Nat → F),
    assetFlow Arith.std Direction.Both orders (fun _ => 0) 0 = .ok fb ∧
    assetFlow Arith.std Direction.LongOnly orders (fun _ => 0) 0 = .ok fl ∧
    (List.range 3).map fb = [fin 2000000000, fin 1, fin 1] ∧ (List.range 3).map fl = [fin 2000000000, zero, zero] ∧
    directedAssets Direction.LongOnly (assetsAt Arith.std fb 2) = fin 2000000002 ∧ assetsAt Arith.std fl 2 = fin 2000000000 := by
  let orders := [OrderRec.mk 0 0 0 (fin 2000000000) (fin 1) (fin 0) OrderSide.Buy,
    OrderRec.mk 1 0 1 (fin 1) (fin 1) (fin 0) OrderSide.Buy, OrderRec.mk 2 0 2 (fin 1) (fin 1) (fin 0) OrderSide.Buy]
  obtain ⟨fb, h1, hf⟩ := okAnd_iff (x := assetFlow Arith.std Direction.Both orders (fun _ => 0) 0)
    (f := fun fb => okAnd (assetFlow Arith.std Direction.LongOnly orders (fun _ => 0) 0) fun fl =>
      decide ((List.range 3).map fb = [fin 2000000000, fin 1, fin 1] ∧ (List.range 3).map fl = [fin 2000000000, zero, zero] ∧
        directedAssets Direction.LongOnly (assetsAt Arith.std fb 2) = fin 2000000002 ∧
        assetsAt Arith.std fl 2 = fin 2000000000)) (by decide +kernel)
  obtain ⟨fl, h2, hf⟩ := okAnd_iff hf
  exact ⟨orders, fb, fl, h1, h2, of_decide_eq_true hf⟩

/-- Non-vacuity: two columns over two rows, three of the four cells in the market. -/
example : positionCoverageGrouped Arith.std (fun i c => !(i == 0 && c == 1)) 2 0 2 = fin (3 / 4) ∧
    positionCoverage Arith.std (fun i c => !(i == 0 && c == 1)) 2 1 = fin (1 / 2) ∧
    positionMaskGrouped (fun i c => !(i == 0 && c == 1)) 1 1 0 = false := by decide +kernel

end Vbt
