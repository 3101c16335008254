import Mathlib.Algebra.BigOperators.Group.Finset.Basic
import Mathlib.Order.Interval.Finset.Nat
import Verif.Props.C15
import Verif.Props.C07

/-!
# C17  Every simulated column keeps its balances valid

Throughout a run from order arrays: after every single call of every row of every group.
Guards: those of C07 on every order (fees above -100 %, slippage at most 100 %, finite non-zero `Percent` sizes; the
witnesses of C01 and C07 show they are needed), close prices never infinite, a finite non-negative initial cash.
The identity `free + 2*debts = cash` is for zero tolerances (a snap changes it by the amount snapped).
-/

namespace Vbt
open F

/-- States of a run: `s` is the state of the group `grp` after row `i` was entered and some of its calls were made
(`spre`), rows before it and groups before it being complete. -/
structure InRun (A : Arith) (inp : Inputs) (rows : Nat) (lens : List Nat) (initCash : Nat → F) (b : Buffers)
    (grp : Nat × Nat × Nat) (i : Nat) (s : SimState) : Prop where
  run : ∃ pre post s0 s1 spre spost,
    layout lens = pre ++ grp :: post ∧
    loopE (simGroup A inp (isGrouped lens) initCash rows) (initState b) pre = .ok s0 ∧
    i < rows ∧
    loopE (simRow A inp (isGrouped lens) grp.1 grp.2.1 grp.2.2)
      { s0 with cash := initCash grp.1, free := initCash grp.1 } (List.range i) = .ok s1 ∧
    (List.range grp.2.2).zip (rowCallSeq A inp (isGrouped lens) i grp.2.1 grp.2.2
      { s1 with valPrice := rowValPrice inp i grp.2.1 grp.2.2 s1.valPrice,
                value := if isGrouped lens then groupValue A s1.cash s1.position
                    (rowValPrice inp i grp.2.1 grp.2.2 s1.valPrice) grp.2.1 grp.2.2 else s1.value }) = spre ++ spost ∧
    loopE (callSlot A inp (isGrouped lens) grp.1 i grp.2.1 grp.2.2)
      { s1 with valPrice := rowValPrice inp i grp.2.1 grp.2.2 s1.valPrice,
                value := if isGrouped lens then groupValue A s1.cash s1.position
                    (rowValPrice inp i grp.2.1 grp.2.2 s1.valPrice) grp.2.1 grp.2.2 else s1.value } spre = .ok s

/-- Valid balances, whatever the tolerances (`t` is the absolute one). -/
structure BalancesOk (t : ℚ) (s : SimState) : Prop where
  cash : FinAnd s.cash (0 ≤ ·)
  col : ∀ c, ∃ P D : ℚ, s.position c = fin P ∧ s.debt c = fin D ∧ 0 ≤ D ∧ (0 ≤ P → D = 0) ∧ (P = 0 ∨ t < |P|)

/-- Free cash plus twice the debts of the columns `lo ≤ c < hi` is the cash. -/
def LedgerOk (lo hi : Nat) (s : SimState) : Prop :=
  ∃ (c : ℚ) (D : Nat → ℚ), s.cash = fin c ∧ (∀ k, s.debt k = fin (D k)) ∧
    s.free = fin (c - 2 * ∑ k ∈ Finset.Ico lo hi, D k)

/-- No infinite valuation. -/
structure Valued (s : SimState) : Prop where
  value : s.value ≠ pinf
  vp : ∀ c, s.valPrice c ≠ pinf ∧ s.valPrice c ≠ ninf

section
variable {r t : ℚ}

theorem callOrder_balances (hr0 : 0 ≤ r) (hr : r < 1) (ht : 0 ≤ t) {i col group value upd ffill o u s s'}
    (h : callOrder (Arith.exact r t) i col group value upd ffill o u s = .ok s') (ho : Priced o)
    (hv : value ≠ pinf) (hs : BalancesOk t s) (hw : Valued s) : BalancesOk t s' ∧ Valued s' := by
  obtain ⟨res, st, b, hp, rfl⟩ := callOrder_inv h
  obtain ⟨P, D, hP, hD, hD0, hz, hg⟩ := hs.col col
  have hsv : snap (Arith.exact r t) value ≠ pinf := by
    rcases snap_cases (Arith.exact r t) value with h | h
    · rw [h]; exact hv
    · rw [h.1]; simp
  have hh := C01_healthy_partial hr.le hp ho.toCovered ⟨hs.cash, ⟨P, hP, trivial⟩, hv, hw.vp col⟩
  have hd := (C07_debt_step_partial hr0 hr ht hp ho ⟨ho.percent, fun _ => Or.inl hsv⟩
    ⟨P, D, hP, hD, hD0, hz, hg⟩).ok
  refine ⟨⟨hh.cash, fun c => ?_⟩, hh.value, fun c => ?_⟩
  · simp only [setAt]
    split
    · exact hd
    · exact hs.col c
  · show (if _ then _ else _ : Nat → F) c ≠ _ ∧ _
    split
    · simp only [setAt]
      split
      · exact hh.valPrice
      · exact hw.vp c
    · exact hw.vp c

theorem callOrder_ledger {i col group value upd ffill o u s s'} {lo hi : Nat}
    (h : callOrder (Arith.exact 0 0) i col group value upd ffill o u s = .ok s') (ho : Priced o)
    (hv : value ≠ pinf) (hs : BalancesOk 0 s) (hl : LedgerOk lo hi s) (h1 : lo ≤ col) (h2 : col < hi) :
    LedgerOk lo hi s' := by
  obtain ⟨res, st, b, hp, rfl⟩ := callOrder_inv h
  obtain ⟨c, D, hc, hD, hf⟩ := hl
  obtain ⟨P, D0, hP, hD0, hn, hz, -⟩ := hs.col col
  have hsv : snap (Arith.exact 0 0) value ≠ pinf := by
    rcases snap_cases (Arith.exact 0 0) value with h | h
    · rw [h]; exact hv
    · rw [h.1]; simp
  have hmem : col ∈ Finset.Ico lo hi := Finset.mem_Ico.mpr ⟨h1, h2⟩
  have hcol : D0 = D col := by rw [hD col] at hD0; exact (F.fin.inj hD0).symm
  subst hcol
  have hc0 : 0 ≤ c := by obtain ⟨c', e, h⟩ := hs.cash; rw [hc] at e; cases e; exact h
  obtain ⟨c', P', D', g1, g2, g3, g4, g5⟩ := booked_step_shared (K := 2 * ∑ k ∈ (Finset.Ico lo hi).erase col, D k)
    hp ho ⟨ho.percent, fun _ => Or.inl hsv⟩ ⟨c, P, D col, hc, hP, hD col, by
      show s.free = _
      rw [hf, ← Finset.add_sum_erase _ _ hmem]; congr 1; ring, hc0, hn, hz⟩
  refine ⟨c', fun k => if k = col then D' else D k, g1, fun k => ?_, ?_⟩
  · simp only [setAt]
    split
    · exact g3
    · exact hD k
  · show st.freeCash = _
    rw [g4, ← Finset.add_sum_erase _ _ hmem, if_pos rfl]
    have : ∑ k ∈ (Finset.Ico lo hi).erase col, (if k = col then D' else D k) =
        ∑ k ∈ (Finset.Ico lo hi).erase col, D k :=
      Finset.sum_congr rfl (fun k hk => if_neg (Finset.ne_of_mem_erase hk))
    rw [this]; congr 1; ring

theorem add_mul_ne_inf {a p v : F} (ha : a = nan ∨ ∃ q, a = fin q) (hp : ∃ q, p = fin q)
    (hv : v ≠ pinf ∧ v ≠ ninf) : add (Arith.exact r t) a (mul (Arith.exact r t) p v) = nan ∨
      ∃ q, add (Arith.exact r t) a (mul (Arith.exact r t) p v) = fin q := by
  obtain ⟨p, rfl⟩ := hp
  cases v with
  | nan => left; cases a <;> simp [mul, add]
  | pinf => exact absurd rfl hv.1
  | ninf => exact absurd rfl hv.2
  | fin v =>
    rcases ha with rfl | ⟨a, rfl⟩
    · left; simp [add]
    · exact Or.inr ⟨_, by rw [mul_exact, add_exact]⟩

theorem ne_pinf_of {a : F} (h : a = nan ∨ ∃ q, a = fin q) : a ≠ pinf := by
  rcases h with rfl | ⟨q, rfl⟩ <;> simp

theorem groupValue_ne {s : SimState} {vp : Nat → F} {lo len : Nat} (hs : BalancesOk t s)
    (hv : ∀ c, vp c ≠ pinf ∧ vp c ≠ ninf) :
    groupValue (Arith.exact r t) s.cash s.position vp lo len ≠ pinf := by
  apply ne_pinf_of
  unfold groupValue
  have : ∀ (l : List Nat) (a : F), (a = nan ∨ ∃ q, a = fin q) → ∀ b, l.foldl (fun v k =>
    if !eqb (s.position (lo + k)) zero then
      add (Arith.exact r t) v (mul (Arith.exact r t) (s.position (lo + k)) (vp (lo + k))) else v) a = b →
      (b = nan ∨ ∃ q, b = fin q) := by
    intro l
    induction l with
    | nil => intro a ha b hb; exact hb ▸ ha
    | cons k l ih =>
      intro a ha b hb
      refine ih (if !eqb (s.position (lo + k)) zero then
        add (Arith.exact r t) a (mul (Arith.exact r t) (s.position (lo + k)) (vp (lo + k))) else a) ?_ b hb
      split
      · obtain ⟨P, _, hP, -⟩ := hs.col (lo + k)
        exact add_mul_ne_inf ha ⟨P, hP⟩ (hv _)
      · exact ha
  obtain ⟨c, hc, -⟩ := hs.cash
  exact this _ _ (Or.inr ⟨c, hc⟩) _ rfl

/-- Guards on the inputs. -/
structure Guarded (inp : Inputs) : Prop where
  order : ∀ i c, Priced (orderAt inp i c)
  close : ∀ i c, inp.close i c ≠ pinf ∧ inp.close i c ≠ ninf

theorem isinf_of {p : F} (h : ¬ p.isinf = true) : p ≠ pinf ∧ p ≠ ninf := by
  cases p <;> simp [isinf] at h ⊢

theorem Guarded.price {inp : Inputs} (h : Guarded inp) (i c : Nat) :
    resolvePrice inp i c ≠ pinf ∧ resolvePrice inp i c ≠ ninf := by
  unfold resolvePrice
  simp only
  split
  · split
    · exact h.close i c
    · split
      · exact h.close _ c
      · simp
  · rename_i hp; exact isinf_of hp

theorem Guarded.valPrice {inp : Inputs} (h : Guarded inp) (i c : Nat) :
    resolveValPrice inp i c ≠ pinf ∧ resolveValPrice inp i c ≠ ninf := by
  unfold resolveValPrice
  simp only
  split
  · split
    · exact h.price i c
    · split
      · exact h.close _ c
      · simp
  · rename_i hp; exact isinf_of hp

theorem Guarded.rowValPrice {inp : Inputs} (h : Guarded inp) {i lo len : Nat} {vp : Nat → F}
    (hv : ∀ c, vp c ≠ pinf ∧ vp c ≠ ninf) (c : Nat) :
    rowValPrice inp i lo len vp c ≠ pinf ∧ rowValPrice inp i lo len vp c ≠ ninf := by
  unfold Vbt.rowValPrice
  simp only
  split
  · split
    · exact h.valPrice i c
    · exact hv c
  · exact hv c

theorem slotCol_mem {sharing : Bool} {lo len : Nat} {seq : List Nat} {slot : Nat × Nat}
    (hmem : slot ∈ (List.range len).zip seq) (hlt : sharing = true → slot.2 < len) :
    lo ≤ slotCol sharing lo slot ∧ slotCol sharing lo slot < lo + len := by
  have := List.mem_range.mp (List.of_mem_zip hmem).1
  unfold slotCol
  cases hsh : sharing
  · simp; exact this
  · simp; exact hlt hsh

theorem slot_value_ne {s : SimState} {sharing : Bool} {col : Nat} (hs : BalancesOk t s) (hw : Valued s) :
    (if sharing then s.value else if !eqb (s.position col) zero then
      add (Arith.exact r t) s.cash (mul (Arith.exact r t) (s.position col) (s.valPrice col)) else s.cash) ≠ pinf := by
  obtain ⟨c, hc, -⟩ := hs.cash
  obtain ⟨P, _, hP, -⟩ := hs.col col
  split
  · exact hw.value
  · split
    · exact ne_pinf_of (add_mul_ne_inf (Or.inr ⟨c, hc⟩) ⟨P, hP⟩ (hw.vp _))
    · rw [hc]; simp

/-- The invariant kept by every call: balances, valuation and, for zero tolerances, the ledger of the group. -/
structure Kept (r t : ℚ) (lo len : Nat) (s : SimState) : Prop where
  bal : BalancesOk t s
  val : Valued s
  ledger : r = 0 → t = 0 → LedgerOk lo (lo + len) s

theorem slots_kept (hr0 : 0 ≤ r) (hr : r < 1) (ht : 0 ≤ t) {inp sharing g i lo len s s'} {slots spost : List (Nat × Nat)}
    {seq : List Nat} (hsl : (List.range len).zip seq = slots ++ spost) (hg : Guarded inp) (hk : Kept r t lo len s)
    (h : loopE (callSlot (Arith.exact r t) inp sharing g i lo len) s slots = .ok s') : Kept r t lo len s' := by
  refine loopE_inv (P := Kept r t lo len) ?_ hk h
  intro a slot a' hmem ha hc
  obtain ⟨hlt, hc⟩ := callSlot_inv hc
  have hm : slot ∈ (List.range len).zip seq := by rw [hsl]; exact List.mem_append_left _ hmem
  obtain ⟨h1, h2⟩ := slotCol_mem (lo := lo) hm hlt
  have hb := callOrder_balances hr0 hr ht hc (hg.order _ _) (slot_value_ne ha.bal ha.val) ha.bal ha.val
  refine ⟨hb.1, hb.2, ?_⟩
  rintro rfl rfl
  exact callOrder_ledger hc (hg.order _ _) (slot_value_ne ha.bal ha.val) ha.bal (ha.ledger rfl rfl) h1 h2

theorem enter_kept {inp} {sharing : Bool} {i lo len s} (hg : Guarded inp) (hk : Kept r t lo len s) :
    Kept r t lo len
      { s with valPrice := rowValPrice inp i lo len s.valPrice,
               value := if sharing then groupValue (Arith.exact r t) s.cash s.position
                   (rowValPrice inp i lo len s.valPrice) lo len else s.value } := by
  refine ⟨⟨hk.bal.cash, hk.bal.col⟩, ⟨?_, hg.rowValPrice hk.val.vp⟩, fun h1 h2 => hk.ledger h1 h2⟩
  show (if _ then _ else _) ≠ _
  split
  · exact groupValue_ne hk.bal (hg.rowValPrice hk.val.vp)
  · exact hk.val.value

theorem rows_kept (hr0 : 0 ≤ r) (hr : r < 1) (ht : 0 ≤ t) {inp sharing g lo len s s'} {rows : List Nat}
    (hg : Guarded inp) (hk : Kept r t lo len s)
    (h : loopE (simRow (Arith.exact r t) inp sharing g lo len) s rows = .ok s') : Kept r t lo len s' := by
  refine loopE_inv (P := Kept r t lo len) ?_ hk h
  intro a i a' hmem ha hc
  unfold simRow at hc
  exact slots_kept hr0 hr ht (spost := []) (List.append_nil _).symm hg (enter_kept hg ha) hc

theorem start_kept {lo len : Nat} {s : SimState} {cash : F} (hcash : FinAnd cash (0 ≤ ·)) (hb : BalancesOk t s)
    (hv : Valued s) (hu : Untouched lo s) : Kept r t lo len { s with cash := cash, free := cash } := by
  refine ⟨⟨hcash, hb.col⟩, ⟨hv.value, hv.vp⟩, fun _ _ => ?_⟩
  obtain ⟨c, rfl, -⟩ := hcash
  choose P D hP hD h3 using hb.col
  refine ⟨c, D, rfl, hD, ?_⟩
  have : ∑ k ∈ Finset.Ico lo (lo + len), D k = 0 := by
    apply Finset.sum_eq_zero
    intro k hk
    have := (hu k (Finset.mem_Ico.mp hk).1).2.1
    rw [hD k] at this
    exact F.fin.inj this
  rw [this]; simp

theorem groups_kept (hr0 : 0 ≤ r) (hr : r < 1) (ht : 0 ≤ t) {inp sharing initCash rows} (hg : Guarded inp)
    (hcash : ∀ g, FinAnd (initCash g) (0 ≤ ·))
    {pre : List (Nat × Nat × Nat)} {g lo : Nat} {lens : List Nat} (hpre : pre <+: layoutFrom g lo lens) {s s' : SimState}
    (h : loopE (simGroup (Arith.exact r t) inp sharing initCash rows) s pre = .ok s')
    (hb : ∀ c, ∃ P D : ℚ, s.position c = fin P ∧ s.debt c = fin D ∧ 0 ≤ D ∧ (0 ≤ P → D = 0) ∧ (P = 0 ∨ t < |P|))
    (hv : Valued s) (hu : Untouched lo s) :
    (∀ c, ∃ P D : ℚ, s'.position c = fin P ∧ s'.debt c = fin D ∧ 0 ≤ D ∧ (0 ≤ P → D = 0) ∧ (P = 0 ∨ t < |P|)) ∧
    Valued s' ∧ (∀ grp post, layoutFrom g lo lens = pre ++ grp :: post → Untouched grp.2.1 s') := by
  induction lens generalizing g lo s pre with
  | nil =>
    rw [layoutFrom, List.prefix_nil] at hpre
    subst hpre
    cases h
    exact ⟨hb, hv, fun grp post e => by cases e⟩
  | cons l ls ih =>
    rw [layoutFrom] at hpre
    cases pre with
    | nil =>
      cases h
      refine ⟨hb, hv, fun grp post e => ?_⟩
      rw [layoutFrom, List.nil_append] at e
      cases e
      exact hu
    | cons x xs =>
      rw [List.cons_prefix_cons] at hpre
      obtain ⟨rfl, hpre⟩ := hpre
      obtain ⟨s1, h1, h2⟩ := loopE_cons_ok h
      have hk : Kept r t lo l { s with cash := initCash g, free := initCash g } :=
        start_kept (hcash g) ⟨hcash g, hb⟩ ⟨hv.value, hv.vp⟩ (s := { s with cash := initCash g }) hu
      have hk1 := rows_kept hr0 hr ht hg hk h1
      obtain ⟨q1, q2, q3⟩ := ih hpre h2 hk1.bal.col hk1.val (simGroup_untouched hu h1)
      refine ⟨q1, q2, fun grp post e => q3 grp post ?_⟩
      rw [layoutFrom, List.cons_append, List.cons.injEq] at e
      exact e.2

theorem inRun_kept (hr0 : 0 ≤ r) (hr : r < 1) (ht : 0 ≤ t) {inp rows lens initCash b grp i s} (hg : Guarded inp)
    (hcash : ∀ g, FinAnd (initCash g) (0 ≤ ·))
    (h : InRun (Arith.exact r t) inp rows lens initCash b grp i s) : Kept r t grp.2.1 grp.2.2 s := by
  obtain ⟨pre, post, s0, s1, spre, spost, hlay, h0, hi, h1, hsl, h2⟩ := h.run
  obtain ⟨q1, q2, q3⟩ := groups_kept hr0 hr ht hg hcash (pre := pre) (g := 0) (lo := 0) (lens := lens)
    ⟨grp :: post, hlay.symm⟩ h0
    (fun c => ⟨0, 0, rfl, rfl, le_rfl, fun _ => rfl, Or.inl rfl⟩)
    ⟨by simp [initState], fun c => by simp [initState]⟩ (fun k _ => ⟨rfl, rfl, rfl⟩)
  have hk : Kept r t grp.2.1 grp.2.2 { s0 with cash := initCash grp.1, free := initCash grp.1 } :=
    start_kept (hcash _) ⟨hcash grp.1, q1⟩ ⟨q2.value, q2.vp⟩ (s := { s0 with cash := initCash grp.1 }) (q3 grp post hlay)
  exact slots_kept hr0 hr ht hsl hg (enter_kept hg (rows_kept hr0 hr ht hg hk h1)) h2

/-- After every call of a run: cash is finite and not negative, every column has a finite position and a debt which
is not negative, and zero unless the column is short. -/
theorem C17_balances_partial (hr0 : 0 ≤ r) (hr : r < 1) (ht : 0 ≤ t) {inp rows lens initCash b grp i s}
    (hg : Guarded inp) (hcash : ∀ g, FinAnd (initCash g) (0 ≤ ·))
    (h : InRun (Arith.exact r t) inp rows lens initCash b grp i s) :
    (∃ c, s.cash = fin c ∧ 0 ≤ c) ∧
    ∀ c, ∃ P D : ℚ, s.position c = fin P ∧ s.debt c = fin D ∧ 0 ≤ D ∧ (0 ≤ P → D = 0) := by
  have hk := inRun_kept hr0 hr ht hg hcash h
  refine ⟨hk.bal.cash, fun c => ?_⟩
  obtain ⟨P, D, h1, h2, h3, h4, -⟩ := hk.bal.col c
  exact ⟨P, D, h1, h2, h3, h4⟩

end

/-- With zero tolerances, after every call of a run: free cash plus twice the sum of the debts of the group's columns
equals the cash. -/
theorem C17_free_cash_partial {inp rows lens initCash b grp i s} (hg : Guarded inp)
    (hcash : ∀ g, FinAnd (initCash g) (0 ≤ ·)) (h : InRun (Arith.exact 0 0) inp rows lens initCash b grp i s) :
    ∃ (cash free : ℚ) (debt : Nat → ℚ), s.cash = fin cash ∧ s.free = fin free ∧ (∀ k, s.debt k = fin (debt k)) ∧
      free + 2 * ∑ k ∈ Finset.Ico grp.2.1 (grp.2.1 + grp.2.2), debt k = cash := by
  obtain ⟨c, D, h1, h2, h3⟩ := (inRun_kept le_rfl (by norm_num) le_rfl hg hcash h).ledger rfl rfl
  exact ⟨c, _, D, h1, h3, h2, by ring⟩

/-- Every run that succeeds passes through `InRun` states up to its end: the state after the last call of the last
row of the last group is the one returned. -/
theorem C17_reaches_end {A inp rows cols lens initCash mo ml s} {grp : Nat × Nat × Nat} {pre : List (Nat × Nat × Nat)}
    (h : simulateFromOrders A inp (rows + 1) cols lens initCash mo ml = .ok s) (hl : layout lens = pre ++ [grp]) :
    InRun A inp (rows + 1) lens (fun g => initCash.getD g nan) (initRecords (rows + 1) cols mo ml) grp rows s := by
  obtain ⟨-, -, -, l1⟩ := simulateFromOrders_inv h
  rw [hl] at l1
  obtain ⟨s0, h0, h1⟩ := loopE_append_ok l1
  obtain ⟨s1, h2, h3⟩ := loopE_cons_ok h1
  cases h3
  unfold simGroup at h2
  rw [List.range_succ] at h2
  obtain ⟨s2, h4, h5⟩ := loopE_append_ok h2
  obtain ⟨s3, h6, h7⟩ := loopE_cons_ok h5
  cases h7
  exact ⟨pre, [], s0, s2, _, [], hl, h0, by omega, h4, (List.append_nil _).symm, h6⟩

/-- Non-vacuity: two columns share 100 of cash; the first is sold short (debt), the second is bought. -/
example : ∃ inp s, Guarded inp ∧
    InRun (Arith.exact 0 0) inp 1 [2] (fun _ => fin 100) (initRecords 1 2 none 6) (0, 0, 2) 0 s ∧
    s.debt 0 = fin 3 ∧ s.position 1 = fin 2 ∧ s.buf.orders.length = 2 := by
  let inp := simpleInputs (fun _ c => if c = 0 then fin (-3) else fin 2) (fun i c => fin (i + c + 1))
    (fun _ c => c % 2) false true
  obtain ⟨s, h, hs⟩ := okAnd_iff (x := simulateFromOrders (Arith.exact 0 0) inp 1 2 [2] [fin 100] none 6)
    (f := fun s => decide (s.debt 0 = fin 3 ∧ s.position 1 = fin 2 ∧ s.buf.orders.length = 2)) (by decide +kernel)
  have hrun := C17_reaches_end (pre := []) (grp := (0, 0, 2)) h rfl
  have hc : ∀ pre : List (Nat × Nat × Nat), [(0, 0, 2)] = pre ++ (0, 0, 2) :: [] → pre = [] := by
    intro pre hp; cases pre with
    | nil => rfl
    | cons x xs => simp at hp
  refine ⟨inp, s, ⟨fun i c => ⟨⟨fun φ h => ?_, fun h => ?_⟩, fun σ h => ?_⟩, fun i c => ?_⟩, ?_,
    of_decide_eq_true hs⟩
  · simp [orderAt, inp, simpleInputs] at h; rw [← h]; norm_num
  · simp [orderAt, inp, simpleInputs] at h
  · simp [orderAt, inp, simpleInputs] at h; rw [← h]; norm_num
  · simp [inp, simpleInputs]
  · obtain ⟨pre, post, s0, s1, spre, spost, hlay, h0, hi, h1, hsl, h2⟩ := hrun.run
    have : pre = [] := by
      cases pre with
      | nil => rfl
      | cons x xs => simp [layout, layoutFrom] at hlay
    subst this
    cases h0
    exact ⟨[], post, _, s1, spre, spost, hlay, rfl, hi, h1, hsl, h2⟩

end Vbt
