import Verif.Lemmas.Seen
import Verif.Lemmas.Drift
import Verif.Props.C01

/-!
# C78: the balances of a simulation with callbacks agree with its records, and cash is not negative

For all four callback simulators, in every state a callback gets to see, and at the end.  The callbacks may do anything but
write to the balance in question; as for negative cash, they may even change the cash.
-/

namespace Vbt
open F

theorem firstCol_succ (lens : List Nat) (g : Nat) : firstCol lens (g + 1) = firstCol lens g + lens.getD g 0 := by
  unfold firstCol
  rw [List.take_add_one, List.sum_append, List.getD_eq_getElem?_getD]
  cases lens[g]? <;> simp

theorem firstCol_le (lens : List Nat) {g h : Nat} (hgh : g < h) : firstCol lens g + lens.getD g 0 ≤ firstCol lens h := by
  induction h with
  | zero => omega
  | succ h ih =>
    rw [firstCol_succ]
    by_cases he : g = h
    · subst he; exact le_rfl
    · have := ih (by omega); omega

theorem firstCol_sum (lens : List Nat) {g : Nat} : firstCol lens g + lens.getD g 0 ≤ lens.sum := by
  rw [← firstCol_succ]
  unfold firstCol
  have := List.sum_append (l₁ := lens.take (g + 1)) (l₂ := lens.drop (g + 1))
  rw [List.take_append_drop] at this
  omega

/-- A record of a column of a group moves the cash of this group, or column, and no other. -/
theorem ofKey_iff {sharing : Bool} {lens : List Nat} {g key : Nat} {o : OrderRec} (h1 : firstCol lens g ≤ o.col)
    (h2 : o.col < firstCol lens g + lens.getD g 0) :
    ofKey sharing lens key o = decide (key = if sharing then g else o.col) := by
  unfold ofKey
  cases sharing with
  | false =>
    simp only [Bool.false_eq_true, if_false]
    exact decide_eq_decide.mpr ⟨Eq.symm, Eq.symm⟩
  | true =>
    simp only [if_true]
    refine decide_eq_decide.mpr ⟨fun h => ?_, fun h => by subst h; exact ⟨h1, h2⟩⟩
    by_contra hne
    rcases lt_or_gt_of_ne hne with h' | h'
    · have := firstCol_le lens h'; omega
    · have := firstCol_le lens h'; omega

/-- The invariant behind `PositionsBooked`. -/
def NearPositions (r t : ℚ) (s : CbState) : Prop :=
  ∀ c, (∀ o ∈ s.buf.orders.filter (fun o => o.col = c), Numbers o) →
    Near t (lost r t (assetVolume (s.buf.orders.filter fun o => o.col = c)) (2 * (s.buf.orders.filter fun o => o.col = c).length))
      (bookedPos (s.buf.orders.filter fun o => o.col = c)) (s.arr.position c)

/-- The invariant behind `CashBooked`. -/
def NearCash (r t : ℚ) (sharing : Bool) (lens : List Nat) (initCash : List F) (s : CbState) : Prop :=
  ∀ key q, initCash.getD key nan = fin q → (∀ o ∈ s.buf.orders.filter (ofKey sharing lens key), Numbers o) →
    Near t (lost r t (cashVolume (s.buf.orders.filter (ofKey sharing lens key)))
        (2 * (s.buf.orders.filter (ofKey sharing lens key)).length))
      (q + bookedCash (s.buf.orders.filter (ofKey sharing lens key))) (s.arr.cash key)

section
variable {r t : ℚ}

theorem lost_reading (T : ℚ) (n : Nat) : lost r t T n + t = lost r t T (n + 1) := by
  unfold lost; push_cast; ring

theorem nearPositions_survives (hr0 : 0 ≤ r) (hr : r < 1) (ht : 0 ≤ t) {X : CbInputs} {rows : Nat} {lens : List Nat} :
    Survives (Arith.exact r t) X rows lens SamePosition (fun _ => True) (NearPositions r t) (PositionsBooked r t) := by
  refine ⟨fun s h c hc => ?_, fun a b h => h.position, ?_, ?_⟩
  · obtain ⟨q, hq, hb⟩ := (h c hc).le ht
    rw [lost_reading] at hb
    exact ⟨q, hq, hb⟩
  · intro s s' hb _ _ hs h
    unfold NearPositions
    rw [hb, show s'.arr.position = s.arr.position from hs]
    exact h
  · intro s a0 a g i col order u res st b ret rec hg hi h1 h2 _ hR hpo _ h
    obtain ⟨es, hex, -, -, -, -, -, hrec, -⟩ := processOrder_inv hpo
    generalize hnow : nowAt a0 (if X.sharing then g else col) col = now at hpo hex hrec
    have hpos : (now.proc s.oidx s.lidx).position = a.position col := by
      rw [← hnow, show a.position = a0.position from hR]; rfl
    rcases hrec with ⟨hfl, -, -, hob, -⟩ | ⟨hfl, -, hob, -⟩
    · have hoid : (now.proc s.oidx s.lidx).oidx = s.oidx := rfl
      rw [hoid] at hob
      generalize ho : OrderRec.mk s.oidx col i res.size res.price res.fees res.side = o at hob
      have hocol : o.col = col := by rw [← ho]
      intro c hn
      simp only [hob, List.filter_append] at hn ⊢
      have hold := h c fun x hx => hn x (List.mem_append_left _ hx)
      simp only [storeOrder, setAt]
      by_cases hcc : c = col
      · subst hcc
        have hone : List.filter (fun x : OrderRec => decide (x.col = c)) [o] = [o] := by simp [hocol]
        rw [hone] at hn ⊢
        rw [if_pos rfl]
        obtain ⟨z, p, f, g1, g2, g3⟩ := hn o (by simp)
        have hz : res.size = fin z := by rw [← ho] at g1; exact g1
        rw [← hpos] at hold
        have d2 := fill_drift_pos hr0 hr ht hpo hfl hz hold
        rw [lost_concat] at d2
        have hside : o.side = res.side := by rw [← ho]
        simpa [assetVolume, bookedPos, g1, F.val, hside] using d2
      · have hone : List.filter (fun x : OrderRec => decide (x.col = c)) [o] = [] := by
          simp only [List.filter_cons, List.filter_nil, hocol]
          rw [if_neg (by simpa using fun h => hcc h.symm)]
        rw [hone, List.append_nil, if_neg hcc]
        exact hold
    · obtain ⟨k1, k2⟩ := unfilled_snaps hpo hfl
      intro c hn
      simp only [hob] at hn ⊢
      have hold := h c hn
      simp only [storeOrder, setAt]
      split
      · rename_i hcc
        subst hcc
        rw [k2, hpos]
        exact hold.snapped hr ht
      · exact hold

theorem nearCash_survives (hr0 : 0 ≤ r) (hr : r < 1) (ht : 0 ≤ t) {X : CbInputs} {rows : Nat} {lens : List Nat}
    {initCash : List F} : Survives (Arith.exact r t) X rows lens SameCash (fun _ => True) (NearCash r t X.sharing lens initCash)
      (CashBooked r t X.sharing lens initCash) := by
  refine ⟨fun s h key q hq hc => ?_, fun a b h => h.cash, ?_, ?_⟩
  · obtain ⟨q, hq, hb⟩ := (h key q hq hc).le ht
    rw [lost_reading] at hb
    exact ⟨q, hq, hb⟩
  · intro s s' hb _ _ hs h
    unfold NearCash
    rw [hb, show s'.arr.cash = s.arr.cash from hs]
    exact h
  · intro s a0 a g i col order u res st b ret rec hg hi h1 h2 _ hR hpo _ h
    obtain ⟨es, hex, -, -, -, -, -, hrec, -⟩ := processOrder_inv hpo
    generalize hnow : nowAt a0 (if X.sharing then g else col) col = now at hpo hex hrec
    have hcash : (now.proc s.oidx s.lidx).cash = a.cash (if X.sharing then g else col) := by
      rw [← hnow, show a.cash = a0.cash from hR]; rfl
    rcases hrec with ⟨hfl, -, -, hob, -⟩ | ⟨hfl, -, hob, -⟩
    · have hoid : (now.proc s.oidx s.lidx).oidx = s.oidx := rfl
      rw [hoid] at hob
      generalize ho : OrderRec.mk s.oidx col i res.size res.price res.fees res.side = o at hob
      have hocol : o.col = col := by rw [← ho]
      intro key q hq hn
      simp only [hob, List.filter_append] at hn ⊢
      have hold := h key q hq fun x hx => hn x (List.mem_append_left _ hx)
      simp only [storeOrder, setAt]
      have hiff := ofKey_iff (sharing := X.sharing) (key := key) (o := o) (by rw [hocol]; exact h1) (by rw [hocol]; exact h2)
      rw [hocol] at hiff
      by_cases hcc : key = if X.sharing then g else col
      · rw [if_pos hcc]
        have hone : List.filter (ofKey X.sharing lens key) [o] = [o] := by
          simp only [List.filter_cons, List.filter_nil]
          rw [if_pos (by rw [hiff]; exact decide_eq_true hcc)]
        rw [hone] at hn ⊢
        obtain ⟨z, p, f, g1, g2, g3⟩ := hn o (by simp)
        have hz : res.size = fin z := by rw [← ho] at g1; exact g1
        have hpr : res.price = fin p := by rw [← ho] at g2; exact g2
        have hfe : res.fees = fin f := by rw [← ho] at g3; exact g3
        simp only at hold
        rw [hcc, ← hcash, ← hcc] at hold
        have d2 := fill_drift_cash hr0 hr ht hpo hfl hz hpr hfe hold
        rw [lost_concat] at d2
        have hside : o.side = res.side := by rw [← ho]
        simpa [cashVolume, bookedCash, g1, g2, g3, F.val, hside, add_assoc] using d2
      · rw [if_neg hcc]
        have hone : List.filter (ofKey X.sharing lens key) [o] = [] := by
          simp only [List.filter_cons, List.filter_nil]
          rw [if_neg (by rw [hiff]; simpa using hcc)]
        rw [hone, List.append_nil]
        exact hold
    · obtain ⟨k1, k2⟩ := unfilled_snaps hpo hfl
      intro key q hq hn
      simp only [hob] at hn ⊢
      have hold := h key q hq hn
      simp only [storeOrder, setAt]
      by_cases hcc : key = if X.sharing then g else col
      · rw [if_pos hcc, k1, hcash]
        simp only at hold
        rw [hcc] at hold ⊢
        exact hold.snapped hr ht
      · rw [if_neg hcc]
        exact hold

theorem nearPositions_init {rows cols : Nat} {initCash : Nat → F} {callSeq maxOrders maxLogs junk} :
    NearPositions r t (cbInit rows cols initCash callSeq maxOrders maxLogs junk) := by
  have hb : (cbInit rows cols initCash callSeq maxOrders maxLogs junk).buf.orders = [] := rfl
  intro c _
  rw [hb]
  refine ⟨0, rfl, Or.inl ?_⟩
  simp [bookedPos, assetVolume, lost]

theorem nearCash_init {sharing : Bool} {rows cols : Nat} {lens : List Nat} {initCash : List F} {callSeq maxOrders maxLogs junk} :
    NearCash r t sharing lens initCash (cbInit rows cols (fun k => initCash.getD k nan) callSeq maxOrders maxLogs junk) := by
  have hb : (cbInit rows cols (fun k => initCash.getD k nan) callSeq maxOrders maxLogs junk).buf.orders = [] := rfl
  intro key q hq _
  rw [hb]
  refine ⟨q, hq, Or.inl ?_⟩
  simp [bookedCash, cashVolume, lost]

theorem solvent_survives (hr : r ≤ 1) {X : CbInputs} {rows : Nat} {lens : List Nat} :
    Survives (Arith.exact r t) X rows lens CashNotNegative (fun o => ∀ φ, o.fees = fin φ → 0 < 1 + φ) Solvent Solvent := by
  refine ⟨fun s h => h, fun a b h h' => by rw [h.cash]; exact h', fun s s' _ _ _ hs h => hs h, ?_⟩
  intro s a0 a g i col order u res st b ret rec hg hi h1 h2 ho hR hpo h0 h key
  simp only [storeOrder, setAt]
  by_cases hk : key = if X.sharing then g else col
  · rw [if_pos hk]
    refine C01_never_negative_partial hr hpo (fun φ hφ => ho φ ?_) (h0 _)
    unfold resolveInfPrice at hφ
    split at hφ <;> exact hφ
  · rw [if_neg hk]
    exact h key

end

section
variable {M : Type} {X : CbInputs} {cb : Callbacks M} {fo : FlexOrder M} {draw : Nat → Nat → Nat → F} {fuel : Nat} {m : M}
  {rows cols : Nat} {lens : List Nat} {initCash : List F} {callSeq : Nat → Nat → Nat} {maxOrders : Option Nat} {maxLogs : Nat}
  {junk : Nat → TradeRec} {r t : ℚ}

/-- Positions in `simulate_nb`. -/
theorem C78_positions (hr0 : 0 ≤ r) (hr : r < 1) (ht : 0 ≤ t) (hk : Keeps SamePosition cb) :
    Seen (PositionsBooked r t)
      (fun cb _ =>
        simulateNb (Arith.exact r t) X cb m rows cols lens initCash callSeq maxOrders maxLogs junk) cb fo :=
  (nearPositions_survives hr0 hr ht).simulate hk (fun _ _ _ _ _ _ _ _ _ _ => trivial) nearPositions_init

/-- Cash in `simulate_nb`. -/
theorem C78_cash (hr0 : 0 ≤ r) (hr : r < 1) (ht : 0 ≤ t) (hk : Keeps SameCash cb) :
    Seen (CashBooked r t X.sharing lens initCash)
      (fun cb _ =>
        simulateNb (Arith.exact r t) X cb m rows cols lens initCash callSeq maxOrders maxLogs junk) cb fo :=
  (nearCash_survives hr0 hr ht).simulate hk (fun _ _ _ _ _ _ _ _ _ _ => trivial) nearCash_init

/-- Cash is never negative in `simulate_nb` (fees above -100 %, see C01). -/
theorem C78_solvent_partial (hr : r ≤ 1) (hk : Keeps CashNotNegative cb)
    (ho : OrdersAre (fun o => ∀ φ, o.fees = fin φ → 0 < 1 + φ) cb) (h0 : ∀ k, lt (initCash.getD k nan) zero = false) :
    Seen Solvent
      (fun cb _ =>
        simulateNb (Arith.exact r t) X cb m rows cols lens initCash callSeq maxOrders maxLogs junk) cb fo :=
  (solvent_survives hr).simulate hk ho h0

/-- Positions in `simulate_row_wise_nb`. -/
theorem C78_positions_row_wise (hr0 : 0 ≤ r) (hr : r < 1) (ht : 0 ≤ t) (hk : Keeps SamePosition cb) :
    Seen (PositionsBooked r t)
      (fun cb _ =>
        simulateRowWiseNb (Arith.exact r t) X cb m rows cols lens initCash callSeq maxOrders maxLogs junk) cb fo :=
  (nearPositions_survives hr0 hr ht).simulateRowWise hk (fun _ _ _ _ _ _ _ _ _ _ => trivial) nearPositions_init

/-- Cash in `simulate_row_wise_nb`. -/
theorem C78_cash_row_wise (hr0 : 0 ≤ r) (hr : r < 1) (ht : 0 ≤ t) (hk : Keeps SameCash cb) :
    Seen (CashBooked r t X.sharing lens initCash)
      (fun cb _ =>
        simulateRowWiseNb (Arith.exact r t) X cb m rows cols lens initCash callSeq maxOrders maxLogs junk) cb fo :=
  (nearCash_survives hr0 hr ht).simulateRowWise hk (fun _ _ _ _ _ _ _ _ _ _ => trivial) nearCash_init

/-- Cash is never negative in `simulate_row_wise_nb` (fees above -100 %, see C01). -/
theorem C78_solvent_row_wise_partial (hr : r ≤ 1) (hk : Keeps CashNotNegative cb)
    (ho : OrdersAre (fun o => ∀ φ, o.fees = fin φ → 0 < 1 + φ) cb) (h0 : ∀ k, lt (initCash.getD k nan) zero = false) :
    Seen Solvent
      (fun cb _ =>
        simulateRowWiseNb (Arith.exact r t) X cb m rows cols lens initCash callSeq maxOrders maxLogs junk) cb fo :=
  (solvent_survives hr).simulateRowWise hk ho h0

/-- Positions in `flex_simulate_nb`. -/
theorem C78_positions_flex (hr0 : 0 ≤ r) (hr : r < 1) (ht : 0 ≤ t) (hk : Keeps SamePosition cb) (hf : FlexKeeps SamePosition fo) :
    Seen (PositionsBooked r t)
      (fun cb fo =>
        flexSimulateNb (Arith.exact r t) X cb fo draw fuel m rows cols lens initCash callSeq maxOrders maxLogs junk) cb fo :=
  (nearPositions_survives hr0 hr ht).flexSimulate hk hf (fun _ _ _ _ _ _ _ _ _ => trivial) nearPositions_init

/-- Cash in `flex_simulate_nb`. -/
theorem C78_cash_flex (hr0 : 0 ≤ r) (hr : r < 1) (ht : 0 ≤ t) (hk : Keeps SameCash cb) (hf : FlexKeeps SameCash fo) :
    Seen (CashBooked r t X.sharing lens initCash)
      (fun cb fo =>
        flexSimulateNb (Arith.exact r t) X cb fo draw fuel m rows cols lens initCash callSeq maxOrders maxLogs junk) cb fo :=
  (nearCash_survives hr0 hr ht).flexSimulate hk hf (fun _ _ _ _ _ _ _ _ _ => trivial) nearCash_init

/-- Cash is never negative in `flex_simulate_nb` (fees above -100 %, see C01). -/
theorem C78_solvent_flex_partial (hr : r ≤ 1) (hk : Keeps CashNotNegative cb) (hf : FlexKeeps CashNotNegative fo)
    (ho : FlexOrdersAre (fun o => ∀ φ, o.fees = fin φ → 0 < 1 + φ) fo) (h0 : ∀ k, lt (initCash.getD k nan) zero = false) :
    Seen Solvent
      (fun cb fo =>
        flexSimulateNb (Arith.exact r t) X cb fo draw fuel m rows cols lens initCash callSeq maxOrders maxLogs junk) cb fo :=
  (solvent_survives hr).flexSimulate hk hf ho h0

/-- Positions in `flex_simulate_row_wise_nb`. -/
theorem C78_positions_flex_row_wise (hr0 : 0 ≤ r) (hr : r < 1) (ht : 0 ≤ t) (hk : Keeps SamePosition cb) (hf : FlexKeeps SamePosition fo) :
    Seen (PositionsBooked r t)
      (fun cb fo =>
        flexSimulateRowWiseNb (Arith.exact r t) X cb fo draw fuel m rows cols lens initCash callSeq maxOrders maxLogs junk) cb fo :=
  (nearPositions_survives hr0 hr ht).flexSimulateRowWise hk hf (fun _ _ _ _ _ _ _ _ _ => trivial) nearPositions_init

/-- Cash in `flex_simulate_row_wise_nb`. -/
theorem C78_cash_flex_row_wise (hr0 : 0 ≤ r) (hr : r < 1) (ht : 0 ≤ t) (hk : Keeps SameCash cb) (hf : FlexKeeps SameCash fo) :
    Seen (CashBooked r t X.sharing lens initCash)
      (fun cb fo =>
        flexSimulateRowWiseNb (Arith.exact r t) X cb fo draw fuel m rows cols lens initCash callSeq maxOrders maxLogs junk) cb fo :=
  (nearCash_survives hr0 hr ht).flexSimulateRowWise hk hf (fun _ _ _ _ _ _ _ _ _ => trivial) nearCash_init

/-- Cash is never negative in `flex_simulate_row_wise_nb` (fees above -100 %, see C01). -/
theorem C78_solvent_flex_row_wise_partial (hr : r ≤ 1) (hk : Keeps CashNotNegative cb) (hf : FlexKeeps CashNotNegative fo)
    (ho : FlexOrdersAre (fun o => ∀ φ, o.fees = fin φ → 0 < 1 + φ) fo) (h0 : ∀ k, lt (initCash.getD k nan) zero = false) :
    Seen Solvent
      (fun cb fo =>
        flexSimulateRowWiseNb (Arith.exact r t) X cb fo draw fuel m rows cols lens initCash callSeq maxOrders maxLogs junk) cb fo :=
  (solvent_survives hr).flexSimulateRowWise hk hf ho h0

end

/-! ## Examples -/

theorem wCb_keepsBooks : Keeps SameBooks wCb := by
  constructor <;> intros <;> (rename_i h; cases h; exact SameBooks.refl _)

/-- Callbacks that may write less keep more. -/
theorem Keeps.mono {M : Type} {R R' : CbArrays → CbArrays → Prop} {cb : Callbacks M} (h : Keeps R cb) (hR : ∀ a b, R a b → R' a b) :
    Keeps R' cb :=
  ⟨fun _ _ _ _ e => hR _ _ (h.preSim _ _ _ _ e), fun _ _ _ _ e => hR _ _ (h.postSim _ _ _ _ e),
    fun _ _ _ _ _ e => hR _ _ (h.preGroup _ _ _ _ _ e), fun _ _ _ _ _ e => hR _ _ (h.postGroup _ _ _ _ _ e),
    fun _ _ _ _ _ e => hR _ _ (h.preRow _ _ _ _ _ e), fun _ _ _ _ _ e => hR _ _ (h.postRow _ _ _ _ _ e),
    fun _ _ _ _ _ e => hR _ _ (h.preSeg _ _ _ _ _ e), fun _ _ _ _ _ e => hR _ _ (h.postSeg _ _ _ _ _ e),
    fun _ _ _ _ _ _ _ _ _ e => hR _ _ (h.order _ _ _ _ _ _ _ _ _ e),
    fun _ _ _ _ _ _ _ _ _ _ e => hR _ _ (h.postOrder _ _ _ _ _ _ _ _ _ _ e)⟩

example : Keeps SamePosition wCb ∧ Keeps SameCash wCb ∧ Keeps CashNotNegative wCb ∧ Keeps SameLast wCb :=
  ⟨wCb_keepsBooks.mono fun _ _ h => h.position, wCb_keepsBooks.mono fun _ _ h => h.cash,
    wCb_keepsBooks.mono fun _ _ h h' => by rw [h.cash]; exact h', wCb_keepsBooks.mono fun _ _ h => ⟨h.lastOidx, h.lastLidx⟩⟩

example : FlexKeeps SameBooks wFlexOrder := by
  intro x k s m c o a m' h
  cases h
  exact SameBooks.refl _

example : OrdersAre (fun o => ∀ φ, o.fees = fin φ → 0 < 1 + φ) wCb := by
  intro x col k now s m o a m' h φ hφ
  cases h
  have : φ = 0 := (F.fin.inj hφ).symm
  rw [this]; norm_num

/-- Two columns that share 100 and buy 4 per row, as long as the cash suffices: the cash is used up. -/
example : okAnd (simulateNb Arith.std wCalls wCb () 3 2 [2] [fin 100] (fun _ c => 1 - c) none 0 (fun _ => wNoRec))
    (fun r => r.1.arr.cash 0 = fin 0 ∧ r.1.buf.orders.length = 3 ∧
      bookedCash (r.1.buf.orders.filter (ofKey true [2] 0)) = -100) := by
  decide +kernel

/-- A callback that writes to the cash: 100 are added before every segment, and the records do not say so. -/
theorem C78_counterexample_writes :
    okAnd (simulateNb Arith.std wCbIn
        { wCb with preSeg := fun _ s m => .ok ({ s.arr with cash := fun k => add Arith.std (s.arr.cash k) (fin 100) }, m) }
        () 2 1 [1] [fin 100] (fun _ _ => 0) none 0 (fun _ => wNoRec))
      (fun r => r.1.arr.cash 0 = fin 216 ∧ bookedCash (r.1.buf.orders.filter (ofKey false [1] 0)) = -84) := by
  decide +kernel

end Vbt
