import Verif.Lemmas.SigSim
import Verif.Lemmas.Twin

/-! Two runs of the simulators from signals whose inputs agree on some rows and columns. -/

namespace Vbt
open F

/-- The inputs agree in one cell. -/
structure SigAgreeAt (x y : SigInputs) (i c : Nat) : Prop where
  size : x.size i c = y.size i c
  price : x.price i c = y.price i c
  sizeType : x.sizeType i c = y.sizeType i c
  fees : x.fees i c = y.fees i c
  fixedFees : x.fixedFees i c = y.fixedFees i c
  slippage : x.slippage i c = y.slippage i c
  minSize : x.minSize i c = y.minSize i c
  maxSize : x.maxSize i c = y.maxSize i c
  gran : x.gran i c = y.gran i c
  rejectProb : x.rejectProb i c = y.rejectProb i c
  lockCash : x.lockCash i c = y.lockCash i c
  allowPartial : x.allowPartial i c = y.allowPartial i c
  raiseReject : x.raiseReject i c = y.raiseReject i c
  log : x.log i c = y.log i c
  accumulate : x.accumulate i c = y.accumulate i c
  uponLongConflict : x.uponLongConflict i c = y.uponLongConflict i c
  uponShortConflict : x.uponShortConflict i c = y.uponShortConflict i c
  uponDirConflict : x.uponDirConflict i c = y.uponDirConflict i c
  uponOppositeEntry : x.uponOppositeEntry i c = y.uponOppositeEntry i c
  valPrice : x.valPrice i c = y.valPrice i c
  open_ : x.open_ i c = y.open_ i c
  high : x.high i c = y.high i c
  low : x.low i c = y.low i c
  close : x.close i c = y.close i c
  slStop : x.slStop i c = y.slStop i c
  slTrail : x.slTrail i c = y.slTrail i c
  tpStop : x.tpStop i c = y.tpStop i c
  stopEntryPrice : x.stopEntryPrice i c = y.stopEntryPrice i c
  stopExitPrice : x.stopExitPrice i c = y.stopExitPrice i c
  uponStopExit : x.uponStopExit i c = y.uponStopExit i c
  uponStopUpdate : x.uponStopUpdate i c = y.uponStopUpdate i c
  callSeq : x.callSeq i c = y.callSeq i c
  draw : x.draw i c = y.draw i c

/-- The global flags agree. -/
structure SigAgreeFlags (x y : SigInputs) : Prop where
  stops : x.useStops = y.useStops
  auto : x.autoCallSeq = y.autoCallSeq
  ffill : x.ffillValPrice = y.ffillValPrice
  upd : x.updateValue = y.updateValue

/-- The signals agree in one cell. -/
structure ArrAgreeAt (a b : SigArrays) (i c : Nat) : Prop where
  entries : a.entries i c = b.entries i c
  exits : a.exits i c = b.exits i c
  direction : a.direction i c = b.direction i c
  longEntries : a.longEntries i c = b.longEntries i c
  longExits : a.longExits i c = b.longExits i c
  shortEntries : a.shortEntries i c = b.shortEntries i c
  shortExits : a.shortExits i c = b.shortExits i c

/-- The callbacks agree in one cell, whatever the position, price and stops they are called with. -/
structure FuncAgreeAt (f f' : SigFuncs) (i c : Nat) : Prop where
  signal : ∀ k : SignalContext, k.i = i → k.col = c → f.signal k = f'.signal k
  adjustSl : ∀ k : AdjustSLContext, k.i = i → k.col = c → f.adjustSl k = f'.adjustSl k
  adjustTp : ∀ k : AdjustTPContext, k.i = i → k.col = c → f.adjustTp k = f'.adjustTp k

/-- Agreement in a row of a range of columns, and of the previous close. -/
structure SigAgreeRow (x y : SigInputs) (i lo hi : Nat) : Prop where
  cell : ∀ c, lo ≤ c → c < hi → SigAgreeAt x y i c
  prev : ∀ c, lo ≤ c → c < hi → 0 < i → x.close (i - 1) c = y.close (i - 1) c

section
variable {A : Arith} {x y : SigInputs} {i lo hi : Nat}

theorem SigAgreeRow.price (h : SigAgreeRow x y i lo hi) {c : Nat} (h1 : lo ≤ c) (h2 : c < hi) :
    sigPrice x i c = sigPrice y i c := by
  have a := h.cell c h1 h2
  unfold sigPrice
  simp only [a.price, a.close, a.open_]
  split
  · split
    · rfl
    · split
      · rfl
      · split
        · rename_i hi; exact h.prev c h1 h2 hi
        · rfl
  · rfl

theorem SigAgreeRow.valPrice (h : SigAgreeRow x y i lo hi) {c : Nat} (h1 : lo ≤ c) (h2 : c < hi) :
    sigValPrice x i c = sigValPrice y i c := by
  have a := h.cell c h1 h2
  unfold sigValPrice
  simp only [a.valPrice, h.price h1 h2]
  split
  · split
    · rfl
    · split
      · rename_i hi; exact h.prev c h1 h2 hi
      · rfl
  · rfl

theorem SigAgreeAt.bar {c : Nat} (a : SigAgreeAt x y i c) : currentBar x i c = currentBar y i c := by
  unfold currentBar
  simp only [a.close, a.open_, a.high, a.low]

theorem checkStops_congr {c : Nat} (a : SigAgreeAt x y i c) (hf : SigAgreeFlags x y) (p : F) (st : Stops) :
    checkStops A x i c p st = checkStops A y i c p st := by
  unfold checkStops
  simp only [hf.stops, a.bar]

theorem cellOrder_congr {c : Nat} (h : SigAgreeRow x y i lo hi) (hf : SigAgreeFlags x y) (h1 : lo ≤ c) (h2 : c < hi)
    (p v q : F) (sg : Signals) : cellOrder A x i c p v q sg = cellOrder A y i c p v q sg := by
  have a := h.cell c h1 h2
  unfold cellOrder
  simp only [hf.stops, a.uponStopExit, a.accumulate, a.uponLongConflict, a.uponShortConflict, a.uponDirConflict,
    a.uponOppositeEntry, a.close, a.slippage, a.stopExitPrice, a.size, a.sizeType, h.price h1 h2]

theorem arrayCell_congr {c : Nat} {a b : SigArrays} (h : SigAgreeRow x y i lo hi) (hf : SigAgreeFlags x y)
    (ha : ArrAgreeAt a b i c) (h1 : lo ≤ c) (h2 : c < hi) (p v : F) (st : Stops) :
    arrayCell A x a i c p v st = arrayCell A y b i c p v st := by
  have e : arraySignals a i c = arraySignals b i c := by
    unfold arraySignals
    simp only [ha.entries, ha.exits, ha.direction, ha.longEntries, ha.longExits, ha.shortEntries, ha.shortExits]
  unfold arrayCell
  simp only [checkStops_congr (h.cell c h1 h2) hf, cellOrder_congr h hf h1 h2, e]

theorem funcCell_congr {c : Nat} {f f' : SigFuncs} (h : SigAgreeRow x y i lo hi) (hf : SigAgreeFlags x y)
    (hff : FuncAgreeAt f f' i c) (h1 : lo ≤ c) (h2 : c < hi) (p v : F) (st : Stops) :
    funcCell A x f i c p v st = funcCell A y f' i c p v st := by
  have e : adjustStops x f i c p v st = adjustStops y f' i c p v st := by
    unfold adjustStops
    simp only [hf.stops]
    split
    · simp only [hff.adjustSl, hff.adjustTp]
    · rfl
  unfold funcCell
  simp only [checkStops_congr (h.cell c h1 h2) hf, cellOrder_congr h hf h1 h2, e, hff.signal]

theorem sigOrder_congr {c : Nat} (a : SigAgreeAt x y i c) (o : CellOrder) : sigOrder x i c o = sigOrder y i c o := by
  unfold sigOrder
  simp only [a.fees, a.fixedFees, a.minSize, a.maxSize, a.gran, a.rejectProb, a.lockCash, a.allowPartial, a.raiseReject,
    a.log]

theorem updateStops_congr {c : Nat} (a : SigAgreeAt x y i c) (hf : SigAgreeFlags x y) (o : Order) (r : OrderResult)
    (p q v : F) (st : Stops) : updateStops x i c o r p q v st = updateStops y i c o r p q v st := by
  unfold updateStops
  simp only [hf.stops, a.stopEntryPrice, a.close, a.slStop, a.slTrail, a.tpStop, a.uponStopUpdate]

/-- Everything kept per column. -/
def sigLoc (s : SigState) (c : Nat) : F × F × F × Stops := (s.sim.position c, s.sim.debt c, s.sim.valPrice c, s.stops c)

theorem sigSlot_full {sharing : Bool} {g fc len : Nat} {cells : Nat → CellOrder} {s s' : SigState} {slot : Nat × Nat}
    (h : sigSlot A x sharing g i fc len cells s slot = .ok s') :
    (sharing = true → slot.2 < len) ∧
    ((eqb (cells (slotCol sharing fc slot)).size zero = true ∧
        s' = { s with sim := { s.sim with value := sigValue A sharing s.sim (slotCol sharing fc slot) } }) ∨
      (eqb (cells (slotCol sharing fc slot)).size zero = false ∧ ∃ res st b,
        processOrder A i (slotCol sharing fc slot) g
          { cash := s.sim.cash, position := s.sim.position (slotCol sharing fc slot),
            debt := s.sim.debt (slotCol sharing fc slot), freeCash := s.sim.free,
            valPrice := s.sim.valPrice (slotCol sharing fc slot), value := sigValue A sharing s.sim (slotCol sharing fc slot),
            oidx := s.sim.oidx, lidx := s.sim.lidx } x.updateValue
          (sigOrder x i (slotCol sharing fc slot) (cells (slotCol sharing fc slot))) (x.draw i (fc + slot.1))
          s.sim.buf = .ok (res, st, b) ∧
        s' = { sim := { cash := st.cash, free := st.freeCash, value := st.value,
                        position := setAt s.sim.position (slotCol sharing fc slot) st.position,
                        debt := setAt s.sim.debt (slotCol sharing fc slot) st.debt,
                        valPrice := if !st.valPrice.isnan || !x.ffillValPrice then
                            setAt s.sim.valPrice (slotCol sharing fc slot) st.valPrice
                          else s.sim.valPrice,
                        oidx := st.oidx, lidx := st.lidx, buf := b },
               stops := setAt s.stops (slotCol sharing fc slot)
                 (updateStops x i (slotCol sharing fc slot)
                   (sigOrder x i (slotCol sharing fc slot) (cells (slotCol sharing fc slot))) res
                   (s.sim.position (slotCol sharing fc slot)) st.position st.valPrice
                   (s.stops (slotCol sharing fc slot))) })) := by
  refine ⟨(sigSlot_inv h).1, ?_⟩
  unfold sigSlot at h
  split at h
  · cases h
  change (if (!eqb (cells (slotCol sharing fc slot)).size zero) = true then _ else _) = _ at h
  split at h
  · rename_i hz
    right
    dsimp only at h
    split at h
    · cases h
    rename_i res st b hp
    cases h
    exact ⟨by simpa using hz, res, st, b, hp, rfl⟩
  · rename_i hz
    left
    cases h
    exact ⟨by simpa using hz, rfl⟩

theorem sigValue_congr {sharing : Bool} {s t : SigState} {c : Nat}
    (hc : s.sim.cash = t.sim.cash) (hl : sigLoc s c = sigLoc t c) (hv : sharing = true → s.sim.value = t.sim.value) :
    sigValue A sharing s.sim c = sigValue A sharing t.sim c := by
  simp only [sigLoc, Prod.mk.injEq] at hl
  unfold sigValue
  cases sharing
  · simp only [Bool.false_eq_true, if_false, hc, hl.1, hl.2.2.1]
  · simp only [if_true]; exact hv rfl

theorem sigSlot_twice {sharing : Bool} {g fc len : Nat} {cells cells' : Nat → CellOrder} {s t s' t' : SigState}
    {slot : Nat × Nat} (hf : SigAgreeFlags x y) (ha : SigAgreeRow x y i fc (fc + len)) (hslot : slot.1 < len)
    (hcells : ∀ c, fc ≤ c → c < fc + len → cells c = cells' c)
    (hs : SameLoc SigState.sim sigLoc fc (fc + len) s t) (hv : sharing = true → s.sim.value = t.sim.value)
    (h1 : sigSlot A x sharing g i fc len cells s slot = .ok s')
    (h2 : sigSlot A y sharing g i fc len cells' t slot = .ok t') :
    SameLoc SigState.sim sigLoc fc (fc + len) s' t' ∧ (sharing = true → s'.sim.value = t'.sim.value) ∧
    (∀ p, viewOf p s.sim.buf = viewOf p t.sim.buf → viewOf p s'.sim.buf = viewOf p t'.sim.buf) := by
  obtain ⟨hlt, c1⟩ := sigSlot_full h1
  obtain ⟨-, c2⟩ := sigSlot_full h2
  have hcol : fc ≤ slotCol sharing fc slot ∧ slotCol sharing fc slot < fc + len := by
    unfold slotCol
    cases hsh : sharing
    · simp; exact hslot
    · simp; exact hlt hsh
  have hl := hs.loc _ hcol.1 hcol.2
  have ev := sigValue_congr (A := A) hs.cash hl hv
  have acol := ha.cell _ hcol.1 hcol.2
  have ed : x.draw i (fc + slot.1) = y.draw i (fc + slot.1) := (ha.cell _ (by omega) (by omega)).draw
  rw [← hcells _ hcol.1 hcol.2] at c2
  generalize hcl : slotCol sharing fc slot = col at *
  rcases c1 with ⟨z1, rfl⟩ | ⟨z1, r1, st1, b1, p1, rfl⟩
  · rcases c2 with ⟨z2, rfl⟩ | ⟨z2, -⟩
    · exact ⟨⟨hs.cash, hs.free, hs.loc⟩, fun _ => ev, fun p h => h⟩
    · rw [z1] at z2; cases z2
  · rcases c2 with ⟨z2, -⟩ | ⟨z2, r2, st2, b2, p2, rfl⟩
    · rw [z1] at z2; cases z2
    simp only [sigLoc, Prod.mk.injEq] at hl
    obtain ⟨l1, l2, l3, l4⟩ := hl
    rw [← hs.cash, ← hs.free, ← l1, ← l2, ← l3, ← ev, ← hf.upd, ← sigOrder_congr acol, ← ed] at p2
    obtain ⟨er, e1, e2, e3, e4, e5, e6, hvw, -⟩ := processOrder_twice
      (st := { cash := s.sim.cash, position := s.sim.position col, debt := s.sim.debt col, freeCash := s.sim.free,
               valPrice := s.sim.valPrice col, value := sigValue A sharing s.sim col, oidx := 0, lidx := 0 })
      s.sim.oidx s.sim.lidx t.sim.oidx t.sim.lidx p1 p2
    refine ⟨⟨e1, e4, fun c hc1 hc2 => ?_⟩, fun _ => e6, hvw⟩
    have hlc := hs.loc c hc1 hc2
    simp only [sigLoc, Prod.mk.injEq] at hlc ⊢
    obtain ⟨k1, k2, k3, k4⟩ := hlc
    refine ⟨?_, ?_, ?_, ?_⟩
    · simp only [setAt]; split <;> assumption
    · simp only [setAt]; split <;> assumption
    · rw [e5, hf.ffill]
      split
      · simp only [setAt]
        split
        · rfl
        · exact k3
      · exact k3
    · simp only [setAt]
      split
      · rw [er, e2, e5, l1, l4, updateStops_congr acol hf, sigOrder_congr acol]
      · exact k4

theorem sigSlots_twice {sharing : Bool} {g fc len : Nat} {cells cells' : Nat → CellOrder} {s t s' t' : SigState}
    {slots : List (Nat × Nat)} (hf : SigAgreeFlags x y) (ha : SigAgreeRow x y i fc (fc + len))
    (hslots : ∀ k ∈ slots, k.1 < len) (hcells : ∀ c, fc ≤ c → c < fc + len → cells c = cells' c)
    (hs : SameLoc SigState.sim sigLoc fc (fc + len) s t) (hv : sharing = true → s.sim.value = t.sim.value)
    (h1 : loopE (sigSlot A x sharing g i fc len cells) s slots = .ok s')
    (h2 : loopE (sigSlot A y sharing g i fc len cells') t slots = .ok t') :
    SameLoc SigState.sim sigLoc fc (fc + len) s' t' ∧
    (∀ p, viewOf p s.sim.buf = viewOf p t.sim.buf → viewOf p s'.sim.buf = viewOf p t'.sim.buf) := by
  have := loopE_rel (f := sigSlot A x sharing g i fc len cells) (g := sigSlot A y sharing g i fc len cells')
    (R := fun a b => SameLoc SigState.sim sigLoc fc (fc + len) a b ∧ (sharing = true → a.sim.value = b.sim.value) ∧
      (∀ p, viewOf p s.sim.buf = viewOf p t.sim.buf → viewOf p a.sim.buf = viewOf p b.sim.buf))
    (l := slots) (s := s) (t := t) ?_ ⟨hs, hv, fun p h => h⟩ h1 h2
  · exact ⟨this.1, this.2.2⟩
  · rintro a b slot a' b' hmem ⟨r1, r2, r3⟩ e1 e2
    obtain ⟨q1, q2, q3⟩ := sigSlot_twice hf ha (hslots slot hmem) hcells r1 r2 e1 e2
    exact ⟨q1, q2, fun p hp => q3 p (r3 p hp)⟩

/-- Two rows with agreeing inputs and decisions. -/
theorem sigRow_twice {cell cell' : CellFn} {sharing : Bool} {g fc len : Nat} {s t s' t' : SigState}
    (hf : SigAgreeFlags x y) (ha : SigAgreeRow x y i fc (fc + len))
    (hcell : ∀ c, fc ≤ c → c < fc + len → ∀ p v st, cell i c p v st = cell' i c p v st)
    (hs : SameLoc SigState.sim sigLoc fc (fc + len) s t)
    (h1 : sigRow A x cell sharing g fc len s i = .ok s') (h2 : sigRow A y cell' sharing g fc len t i = .ok t') :
    SameLoc SigState.sim sigLoc fc (fc + len) s' t' ∧
    (∀ p, viewOf p s.sim.buf = viewOf p t.sim.buf → viewOf p s'.sim.buf = viewOf p t'.sim.buf) := by
  have hpos : ∀ c, fc ≤ c → c < fc + len → s.sim.position c = t.sim.position c := fun c a b => by
    have := hs.loc c a b; simp only [sigLoc, Prod.mk.injEq] at this; exact this.1
  have hdebt : ∀ c, fc ≤ c → c < fc + len → s.sim.debt c = t.sim.debt c := fun c a b => by
    have := hs.loc c a b; simp only [sigLoc, Prod.mk.injEq] at this; exact this.2.1
  have hvp0 : ∀ c, fc ≤ c → c < fc + len → s.sim.valPrice c = t.sim.valPrice c := fun c a b => by
    have := hs.loc c a b; simp only [sigLoc, Prod.mk.injEq] at this; exact this.2.2.1
  have hst : ∀ c, fc ≤ c → c < fc + len → s.stops c = t.stops c := fun c a b => by
    have := hs.loc c a b; simp only [sigLoc, Prod.mk.injEq] at this; exact this.2.2.2
  have hvp : ∀ c, fc ≤ c → c < fc + len →
      sigRowValPrice x i fc len s.sim.valPrice c = sigRowValPrice y i fc len t.sim.valPrice c := by
    intro c hc1 hc2
    simp only [sigRowValPrice, hc1, hc2, and_self, if_true]
    rw [ha.valPrice hc1 hc2, hf.ffill, hvp0 c hc1 hc2]
  unfold sigRow at h1 h2
  dsimp only at h1 h2
  split at h1
  · cases h1
  rename_i stops cells hc
  split at h2
  · cases h2
  rename_i stops' cells' hc'
  have hi1 := (sigCells_inv hc).1
  have hi2 := (sigCells_inv hc').1
  have hboth : ∀ c, fc ≤ c → c < fc + len → stops c = stops' c ∧ cells c = cells' c := by
    intro c hc1 hc2
    have a := hi1 (c - fc) (by omega)
    have b := hi2 (c - fc) (by omega)
    rw [show fc + (c - fc) = c by omega] at a b
    dsimp only at a b
    rw [hcell c hc1 hc2, hpos c hc1 hc2, hst c hc1 hc2, hvp c hc1 hc2, b] at a
    simp only [Except.ok.injEq, Prod.mk.injEq] at a
    exact ⟨a.1.symm, a.2.symm⟩
  have hseq : sigCallSeq A x sharing i fc len { s.sim with valPrice := sigRowValPrice x i fc len s.sim.valPrice } cells =
      sigCallSeq A y sharing i fc len { t.sim with valPrice := sigRowValPrice y i fc len t.sim.valPrice } cells' := by
    have e1 : (List.range len).map (fun k => x.callSeq i (fc + k)) =
        (List.range len).map (fun k => y.callSeq i (fc + k)) := by
      apply List.map_congr_left
      intro k hk
      rw [List.mem_range] at hk
      exact (ha.cell _ (by omega) (by omega)).callSeq
    unfold sigCallSeq
    rw [hf.auto, e1]
    simp only
    split
    · congr 1
      apply List.map_congr_left
      intro k hk
      rw [List.mem_range] at hk
      rw [(hboth (fc + k) (by omega) (by omega)).2, hs.cash, hs.free, hpos _ (by omega) (by omega),
        hvp _ (by omega) (by omega)]
    · rfl
  rw [hseq] at h1
  have hgv : groupValue A s.sim.cash s.sim.position (sigRowValPrice x i fc len s.sim.valPrice) fc len =
      groupValue A t.sim.cash t.sim.position (sigRowValPrice y i fc len t.sim.valPrice) fc len := by
    rw [hs.cash]
    exact groupValue_congr hpos hvp
  have key := fun p q => sigSlots_twice hf ha (fun k hk => List.mem_range.mp (List.of_mem_zip hk).1)
    (fun c a b => (hboth c a b).2) p q h1 h2
  refine key (SameLoc.mk ?_ ?_ ?_) ?_
  · exact hs.cash
  · exact hs.free
  · intro c a b
    simp only [sigLoc, Prod.mk.injEq]
    exact ⟨hpos c a b, hdebt c a b, hvp c a b, (hboth c a b).1⟩
  · intro hsh; subst hsh; simp only [if_true]; exact hgv

/-- One run of a row: only the columns of the group are touched. -/
theorem sigRow_frame {cell : CellFn} {sharing : Bool} {g fc len : Nat} {s s' : SigState}
    (h : sigRow A x cell sharing g fc len s i = .ok s') :
    (∀ p : Nat × Nat → Bool, (∀ c, fc ≤ c → c < fc + len → p (i, c) = false) →
      viewOf p s'.sim.buf = viewOf p s.sim.buf) ∧
    (∀ c, ¬ (fc ≤ c ∧ c < fc + len) → sigLoc s' c = sigLoc s c) := by
  unfold sigRow at h
  dsimp only at h
  split at h
  · cases h
  rename_i stops cells hc
  have := loopE_inv (f := sigSlot A x sharing g i fc len cells)
    (P := fun a => (∀ p : Nat × Nat → Bool, (∀ c, fc ≤ c → c < fc + len → p (i, c) = false) →
        viewOf p a.sim.buf = viewOf p s.sim.buf) ∧
      (∀ c, ¬ (fc ≤ c ∧ c < fc + len) → sigLoc a c = sigLoc s c)) ?_ ?_ h
  · exact this
  · rintro a slot a' hmem ⟨q1, q2⟩ hcl
    obtain ⟨hlt, hcl'⟩ := sigSlot_full hcl
    have hcol : fc ≤ slotCol sharing fc slot ∧ slotCol sharing fc slot < fc + len := by
      have := List.mem_range.mp (List.of_mem_zip hmem).1
      unfold slotCol
      cases hsh : sharing
      · simp; exact this
      · simp; exact hlt hsh
    generalize slotCol sharing fc slot = col at *
    rcases hcl' with ⟨-, rfl⟩ | ⟨-, r1, st1, b1, p1, rfl⟩
    · exact ⟨q1, q2⟩
    · refine ⟨fun p hp => ?_, fun c hc' => ?_⟩
      · rw [← q1 p hp]
        exact (processOrder_twice
          (st := { cash := a.sim.cash, position := a.sim.position col, debt := a.sim.debt col, freeCash := a.sim.free,
                   valPrice := a.sim.valPrice col, value := sigValue A sharing a.sim col, oidx := 0, lidx := 0 })
          a.sim.oidx a.sim.lidx a.sim.oidx a.sim.lidx p1 p1).2.2.2.2.2.2.2.2.1 p (hp _ hcol.1 hcol.2)
      · rw [← q2 c hc']
        have hne : c ≠ col := by rintro rfl; exact hc' hcol
        simp only [sigLoc, setAt, if_neg hne, Prod.mk.injEq, true_and, and_true]
        split <;> simp [setAt, hne]
  · refine ⟨fun p hp => rfl, fun c hc' => ?_⟩
    have := (sigCells_inv hc).2 c hc'
    dsimp only at this
    simp only [sigLoc, sigRowValPrice, if_neg hc', this]

end

theorem sigSimulator_local {A inp cell sharing initCash} :
    (sigSimulator A inp cell sharing initCash).Local sigLoc :=
  ⟨fun _ _ _ _ h => (sigRow_frame h).1, fun _ _ _ _ h => (sigRow_frame h).2, fun _ _ _ => rfl, fun _ _ => rfl⟩

theorem sig_twins {A x y cell cell' sharing c1 c2 grp i} (hf : SigAgreeFlags x y)
    (ha : SigAgreeRow x y i grp.2.1 (grp.2.1 + grp.2.2))
    (hcell : ∀ c, grp.2.1 ≤ c → c < grp.2.1 + grp.2.2 → ∀ p v st, cell i c p v st = cell' i c p v st) :
    Twins (sigSimulator A x cell sharing c1) (sigSimulator A y cell' sharing c2) sigLoc grp i :=
  fun _ _ _ _ hs h1 h2 => sigRow_twice hf ha hcell hs h1 h2

end Vbt
