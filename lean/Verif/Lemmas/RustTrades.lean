import Verif.Model.RustTrades
import Verif.Spec.RustTrades
import Verif.Lemmas.RustOrder
import Verif.Lemmas.PositionColumns

/-!
# The trades of the Rust engine against those of the Numba engine
-/

namespace Vbt.Rs
open F

variable {A : Arith}

/-- `a` divides by zero or returns `b`. -/
def DivOr {α : Type} (a : Except Err α) (b : α) : Prop := a = .error .zeroDivision ∨ a = .ok b

theorem divOr_div (A : Arith) (a b : F) : DivOr (divE A a b) (F.div A a b) := by
  unfold divE
  by_cases h : eqb b zero = true
  · rw [if_pos h]; exact .inl rfl
  · rw [if_neg h]; exact .inr rfl

theorem divOr_loop {σ α : Type} {f : σ → α → Except Err σ} {g : σ → α → σ} (h : ∀ s x, DivOr (f s x) (g s x)) (l : List α)
    (s : σ) : DivOr (loopE f s l) (l.foldl g s) := by
  induction l generalizing s with
  | nil => exact .inr rfl
  | cons x xs ih =>
    unfold loopE
    rcases h s x with e | e
    · rw [e]; exact .inl rfl
    · rw [e]; exact ih _

/-- What the first program did, unless it divided by zero. -/
def TradeOut {α β : Type} (R : α → β → Prop) (a : Except Err α) (b : Except Err β) : Prop :=
  a = .error .zeroDivision ∨ (∃ m n, a = .error (.valueError m) ∧ b = .error (.valueError n)) ∨
    ∃ s t, a = .ok s ∧ b = .ok t ∧ R s t

theorem tradeOut_loop {σ τ α : Type} {f : σ → α → Except Err σ} {g : τ → α → Except Err τ} {R : σ → τ → Prop} (l : List α)
    (h : ∀ s t x, x ∈ l → R s t → TradeOut R (f s x) (g t x)) {s : σ} {t : τ} (h0 : R s t) :
    TradeOut R (loopE f s l) (loopE g t l) := by
  induction l generalizing s t with
  | nil => exact .inr (.inr ⟨s, t, rfl, rfl, h0⟩)
  | cons x xs ih =>
    unfold loopE
    rcases h s t x List.mem_cons_self h0 with e | ⟨m, n, e, e'⟩ | ⟨s', t', e, e', hr⟩
    · rw [e]; exact .inl rfl
    · rw [e, e']; exact .inr (.inl ⟨m, n, rfl, rfl⟩)
    · rw [e, e']
      exact ih (fun s t y hy => h s t y (List.mem_cons_of_mem _ hy)) hr

theorem tradeStats_out (hA : A.Sound) (size ep ef xp xf : F) (d : Int) :
    DivOr (Vbt.tradeStats A size ep ef xp xf d) (tradeStats A size ep ef xp xf d) := by
  unfold Vbt.tradeStats tradeStats
  dsimp only
  rw [addTol_eq hA (rep_mul hA _ _) (rep_neg hA (rep_mul hA _ _))]
  generalize (sub A (sub A _ ef) xf) = pnl
  rcases divOr_div A pnl (mul A size ep) with e | e
  · rw [e]; exact .inl rfl
  · rw [e]; exact .inr rfl

theorem tradeRecord_out (hA : A.Sound) (id : Int) (col : Nat) (size : F) (eidx : Int) (ep ef : F) (xidx : Int) (xp xf : F)
    (d st p : Int) : DivOr (fillTradeRecord A id col size eidx ep ef xidx xp xf d st p)
      (tradeRecord A id col size eidx ep ef xidx xp xf d st p) := by
  unfold fillTradeRecord tradeRecord
  rcases tradeStats_out hA size ep ef xp xf d with e | e
  · rw [e]; exact .inl rfl
  · rw [e]; exact .inr rfl

/-! ## Entry trades -/

theorem fillEntryTrades_out (hA : A.Sound) (os : List OrderRec) (col firstC lastC : Nat) (fs ff : F) (xidx : Int)
    (xSize xGross xFees : F) (d st p : Int) (recs : List TradeRec) :
    DivOr (Vbt.fillEntryTrades A os col firstC lastC fs ff xidx xSize xGross xFees d st p recs)
      (fillEntryTrades A os col firstC lastC fs ff xidx xSize xGross xFees d st p recs) := by
  unfold Vbt.fillEntryTrades fillEntryTrades
  refine divOr_loop (fun recs c => ?_) _ _
  unfold Vbt.fillEntryStep fillEntryStep
  cases os[c]? with
  | none => exact .inr rfl
  | some o =>
    dsimp only
    by_cases hx : isExit d o.side = true
    · rw [if_pos hx, if_pos hx]; exact .inr rfl
    · rw [if_neg hx, if_neg hx]
      rcases divOr_div A xGross xSize with e | e
      · rw [e]; exact .inl rfl
      · rw [e]
        dsimp only
        rcases divOr_div A (if c = firstC then fs else o.size) xSize with e | e
        · rw [e]; exact .inl rfl
        · rw [e]
          dsimp only
          rcases tradeRecord_out hA recs.length col (if c = firstC then fs else o.size) o.idx o.price
            (if c = firstC then ff else o.fees) xidx (F.div A xGross xSize)
            (mul A (F.div A (if c = firstC then fs else o.size) xSize) xFees) d st p with e | e
          · rw [e]; exact .inl rfl
          · rw [e]; exact .inr rfl

/-- The variables the Rust function keeps. -/
def entryVars (s : EntryState) : EntryVars :=
  { lastId := s.lastId, inPos := s.inPos, direction := s.direction, eSize := s.eSize, xSize := s.xSize, xGross := s.xGross,
    xFees := s.xFees, firstC := s.firstC, firstSize := s.firstSize, firstFees := s.firstFees, parentId := s.parentId,
    records := s.records }

/-- The states of the two functions correspond. -/
def EntryLike (A : Arith) (s : EntryState) (t : EntryVars) : Prop := t = entryVars s ∧ Rep A s.eSize ∧ Rep A s.xSize

theorem entryOpened_vars (s : EntryState) (c : Nat) (o : OrderRec) : (entryVars s).opened c o = entryVars (s.opened c o) := by
  unfold EntryVars.opened EntryState.opened
  cases h : s.inPos <;> simp [entryVars, h]

theorem entryExit_out (hA : A.Sound) (os : List OrderRec) (col : Nat) {s : EntryState} (hp : s.inPos = true)
    (h1 : Rep A s.eSize) (h2 : Rep A s.xSize) (c : Nat) {o : OrderRec} (ho : Rep A o.size) :
    TradeOut (EntryLike A) (Vbt.entryExit A os col s c o) (.ok (entryExit A os col (entryVars s) c o)) := by
  unfold Vbt.entryExit entryExit
  have hrem : addTol A (entryVars s).eSize (neg (entryVars s).xSize) = addNb A s.eSize (neg s.xSize) :=
    addTol_eq hA h1 (rep_neg hA h2)
  dsimp only
  rw [hrem, addTol_eq hA ho (rep_neg hA (rep_addNb hA _ _)), isClose_eq hA, isLess_eq hA]
  show TradeOut (EntryLike A) (if Vbt.isClose A (add A s.xSize o.size) s.eSize = true then _ else _)
    (.ok (if Vbt.isClose A (add A s.xSize o.size) s.eSize = true then _ else _))
  by_cases hc : Vbt.isClose A (add A s.xSize o.size) s.eSize = true
  · rw [if_pos hc, if_pos hc]
    rcases fillEntryTrades_out hA os col s.firstC c s.firstSize s.firstFees o.idx s.eSize
      (add A s.xGross (mul A o.size o.price)) (add A s.xFees o.fees) s.direction TradeStatus.Closed s.parentId s.records with e | e
    · rw [e]; exact .inl rfl
    · rw [e]
      exact .inr (.inr ⟨_, _, rfl, rfl, rfl, h1, h1⟩)
  · rw [if_neg hc, if_neg hc]
    show TradeOut (EntryLike A) (if Vbt.isLess A (add A s.xSize o.size) s.eSize = true then _ else _)
      (.ok (if Vbt.isLess A (add A s.xSize o.size) s.eSize = true then _ else _))
    by_cases hl : Vbt.isLess A (add A s.xSize o.size) s.eSize = true
    · rw [if_pos hl, if_pos hl]
      exact .inr (.inr ⟨_, _, rfl, rfl, rfl, h1, rep_add hA _ _⟩)
    · rw [if_neg hl, if_neg hl]
      rcases divOr_div A (addNb A s.eSize (neg s.xSize)) o.size with e | e
      · rw [e]; exact .inl rfl
      · rw [e]
        dsimp only
        rcases fillEntryTrades_out hA os col s.firstC c s.firstSize s.firstFees o.idx s.eSize
          (add A s.xGross (mul A (addNb A s.eSize (neg s.xSize)) o.price))
          (add A s.xFees (mul A (F.div A (addNb A s.eSize (neg s.xSize)) o.size) o.fees)) s.direction TradeStatus.Closed
          s.parentId s.records with e | e
        · rw [e]; exact .inl rfl
        · rw [e]
          dsimp only
          rcases divOr_div A (addNb A o.size (neg (addNb A s.eSize (neg s.xSize)))) o.size with e | e
          · rw [e]; exact .inl rfl
          · rw [e]
            refine .inr (.inr ⟨_, _, rfl, rfl, ?_, rep_addNb hA _ _, rep_zero hA⟩)
            simp only [entryVars, hp]

theorem entryStep_out (hA : A.Sound) (os : List OrderRec) (col : Nat) {s : EntryState} {t : EntryVars} (h : EntryLike A s t)
    {x : OrderRec × Nat} (ho : Rep A x.1.size) :
    TradeOut (EntryLike A) (Vbt.entryStep A os col s x) (entryStep A os col t x) := by
  obtain ⟨rfl, h1, h2⟩ := h
  unfold Vbt.entryStep entryStep
  by_cases hid : (x.1.id : Int) < s.lastId
  · rw [if_pos hid, if_pos (show (x.1.id : Int) < (entryVars s).lastId from hid)]
    exact .inr (.inl ⟨_, _, rfl, rfl⟩)
  rw [if_neg hid, if_neg (show ¬(x.1.id : Int) < (entryVars s).lastId from hid)]
  by_cases hs : le x.1.size zero = true
  · rw [if_pos hs, if_pos hs]; exact .inr (.inl ⟨_, _, rfl, rfl⟩)
  rw [if_neg hs, if_neg hs]
  by_cases hpr : le x.1.price zero = true
  · rw [if_pos hpr, if_pos hpr]; exact .inr (.inl ⟨_, _, rfl, rfl⟩)
  rw [if_neg hpr, if_neg hpr]
  dsimp only
  have e : ({ entryVars s with lastId := (x.1.id : Int) } : EntryVars) = entryVars { s with lastId := (x.1.id : Int) } := rfl
  rw [e, entryOpened_vars]
  have hr : Rep A (({ s with lastId := (x.1.id : Int) } : EntryState).opened x.2 x.1).eSize ∧
      Rep A (({ s with lastId := (x.1.id : Int) } : EntryState).opened x.2 x.1).xSize ∧
      (({ s with lastId := (x.1.id : Int) } : EntryState).opened x.2 x.1).inPos = true := by
    unfold EntryState.opened
    by_cases hp : s.inPos = true
    · rw [if_pos hp]; exact ⟨h1, h2, hp⟩
    · rw [if_neg hp]; exact ⟨rep_zero hA, rep_zero hA, rfl⟩
  generalize (({ s with lastId := (x.1.id : Int) } : EntryState).opened x.2 x.1) = u at hr ⊢
  obtain ⟨h1, h2, hp⟩ := hr
  have hd : (entryVars u).direction = u.direction := rfl
  rw [hd]
  by_cases he : isEntry u.direction x.1.side = true
  · rw [if_pos he, if_pos he]
    exact .inr (.inr ⟨_, _, rfl, rfl, rfl, rep_add hA _ _, h2⟩)
  rw [if_neg he, if_neg he]
  by_cases hx : isExit u.direction x.1.side = true
  · rw [if_pos hx, if_pos hx]
    exact entryExit_out hA os col hp h1 h2 x.2 ho
  · rw [if_neg hx, if_neg hx]
    exact .inr (.inr ⟨_, _, rfl, rfl, rfl, h1, h2⟩)

theorem entryFinish_out (hA : A.Sound) (os : List OrderRec) (col rows : Nat) (lastClose : F) {s : EntryState} {t : EntryVars}
    (h : EntryLike A s t) : TradeOut (fun s t => t = entryVars s) (Vbt.entryFinish A os col rows lastClose s)
      (.ok (entryFinish A os col rows lastClose t)) := by
  obtain ⟨rfl, h1, h2⟩ := h
  unfold Vbt.entryFinish entryFinish
  have hrem : addTol A (entryVars s).eSize (neg (entryVars s).xSize) = addNb A s.eSize (neg s.xSize) :=
    addTol_eq hA h1 (rep_neg hA h2)
  dsimp only
  rw [hrem, isLess_eq hA]
  show TradeOut _ (if (s.inPos && Vbt.isLess A s.xSize s.eSize) = true then _ else _)
    (.ok (if (s.inPos && Vbt.isLess A s.xSize s.eSize) = true then _ else _))
  by_cases hc : (s.inPos && Vbt.isLess A s.xSize s.eSize) = true
  · rw [if_pos hc, if_pos hc]
    rcases fillEntryTrades_out hA os col s.firstC (os.length - 1) s.firstSize s.firstFees ((rows : Int) - 1) s.eSize
      (add A s.xGross (mul A (addNb A s.eSize (neg s.xSize)) lastClose)) s.xFees s.direction TradeStatus.Open
      s.parentId s.records with e | e
    · rw [e]; exact .inl rfl
    · rw [e]; exact .inr (.inr ⟨_, _, rfl, rfl, rfl⟩)
  · rw [if_neg hc, if_neg hc]
    exact .inr (.inr ⟨_, _, rfl, rfl, rfl⟩)

theorem columnRecords_mem {orders : List OrderRec} {junk : Nat → Nat} {col : Nat} {o : OrderRec}
    (h : o ∈ columnRecords orders junk col) : o ∈ orders := by
  unfold columnRecords takeIdxs at h
  obtain ⟨i, _, hi⟩ := List.mem_filterMap.mp h
  exact List.mem_of_getElem? hi

theorem getEntryTrades_out (hA : A.Sound) {orders : List OrderRec} (ho : ∀ o ∈ orders, Rep A o.size) (junk : Nat → Nat)
    (rows nCols : Nat) (lastClose : Nat → F) :
    TradeOut (fun a b => a = b) (Vbt.getEntryTrades A orders junk rows nCols lastClose)
      (getEntryTrades A orders junk rows nCols lastClose) := by
  unfold Vbt.getEntryTrades getEntryTrades
  have key : TradeOut (fun a b => a = b) (loopE (Vbt.entryColumn A orders junk rows lastClose) (-1, []) (List.range nCols))
      (loopE (entryColumn A orders junk rows lastClose) (-1, []) (List.range nCols)) := by
    refine tradeOut_loop _ (fun x y col _ hxy => ?_) rfl
    subst hxy
    unfold Vbt.entryColumn entryColumn
    dsimp only
    by_cases hl : (columnRecords orders junk col).length = 0
    · rw [if_pos hl, if_pos hl]; exact .inr (.inr ⟨_, _, rfl, rfl, rfl⟩)
    rw [if_neg hl, if_neg hl]
    have := tradeOut_loop (f := Vbt.entryStep A (columnRecords orders junk col) col)
      (g := entryStep A (columnRecords orders junk col) col) (R := EntryLike A) (columnRecords orders junk col).zipIdx
      (fun s t z hz h => entryStep_out hA _ col h (ho _ (columnRecords_mem (List.fst_mem_of_mem_zipIdx hz))))
      (s := EntryState.start x.1 x.2) (t := EntryVars.start x.1 x.2) ⟨rfl, rep_zero hA, rep_zero hA⟩
    rcases this with e | ⟨m, n, e, e'⟩ | ⟨s, t, e, e', h⟩
    · rw [e]; exact .inl rfl
    · rw [e, e']; exact .inr (.inl ⟨m, n, rfl, rfl⟩)
    · rw [e, e']
      dsimp only
      rcases entryFinish_out hA (columnRecords orders junk col) col rows (lastClose col) h with e | ⟨m, n, e, e'⟩ | ⟨s, t, e, e', h⟩
      · rw [e]; exact .inl rfl
      · cases e'
      · rw [e]
        cases e'
        rw [h]
        exact .inr (.inr ⟨_, _, rfl, rfl, rfl⟩)
  rcases key with e | ⟨m, n, e, e'⟩ | ⟨s, t, e, e', rfl⟩
  · rw [e]; exact .inl rfl
  · rw [e, e']; exact .inr (.inl ⟨m, n, rfl, rfl⟩)
  · rw [e, e']; exact .inr (.inr ⟨_, _, rfl, rfl, rfl⟩)

/-! ## Exit trades -/

def exitVars (s : ExitState) : ExitVars :=
  { lastId := s.lastId, inPos := s.inPos, direction := s.direction, entryIdx := s.entryIdx, eSize := s.eSize, eGross := s.eGross,
    eFees := s.eFees, parentId := s.parentId, records := s.records }

/-- The states of the two functions correspond; out of a position the variables of the last one do not matter. -/
def ExitLike (s : ExitState) (t : ExitVars) : Prop :=
  t.lastId = s.lastId ∧ t.inPos = s.inPos ∧ t.parentId = s.parentId ∧ t.records = s.records ∧
    (s.inPos = true → t = exitVars s)

theorem exitOpened_vars {s : ExitState} {t : ExitVars} (h : ExitLike s t) (o : OrderRec) :
    t.opened o = exitVars (s.opened o) := by
  obtain ⟨h1, h2, h3, h4, h5⟩ := h
  unfold ExitVars.opened ExitState.opened
  cases hp : s.inPos
  · simp [exitVars, h1, h2, h3, h4, hp]
  · rw [h5 hp]; simp [exitVars, hp]

theorem exitRecord_out (hA : A.Sound) (col : Nat) (s : ExitState) (size : F) (xidx : Int) (xp xf : F) (st : Int) :
    DivOr (Vbt.exitRecord A col s size xidx xp xf st) (exitRecord A col (exitVars s) size xidx xp xf st) := by
  unfold Vbt.exitRecord exitRecord
  rcases divOr_div A s.eGross s.eSize with e | e
  · rw [e]; exact .inl rfl
  rw [e]
  dsimp only
  rcases divOr_div A size s.eSize with e | e
  · rw [e]; exact .inl rfl
  rw [e]
  exact tradeRecord_out hA _ _ _ _ _ _ _ _ _ _ _ _

theorem exitLike_vars (s : ExitState) : ExitLike s (exitVars s) := ⟨rfl, rfl, rfl, rfl, fun _ => rfl⟩

theorem exitExit_out (hA : A.Sound) (col : Nat) (s : ExitState) (o : OrderRec) :
    TradeOut ExitLike (Vbt.exitExit A col s o) (.ok (exitExit A col (exitVars s) o)) := by
  unfold Vbt.exitExit exitExit
  simp only [isClose_eq hA, isCloseOrLess_eq hA]
  have e0 : (exitVars s).eSize = s.eSize := rfl
  rw [e0]
  by_cases hl : Vbt.isCloseOrLess A o.size s.eSize = true
  · rw [if_pos hl, if_pos hl]
    rcases exitRecord_out hA col s (if Vbt.isClose A o.size s.eSize = true then s.eSize else o.size) o.idx o.price o.fees
      TradeStatus.Closed with e | e
    · rw [e]; exact .inl rfl
    rw [e]
    dsimp only
    by_cases hc : Vbt.isClose A o.size s.eSize = true
    · simp only [if_pos hc]
      exact .inr (.inr ⟨_, _, rfl, rfl, rfl, rfl, rfl, rfl, fun h => by cases h⟩)
    · simp only [if_neg hc]
      rcases divOr_div A (sub A s.eSize o.size) s.eSize with e | e
      · rw [e]; exact .inl rfl
      · rw [e]
        exact .inr (.inr ⟨_, _, rfl, rfl, exitLike_vars _⟩)
  · rw [if_neg hl, if_neg hl]
    rcases divOr_div A s.eSize o.size with e | e
    · rw [e]; exact .inl rfl
    rw [e]
    dsimp only
    rcases exitRecord_out hA col s s.eSize o.idx o.price (mul A (F.div A s.eSize o.size) o.fees) TradeStatus.Closed with e | e
    · rw [e]; exact .inl rfl
    rw [e]
    exact .inr (.inr ⟨_, _, rfl, rfl, exitLike_vars _⟩)

theorem exitStep_out (hA : A.Sound) (col : Nat) {s : ExitState} {t : ExitVars} (h : ExitLike s t) (o : OrderRec) :
    TradeOut ExitLike (Vbt.exitStep A col s o) (exitStep A col t o) := by
  unfold Vbt.exitStep exitStep
  rw [h.1]
  by_cases hid : (o.id : Int) < s.lastId
  · rw [if_pos hid, if_pos hid]; exact .inr (.inl ⟨_, _, rfl, rfl⟩)
  rw [if_neg hid, if_neg hid]
  by_cases hs : le o.size zero = true
  · rw [if_pos hs, if_pos hs]; exact .inr (.inl ⟨_, _, rfl, rfl⟩)
  rw [if_neg hs, if_neg hs]
  by_cases hpr : le o.price zero = true
  · rw [if_pos hpr, if_pos hpr]; exact .inr (.inl ⟨_, _, rfl, rfl⟩)
  rw [if_neg hpr, if_neg hpr]
  dsimp only
  have h' : ExitLike { s with lastId := (o.id : Int) } { t with lastId := (o.id : Int) } := by
    obtain ⟨h1, h2, h3, h4, h5⟩ := h
    refine ⟨rfl, h2, h3, h4, fun hp => ?_⟩
    rw [h5 hp]; rfl
  rw [exitOpened_vars h']
  generalize (({ s with lastId := (o.id : Int) } : ExitState).opened o) = u
  have hd : (exitVars u).direction = u.direction := rfl
  rw [hd]
  by_cases he : isEntry u.direction o.side = true
  · rw [if_pos he, if_pos he]
    exact .inr (.inr ⟨_, _, rfl, rfl, exitLike_vars _⟩)
  rw [if_neg he, if_neg he]
  by_cases hx : isExit u.direction o.side = true
  · rw [if_pos hx, if_pos hx]
    exact exitExit_out hA col u o
  · rw [if_neg hx, if_neg hx]
    exact .inr (.inr ⟨_, _, rfl, rfl, exitLike_vars _⟩)

theorem exitFinish_out (hA : A.Sound) (col rows : Nat) (lastClose : F) {s : ExitState} {t : ExitVars} (h : ExitLike s t) :
    TradeOut (fun s t => t.parentId = s.parentId ∧ t.records = s.records) (Vbt.exitFinish A col rows lastClose s)
      (.ok (exitFinish A col rows lastClose t)) := by
  obtain ⟨h1, h2, h3, h4, h5⟩ := h
  unfold Vbt.exitFinish exitFinish
  rw [isLess_eq hA, h2]
  cases hp : s.inPos
  · rw [Bool.false_and, Bool.false_and, if_neg Bool.false_ne_true, if_neg Bool.false_ne_true]
    exact .inr (.inr ⟨_, _, rfl, rfl, h3, h4⟩)
  · rw [h5 hp]
    have e0 : (exitVars s).eSize = s.eSize := rfl
    rw [Bool.true_and, Bool.true_and, e0]
    by_cases hl : Vbt.isLess A (neg s.eSize) zero = true
    · rw [if_pos hl, if_pos hl]
      rcases exitRecord_out hA col s s.eSize ((rows : Int) - 1) lastClose zero TradeStatus.Open with e | e
      · rw [e]; exact .inl rfl
      rw [e]
      exact .inr (.inr ⟨_, _, rfl, rfl, rfl, rfl⟩)
    · rw [if_neg hl, if_neg hl]
      exact .inr (.inr ⟨_, _, rfl, rfl, rfl, rfl⟩)

theorem getExitTrades_out (hA : A.Sound) (orders : List OrderRec) (junk : Nat → Nat) (rows nCols : Nat)
    (lastClose : Nat → F) : TradeOut (fun a b => a = b) (Vbt.getExitTrades A orders junk rows nCols lastClose)
      (getExitTrades A orders junk rows nCols lastClose) := by
  unfold Vbt.getExitTrades getExitTrades
  have key : TradeOut (fun a b => a = b) (loopE (Vbt.exitColumn A orders junk rows lastClose) (-1, []) (List.range nCols))
      (loopE (exitColumn A orders junk rows lastClose) (-1, []) (List.range nCols)) := by
    refine tradeOut_loop _ (fun x y col _ hxy => ?_) rfl
    subst hxy
    unfold Vbt.exitColumn exitColumn
    dsimp only
    by_cases hl : (columnRecords orders junk col).length = 0
    · rw [if_pos hl, if_pos hl]; exact .inr (.inr ⟨_, _, rfl, rfl, rfl⟩)
    rw [if_neg hl, if_neg hl]
    have := tradeOut_loop (f := Vbt.exitStep A col) (g := exitStep A col) (R := ExitLike) (columnRecords orders junk col)
      (fun s t z _ h => exitStep_out hA col h z)
      (s := ExitState.start x.1 x.2) (t := ExitVars.start x.1 x.2) (exitLike_vars _)
    rcases this with e | ⟨m, n, e, e'⟩ | ⟨s, t, e, e', h⟩
    · rw [e]; exact .inl rfl
    · rw [e, e']; exact .inr (.inl ⟨m, n, rfl, rfl⟩)
    · rw [e, e']
      dsimp only
      rcases exitFinish_out hA col rows (lastClose col) h with e | ⟨m, n, e, e'⟩ | ⟨s, t, e, e', h⟩
      · rw [e]; exact .inl rfl
      · cases e'
      · rw [e]
        cases e'
        rw [h.1, h.2]
        exact .inr (.inr ⟨_, _, rfl, rfl, rfl⟩)
  rcases key with e | ⟨m, n, e, e'⟩ | ⟨s, t, e, e', rfl⟩
  · rw [e]; exact .inl rfl
  · rw [e, e']; exact .inr (.inl ⟨m, n, rfl, rfl⟩)
  · rw [e, e']; exact .inr (.inr ⟨_, _, rfl, rfl, rfl⟩)

/-! ## Streaks -/

theorem streak_fold (hit : F → Bool) (l : List F) (k : Nat) (out : List Nat) :
    (l.foldl (streakStep hit) (k, out)).2 = out ++ streaks hit k l := by
  induction l generalizing k out with
  | nil => simp [streaks]
  | cons x xs ih =>
    rw [List.foldl_cons, streakStep]
    dsimp only
    rw [ih, streaks]
    simp

/-! ## Positions -/

theorem npSum_append (A : Arith) (l : List F) (x : F) : npSum A (l ++ [x]) = add A (npSum A l) x := by
  simp [npSum]

theorem take_drop_get {α : Type} {l : List α} {f n : Nat} {x : α} (h : l[f + n]? = some x) :
    (l.drop f).take (n + 1) = (l.drop f).take n ++ [x] := by
  rw [List.take_add_one, List.getElem?_drop, h]; rfl

/-- What `aggregate_position` has collected after `n` trades. -/
theorem aggFold (A : Arith) (ts : List TradeRec) {f u : Nat} (hu : u ≤ ts.length) {n : Nat} (hn : f + n ≤ u) :
    ∃ s, (List.range' f n).foldl (aggStep A ts f u) AggVars.start = s ∧
      s.size = npSum A (((ts.drop f).take n).map (·.size)) ∧
      s.entryGross = npSum A (((ts.drop f).take n).map fun t => mul A t.size t.entryPrice) ∧
      s.exitGross = npSum A (((ts.drop f).take n).map fun t => mul A t.size t.exitPrice) ∧
      s.entryFees = npSum A (((ts.drop f).take n).map (·.entryFees)) ∧
      s.exitFees = npSum A (((ts.drop f).take n).map (·.exitFees)) ∧
      (0 < n → ∀ t, ts[f]? = some t → s.entryIdx = t.entryIdx) ∧
      (0 < n → f + n = u → ∀ t, ts[u - 1]? = some t →
        s.exitIdx = t.exitIdx ∧ s.direction = t.direction ∧ s.status = t.status) := by
  induction n with
  | zero => exact ⟨_, rfl, rfl, rfl, rfl, rfl, rfl, fun h => absurd h (by omega), fun h => absurd h (by omega)⟩
  | succ n ih =>
    obtain ⟨s, hs, h1, h2, h3, h4, h5, h6, h7⟩ := ih (by omega)
    have hg : ts[f + n]? = some (ts[f + n]'(by omega)) := List.getElem?_eq_getElem (by omega)
    generalize (ts[f + n]'(by omega)) = x at hg
    rw [List.range'_1_concat, List.foldl_append, hs, take_drop_get hg]
    refine ⟨_, rfl, ?_⟩
    simp only [List.foldl_cons, List.foldl_nil, aggStep, hg, List.map_append, List.map_cons, List.map_nil, npSum_append,
      h1, h2, h3, h4, h5, true_and]
    refine ⟨fun _ t ht => ?_, fun _ he t ht => ?_⟩
    · by_cases h0 : n = 0
      · subst h0
        rw [Nat.add_zero] at hg ⊢
        rw [if_pos rfl]
        rw [hg] at ht; cases ht; rfl
      · rw [if_neg (by omega)]
        exact h6 (by omega) t ht
    · have e : f + n = u - 1 := by omega
      rw [e] at hg
      rw [hg] at ht; cases ht
      rw [if_pos e]
      exact ⟨rfl, if_pos e, if_pos e⟩

theorem slice_take_drop {α : Type} (pre mid post : List α) {f u : Nat} (hu : u ≤ mid.length) :
    ((pre ++ (mid ++ post)).take (pre.length + u)).drop (pre.length + f) = (mid.drop f).take (u - f) := by
  rw [List.take_length_add_append, List.drop_length_add_append, List.take_append_of_le_length hu, List.drop_take]

/-- A position record of both functions, the trades of the column standing together. -/
theorem positionRecord_out (hA : A.Sound) {pre mid post : List TradeRec} {col : Nat} (hcol : ∀ t ∈ mid, t.col = col) {f u : Nat}
    (hf : f < u) (hu : u ≤ mid.length) (pidx : Nat) :
    DivOr (Vbt.positionRecord A pidx (pre ++ (mid ++ post)) (pre.length + f) (pre.length + u))
      (aggregatePosition A mid f u col pidx) := by
  unfold Vbt.positionRecord aggregatePosition
  dsimp only
  rw [slice_take_drop pre mid post hu]
  have hgf : mid[f]? = some (mid[f]'(by omega)) := List.getElem?_eq_getElem (by omega)
  have hmf := hcol _ (List.getElem_mem (l := mid) (n := f) (by omega))
  generalize (mid[f]'(by omega)) = first at hgf hmf
  have hgu : mid[u - 1]? = some (mid[u - 1]'(by omega)) := List.getElem?_eq_getElem (by omega)
  generalize (mid[u - 1]'(by omega)) = last at hgu
  have e1 : ((mid.drop f).take (u - f)).head? = some first := by
    rw [List.head?_take, if_neg (by omega), List.head?_drop, hgf]
  have e2 : ((mid.drop f).take (u - f)).getLast? = some last := by
    rw [List.getLast?_eq_getElem?, List.length_take, List.length_drop, List.getElem?_take_of_lt (by omega),
      List.getElem?_drop, show f + (min (u - f) (mid.length - f) - 1) = u - 1 by omega, hgu]
  rw [e1, e2]
  dsimp only
  rw [show pre.length + u - (pre.length + f) = u - f by omega]
  by_cases hc : u - f = 1
  · rw [if_neg (by omega), if_pos hc, hgf]
    exact .inr rfl
  · rw [if_pos (by omega), if_neg hc]
    obtain ⟨s, hs, h1, h2, h3, h4, h5, h6, h7⟩ := aggFold A mid (f := f) hu (n := u - f) (by omega)
    rw [hs, h1, h2, h3, h4, h5, h6 (by omega) _ hgf, (h7 (by omega) (by omega) _ hgu).1, (h7 (by omega) (by omega) _ hgu).2.1,
      (h7 (by omega) (by omega) _ hgu).2.2]
    unfold fillPosition
    dsimp only
    rcases divOr_div A (npSum A (((mid.drop f).take (u - f)).map fun t => mul A t.size t.entryPrice))
      (npSum A (((mid.drop f).take (u - f)).map (·.size))) with e | e
    · rw [e]; exact .inl rfl
    rw [e]
    dsimp only
    rcases divOr_div A (npSum A (((mid.drop f).take (u - f)).map fun t => mul A t.size t.exitPrice))
      (npSum A (((mid.drop f).take (u - f)).map (·.size))) with e | e
    · rw [e]; exact .inl rfl
    rw [e]
    dsimp only
    rw [hmf]
    exact tradeRecord_out hA _ _ _ _ _ _ _ _ _ _ _ _

/-- The loops after `k` trades of the column. -/
def PosLike (p k : Nat) (s : PosState) (t : PosVars) : Prop :=
  t.lastId = s.lastId ∧ t.lastPosId = s.lastPosId ∧ t.records = s.records ∧ (k = 0 → s.lastPosId = -1) ∧
    (0 < k → s.lastPosId ≠ -1 ∧ s.fromTidx = p + t.fromC ∧ t.fromC < k ∧ s.tidx = p + k - 1)

theorem posStep_out (hA : A.Sound) {pre mid post : List TradeRec} {col : Nat} (hcol : ∀ t ∈ mid, t.col = col)
    (hpar : ∀ t ∈ mid, 0 ≤ t.parentId) {k : Nat} {x : TradeRec} (hx : mid[k]? = some x) {s : PosState} {t : PosVars}
    (h : PosLike pre.length k s t) :
    TradeOut (PosLike pre.length (k + 1)) (Vbt.posStep A (pre ++ (mid ++ post)) s (pre.length + k))
      (posStep A mid col t (x, k)) := by
  obtain ⟨h1, h2, h3, h4, h5⟩ := h
  have hk : k < mid.length := (List.getElem?_eq_some_iff.mp hx).1
  have hxp : 0 ≤ x.parentId := hpar x (List.mem_of_getElem? hx)
  have hget : (pre ++ (mid ++ post))[pre.length + k]? = some x := by
    rw [List.getElem?_append_right (by omega), Nat.add_sub_cancel_left, List.getElem?_append_left hk, hx]
  unfold Vbt.posStep posStep
  rw [hget, h1, h2]
  dsimp only
  by_cases hid : x.id < s.lastId
  · rw [if_pos hid, if_pos hid]; exact .inr (.inl ⟨_, _, rfl, rfl⟩)
  rw [if_neg hid, if_neg hid]
  by_cases hp : x.parentId ≠ s.lastPosId
  · rw [if_pos hp, if_pos hp]
    by_cases hl : s.lastPosId ≠ -1
    · have hk0 : 0 < k := by
        rcases Nat.eq_zero_or_pos k with h0 | h0
        · exact absurd (h4 h0) hl
        · exact h0
      obtain ⟨-, h6, h7, h8⟩ := h5 hk0
      rw [if_pos hl, if_pos hl, h6]
      rcases positionRecord_out hA (pre := pre) (post := post) hcol h7 hk.le s.records.length with e | e
      · rw [e]; exact .inl rfl
      · rw [e]
        refine .inr (.inr ⟨_, _, rfl, rfl, rfl, rfl, ?_, fun h => absurd h (by omega), fun _ => ⟨?_, rfl, ?_, rfl⟩⟩)
        · rw [h3]
        · show x.parentId ≠ -1; omega
        · exact Nat.lt_succ_self k
    · rw [if_neg hl, if_neg hl]
      refine .inr (.inr ⟨_, _, rfl, rfl, rfl, rfl, h3, fun h => absurd h (by omega), fun _ => ⟨?_, rfl, ?_, rfl⟩⟩)
      · show x.parentId ≠ -1; omega
      · exact Nat.lt_succ_self k
  · rw [if_neg hp, if_neg hp]
    have hp' : x.parentId = s.lastPosId := not_not.mp hp
    have hk0 : 0 < k := by
      rcases Nat.eq_zero_or_pos k with h0 | h0
      · have := h4 h0; omega
      · exact h0
    obtain ⟨h6, h7, h8, h9⟩ := h5 hk0
    refine .inr (.inr ⟨_, _, rfl, rfl, rfl, rfl, h3, fun h => absurd h (by omega), fun _ => ⟨h6, h7, ?_, rfl⟩⟩)
    show t.fromC < k + 1; omega

theorem posLoop_out (hA : A.Sound) {pre mid post : List TradeRec} {col : Nat} (hcol : ∀ t ∈ mid, t.col = col)
    (hpar : ∀ t ∈ mid, 0 ≤ t.parentId) (l : List TradeRec) {k : Nat} (hl : mid.drop k = l) (hk : k + l.length = mid.length)
    {s : PosState} {t : PosVars} (h : PosLike pre.length k s t) :
    TradeOut (PosLike pre.length mid.length)
      (loopE (Vbt.posStep A (pre ++ (mid ++ post))) s (List.range' (pre.length + k) l.length))
      (loopE (posStep A mid col) t (l.zipIdx k)) := by
  induction l generalizing k s t with
  | nil =>
    simp only [List.length_nil, Nat.add_zero] at hk
    subst hk
    exact .inr (.inr ⟨_, _, rfl, rfl, h⟩)
  | cons x xs ih =>
    have hx : mid[k]? = some x := by
      have := List.getElem?_drop (xs := mid) (i := k) (j := 0)
      rw [hl] at this; simpa using this.symm
    rw [List.length_cons, List.range'_succ, List.zipIdx_cons]
    unfold loopE
    rcases posStep_out hA (pre := pre) (post := post) hcol hpar hx h with e | ⟨m, n, e, e'⟩ | ⟨s', t', e, e', h'⟩
    · rw [e]; exact .inl rfl
    · rw [e, e']; exact .inr (.inl ⟨m, n, rfl, rfl⟩)
    · rw [e, e']
      rw [show pre.length + k + 1 = pre.length + (k + 1) by omega]
      refine ih ?_ (by rw [List.length_cons] at hk; omega) h'
      rw [← List.drop_drop, hl]; rfl

theorem byColumn_split {ts : List TradeRec} (h : ByColumn ts) (col : Nat) :
    ∃ pre mid post, ts = pre ++ (mid ++ post) ∧ (∀ t ∈ pre, t.col ≠ col) ∧ (∀ t ∈ mid, t.col = col) ∧ ∀ t ∈ post, t.col ≠ col := by
  induction ts with
  | nil => exact ⟨[], [], [], rfl, by simp, by simp, by simp⟩
  | cons x xs ih =>
    unfold ByColumn at h ih
    rw [List.map_cons, List.pairwise_cons] at h
    obtain ⟨pre, mid, post, e, h1, h2, h3⟩ := ih h.2
    rcases Nat.lt_trichotomy x.col col with hx | hx | hx
    · refine ⟨x :: pre, mid, post, by rw [e]; rfl, ?_, h2, h3⟩
      intro t ht
      rcases List.mem_cons.mp ht with rfl | ht
      · omega
      · exact h1 t ht
    · cases pre with
      | nil =>
        refine ⟨[], x :: mid, post, by rw [e]; rfl, by simp, ?_, h3⟩
        intro t ht
        rcases List.mem_cons.mp ht with rfl | ht
        · exact hx
        · exact h2 t ht
      | cons y ys =>
        have hs := h.2
        have hy : col ≤ y.col := by
          rw [← hx]; apply h.1; rw [e]; simp
        have hy' := h1 y (by simp)
        refine ⟨[], [x], xs, rfl, by simp, by simp [hx], ?_⟩
        intro t ht
        rw [e] at ht hs
        rw [List.cons_append, List.map_cons, List.pairwise_cons] at hs
        rcases List.mem_cons.mp ht with rfl | ht
        · exact hy'
        · have := hs.1 t.col (List.mem_map_of_mem ht)
          omega
    · refine ⟨[], [], x :: xs, rfl, by simp, by simp, ?_⟩
      intro t ht
      rcases List.mem_cons.mp ht with rfl | ht
      · omega
      · have := h.1 t.col (List.mem_map_of_mem ht)
        omega

theorem takeIdxs_segment {α : Type} (pre mid post : List α) :
    takeIdxs (pre ++ (mid ++ post)) (List.range' pre.length mid.length) = mid := by
  unfold takeIdxs
  induction mid generalizing pre with
  | nil => rfl
  | cons x xs ih =>
    rw [List.length_cons, List.range'_succ, List.filterMap_cons]
    have e : (pre ++ (x :: xs ++ post))[pre.length]? = some x := by
      rw [List.getElem?_append_right (by omega)]; simp
    rw [e]
    have := ih (pre ++ [x])
    simp only [List.length_append, List.length_cons, List.length_nil, List.append_assoc, List.cons_append, List.nil_append] at this
    simp only [List.cons_append]
    exact congrArg _ this

theorem getPositions_out (hA : A.Sound) {trades : List TradeRec} (hs : ByColumn trades) (hpar : ∀ t ∈ trades, 0 ≤ t.parentId)
    (junk : Nat → Nat) (nCols : Nat) :
    TradeOut (fun a b => a = b) (Vbt.getPositions A trades junk nCols) (getPositions A trades junk nCols) := by
  unfold Vbt.getPositions getPositions
  refine tradeOut_loop _ (fun x y col _ hxy => ?_) rfl
  subst hxy
  obtain ⟨pre, mid, post, rfl, h1, h2, h3⟩ := byColumn_split hs col
  unfold Vbt.posColumn posColumn
  have hidx : (colMap ((pre ++ (mid ++ post)).map (·.col)) junk).col col = List.range' pre.length mid.length := by
    rw [(C45_map _ junk col).1, List.map_append, List.map_append]
    have := positions_segment (c := col) (pre := pre.map (·.col)) (mid := mid.map (·.col))
      (post := post.map (·.col)) (by simpa using h1) (by simpa using h2) (by simpa using h3)
    simpa using this
  simp only [hidx, takeIdxs_segment, List.length_range']
  by_cases hl : mid.length = 0
  · rw [if_pos hl, if_pos hl]; exact .inr (.inr ⟨_, _, rfl, rfl, rfl⟩)
  rw [if_neg hl, if_neg hl]
  have := posLoop_out (A := A) hA (pre := pre) (post := post) h2 (fun t ht => hpar t (by simp [ht])) mid (k := 0) rfl (by omega)
    (s := { lastId := -1, lastPosId := -1, fromTidx := 0, tidx := 0, records := x })
    (t := { lastId := -1, lastPosId := -1, fromC := 0, records := x })
    ⟨rfl, rfl, rfl, fun _ => rfl, fun h => absurd h (by omega)⟩
  rw [Nat.add_zero] at this
  rcases this with e | ⟨m, n, e, e'⟩ | ⟨s, t, e, e', h⟩
  · rw [e]; exact .inl rfl
  · rw [e, e']; exact .inr (.inl ⟨m, n, rfl, rfl⟩)
  · rw [e, e']
    dsimp only
    obtain ⟨-, -, h6, -, h7⟩ := h
    obtain ⟨-, h8, h9, h10⟩ := h7 (by omega)
    rw [h8, h10, h6, show pre.length + mid.length - 1 + 1 = pre.length + mid.length by omega]
    rcases positionRecord_out hA (pre := pre) (post := post) h2 h9 le_rfl s.records.length with e | e
    · rw [e]; exact .inl rfl
    · rw [e]; exact .inr (.inr ⟨_, _, rfl, rfl, rfl⟩)

/-! ## The trades are listed column by column -/

/-- `out` continues `recs` by trades of `col`. -/
def Extends (col : Nat) (recs out : List TradeRec) : Prop :=
  ∃ new, out = recs ++ new ∧ ∀ t ∈ new, t.col = col ∧ 0 ≤ t.parentId

theorem Extends.refl (col : Nat) (recs : List TradeRec) : Extends col recs recs := ⟨[], by simp, by simp⟩

theorem Extends.snoc {col : Nat} {recs out : List TradeRec} (h : Extends col recs out) {t : TradeRec} (h1 : t.col = col)
    (h2 : 0 ≤ t.parentId) : Extends col recs (out ++ [t]) := by
  obtain ⟨new, rfl, h⟩ := h
  refine ⟨new ++ [t], by simp, ?_⟩
  intro x hx
  rcases List.mem_append.mp hx with hx | hx
  · exact h x hx
  · rw [List.mem_singleton.mp hx]; exact ⟨h1, h2⟩

theorem fillEntryTrades_extends {col : Nat} {recs : List TradeRec} {p : Int} (hp : 0 ≤ p) (os : List OrderRec) (firstC lastC : Nat)
    (fs ff : F) (xidx : Int) (xSize xGross xFees : F) (d st : Int) {out : List TradeRec} (h : Extends col recs out) :
    Extends col recs (fillEntryTrades A os col firstC lastC fs ff xidx xSize xGross xFees d st p out) := by
  unfold fillEntryTrades
  dsimp only
  generalize List.range' firstC (lastC + 1 - firstC) = l
  induction l generalizing out with
  | nil => exact h
  | cons c cs ih =>
    rw [List.foldl_cons]
    refine ih ?_
    unfold fillEntryStep
    cases os[c]? with
    | none => exact h
    | some o =>
      dsimp only
      split
      · exact h
      · exact h.snoc rfl hp

/-- Invariant of the loops over the orders of a column. -/
def EntryListed (col : Nat) (recs : List TradeRec) (s : EntryVars) : Prop :=
  -1 ≤ s.parentId ∧ (s.inPos = true → 0 ≤ s.parentId) ∧ Extends col recs s.records

theorem entryStep_listed {os : List OrderRec} {col : Nat} {recs : List TradeRec} {s s' : EntryVars} {x : OrderRec × Nat}
    (h : EntryListed col recs s) (he : entryStep A os col s x = .ok s') : EntryListed col recs s' := by
  unfold entryStep at he
  split at he
  · cases he
  split at he
  · cases he
  split at he
  · cases he
  dsimp only at he
  have ho : EntryListed col recs (({ s with lastId := (x.1.id : Int) } : EntryVars).opened x.2 x.1) ∧
      (({ s with lastId := (x.1.id : Int) } : EntryVars).opened x.2 x.1).inPos = true := by
    obtain ⟨h1, h2, h3⟩ := h
    unfold EntryVars.opened
    cases hp : s.inPos
    · rw [if_pos (by simp)]
      exact ⟨⟨by show -1 ≤ s.parentId + 1; omega, fun _ => by show 0 ≤ s.parentId + 1; omega, h3⟩, rfl⟩
    · rw [if_neg (by simp)]
      exact ⟨⟨h1, fun _ => h2 hp, h3⟩, rfl⟩
  generalize (({ s with lastId := (x.1.id : Int) } : EntryVars).opened x.2 x.1) = u at ho he
  obtain ⟨⟨h1, h2, h3⟩, hp⟩ := ho
  have h0 := h2 hp
  split at he
  · cases he; exact ⟨h1, h2, h3⟩
  split at he
  · cases he
    unfold entryExit
    dsimp only
    split
    · exact ⟨h1, (fun h => by cases h), fillEntryTrades_extends h0 _ _ _ _ _ _ _ _ _ _ _ h3⟩
    split
    · exact ⟨h1, h2, h3⟩
    · exact ⟨by show -1 ≤ u.parentId + 1; omega, fun _ => by show 0 ≤ u.parentId + 1; omega,
        fillEntryTrades_extends h0 _ _ _ _ _ _ _ _ _ _ _ h3⟩
  · cases he; exact ⟨h1, h2, h3⟩

theorem entryFinish_listed {os : List OrderRec} {col rows : Nat} {lastClose : F} {recs : List TradeRec} {s : EntryVars}
    (h : EntryListed col recs s) : EntryListed col recs (entryFinish A os col rows lastClose s) := by
  unfold entryFinish
  obtain ⟨h1, h2, h3⟩ := h
  by_cases hc : (s.inPos && isLess A s.xSize s.eSize) = true
  · rw [if_pos hc]
    exact ⟨h1, h2, fillEntryTrades_extends (h2 (by simp at hc; exact hc.1)) _ _ _ _ _ _ _ _ _ _ _ h3⟩
  · rw [if_neg hc]; exact ⟨h1, h2, h3⟩

/-- Invariant of the loops over the columns. -/
def Listed (n : Nat) (x : Int × List TradeRec) : Prop :=
  -1 ≤ x.1 ∧ ByColumn x.2 ∧ ∀ t ∈ x.2, t.col < n ∧ 0 ≤ t.parentId

theorem Listed.mono {n m : Nat} {x : Int × List TradeRec} (h : Listed n x) (hn : n ≤ m) : Listed m x :=
  ⟨h.1, h.2.1, fun t ht => ⟨by have := (h.2.2 t ht).1; omega, (h.2.2 t ht).2⟩⟩

theorem Listed.next {n : Nat} {x y : Int × List TradeRec} (h : Listed n x) (hp : -1 ≤ y.1) (he : Extends n x.2 y.2) :
    Listed (n + 1) y := by
  obtain ⟨-, h2, h3⟩ := h
  obtain ⟨new, e, hn⟩ := he
  refine ⟨hp, ?_, ?_⟩
  · unfold ByColumn at *
    rw [e, List.map_append, List.pairwise_append]
    refine ⟨h2, ?_, ?_⟩
    · rw [List.pairwise_map]
      exact List.pairwise_of_forall_mem_list (fun a ha b hb => by rw [(hn a ha).1, (hn b hb).1])
    · intro a ha b hb
      obtain ⟨t, ht, rfl⟩ := List.mem_map.mp ha
      obtain ⟨t', ht', rfl⟩ := List.mem_map.mp hb
      rw [(hn t' ht').1]
      exact (h3 t ht).1.le
  · intro t ht
    rw [e] at ht
    rcases List.mem_append.mp ht with ht | ht
    · exact ⟨by have := (h3 t ht).1; omega, (h3 t ht).2⟩
    · rw [(hn t ht).1]; exact ⟨Nat.lt_succ_self n, (hn t ht).2⟩

theorem listed_columns {f : Int × List TradeRec → Nat → Except Err (Int × List TradeRec)}
    (hf : ∀ x col y, f x col = .ok y → -1 ≤ x.1 → -1 ≤ y.1 ∧ Extends col x.2 y.2) {n : Nat} {y : Int × List TradeRec}
    (h : loopE f (-1, []) (List.range n) = .ok y) : Listed n y := by
  induction n generalizing y with
  | zero => cases h; exact ⟨le_refl (-1 : Int), List.Pairwise.nil, by simp⟩
  | succ n ih =>
    rw [List.range_succ] at h
    obtain ⟨z, h1, h2⟩ := loopE_append_ok h
    obtain ⟨w, h3, h4⟩ := loopE_cons_ok h2
    cases h4
    obtain ⟨h5, h6⟩ := hf _ _ _ h3 (ih h1).1
    exact (ih h1).next h5 h6

theorem getEntryTrades_listed {orders : List OrderRec} {junk : Nat → Nat} {rows nCols : Nat} {lastClose : Nat → F}
    {ts : List TradeRec} (h : getEntryTrades A orders junk rows nCols lastClose = .ok ts) :
    ByColumn ts ∧ ∀ t ∈ ts, t.col < nCols ∧ 0 ≤ t.parentId := by
  unfold getEntryTrades at h
  split at h
  · cases h
  · rename_i x hx
    cases h
    refine (listed_columns ?_ hx).2
    intro x col y hy hp
    unfold entryColumn at hy
    dsimp only at hy
    split at hy
    · cases hy; exact ⟨hp, Extends.refl _ _⟩
    · split at hy
      · cases hy
      · rename_i s hs
        cases hy
        have h0 : EntryListed col x.2 (EntryVars.start x.1 x.2) := ⟨hp, (fun h => by cases h), Extends.refl _ _⟩
        have := entryFinish_listed (A := A) (os := columnRecords orders junk col) (rows := rows) (lastClose := lastClose col)
          (loopE_inv (fun s z s' _ h he => entryStep_listed h he) h0 hs)
        exact ⟨this.1, this.2.2⟩

/-- Invariant of the loops over the orders of a column. -/
def ExitListed (col : Nat) (recs : List TradeRec) (s : ExitVars) : Prop :=
  -1 ≤ s.parentId ∧ (s.inPos = true → 0 ≤ s.parentId) ∧ Extends col recs s.records

theorem exitStep_listed {col : Nat} {recs : List TradeRec} {s s' : ExitVars} {o : OrderRec}
    (h : ExitListed col recs s) (he : exitStep A col s o = .ok s') : ExitListed col recs s' := by
  unfold exitStep at he
  split at he
  · cases he
  split at he
  · cases he
  split at he
  · cases he
  dsimp only at he
  have ho : ExitListed col recs (({ s with lastId := (o.id : Int) } : ExitVars).opened o) ∧
      (({ s with lastId := (o.id : Int) } : ExitVars).opened o).inPos = true := by
    obtain ⟨h1, h2, h3⟩ := h
    unfold ExitVars.opened
    cases hp : s.inPos
    · rw [if_pos (by simp)]
      exact ⟨⟨by show -1 ≤ s.parentId + 1; omega, fun _ => by show 0 ≤ s.parentId + 1; omega, h3⟩, rfl⟩
    · rw [if_neg (by simp)]
      exact ⟨⟨h1, fun _ => h2 hp, h3⟩, rfl⟩
  generalize (({ s with lastId := (o.id : Int) } : ExitVars).opened o) = u at ho he
  obtain ⟨⟨h1, h2, h3⟩, hp⟩ := ho
  have h0 := h2 hp
  split at he
  · cases he; exact ⟨h1, h2, h3⟩
  split at he
  · cases he
    unfold exitExit
    dsimp only
    split
    · split
      · exact ⟨h1, (fun h => by cases h), h3.snoc rfl h0⟩
      · exact ⟨h1, h2, h3.snoc rfl h0⟩
    · exact ⟨by show -1 ≤ u.parentId + 1; omega, fun _ => by show 0 ≤ u.parentId + 1; omega, h3.snoc rfl h0⟩
  · cases he; exact ⟨h1, h2, h3⟩

theorem exitFinish_listed {col rows : Nat} {lastClose : F} {recs : List TradeRec} {s : ExitVars}
    (h : ExitListed col recs s) : ExitListed col recs (exitFinish A col rows lastClose s) := by
  unfold exitFinish
  obtain ⟨h1, h2, h3⟩ := h
  by_cases hc : (s.inPos && isLess A (neg s.eSize) zero) = true
  · rw [if_pos hc]
    exact ⟨h1, h2, h3.snoc rfl (h2 (by simp at hc; exact hc.1))⟩
  · rw [if_neg hc]; exact ⟨h1, h2, h3⟩

theorem getExitTrades_listed {orders : List OrderRec} {junk : Nat → Nat} {rows nCols : Nat} {lastClose : Nat → F}
    {ts : List TradeRec} (h : getExitTrades A orders junk rows nCols lastClose = .ok ts) :
    ByColumn ts ∧ ∀ t ∈ ts, t.col < nCols ∧ 0 ≤ t.parentId := by
  unfold getExitTrades at h
  split at h
  · cases h
  · rename_i x hx
    cases h
    refine (listed_columns ?_ hx).2
    intro x col y hy hp
    unfold exitColumn at hy
    dsimp only at hy
    split at hy
    · cases hy; exact ⟨hp, Extends.refl _ _⟩
    · split at hy
      · cases hy
      · rename_i s hs
        cases hy
        have h0 : ExitListed col x.2 (ExitVars.start x.1 x.2) := ⟨hp, (fun h => by cases h), Extends.refl _ _⟩
        have := exitFinish_listed (A := A) (rows := rows) (lastClose := lastClose col)
          (loopE_inv (fun s z s' _ h he => exitStep_listed h he) h0 hs)
        exact ⟨this.1, this.2.2⟩

end Vbt.Rs
