import Verif.Spec.RustTrades
import Verif.Lemmas.Float
import Verif.Lemmas.Sim

/-!
# In exact arithmetic the trades of filled orders never divide by zero
-/

namespace Vbt
open F

variable {r t : ℚ}

/-- No division by zero, and the result satisfies `P`. -/
def FineE {α : Type} (P : α → Prop) (a : Except Err α) : Prop := a ≠ .error .zeroDivision ∧ ∀ s, a = .ok s → P s

theorem FineE.ok {α : Type} {P : α → Prop} {s : α} (h : P s) : FineE P (.ok s) :=
  ⟨fun e => (by cases e), fun _ e => (by cases e; exact h)⟩

theorem FineE.value {α : Type} {P : α → Prop} {m : String} : FineE P (.error (.valueError m) : Except Err α) :=
  ⟨fun e => (by cases e), fun _ e => (by cases e)⟩

theorem fineE_loop {σ α : Type} {P : σ → Prop} {f : σ → α → Except Err σ} {l : List α}
    (h : ∀ s x, x ∈ l → P s → FineE P (f s x)) {s : σ} (h0 : P s) : FineE P (loopE f s l) := by
  induction l generalizing s with
  | nil => exact FineE.ok h0
  | cons x xs ih =>
    unfold loopE
    have hf := h s x List.mem_cons_self h0
    cases e : f s x with
    | error err =>
      rw [e] at hf
      exact ⟨fun e' => hf.1 e', fun _ e' => by cases e'⟩
    | ok s' =>
      rw [e] at hf
      exact ih (fun s y hy => h s y (List.mem_cons_of_mem _ hy)) (hf.2 s' rfl)

theorem F.Positive.divE {b : F} (h : b.Positive) (A : Arith) (a : F) : divE A a b = .ok (div A a b) := by
  obtain ⟨q, hq, rfl⟩ := h
  unfold Vbt.divE
  rw [if_neg]
  simp only [zero_def, eqb_fin, decide_eq_true_eq]
  exact hq.ne'

theorem F.Positive.mul {a b : F} (ha : a.Positive) (hb : b.Positive) : (mul (Arith.exact r t) a b).Positive := by
  obtain ⟨p, hp, rfl⟩ := ha
  obtain ⟨q, hq, rfl⟩ := hb
  exact ⟨p * q, mul_pos hp hq, by rw [mul_exact]⟩

theorem F.Positive.add {a b : F} (ha : a.Positive) (hb : b.Positive) : (add (Arith.exact r t) a b).Positive := by
  obtain ⟨p, hp, rfl⟩ := ha
  obtain ⟨q, hq, rfl⟩ := hb
  exact ⟨p + q, add_pos hp hq, by rw [add_exact]⟩

theorem F.Positive.div {a b : F} (ha : a.Positive) (hb : b.Positive) : (div (Arith.exact r t) a b).Positive := by
  obtain ⟨p, hp, rfl⟩ := ha
  obtain ⟨q, hq, rfl⟩ := hb
  exact ⟨p / q, div_pos hp hq, by rw [div_exact _ _ _ _ hq.ne']⟩

theorem fillTradeRecord_positive {size ep : F} (h1 : size.Positive) (h2 : ep.Positive) (id : Int) (col : Nat) (eidx : Int) (ef : F)
    (xidx : Int) (xp xf : F) (d st p : Int) :
    ∃ x, fillTradeRecord (Arith.exact r t) id col size eidx ep ef xidx xp xf d st p = .ok x ∧ PositiveTrade x := by
  unfold fillTradeRecord tradeStats
  dsimp only
  rw [F.Positive.divE (h1.mul h2)]
  exact ⟨_, rfl, h1, h2⟩

theorem mem_snoc {α : Type} {P : α → Prop} {l : List α} {x : α} (h : ∀ y ∈ l, P y) (hx : P x) : ∀ y ∈ l ++ [x], P y := by
  intro y hy
  rcases List.mem_append.mp hy with hy | hy
  · exact h y hy
  · rw [List.mem_singleton.mp hy]; exact hx

/-! ## Entry trades -/

theorem fillEntryTrades_fine {os : List OrderRec} (ho : ∀ o ∈ os, PositiveOrder o) {xSize fs : F} (hx : xSize.Positive)
    (hf : fs.Positive) (col firstC lastC : Nat) (ff : F) (xidx : Int) (xGross xFees : F) (d st p : Int) {recs : List TradeRec}
    (hr : ∀ x ∈ recs, PositiveTrade x) :
    ∃ out, fillEntryTrades (Arith.exact r t) os col firstC lastC fs ff xidx xSize xGross xFees d st p recs = .ok out ∧
      ∀ x ∈ out, PositiveTrade x := by
  unfold fillEntryTrades
  generalize List.range' firstC (lastC + 1 - firstC) = l
  induction l generalizing recs with
  | nil => exact ⟨recs, rfl, hr⟩
  | cons c cs ih =>
    unfold loopE
    have : ∃ out, fillEntryStep (Arith.exact r t) os col firstC fs ff xidx xSize xGross xFees d st p recs c = .ok out ∧
        ∀ x ∈ out, PositiveTrade x := by
      unfold fillEntryStep
      cases hoc : os[c]? with
      | none => exact ⟨recs, rfl, hr⟩
      | some o =>
        dsimp only
        have hop := ho o (List.mem_of_getElem? hoc)
        split
        · exact ⟨recs, rfl, hr⟩
        · rw [hx.divE, hx.divE]
          dsimp only
          have hs : (if c = firstC then fs else o.size).Positive := by split; exacts [hf, hop.2.1]
          obtain ⟨x, e, hp⟩ := fillTradeRecord_positive (r := r) (t := t) hs hop.2.2 (recs.length : Int) col (o.idx : Int)
            (if c = firstC then ff else o.fees) xidx (F.div (Arith.exact r t) xGross xSize)
            (F.mul (Arith.exact r t) (F.div (Arith.exact r t) (if c = firstC then fs else o.size) xSize) xFees) d st p
          rw [e]
          exact ⟨_, rfl, mem_snoc hr hp⟩
    obtain ⟨out, e, h⟩ := this
    rw [e]
    exact ih h

/-- The sizes within a position. -/
def EntryFine (s : EntryState) : Prop :=
  (∀ x ∈ s.records, PositiveTrade x) ∧
    (s.inPos = true → s.firstSize.Positive ∧ ∃ e x : ℚ, s.eSize = fin e ∧ s.xSize = fin x ∧ 0 < e ∧ 0 ≤ x ∧ x ≤ e)

theorem remaining_cases {e x : ℚ} : ∃ m : ℚ, addNb (Arith.exact r t) (fin e) (neg (fin x)) = fin m ∧ (m = 0 ∨ m = e - x) := by
  rw [neg_fin]
  rcases addNb_exact_cases r t e (-x) with h | h
  · exact ⟨0, h, .inl rfl⟩
  · exact ⟨e + -x, h, .inr (by ring)⟩

/-- What opens after a reversal is not zero. -/
theorem reversed_positive (hr0 : 0 ≤ r) {e x q m : ℚ} (he : 0 < e) (hx : 0 ≤ x) (hxe : x ≤ e) (hq : 0 < q)
    (hc : ¬ Close r t (x + q) e) (hl : ¬ x + q < e) (hm : m = 0 ∨ m = e - x) :
    (addNb (Arith.exact r t) (fin q) (neg (fin m))).Positive := by
  have hne : x + q ≠ e := fun h => hc (.inl h)
  have hlt : e < x + q := lt_of_le_of_ne (not_lt.mp hl) hne.symm
  have hm0 : 0 ≤ m := by rcases hm with rfl | rfl <;> linarith
  have hmq : m < q := by rcases hm with rfl | rfl <;> linarith
  have hbig : max (r * max |x + q| |e|) t < x + q - e := by
    have : ¬ |x + q - e| ≤ max (r * max |x + q| |e|) t := fun h => hc (.inr h)
    rw [abs_of_pos (by linarith)] at this
    exact not_le.mp this
  rw [neg_fin]
  rcases addNb_exact r t q (-m) with ⟨hs, -⟩ | ⟨-, h⟩
  · exfalso
    have hcl : Close r t q m := by
      unfold Snap at hs
      rw [if_neg] at hs
      · rwa [abs_neg, abs_of_pos hq, abs_of_nonneg hm0] at hs
      · rcases sign_fin_cases q with ⟨h, _⟩ | ⟨h, _⟩ | ⟨_, h⟩
        · linarith
        · linarith
        · rcases sign_fin_cases (-m) with ⟨_, h'⟩ | ⟨_, h'⟩ | ⟨h', _⟩
          · rw [h, h']; intro e; injection e with e; norm_num at e
          · rw [h, h']; intro e; injection e with e; norm_num at e
          · linarith
    rcases hcl with h | h
    · linarith
    · rw [abs_of_pos (by linarith), abs_of_pos hq, abs_of_nonneg hm0, max_eq_left hmq.le] at h
      have h1 : r * q ≤ r * max |x + q| |e| := by
        apply mul_le_mul_of_nonneg_left _ hr0
        exact le_trans (by rw [abs_of_pos (by linarith)]; linarith) (le_max_left _ _)
      have h2 : max (r * q) t ≤ max (r * max |x + q| |e|) t := max_le_max h1 le_rfl
      have h3 : x + q - e ≤ q - m := by rcases hm with rfl | rfl <;> linarith
      linarith
  · exact ⟨q + -m, by linarith, h⟩

theorem entryStep_fine (hr0 : 0 ≤ r) {os : List OrderRec} (ho : ∀ o ∈ os, PositiveOrder o) (col : Nat) {s : EntryState}
    (h : EntryFine s) {x : OrderRec × Nat} (hx : PositiveOrder x.1) : FineE EntryFine (entryStep (Arith.exact r t) os col s x) := by
  unfold entryStep
  split
  · exact FineE.value
  split
  · exact FineE.value
  split
  · exact FineE.value
  dsimp only
  obtain ⟨hside, ⟨q, hq, hsz⟩, hpr⟩ := hx
  have hops : (x.1.size).Positive := ⟨q, hq, hsz⟩
  have hd : (({ s with lastId := (x.1.id : Int) } : EntryState).opened x.2 x.1).inPos = true := by
    unfold EntryState.opened
    split
    · assumption
    · rfl
  have hrec : ∀ y ∈ (({ s with lastId := (x.1.id : Int) } : EntryState).opened x.2 x.1).records, PositiveTrade y := by
    unfold EntryState.opened
    split <;> exact h.1
  -- either the position was open before, or nothing has been entered and the order is an entry
  have hcase : (∃ e y : ℚ, (({ s with lastId := (x.1.id : Int) } : EntryState).opened x.2 x.1).eSize = fin e ∧
        (({ s with lastId := (x.1.id : Int) } : EntryState).opened x.2 x.1).xSize = fin y ∧ 0 ≤ y ∧ y ≤ e ∧
        (0 < e ∨ isEntry (({ s with lastId := (x.1.id : Int) } : EntryState).opened x.2 x.1).direction x.1.side = true)) ∧
      (({ s with lastId := (x.1.id : Int) } : EntryState).opened x.2 x.1).firstSize.Positive := by
    unfold EntryState.opened
    cases hp : s.inPos
    · rw [if_neg (by simp)]
      refine ⟨⟨0, 0, rfl, rfl, le_rfl, le_rfl, .inr ?_⟩, hops⟩
      dsimp only
      rcases hside with hb | hb <;> rw [hb] <;> decide
    · rw [if_pos (by simp)]
      obtain ⟨hf, e, y, h1, h2, h3, h4, h5⟩ := h.2 hp
      exact ⟨⟨e, y, h1, h2, h4, h5, .inl h3⟩, hf⟩
  generalize (({ s with lastId := (x.1.id : Int) } : EntryState).opened x.2 x.1) = u at hd hrec hcase ⊢
  obtain ⟨⟨e, y, h1, h2, h3, h4, h5⟩, hfs⟩ := hcase
  by_cases hen : isEntry u.direction x.1.side = true
  · rw [if_pos hen]
    refine FineE.ok ⟨hrec, fun _ => ⟨hfs, e + q, y, ?_, h2, ?_, h3, ?_⟩⟩
    · show F.add (Arith.exact r t) u.eSize x.1.size = _
      rw [h1, hsz, add_exact]
    · linarith
    · linarith
  have he : 0 < e := h5.resolve_right hen
  rw [if_neg hen]
  split
  · rename_i hexit
    have hes : u.eSize.Positive := ⟨e, he, h1⟩
    unfold entryExit
    split
    · obtain ⟨out, eo, hout⟩ := fillEntryTrades_fine (r := r) (t := t) ho hes hfs col u.firstC x.2 u.firstFees (x.1.idx : Int)
        (F.add (Arith.exact r t) u.xGross (F.mul (Arith.exact r t) x.1.size x.1.price))
        (F.add (Arith.exact r t) u.xFees x.1.fees) u.direction TradeStatus.Closed u.parentId hrec
      dsimp only
      rw [eo]
      exact FineE.ok ⟨hout, fun h => by cases h⟩
    rename_i hc
    have hsum : F.add (Arith.exact r t) u.xSize x.1.size = fin (y + q) := by rw [h2, hsz, add_exact]
    rw [hsum, h1, Bool.not_eq_true, ← Bool.not_eq_true, isClose_exact] at hc
    split
    · rename_i hl
      refine FineE.ok ⟨hrec, fun _ => ⟨hfs, e, y + q, h1, hsum, he, by linarith, ?_⟩⟩
      rw [hsum, h1] at hl
      unfold isLess at hl
      split at hl
      · cases hl
      · simp only [lt_fin, decide_eq_true_eq] at hl
        exact hl.le
    · rename_i hl
      have hl' : ¬ y + q < e := by
        intro hlt
        apply hl
        rw [hsum, h1]
        unfold isLess
        rw [if_neg (by rw [isClose_exact]; exact hc)]
        simpa using hlt
      obtain ⟨m, em, hm⟩ := remaining_cases (r := r) (t := t) (e := e) (x := y)
      have hnew := reversed_positive (r := r) (t := t) hr0 he h3 h4 hq hc hl' hm
      rw [h1, h2, em]
      dsimp only
      rw [hops.divE]
      dsimp only
      obtain ⟨out, eo, hout⟩ := fillEntryTrades_fine (r := r) (t := t) ho (⟨e, he, rfl⟩ : (fin e).Positive) hfs col u.firstC x.2
        u.firstFees (x.1.idx : Int) (F.add (Arith.exact r t) u.xGross (F.mul (Arith.exact r t) (fin m) x.1.price))
        (F.add (Arith.exact r t) u.xFees (F.mul (Arith.exact r t) (F.div (Arith.exact r t) (fin m) x.1.size) x.1.fees))
        u.direction TradeStatus.Closed u.parentId hrec
      rw [eo]
      dsimp only
      rw [hops.divE]
      dsimp only
      rw [hsz]
      obtain ⟨w, hw, ew⟩ := hnew
      refine FineE.ok ⟨hout, fun _ => ⟨⟨w, hw, ew⟩, w, 0, ew, rfl, hw, le_rfl, hw.le⟩⟩
  · exact FineE.ok ⟨hrec, fun _ => ⟨hfs, e, y, h1, h2, he, h3, h4⟩⟩

theorem entryFinish_fine {os : List OrderRec} (ho : ∀ o ∈ os, PositiveOrder o) (col rows : Nat) (lastClose : F) {s : EntryState}
    (h : EntryFine s) :
    FineE (fun s => ∀ x ∈ s.records, PositiveTrade x) (entryFinish (Arith.exact r t) os col rows lastClose s) := by
  unfold entryFinish
  split
  · rename_i hp
    rw [Bool.and_eq_true] at hp
    obtain ⟨hf, e, y, h1, -, he, -⟩ := h.2 hp.1
    obtain ⟨out, eo, hout⟩ := fillEntryTrades_fine (r := r) (t := t) ho (⟨e, he, h1⟩ : s.eSize.Positive) hf col s.firstC
      (os.length - 1) s.firstFees ((rows : Int) - 1)
      (F.add (Arith.exact r t) s.xGross (F.mul (Arith.exact r t) (addNb (Arith.exact r t) s.eSize (neg s.xSize)) lastClose))
      s.xFees s.direction TradeStatus.Open s.parentId h.1
    dsimp only
    rw [eo]
    exact FineE.ok hout
  · exact FineE.ok h.1

theorem column_mem {orders : List OrderRec} {junk : Nat → Nat} {col : Nat} {o : OrderRec}
    (h : o ∈ columnRecords orders junk col) : o ∈ orders := by
  unfold columnRecords takeIdxs at h
  obtain ⟨i, _, hi⟩ := List.mem_filterMap.mp h
  exact List.mem_of_getElem? hi

theorem FineE.err {α β : Type} {P : α → Prop} {Q : β → Prop} {a : Except Err α} {e : Err} (h : FineE P a) (ha : a = .error e) :
    FineE Q (.error e : Except Err β) := by
  subst ha
  exact ⟨fun e' => h.1 (by injection e' with e'; rw [e']), fun _ e' => (by cases e')⟩

theorem getEntryTrades_fine (hr0 : 0 ≤ r) {orders : List OrderRec} (ho : ∀ o ∈ orders, PositiveOrder o) (junk : Nat → Nat)
    (rows nCols : Nat) (lastClose : Nat → F) :
    FineE (fun ts => ∀ x ∈ ts, PositiveTrade x) (getEntryTrades (Arith.exact r t) orders junk rows nCols lastClose) := by
  unfold getEntryTrades
  suffices hl : FineE (fun x : Int × List TradeRec => ∀ y ∈ x.2, PositiveTrade y)
      (loopE (entryColumn (Arith.exact r t) orders junk rows lastClose) (-1, []) (List.range nCols)) by
    split
    · rename_i e he
      exact hl.err he
    · rename_i x hx
      exact FineE.ok (hl.2 x hx)
  refine fineE_loop (fun x col _ hx => ?_) (fun y hy => by cases hy)
  unfold entryColumn
  dsimp only
  have hos : ∀ o ∈ columnRecords orders junk col, PositiveOrder o := fun o h => ho o (column_mem h)
  split
  · exact FineE.ok hx
  have hloop : FineE EntryFine (loopE (entryStep (Arith.exact r t) (columnRecords orders junk col) col)
      (EntryState.start x.1 x.2) (columnRecords orders junk col).zipIdx) := by
    refine fineE_loop (fun s y hy hs => entryStep_fine hr0 hos col hs (hos _ ?_)) ⟨hx, fun h => by cases h⟩
    exact (List.mem_zipIdx' hy).2 ▸ List.getElem_mem _
  split
  · rename_i e he
    exact hloop.err he
  · rename_i s he
    have hfin := entryFinish_fine (r := r) (t := t) hos col rows (lastClose col) (hloop.2 s he)
    split
    · rename_i e he
      exact hfin.err he
    · rename_i s' he'
      exact FineE.ok (hfin.2 s' he')

/-! ## Exit trades -/

/-- What has been entered is positive. -/
def ExitFine (s : ExitState) : Prop :=
  (∀ x ∈ s.records, PositiveTrade x) ∧ (s.inPos = true → s.eSize.Positive ∧ s.eGross.Positive)

theorem exitRecord_fine (col : Nat) {s : ExitState} (h1 : s.eSize.Positive) (h2 : s.eGross.Positive) {size : F} (hs : size.Positive)
    (xidx : Int) (xp xf : F) (st : Int) :
    ∃ x, exitRecord (Arith.exact r t) col s size xidx xp xf st = .ok x ∧ PositiveTrade x := by
  unfold exitRecord
  rw [h1.divE, h1.divE]
  exact fillTradeRecord_positive hs (h2.div h1) _ _ _ _ _ _ _ _ _ _

theorem exitExit_fine (col : Nat) {s : ExitState} (h1 : s.eSize.Positive) (h2 : s.eGross.Positive)
    (hrec : ∀ x ∈ s.records, PositiveTrade x) {o : OrderRec} (ho : PositiveOrder o) :
    FineE ExitFine (exitExit (Arith.exact r t) col s o) := by
  obtain ⟨-, hsz, hpr⟩ := ho
  unfold exitExit
  obtain ⟨q, hq, eq⟩ := hsz
  obtain ⟨e, he, ee⟩ := h1
  have hsz : o.size.Positive := ⟨q, hq, eq⟩
  have h1 : s.eSize.Positive := ⟨e, he, ee⟩
  by_cases hl : isCloseOrLess (Arith.exact r t) o.size s.eSize = true
  · rw [if_pos hl]
    have hx : (if isClose (Arith.exact r t) o.size s.eSize = true then s.eSize else o.size).Positive := by
      split; exacts [h1, hsz]
    obtain ⟨x, ex, hxp⟩ := exitRecord_fine (r := r) (t := t) col h1 h2 hx o.idx o.price o.fees TradeStatus.Closed
    dsimp only
    rw [ex]
    dsimp only
    by_cases hc : isClose (Arith.exact r t) o.size s.eSize = true
    · rw [if_pos hc]
      exact FineE.ok ⟨mem_snoc hrec hxp, fun h => by cases h⟩
    · rw [if_neg hc, h1.divE]
      have hlt : q < e := by
        unfold isCloseOrLess at hl
        rw [if_neg hc, eq, ee] at hl
        simpa using hl
      have hd : (F.sub (Arith.exact r t) s.eSize o.size).Positive :=
        ⟨e - q, by linarith, by rw [eq, ee, sub_exact]⟩
      have hfr := hd.div (r := r) (t := t) h1
      exact FineE.ok ⟨mem_snoc hrec hxp, fun _ => ⟨h1.mul hfr, h2.mul hfr⟩⟩
  · rw [if_neg hl, hsz.divE]
    obtain ⟨x, ex, hxp⟩ := exitRecord_fine (r := r) (t := t) col h1 h2 h1 o.idx o.price
      (F.mul (Arith.exact r t) (F.div (Arith.exact r t) s.eSize o.size) o.fees) TradeStatus.Closed
    dsimp only
    rw [ex]
    have hlt : e < q := by
      unfold isCloseOrLess at hl
      split at hl
      · exact absurd rfl hl
      · rename_i hc
        rw [eq, ee] at hl hc
        have h3 : ¬ q < e := by simpa using hl
        rw [isClose_exact] at hc
        exact lt_of_le_of_ne (not_lt.mp h3) (fun h => hc (.inl h.symm))
    have hd : (F.sub (Arith.exact r t) o.size s.eSize).Positive :=
      ⟨q - e, by linarith, by rw [eq, ee, sub_exact]⟩
    exact FineE.ok ⟨mem_snoc hrec hxp, fun _ => ⟨hd, hd.mul hpr⟩⟩

theorem exitStep_fine (col : Nat) {s : ExitState} (h : ExitFine s) {o : OrderRec} (ho : PositiveOrder o) :
    FineE ExitFine (exitStep (Arith.exact r t) col s o) := by
  unfold exitStep
  split
  · exact FineE.value
  split
  · exact FineE.value
  split
  · exact FineE.value
  dsimp only
  have hd : (({ s with lastId := (o.id : Int) } : ExitState).opened o).inPos = true := by
    unfold ExitState.opened
    split
    · assumption
    · rfl
  have hrec : ∀ y ∈ (({ s with lastId := (o.id : Int) } : ExitState).opened o).records, PositiveTrade y := by
    unfold ExitState.opened
    split <;> exact h.1
  have hcase : (({ s with lastId := (o.id : Int) } : ExitState).opened o).eSize.Positive ∧
        (({ s with lastId := (o.id : Int) } : ExitState).opened o).eGross.Positive ∨
      (({ s with lastId := (o.id : Int) } : ExitState).opened o).eSize = zero ∧
        (({ s with lastId := (o.id : Int) } : ExitState).opened o).eGross = zero ∧
        isEntry (({ s with lastId := (o.id : Int) } : ExitState).opened o).direction o.side = true := by
    unfold ExitState.opened
    cases hp : s.inPos
    · rw [if_neg (by simp)]
      refine .inr ⟨rfl, rfl, ?_⟩
      dsimp only
      rcases ho.1 with hb | hb <;> rw [hb] <;> decide
    · rw [if_pos (by simp)]
      exact .inl (h.2 hp)
  generalize (({ s with lastId := (o.id : Int) } : ExitState).opened o) = u at hd hrec hcase ⊢
  have hzero : ∀ x : F, x.Positive → (F.add (Arith.exact r t) zero x).Positive := by
    rintro x ⟨q, hq, rfl⟩
    exact ⟨0 + q, by linarith, by rw [zero_def, add_exact]⟩
  by_cases hen : isEntry u.direction o.side = true
  · rw [if_pos hen]
    refine FineE.ok ⟨hrec, fun _ => ?_⟩
    rcases hcase with ⟨h1, h2⟩ | ⟨h1, h2, -⟩
    · exact ⟨h1.add ho.2.1, h2.add (ho.2.1.mul ho.2.2)⟩
    · dsimp only
      rw [h1, h2]
      exact ⟨hzero _ ho.2.1, hzero _ (ho.2.1.mul ho.2.2)⟩
  · rw [if_neg hen]
    have hpos := hcase.resolve_right (fun h => hen h.2.2)
    split
    · exact exitExit_fine col hpos.1 hpos.2 hrec ho
    · exact FineE.ok ⟨hrec, fun _ => hpos⟩

theorem exitFinish_fine (col rows : Nat) (lastClose : F) {s : ExitState} (h : ExitFine s) :
    FineE (fun s => ∀ x ∈ s.records, PositiveTrade x) (exitFinish (Arith.exact r t) col rows lastClose s) := by
  unfold exitFinish
  split
  · rename_i hp
    rw [Bool.and_eq_true] at hp
    obtain ⟨h1, h2⟩ := h.2 hp.1
    obtain ⟨x, ex, hx⟩ := exitRecord_fine (r := r) (t := t) col h1 h2 h1 ((rows : Int) - 1) lastClose zero TradeStatus.Open
    rw [ex]
    exact FineE.ok (mem_snoc h.1 hx)
  · exact FineE.ok h.1

theorem getExitTrades_fine {orders : List OrderRec} (ho : ∀ o ∈ orders, PositiveOrder o) (junk : Nat → Nat)
    (rows nCols : Nat) (lastClose : Nat → F) :
    FineE (fun ts => ∀ x ∈ ts, PositiveTrade x) (getExitTrades (Arith.exact r t) orders junk rows nCols lastClose) := by
  unfold getExitTrades
  suffices hl : FineE (fun x : Int × List TradeRec => ∀ y ∈ x.2, PositiveTrade y)
      (loopE (exitColumn (Arith.exact r t) orders junk rows lastClose) (-1, []) (List.range nCols)) by
    split
    · rename_i e he
      exact hl.err he
    · rename_i x hx
      exact FineE.ok (hl.2 x hx)
  refine fineE_loop (fun x col _ hx => ?_) (fun y hy => by cases hy)
  unfold exitColumn
  dsimp only
  have hos : ∀ o ∈ columnRecords orders junk col, PositiveOrder o := fun o h => ho o (column_mem h)
  split
  · exact FineE.ok hx
  have hloop : FineE ExitFine (loopE (exitStep (Arith.exact r t) col) (ExitState.start x.1 x.2)
      (columnRecords orders junk col)) :=
    fineE_loop (fun s y hy hs => exitStep_fine col hs (hos _ hy)) ⟨hx, fun h => by cases h⟩
  split
  · rename_i e he
    exact hloop.err he
  · rename_i s he
    have hfin := exitFinish_fine (r := r) (t := t) col rows (lastClose col) (hloop.2 s he)
    split
    · rename_i e he
      exact hfin.err he
    · rename_i s' he'
      exact FineE.ok (hfin.2 s' he')

/-! ## Positions -/

theorem npSum_positive {l : List F} (h : ∀ x ∈ l, x.Positive) (hl : l ≠ []) : (npSum (Arith.exact r t) l).Positive := by
  unfold npSum
  have key : ∀ (l : List F) (a : F), a.Positive → (∀ x ∈ l, x.Positive) → (l.foldl (F.add (Arith.exact r t)) a).Positive := by
    intro l
    induction l with
    | nil => exact fun a ha _ => ha
    | cons x xs ih =>
      exact fun a ha hx => ih _ (ha.add (hx x List.mem_cons_self)) (fun y hy => hx y (List.mem_cons_of_mem _ hy))
  cases l with
  | nil => exact absurd rfl hl
  | cons x xs =>
    refine key xs _ ?_ (fun y hy => h y (List.mem_cons_of_mem _ hy))
    obtain ⟨q, hq, rfl⟩ := h x List.mem_cons_self
    exact ⟨0 + q, by linarith, by rw [zero_def, add_exact]⟩

theorem positionRecord_fine {trades : List TradeRec} (h : ∀ x ∈ trades, PositiveTrade x) (pidx from_ until_ : Nat) :
    FineE (fun _ => True) (positionRecord (Arith.exact r t) pidx trades from_ until_) := by
  unfold positionRecord
  dsimp only
  have hts : ∀ x ∈ (trades.take until_).drop from_, PositiveTrade x :=
    fun x hx => h x (List.mem_of_mem_take (List.mem_of_mem_drop hx))
  generalize (trades.take until_).drop from_ = ts at hts ⊢
  split
  · rename_i first last hf _
    split
    · have hne : ts ≠ [] := by rintro rfl; cases hf
      unfold fillPosition
      have h1 : (npSum (Arith.exact r t) (ts.map (·.size))).Positive :=
        npSum_positive (fun x hx => by obtain ⟨y, hy, rfl⟩ := List.mem_map.mp hx; exact (hts y hy).1) (by simpa using hne)
      have h2 : (npSum (Arith.exact r t) (ts.map fun t' => F.mul (Arith.exact r t) t'.size t'.entryPrice)).Positive :=
        npSum_positive (fun x hx => by
          obtain ⟨y, hy, rfl⟩ := List.mem_map.mp hx
          exact (hts y hy).1.mul (hts y hy).2) (by simpa using hne)
      dsimp only
      rw [h1.divE, h1.divE]
      obtain ⟨x, ex, -⟩ := fillTradeRecord_positive (r := r) (t := t) h1 (h2.div (r := r) (t := t) h1) pidx first.col first.entryIdx
        (npSum (Arith.exact r t) (ts.map (·.entryFees))) last.exitIdx
        (F.div (Arith.exact r t) (npSum (Arith.exact r t) (ts.map fun t' => F.mul (Arith.exact r t) t'.size t'.exitPrice))
          (npSum (Arith.exact r t) (ts.map (·.size))))
        (npSum (Arith.exact r t) (ts.map (·.exitFees))) last.direction last.status pidx
      dsimp only
      rw [ex]
      exact FineE.ok trivial
    · exact FineE.ok trivial
  · exact ⟨fun e => (by cases e), fun _ _ => trivial⟩

theorem getPositions_fine {trades : List TradeRec} (h : ∀ x ∈ trades, PositiveTrade x) (junk : Nat → Nat) (nCols : Nat) :
    FineE (fun _ => True) (getPositions (Arith.exact r t) trades junk nCols) := by
  unfold getPositions
  refine fineE_loop (fun records col _ _ => ?_) trivial
  unfold posColumn
  dsimp only
  split
  · exact FineE.ok trivial
  suffices hl : FineE (fun _ => True) (loopE (posStep (Arith.exact r t) trades)
      { lastId := -1, lastPosId := -1, fromTidx := 0, tidx := 0, records := records }
      ((colMap (List.map (fun x => x.col) trades) junk).col col)) by
    split
    · rename_i e he
      exact hl.err he
    · split
      · rename_i e he
        exact (positionRecord_fine h _ _ _).err he
      · exact FineE.ok trivial
  refine fineE_loop (fun s i _ _ => ?_) trivial
  unfold posStep
  split
  · exact ⟨fun e => (by cases e), fun _ _ => trivial⟩
  · split
    · exact FineE.value
    split
    · split
      · split
        · rename_i e he
          exact (positionRecord_fine h _ _ _).err he
        · exact FineE.ok trivial
      · exact FineE.ok trivial
    · exact FineE.ok trivial

end Vbt
