import Verif.Lemmas.Trades

/-! Both functions on whole columns and on all columns. -/

namespace Vbt
open F

variable {r t : ℚ}

/-- What is known about the orders of a column. -/
structure History (r t : ℚ) (os : List OrderRec) (qs : List Fill) : Prop where
  is : List.Forall₂ Fill.Is qs os
  ok : ∀ q ∈ qs, q.Ok
  ids : qs.Pairwise fun a b => a.id ≤ b.id
  clear : Clear r t qs

theorem forall₂_get {α β : Type} {R : α → β → Prop} {l : List α} {m : List β} (h : List.Forall₂ R l m) {pre post : List β} {y : β}
    (e : m = pre ++ y :: post) : ∃ x, l = l.take pre.length ++ x :: l.drop (pre.length + 1) ∧ R x y ∧
      l.take (pre.length + 1) = l.take pre.length ++ [x] ∧ (l.take pre.length).length = pre.length := by
  have hlen := h.length_eq
  have hp : pre.length < l.length := by rw [hlen, e]; simp
  have hp' : pre.length < m.length := by rw [e]; simp
  refine ⟨l[pre.length], ?_, ?_, ?_, ?_⟩
  · rw [List.getElem_cons_drop, List.take_append_drop]
  · have := (List.forall₂_iff_get.mp h).2 pre.length hp hp'
    simp only [List.get_eq_getElem] at this
    have e2 : m[pre.length] = y := by subst e; simp
    rwa [e2] at this
  · rw [List.take_add_one, List.getElem?_eq_getElem hp]; rfl
  · rw [List.length_take]; omega

theorem History.at {os : List OrderRec} {qs : List Fill} (h : History r t os qs) {pre post : List OrderRec} {o : OrderRec}
    (e : os = pre ++ o :: post) :
    ∃ q, q.Is o ∧ q.Ok ∧ (∀ x ∈ qs.take pre.length, x.Ok) ∧ (∀ x ∈ qs.take pre.length, x.id ≤ q.id) ∧
      ClearStep r t (split (qs.take pre.length)) q ∧ qs.take (pre.length + 1) = qs.take pre.length ++ [q] ∧
      (qs.take pre.length).length = pre.length := by
  obtain ⟨q, e1, hq, e2, e3⟩ := forall₂_get h.is e
  refine ⟨q, hq, h.ok q (by rw [e1]; simp), fun x hx => h.ok x (List.mem_of_mem_take hx), ?_, h.clear.step _ _ _ e1, e2, e3⟩
  have := h.ids
  rw [e1, List.pairwise_append] at this
  exact fun x hx => this.2.2 x hx q List.mem_cons_self

/-! ## Entry trades -/

theorem entryLoop {os : List OrderRec} {qs : List Fill} (h : History r t os qs) (col : Nat) (par : Int)
    (recs : List TradeRec) :
    ∃ s, loopE (entryStep (Arith.exact r t) os col) (EntryState.start par recs) os.zipIdx = .ok s ∧
      EntryInv r t os col par recs qs s := by
  have hlen := h.is.length_eq
  obtain ⟨s, e, hI⟩ := loopE_prefix (f := entryStep (Arith.exact r t) os col)
    (I := fun pre s => EntryInv r t os col par recs (qs.take pre.length) s) (l := os.zipIdx)
    (s := EntryState.start par recs) (by
      intro pre x post s e hI
      have e' : os = pre.map Prod.fst ++ x.1 :: post.map Prod.fst := by
        have := congrArg (List.map Prod.fst) e
        rwa [List.zipIdx_map_fst, List.map_append, List.map_cons] at this
      have hx2 : x.2 = pre.length := by
        have h1 : (os.zipIdx)[pre.length]? = some x := by rw [e]; simp
        rw [List.getElem?_zipIdx] at h1
        cases h2 : os[pre.length]? with
        | none => rw [h2] at h1; cases h1
        | some o => rw [h2] at h1; simp at h1; rw [← h1]
      have hget : os[pre.length]? = some x.1 := by rw [e']; simp
      obtain ⟨q, g1, g2, g3, g4, g5, g6, g7⟩ := h.at e'
      rw [List.length_map] at g3 g4 g5 g6 g7
      obtain ⟨s', e1, hI'⟩ := entryStep_inv g1 g2 g3 (by rw [g7]; exact hget) g4 g5 hI
      rw [g7] at e1
      refine ⟨s', ?_, ?_⟩
      · rw [show x = (x.1, pre.length) from by rw [← hx2]]; exact e1
      · rw [List.length_append, List.length_singleton, g6]; exact hI')
    (by
      constructor
      · rfl
      · simp [EntryState.start, split, blocks, numbered]
      · simp [EntryState.start, split]
      · rfl
      · intro _ _ h; simp [split] at h)
  refine ⟨s, e, ?_⟩
  rw [List.length_zipIdx, ← hlen, List.take_length] at hI
  exact hI

theorem blocks_single (f : Int → Pos → List TradeRec) (k : Int) (p : Pos) : blocks f k [p] = f k p := by simp [blocks]

theorem entryFinish_inv {os : List OrderRec} {qs : List Fill} (h : History r t os qs) {col : Nat} {par : Int}
    {recs : List TradeRec} {s : EntryState} (hs : EntryInv r t os col par recs qs s) (rows : Nat) (close : ℚ) :
    ∃ s', entryFinish (Arith.exact r t) os col rows (fin close) s = .ok s' ∧
      s'.parentId = par + (positionsOf qs ((rows : Int) - 1) close).length ∧
      s'.records = recs ++ numbered recs.length
        (blocks (entryBlock (Arith.exact r t) col) (par + 1) (positionsOf qs ((rows : Int) - 1) close)) := by
  obtain ⟨hcl, hcur⟩ := split_ok h.ok
  unfold entryFinish positionsOf
  have hpar := hs.parent
  cases hc : (split qs).2 with
  | none =>
    have hin : s.inPos = false := by rw [hs.inPos, hc]; rfl
    rw [hin]
    rw [hc] at hpar
    refine ⟨s, rfl, by simpa using hpar, hs.records⟩
  | some x =>
    obtain ⟨long, evs⟩ := x
    have hin : s.inPos = true := by rw [hs.inPos, hc]; rfl
    obtain ⟨c1, c2, c3, c4, c5, c6, c7, c8, c9⟩ := hs.cur long evs hc
    obtain ⟨hev, hleft⟩ := hcur _ hc
    obtain ⟨t1, t2, t3⟩ := h.clear.last long evs hc
    simp only at hev hleft
    rw [hc] at hpar
    simp only [Option.isSome_some, if_true] at hpar
    have hlt : exited evs < entered evs := by unfold left at hleft; linarith
    rw [hin, c5, c2, isLess_noTie t1, if_pos (by simpa using hlt), neg_fin,
      addNb_noTie hev.entered_pos hev.exited_nonneg t2, c6, c7, c1]
    have hlen := h.is.length_eq
    have hqs : 0 < qs.length := by
      rw [← c8]
      obtain ⟨e0, es, rfl, _⟩ := hev.first; simp
    -- the valuation at the close is no order: the entries come from the orders alone
    have hf := fillEntry_loop (r := r) (t := t) (os := os) (col := col) (firstC := s.firstC) (firstSize := s.firstSize)
      (firstFees := s.firstFees) (xidx := (rows : Int) - 1) (k := s.parentId) (X := entered evs)
      (G := exitGross evs + (entered evs - exited evs) * close) (W := exitFees evs) (long := long) (open_ := true)
      hev.entered_pos.ne' evs s.firstC s.records c9 (fun e he hn => ⟨(hev.size e he).ne', (hev.price e he hn).ne'⟩)
    have hft : fillEntryTrades (Arith.exact r t) os col s.firstC (os.length - 1) s.firstSize s.firstFees ((rows : Int) - 1)
        (fin (entered evs)) (fin (exitGross evs + (entered evs - exited evs) * close)) (fin (exitFees evs)) (dirOf long)
        TradeStatus.Open s.parentId s.records = .ok (s.records ++ numbered s.records.length
          (entryBlock (Arith.exact r t) col s.parentId
            ⟨long, evs ++ [⟨false, (rows : Int) - 1, left evs, close, 0⟩], true⟩)) := by
      unfold fillEntryTrades
      rw [show os.length - 1 + 1 - s.firstC = evs.length by omega]
      rw [show TradeStatus.Open = statusOf true from rfl, hf]
      obtain ⟨z1, z2, z3, z4, z5, z6⟩ := sums_exit evs ((rows : Int) - 1) (left evs) close 0
      unfold entryBlock
      simp only
      rw [lastIdx_snoc, z1, z4, z6, List.filter_append]
      simp [left]
    dsimp only
    rw [mul_exact, add_exact, hft]
    refine ⟨_, rfl, ?_, ?_⟩
    · simp only [List.length_append, List.length_singleton]; push_cast; rw [hpar]; ring
    · simp only
      rw [blocks_append, blocks_single, numbered_append, ← List.append_assoc, ← hs.records]
      congr 1
      rw [hpar]
      congr 1
      · rw [hs.records]; simp
      · rw [show par + 1 + ((split qs).1.length : Int) = par + ((split qs).1.length : Int) + 1 by ring]

theorem positionsOf_nil (last : Int) (close : ℚ) : positionsOf [] last close = [] := rfl

theorem entryColumn_eq {orders : List OrderRec} {junk : Nat → Nat} {rows col : Nat} {lastClose : Nat → F} {qs : List Fill}
    {close : ℚ} (h : History r t (orders.filter fun o => o.col = col) qs) (hc : lastClose col = fin close)
    (par : Int) (recs : List TradeRec) :
    entryColumn (Arith.exact r t) orders junk rows lastClose (par, recs) col =
      .ok (par + (positionsOf qs ((rows : Int) - 1) close).length, recs ++ numbered recs.length
        (blocks (entryBlock (Arith.exact r t) col) (par + 1) (positionsOf qs ((rows : Int) - 1) close))) := by
  unfold entryColumn
  simp only
  rw [columnRecords_eq]
  by_cases h0 : (orders.filter fun o => o.col = col).length = 0
  · rw [if_pos h0]
    have : qs = [] := by
      have := h.is.length_eq
      rw [h0] at this
      exact List.length_eq_zero_iff.mp this
    subst this
    simp [positionsOf_nil, blocks, numbered]
  · rw [if_neg h0]
    obtain ⟨s, e, hs⟩ := entryLoop h col par recs
    obtain ⟨s', e', h1, h2⟩ := entryFinish_inv h hs rows close
    rw [e]
    simp only
    rw [hc, e']
    simp only
    rw [h1, h2]

/-! ## Exit trades -/

/-- Size, gross value and fees of the entries still held: an exit takes its share of each. -/
def avgStep (s : ℚ × ℚ × ℚ) (e : Ev) : ℚ × ℚ × ℚ :=
  if e.entry then (s.1 + e.size, s.2.1 + e.size * e.price, s.2.2 + e.fees)
  else (s.1 - e.size, s.2.1 * ((s.1 - e.size) / s.1), s.2.2 * ((s.1 - e.size) / s.1))

/-- The exit trades of a position: one per exit, each with the average entry at this time. -/
def exitsFrom (A : Arith) (col : Nat) (k : Int) (long open_ : Bool) (eidx : Int) : ℚ × ℚ × ℚ → List Ev → List TradeRec
  | _, [] => []
  | s, e :: es =>
    (if e.entry then []
     else [mkTrade A col k long (open_ && es.isEmpty) e.size eidx (s.2.1 / s.1) (e.size / s.1 * s.2.2) e.idx e.price e.fees])
      ++ exitsFrom A col k long open_ eidx (avgStep s e) es

/-- Index of the first event. -/
def firstIdx (evs : List Ev) : Int := (evs.head?.map (·.idx)).getD (-1)

def exitBlock (A : Arith) (col : Nat) (k : Int) (p : Pos) : List TradeRec :=
  exitsFrom A col k p.long p.open_ (firstIdx p.evs) (0, 0, 0) p.evs

theorem exitsFrom_snoc (A : Arith) (col : Nat) (k : Int) (long open_ : Bool) (eidx : Int) (s : ℚ × ℚ × ℚ) (evs : List Ev)
    (e : Ev) :
    exitsFrom A col k long open_ eidx s (evs ++ [e]) = exitsFrom A col k long false eidx s evs ++
      (if e.entry then [] else [mkTrade A col k long open_ e.size eidx ((evs.foldl avgStep s).2.1 / (evs.foldl avgStep s).1)
        (e.size / (evs.foldl avgStep s).1 * (evs.foldl avgStep s).2.2) e.idx e.price e.fees]) := by
  induction evs generalizing s with
  | nil => simp [exitsFrom]
  | cons x xs ih =>
    rw [List.cons_append, exitsFrom, exitsFrom, ih, ← List.append_assoc]
    have : (xs ++ [e]).isEmpty = false := by cases xs <;> rfl
    simp [this]

theorem avg_left {s : ℚ × ℚ × ℚ} (evs : List Ev) : (evs.foldl avgStep s).1 = s.1 + left evs := by
  induction evs generalizing s with
  | nil => simp [left_nil]
  | cons e evs ih =>
    rw [List.foldl_cons, ih, left_cons, avgStep]
    cases e.entry <;> simp <;> ring

/-- State of the exit loop after the fills `qs`. -/
structure ExitInv (r t : ℚ) (col : Nat) (par : Int) (recs : List TradeRec) (qs : List Fill) (s : ExitState) : Prop where
  lastId : s.lastId = (qs.getLast?.map fun o => (o.id : Int)).getD (-1)
  parent : s.parentId = par + (split qs).1.length + (if (split qs).2.isSome then 1 else 0)
  inPos : s.inPos = (split qs).2.isSome
  records : s.records = recs ++ numbered recs.length (blocks (exitBlock (Arith.exact r t) col) (par + 1) (split qs).1 ++
    (match (split qs).2 with
    | none => []
    | some (long, evs) => exitsFrom (Arith.exact r t) col s.parentId long false (firstIdx evs) (0, 0, 0) evs))
  cur : ∀ long evs, (split qs).2 = some (long, evs) → s.direction = dirOf long ∧ s.entryIdx = firstIdx evs ∧
    s.eSize = fin (evs.foldl avgStep (0, 0, 0)).1 ∧ s.eGross = fin (evs.foldl avgStep (0, 0, 0)).2.1 ∧
    s.eFees = fin (evs.foldl avgStep (0, 0, 0)).2.2 ∧ 0 < (evs.foldl avgStep (0, 0, 0)).2.1

theorem firstIdx_snoc {evs : List Ev} {e : Ev} (h : EvsOk evs) : firstIdx (evs ++ [e]) = firstIdx evs := by
  obtain ⟨e0, es, rfl, _⟩ := h.first; rfl

theorem exitRecord_eq {col : Nat} {s : ExitState} {G S W x xp xf : ℚ} {xidx : Int} {long open_ : Bool} (h1 : s.eGross = fin G)
    (h2 : s.eSize = fin S) (h3 : s.eFees = fin W) (h4 : s.direction = dirOf long) (hS : S ≠ 0) (hG : G ≠ 0) (hx : x ≠ 0) :
    exitRecord (Arith.exact r t) col s (fin x) xidx (fin xp) (fin xf) (statusOf open_) =
      .ok { mkTrade (Arith.exact r t) col s.parentId long open_ x s.entryIdx (G / S) (x / S * W) xidx xp xf with
        id := s.records.length } := by
  unfold exitRecord
  rw [h1, h2, h3, h4, divE_exact, if_neg hS, divE_exact, if_neg hS]
  simp only
  rw [mul_exact, fillTradeRecord_eq hx (div_ne_zero hG hS)]

theorem numbered_snoc (n : Nat) (l : List TradeRec) (x : TradeRec) :
    numbered n (l ++ [x]) = numbered n l ++ [{ x with id := (n : Int) + l.length }] := by
  rw [numbered_append]
  simp [numbered]

theorem exitStep_inv {col : Nat} {par : Int} {recs : List TradeRec} {qs : List Fill} {s : ExitState}
    {q : Fill} {o : OrderRec} (hq : q.Is o) (hok : q.Ok) (hoks : ∀ x ∈ qs, x.Ok)
    (hid : ∀ x ∈ qs, x.id ≤ q.id) (hclear : ClearStep r t (split qs) q) (h : ExitInv r t col par recs qs s) :
    ∃ s', exitStep (Arith.exact r t) col s o = .ok s' ∧ ExitInv r t col par recs (qs ++ [q]) s' := by
  obtain ⟨q1, q2, q3, q4, q5, q6⟩ := hq
  have hlast : ¬ (o.id : Int) < s.lastId := by
    rw [h.lastId, q1]
    cases hl : qs.getLast? with
    | none => simp
    | some x =>
      have := hid x (List.mem_of_getLast? hl)
      simp; exact this
  have hlid : ((qs ++ [q]).getLast?.map fun o => (o.id : Int)).getD (-1) = q.id := by simp
  obtain ⟨hcl, hcur⟩ := split_ok hoks
  have hrec := h.records
  have hpar := h.parent
  unfold exitStep
  rw [if_neg hlast, q3, q4, if_neg (by simpa using hok.1), if_neg (by simpa using hok.2)]
  cases hc : (split qs).2 with
  | none =>
    have hin : s.inPos = false := by rw [h.inPos, hc]; rfl
    have hsp : split (qs ++ [q]) = ((split qs).1, some (q.buy, [⟨true, q.idx, q.size, q.price, q.fees⟩])) := by
      rw [split_concat]; unfold splitStep; rw [hc]
    have hd : (if o.side = OrderSide.Buy then TradeDirection.Long else TradeDirection.Short) = dirOf q.buy := by
      rw [q6]; cases q.buy <;> rfl
    simp only [ExitState.opened, hin, Bool.false_eq_true, if_false, hd]
    simp only [q6, isEntry_dirOf, decide_true, if_true]
    rw [hc] at hpar hrec
    refine ⟨_, rfl, ?_⟩
    constructor
    · rw [hlid]; simp [q1]
    · rw [hsp]; simp only [Option.isSome_some, if_true]; simpa using hpar
    · rw [hsp]; rfl
    · rw [hsp]; simpa [exitsFrom] using hrec
    · intro long evs he
      rw [hsp] at he
      cases he
      have := mul_pos hok.1 hok.2
      refine ⟨rfl, ?_, ?_, ?_, ?_, ?_⟩
      · rw [q2]; rfl
      all_goals simp [avgStep, q5, this, hok.1, hok.2]
  | some x =>
    obtain ⟨long, evs⟩ := x
    have hin : s.inPos = true := by rw [h.inPos, hc]; rfl
    obtain ⟨c1, c2, c3, c4, c5, c6⟩ := h.cur long evs hc
    obtain ⟨hev, hleft⟩ := hcur _ hc
    simp only at hev hleft
    rw [hc] at hpar hrec
    simp only [Option.isSome_some, if_true] at hpar
    simp only at hrec
    have hS : (evs.foldl avgStep (0, 0, 0)).1 = left evs := by rw [avg_left]; simp
    have fs : ∀ e : Ev, firstIdx (evs ++ [e]) = firstIdx evs := fun e => firstIdx_snoc hev
    have hav : ∀ e : Ev, (evs ++ [e]).foldl avgStep (0, 0, 0) = avgStep (evs.foldl avgStep (0, 0, 0)) e := by simp
    generalize hG : (evs.foldl avgStep (0, 0, 0)).2.1 = G at c4 c6
    generalize hW : (evs.foldl avgStep (0, 0, 0)).2.2 = W at c5
    rw [hS] at c3
    simp only [ExitState.opened, hin, if_true, c1, q6, isEntry_dirOf, isExit_dirOf]
    by_cases hb : q.buy = long
    · have hsp : split (qs ++ [q]) = ((split qs).1, some (long, evs ++ [⟨true, q.idx, q.size, q.price, q.fees⟩])) := by
        rw [split_concat]; unfold splitStep; rw [hc]; simp only; rw [if_pos hb]
      rw [if_pos (by simp [hb])]
      refine ⟨_, rfl, ?_⟩
      constructor
      · rw [hlid]; simp [q1]
      · rw [hsp]; simpa using hpar
      · rw [hsp]; simp
      · rw [hsp]
        simp only
        rw [exitsFrom_snoc, fs]
        simpa using hrec
      · intro long' evs' he
        rw [hsp] at he
        cases he
        rw [hav, fs]
        have := mul_pos hok.1 hok.2
        refine ⟨rfl, c2, ?_, ?_, ?_, ?_⟩
        · simp [avgStep, c3, hS]
        · simp [avgStep, c4, hG]
        · simp [avgStep, c5, hW, q5]
        · simp only [avgStep, if_true, hG]; linarith
    · rw [if_neg (by simp [hb]), if_pos (by simp [hb])]
      obtain ⟨t1, t2, t3⟩ := hclear long evs hc hb
      unfold exitExit
      simp only [q3, c3]
      rw [isClose_noTie t1, isCloseOrLess_noTie t1]
      have hnum : ∀ (e : Ev) (b : Bool), e.entry = false →
          s.records ++ [{ mkTrade (Arith.exact r t) col s.parentId long b e.size s.entryIdx (G / left evs)
            (e.size / left evs * W) e.idx e.price e.fees with id := s.records.length }] =
          recs ++ numbered recs.length (blocks (exitBlock (Arith.exact r t) col) (par + 1) (split qs).1 ++
            exitsFrom (Arith.exact r t) col s.parentId long b (firstIdx (evs ++ [e])) (0, 0, 0) (evs ++ [e])) := by
        intro e b he
        rw [exitsFrom_snoc, he, ← List.append_assoc, hS, hG, hW, fs]
        simp only [Bool.false_eq_true, if_false]
        rw [numbered_snoc, ← List.append_assoc, ← hrec, c2]
        congr 4
        rw [hrec]; simp [numbered_length]
      by_cases hle : q.size ≤ left evs
      · rw [if_pos (by simpa using hle)]
        have hx : (if decide (q.size = left evs) = true then fin (left evs) else fin q.size) = fin q.size := by
          by_cases he : q.size = left evs <;> simp [he]
        rw [hx, q4, q5]
        have hr := exitRecord_eq (r := r) (t := t) (col := col)
          (s := { s with lastId := (o.id : Int), direction := dirOf long }) (x := q.size) (xp := q.price) (xf := q.fees)
          (xidx := o.idx) (long := long) (open_ := false) c4 c3 c5 rfl hleft.ne' c6.ne' hok.1.ne'
        rw [show statusOf false = TradeStatus.Closed from rfl] at hr
        simp only [hin, c1, c3] at hr ⊢
        rw [hr]
        simp only
        have hn := hnum ⟨false, q.idx, q.size, q.price, q.fees⟩
        simp only [forall_const] at hn
        by_cases heq : q.size = left evs
        · have hsp : split (qs ++ [q]) =
              ((split qs).1 ++ [⟨long, evs ++ [⟨false, q.idx, q.size, q.price, q.fees⟩], false⟩], none) := by
            rw [split_concat]; unfold splitStep; rw [hc]; simp only
            rw [if_neg hb, if_neg (by rw [heq]; exact lt_irrefl _), if_pos heq]
          rw [if_pos (by simp [heq])]
          refine ⟨_, rfl, ?_⟩
          constructor
          · rw [hlid]; simp [q1]
          · rw [hsp]; simp only [Option.isSome_none, List.length_append, List.length_singleton]; push_cast
            rw [hpar]; simp; ring
          · rw [hsp]; rfl
          · rw [hsp]
            simp only
            rw [q2, hn false, blocks_append, blocks_single, List.append_nil]
            unfold exitBlock
            rw [hpar, show par + 1 + ((split qs).1.length : Int) = par + ((split qs).1.length : Int) + 1 by ring]
          · intro long' evs' he
            rw [hsp] at he; cases he
        · have hlt : q.size < left evs := lt_of_le_of_ne hle heq
          have hsp : split (qs ++ [q]) = ((split qs).1, some (long, evs ++ [⟨false, q.idx, q.size, q.price, q.fees⟩])) := by
            rw [split_concat]; unfold splitStep; rw [hc]; simp only; rw [if_neg hb, if_pos hlt]
          rw [if_neg (by simp [heq]), sub_exact, divE_exact, if_neg hleft.ne']
          refine ⟨_, rfl, ?_⟩
          constructor
          · rw [hlid]; simp [q1]
          · rw [hsp]; simpa using hpar
          · rw [hsp]; simp
          · rw [hsp]
            simp only
            rw [q2, hn false]
          · intro long' evs' he
            rw [hsp] at he
            cases he
            rw [hav, fs]
            refine ⟨rfl, c2, ?_, ?_, ?_, ?_⟩
            · simp only [avgStep, Bool.false_eq_true, if_false, hS, mul_exact]
              congr 1; field_simp
            · simp [avgStep, c4, hG, hS]
            · simp [avgStep, c5, hW, hS]
            · simp only [avgStep, Bool.false_eq_true, if_false, hG, hS]
              exact mul_pos c6 (div_pos (by linarith) hleft)
      · rw [if_neg (by simpa using hle)]
        have hgt : left evs < q.size := not_le.mp hle
        have hsp : split (qs ++ [q]) =
            ((split qs).1 ++ [⟨long, evs ++ [⟨false, q.idx, left evs, q.price, left evs / q.size * q.fees⟩], false⟩],
              some (!long, [⟨true, q.idx, q.size - left evs, q.price, (q.size - left evs) / q.size * q.fees⟩])) := by
          rw [split_concat]; unfold splitStep; rw [hc]; simp only
          rw [if_neg hb, if_neg (not_lt.mpr hgt.le), if_neg hgt.ne']
        rw [divE_exact, if_neg hok.1.ne']
        simp only
        rw [q4, q5, mul_exact]
        have hr := exitRecord_eq (r := r) (t := t) (col := col)
          (s := { s with lastId := (o.id : Int), direction := dirOf long }) (x := left evs) (xp := q.price)
          (xf := left evs / q.size * q.fees)
          (xidx := o.idx) (long := long) (open_ := false) c4 c3 c5 rfl hleft.ne' c6.ne' hleft.ne'
        rw [show statusOf false = TradeStatus.Closed from rfl] at hr
        simp only [hin, c1, c3] at hr ⊢
        rw [hr]
        have hn := hnum ⟨false, q.idx, left evs, q.price, left evs / q.size * q.fees⟩
        simp only [forall_const] at hn
        refine ⟨_, rfl, ?_⟩
        constructor
        · rw [hlid]; simp [q1]
        · rw [hsp]
          simp only [Option.isSome_some, List.length_append, List.length_singleton, if_true]
          push_cast; rw [hpar]; ring
        · rw [hsp]; simp
        · rw [hsp]
          simp only
          rw [q2, hn false, blocks_append, blocks_single]
          unfold exitBlock
          rw [hpar, show par + 1 + ((split qs).1.length : Int) = par + ((split qs).1.length : Int) + 1 by ring]
          simp [exitsFrom]
        · intro long' evs' he
          rw [hsp] at he
          cases he
          have h3 : 0 < q.size - left evs := by linarith
          refine ⟨by cases long <;> rfl, by rw [q2]; rfl, ?_, ?_, ?_, ?_⟩
          · simp [avgStep]
          · simp [avgStep]
          · simp only [avgStep, List.foldl_cons, List.foldl_nil, if_true, zero_add, sub_exact]
            congr 1
            have := hok.1.ne'
            field_simp
          · simpa [avgStep] using mul_pos h3 hok.2

theorem exitLoop {os : List OrderRec} {qs : List Fill} (h : History r t os qs) (col : Nat) (par : Int)
    (recs : List TradeRec) :
    ∃ s, loopE (exitStep (Arith.exact r t) col) (ExitState.start par recs) os = .ok s ∧ ExitInv r t col par recs qs s := by
  have hlen := h.is.length_eq
  obtain ⟨s, e, hI⟩ := loopE_prefix (f := exitStep (Arith.exact r t) col)
    (I := fun pre s => ExitInv r t col par recs (qs.take pre.length) s) (l := os)
    (s := ExitState.start par recs) (by
      intro pre x post s e hI
      obtain ⟨q, g1, g2, g3, g4, g5, g6, g7⟩ := h.at e
      obtain ⟨s', e1, hI'⟩ := exitStep_inv g1 g2 g3 g4 g5 hI
      refine ⟨s', e1, ?_⟩
      rw [List.length_append, List.length_singleton, g6]; exact hI')
    (by
      constructor
      · rfl
      · simp [ExitState.start, split]
      · rfl
      · simp [ExitState.start, split, blocks, numbered]
      · intro _ _ h; simp [split] at h)
  refine ⟨s, e, ?_⟩
  rw [← hlen, List.take_length] at hI
  exact hI

theorem exitFinish_inv {os : List OrderRec} {qs : List Fill} (h : History r t os qs) {col : Nat} {par : Int}
    {recs : List TradeRec} {s : ExitState} (hs : ExitInv r t col par recs qs s) (rows : Nat) (close : ℚ) :
    ∃ s', exitFinish (Arith.exact r t) col rows (fin close) s = .ok s' ∧
      s'.parentId = par + (positionsOf qs ((rows : Int) - 1) close).length ∧
      s'.records = recs ++ numbered recs.length
        (blocks (exitBlock (Arith.exact r t) col) (par + 1) (positionsOf qs ((rows : Int) - 1) close)) := by
  obtain ⟨hcl, hcur⟩ := split_ok h.ok
  unfold exitFinish positionsOf
  have hpar := hs.parent
  have hrec := hs.records
  cases hc : (split qs).2 with
  | none =>
    have hin : s.inPos = false := by rw [hs.inPos, hc]; rfl
    rw [hin]
    rw [hc] at hpar hrec
    refine ⟨s, rfl, by simpa using hpar, by simpa using hrec⟩
  | some x =>
    obtain ⟨long, evs⟩ := x
    have hin : s.inPos = true := by rw [hs.inPos, hc]; rfl
    obtain ⟨c1, c2, c3, c4, c5, c6⟩ := hs.cur long evs hc
    obtain ⟨hev, hleft⟩ := hcur _ hc
    obtain ⟨t1, t2, t3⟩ := h.clear.last long evs hc
    simp only at hev hleft
    rw [hc] at hpar hrec
    simp only [Option.isSome_some, if_true] at hpar
    simp only at hrec
    have hS : (evs.foldl avgStep (0, 0, 0)).1 = left evs := by rw [avg_left]; simp
    rw [hS] at c3
    have hr := exitRecord_eq (r := r) (t := t) (col := col) (s := s) (x := left evs) (xp := close) (xf := 0)
      (xidx := (rows : Int) - 1) (long := long) (open_ := true) c4 c3 c5 c1 hleft.ne' c6.ne' hleft.ne'
    rw [show statusOf true = TradeStatus.Open from rfl] at hr
    rw [hin, c3, neg_fin, zero_def, isLess_noTie (noTie_neg_zero t3), if_pos (by simpa using hleft)]
    rw [show (fin 0 : F) = fin 0 from rfl, hr]
    refine ⟨_, rfl, ?_, ?_⟩
    · simp only [List.length_append, List.length_singleton]; push_cast; rw [hpar]; ring
    · simp only
      rw [blocks_append, blocks_single, show par + 1 + ((split qs).1.length : Int) = s.parentId by rw [hpar]; ring]
      rw [show ∀ p, exitBlock (Arith.exact r t) col s.parentId p =
        exitsFrom (Arith.exact r t) col s.parentId p.long p.open_ (firstIdx p.evs) (0, 0, 0) p.evs from fun _ => rfl]
      simp only
      rw [exitsFrom_snoc]
      simp only [Bool.false_eq_true, if_false]
      rw [firstIdx_snoc hev, ← List.append_assoc, numbered_snoc, ← List.append_assoc, ← hrec, hS, c2]
      congr 4
      rw [hrec]; simp [numbered_length]

theorem exitColumn_eq {orders : List OrderRec} {junk : Nat → Nat} {rows col : Nat} {lastClose : Nat → F} {qs : List Fill}
    {close : ℚ} (h : History r t (orders.filter fun o => o.col = col) qs) (hc : lastClose col = fin close)
    (par : Int) (recs : List TradeRec) :
    exitColumn (Arith.exact r t) orders junk rows lastClose (par, recs) col =
      .ok (par + (positionsOf qs ((rows : Int) - 1) close).length, recs ++ numbered recs.length
        (blocks (exitBlock (Arith.exact r t) col) (par + 1) (positionsOf qs ((rows : Int) - 1) close))) := by
  unfold exitColumn
  simp only
  rw [columnRecords_eq]
  by_cases h0 : (orders.filter fun o => o.col = col).length = 0
  · rw [if_pos h0]
    have : qs = [] := by
      have := h.is.length_eq
      rw [h0] at this
      exact List.length_eq_zero_iff.mp this
    subst this
    simp [positionsOf_nil, blocks, numbered]
  · rw [if_neg h0]
    obtain ⟨s, e, hs⟩ := exitLoop h col par recs
    obtain ⟨s', e', h1, h2⟩ := exitFinish_inv h hs rows close
    rw [e]
    simp only
    rw [hc, e']
    simp only
    rw [h1, h2]

end Vbt
