import Verif.Model.Trades
import Verif.Spec.Trades
import Verif.Lemmas.Recon

/-! Lemmas on trades: both loops over the orders of a column follow the positions of the specification. -/

namespace Vbt
open F

/-! ## Tolerances -/

/-- The tolerances do not take two different numbers for equal. -/
def NoTie (r t a b : ℚ) : Prop := Close r t a b → a = b

theorem noTie_zero (a b : ℚ) : NoTie 0 0 a b := by
  rintro (h | h)
  · exact h
  · simp only [zero_mul, max_self] at h
    have := abs_nonpos_iff.mp h
    linarith

theorem isClose_noTie {r t a b : ℚ} (h : NoTie r t a b) : isClose (Arith.exact r t) (fin a) (fin b) = decide (a = b) := by
  rw [Bool.eq_iff_iff, isClose_exact, decide_eq_true_eq]
  exact ⟨h, fun e => Or.inl e⟩

theorem isLess_noTie {r t a b : ℚ} (h : NoTie r t a b) : isLess (Arith.exact r t) (fin a) (fin b) = decide (a < b) := by
  unfold isLess
  rw [isClose_noTie h]
  by_cases e : a = b
  · subst e; simp
  · simp [e]

theorem isCloseOrLess_noTie {r t a b : ℚ} (h : NoTie r t a b) :
    isCloseOrLess (Arith.exact r t) (fin a) (fin b) = decide (a ≤ b) := by
  unfold isCloseOrLess
  rw [isClose_noTie h]
  by_cases e : a = b
  · subst e; simp
  · simp only [e, decide_false, Bool.false_eq_true, if_false, lt_fin, decide_eq_decide]
    exact ⟨le_of_lt, fun h => lt_of_le_of_ne h e⟩

theorem addNb_noTie {r t a b : ℚ} (ha : 0 < a) (hb : 0 ≤ b) (h : NoTie r t a b) :
    addNb (Arith.exact r t) (fin a) (fin (-b)) = fin (a - b) := by
  rcases addNb_exact r t a (-b) with ⟨hs, e⟩ | ⟨_, e⟩
  · rw [e]
    have hc : Close r t a b := by
      unfold Snap at hs
      rw [if_neg] at hs
      · rwa [abs_neg, abs_of_pos ha, abs_of_nonneg hb] at hs
      · rcases sign_fin_cases a with ⟨h1, _⟩ | ⟨h1, _⟩ | ⟨_, h1⟩
        · linarith
        · linarith
        · rw [h1]
          rcases sign_fin_cases (-b) with ⟨_, h2⟩ | ⟨_, h2⟩ | ⟨h2, _⟩
          · rw [h2]; intro h; injection h with h; norm_num at h
          · rw [h2]; intro h; injection h with h; norm_num at h
          · linarith
    rw [h hc, sub_self]
  · rw [e, sub_eq_add_neg]

theorem noTie_neg_zero {r t a : ℚ} (h : NoTie r t a 0) : NoTie r t (-a) 0 := by
  intro hc
  have : a = 0 := h (by
    unfold Close at *
    rcases hc with h | h
    · left; linarith
    · right; simpa [abs_neg] using h)
  linarith

/-! ## Records of trades -/

def dirOf (long : Bool) : Int := if long then TradeDirection.Long else TradeDirection.Short
def statusOf (open_ : Bool) : Int := if open_ then TradeStatus.Open else TradeStatus.Closed

/-- Profit of a trade. -/
def pnlOf (A : Arith) (size ep ef xp xf : ℚ) (long : Bool) : F :=
  let d := addNb A (fin (size * xp)) (fin (-(size * ep)))
  let d := if !eqb d zero && !long then mul A d (fin (-1)) else d
  sub A (sub A d (fin ef)) (fin xf)

/-- A trade record. -/
def mkTrade (A : Arith) (col : Nat) (k : Int) (long open_ : Bool) (size : ℚ) (eidx : Int) (ep ef : ℚ) (xidx : Int)
    (xp xf : ℚ) : TradeRec :=
  { id := 0, col := col, size := fin size, entryIdx := eidx, entryPrice := fin ep, entryFees := fin ef,
    exitIdx := xidx, exitPrice := fin xp, exitFees := fin xf, pnl := pnlOf A size ep ef xp xf long,
    ret := div A (pnlOf A size ep ef xp xf long) (fin (size * ep)), direction := dirOf long, status := statusOf open_,
    parentId := k }

variable {r t : ℚ}

theorem dirOf_short (long : Bool) : decide (dirOf long = TradeDirection.Short) = !long := by
  cases long <;> rfl

theorem tradeStats_eq {size ep ef xp xf : ℚ} {long : Bool} (h1 : size ≠ 0) (h2 : ep ≠ 0) :
    tradeStats (Arith.exact r t) (fin size) (fin ep) (fin ef) (fin xp) (fin xf) (dirOf long) =
      .ok (pnlOf (Arith.exact r t) size ep ef xp xf long,
        div (Arith.exact r t) (pnlOf (Arith.exact r t) size ep ef xp xf long) (fin (size * ep))) := by
  unfold tradeStats pnlOf divE
  simp only [mul_exact, neg_fin, zero_def, eqb_fin, dirOf_short]
  rw [if_neg (by simp [h1, h2])]

theorem fillTradeRecord_eq {id : Int} {col : Nat} {k eidx xidx : Int} {size ep ef xp xf : ℚ} {long open_ : Bool}
    (h1 : size ≠ 0) (h2 : ep ≠ 0) :
    fillTradeRecord (Arith.exact r t) id col (fin size) eidx (fin ep) (fin ef) xidx (fin xp) (fin xf) (dirOf long)
      (statusOf open_) k =
      .ok { mkTrade (Arith.exact r t) col k long open_ size eidx ep ef xidx xp xf with id := id } := by
  unfold fillTradeRecord
  rw [tradeStats_eq h1 h2]
  rfl

/-- Number the trades from `n` on. -/
def numbered : Nat → List TradeRec → List TradeRec
  | _, [] => []
  | n, x :: xs => { x with id := n } :: numbered (n + 1) xs

@[simp] theorem numbered_length (n : Nat) (l : List TradeRec) : (numbered n l).length = l.length := by
  induction l generalizing n with
  | nil => rfl
  | cons x xs ih => simp [numbered, ih]

theorem numbered_append (n : Nat) (l m : List TradeRec) :
    numbered n (l ++ m) = numbered n l ++ numbered (n + l.length) m := by
  induction l generalizing n with
  | nil => rfl
  | cons x xs ih =>
    simp only [List.cons_append, numbered, ih, List.length_cons]
    rw [show n + 1 + xs.length = n + (xs.length + 1) by omega]

theorem numbered_map {β : Type} (f : TradeRec → β) (hf : ∀ x i, f { x with id := i } = f x) (n : Nat) (l : List TradeRec) :
    (numbered n l).map f = l.map f := by
  induction l generalizing n with
  | nil => rfl
  | cons x xs ih => simp [numbered, ih, hf]

/-- The trades of consecutive positions, parents numbered from `k` on. -/
def blocks (f : Int → Pos → List TradeRec) : Int → List Pos → List TradeRec
  | _, [] => []
  | k, p :: ps => f k p ++ blocks f (k + 1) ps

theorem blocks_append (f : Int → Pos → List TradeRec) (k : Int) (ps qs : List Pos) :
    blocks f k (ps ++ qs) = blocks f k ps ++ blocks f (k + ps.length) qs := by
  induction ps generalizing k with
  | nil => simp [blocks]
  | cons p ps ih =>
    simp only [List.cons_append, blocks, ih, List.append_assoc, List.length_cons]
    rw [show k + 1 + (ps.length : Int) = k + ((ps.length + 1 : Nat) : Int) by push_cast; ring]

/-! ## Sums over events -/

theorem total_append (b : Bool) (f : Ev → ℚ) (l m : List Ev) : total b f (l ++ m) = total b f l + total b f m := by
  simp [total]

theorem total_single (b : Bool) (f : Ev → ℚ) (e : Ev) : total b f [e] = if e.entry = b then f e else 0 := by
  unfold total
  by_cases h : e.entry = b <;> simp [h]

theorem total_nil (b : Bool) (f : Ev → ℚ) : total b f [] = 0 := rfl

theorem total_cons (b : Bool) (f : Ev → ℚ) (e : Ev) (l : List Ev) :
    total b f (e :: l) = (if e.entry = b then f e else 0) + total b f l := by
  rw [← total_single, ← total_append]; rfl

/-- An entry event appended. -/
theorem sums_entry (evs : List Ev) (i : Int) (s p f : ℚ) :
    entered (evs ++ [⟨true, i, s, p, f⟩]) = entered evs + s ∧ exited (evs ++ [⟨true, i, s, p, f⟩]) = exited evs ∧
    entryGross (evs ++ [⟨true, i, s, p, f⟩]) = entryGross evs + s * p ∧
    exitGross (evs ++ [⟨true, i, s, p, f⟩]) = exitGross evs ∧
    entryFees (evs ++ [⟨true, i, s, p, f⟩]) = entryFees evs + f ∧
    exitFees (evs ++ [⟨true, i, s, p, f⟩]) = exitFees evs := by
  simp [entered, exited, entryGross, exitGross, entryFees, exitFees, total_append, total_single]

/-- An exit event appended. -/
theorem sums_exit (evs : List Ev) (i : Int) (s p f : ℚ) :
    entered (evs ++ [⟨false, i, s, p, f⟩]) = entered evs ∧ exited (evs ++ [⟨false, i, s, p, f⟩]) = exited evs + s ∧
    entryGross (evs ++ [⟨false, i, s, p, f⟩]) = entryGross evs ∧
    exitGross (evs ++ [⟨false, i, s, p, f⟩]) = exitGross evs + s * p ∧
    entryFees (evs ++ [⟨false, i, s, p, f⟩]) = entryFees evs ∧
    exitFees (evs ++ [⟨false, i, s, p, f⟩]) = exitFees evs + f := by
  simp [entered, exited, entryGross, exitGross, entryFees, exitFees, total_append, total_single]

/-! ## Shape of positions -/

/-- Something is held before every exit, starting with `S`. -/
def Alive : ℚ → List Ev → Prop
  | _, [] => True
  | S, e :: es => (e.entry = false → 0 < S) ∧ Alive (if e.entry then S + e.size else S - e.size) es

theorem left_nil : left [] = 0 := by simp [left, entered, exited, total]

theorem left_snoc (evs : List Ev) (e : Ev) : left (evs ++ [e]) = if e.entry then left evs + e.size else left evs - e.size := by
  obtain ⟨b, i, s, p, f⟩ := e
  cases b
  · simp only [left, (sums_exit evs i s p f).1, (sums_exit evs i s p f).2.1]; simp; ring
  · simp only [left, (sums_entry evs i s p f).1, (sums_entry evs i s p f).2.1]; simp; ring

theorem left_cons (e : Ev) (evs : List Ev) : left (e :: evs) = (if e.entry then e.size else -e.size) + left evs := by
  unfold left entered exited
  rw [total_cons, total_cons]
  cases e.entry <;> simp <;> ring

theorem Alive.snoc {S : ℚ} {evs : List Ev} {e : Ev} (h : Alive S evs) (he : e.entry = false → 0 < S + left evs) :
    Alive S (evs ++ [e]) := by
  induction evs generalizing S with
  | nil => exact ⟨fun h => by simpa [left_nil] using he h, trivial⟩
  | cons x xs ih =>
    refine ⟨h.1, ih h.2 ?_⟩
    intro h'
    have := he h'
    rw [left_cons] at this
    cases hx : x.entry <;> simp [hx] at this ⊢ <;> linarith

/-- A position's events: they begin with an entry, sizes and entry prices are positive, and every exit finds something. -/
structure EvsOk (evs : List Ev) : Prop where
  first : ∃ e es, evs = e :: es ∧ e.entry = true
  size : ∀ e ∈ evs, 0 < e.size
  price : ∀ e ∈ evs, e.entry = true → 0 < e.price
  alive : Alive 0 evs

theorem EvsOk.snoc {evs : List Ev} (h : EvsOk evs) {e : Ev} (h1 : 0 < e.size) (h2 : e.entry = true → 0 < e.price)
    (h3 : e.entry = false → 0 < left evs) : EvsOk (evs ++ [e]) := by
  refine ⟨?_, ?_, ?_, h.alive.snoc (by simpa using h3)⟩
  · obtain ⟨e0, es, rfl, h0⟩ := h.first
    exact ⟨e0, es ++ [e], rfl, h0⟩
  · intro x hx
    rcases List.mem_append.mp hx with hx | hx
    · exact h.size x hx
    · rw [List.mem_singleton.mp hx]; exact h1
  · intro x hx
    rcases List.mem_append.mp hx with hx | hx
    · exact h.price x hx
    · rw [List.mem_singleton.mp hx]; exact h2

theorem EvsOk.single {e : Ev} (h0 : e.entry = true) (h1 : 0 < e.size) (h2 : 0 < e.price) : EvsOk [e] := by
  refine ⟨⟨e, [], rfl, h0⟩, ?_, ?_, ⟨(fun h => by rw [h0] at h; cases h), trivial⟩⟩
  · intro x hx; rw [List.mem_singleton.mp hx]; exact h1
  · intro x hx _; rw [List.mem_singleton.mp hx]; exact h2

theorem total_nonneg {b : Bool} {evs : List Ev} (h : ∀ e ∈ evs, 0 < e.size) : 0 ≤ total b (·.size) evs := by
  apply List.sum_nonneg
  intro x hx
  obtain ⟨e, he, rfl⟩ := List.mem_map.mp hx
  exact (h e (List.mem_of_mem_filter he)).le

theorem EvsOk.entered_pos {evs : List Ev} (h : EvsOk evs) : 0 < entered evs := by
  obtain ⟨e, es, rfl, h0⟩ := h.first
  unfold entered
  rw [total_cons, if_pos h0]
  have := h.size e List.mem_cons_self
  have := total_nonneg (b := true) (fun x hx => h.size x (List.mem_cons_of_mem e hx))
  linarith

theorem EvsOk.exited_nonneg {evs : List Ev} (h : EvsOk evs) : 0 ≤ exited evs := total_nonneg h.size

/-- A whole position: nothing is left. -/
structure PosOk (p : Pos) : Prop where
  evs : EvsOk p.evs
  done : left p.evs = 0

theorem splitStep_ok {s : List Pos × Option (Bool × List Ev)} {o : Fill} (ho : o.Ok)
    (h : (∀ p ∈ s.1, PosOk p) ∧ ∀ x, s.2 = some x → EvsOk x.2 ∧ 0 < left x.2) :
    (∀ p ∈ (splitStep s o).1, PosOk p) ∧ ∀ x, (splitStep s o).2 = some x → EvsOk x.2 ∧ 0 < left x.2 := by
  obtain ⟨closed, cur⟩ := s
  obtain ⟨h1, h2⟩ := h
  cases cur with
  | none =>
    refine ⟨h1, ?_⟩
    rintro x hx
    simp only [splitStep, Option.some.injEq] at hx
    subst hx
    refine ⟨EvsOk.single rfl ho.1 ho.2, ?_⟩
    rw [← List.nil_append [_], left_snoc, left_nil]; simpa using ho.1
  | some x =>
    obtain ⟨long, evs⟩ := x
    obtain ⟨hev, hl⟩ := h2 _ rfl
    simp only at hev hl
    unfold splitStep
    simp only
    by_cases hb : o.buy = long
    · rw [if_pos hb]
      refine ⟨h1, ?_⟩
      rintro x hx
      cases hx
      refine ⟨hev.snoc ho.1 (fun _ => ho.2) (fun h => by cases h), ?_⟩
      rw [left_snoc]; simp only [if_true]; have := ho.1; linarith
    · rw [if_neg hb]
      by_cases hlt : o.size < left evs
      · rw [if_pos hlt]
        refine ⟨h1, ?_⟩
        rintro x hx
        cases hx
        refine ⟨hev.snoc ho.1 (fun h => by cases h) (fun _ => hl), ?_⟩
        rw [left_snoc]; simp; exact hlt
      · rw [if_neg hlt]
        by_cases heq : o.size = left evs
        · rw [if_pos heq]
          refine ⟨?_, fun x hx => by cases hx⟩
          intro p hp
          rcases List.mem_append.mp hp with hp | hp
          · exact h1 p hp
          · rw [List.mem_singleton.mp hp]
            refine ⟨hev.snoc ho.1 (fun h => by cases h) (fun _ => hl), ?_⟩
            simp only [left_snoc]; simp [heq]
        · rw [if_neg heq]
          have hgt : left evs < o.size := lt_of_le_of_ne (not_lt.mp hlt) (Ne.symm heq)
          refine ⟨?_, ?_⟩
          · intro p hp
            rcases List.mem_append.mp hp with hp | hp
            · exact h1 p hp
            · rw [List.mem_singleton.mp hp]
              refine ⟨hev.snoc hl (fun h => by cases h) (fun _ => hl), ?_⟩
              simp only [left_snoc]; simp
          · rintro x hx
            cases hx
            refine ⟨EvsOk.single rfl (sub_pos.mpr hgt) ho.2, ?_⟩
            rw [← List.nil_append [_], left_snoc, left_nil]; simpa using hgt

theorem split_concat (os : List Fill) (o : Fill) : split (os ++ [o]) = splitStep (split os) o := by
  simp [split]

theorem split_ok {os : List Fill} (h : ∀ o ∈ os, o.Ok) :
    (∀ p ∈ (split os).1, PosOk p) ∧ ∀ x, (split os).2 = some x → EvsOk x.2 ∧ 0 < left x.2 := by
  induction os using List.reverseRecOn with
  | nil =>
    refine ⟨fun p hp => ?_, fun x hx => ?_⟩
    · simp [split] at hp
    · simp [split] at hx
  | append_singleton l o ih =>
    rw [split_concat]
    exact splitStep_ok (h o (by simp)) (ih fun x hx => h x (by simp [hx]))

theorem positionsOf_ok {os : List Fill} (h : ∀ o ∈ os, o.Ok) (last : Int) (close : ℚ) :
    ∀ p ∈ positionsOf os last close, PosOk p := by
  obtain ⟨h1, h2⟩ := split_ok h
  unfold positionsOf
  cases hc : (split os).2 with
  | none => exact h1
  | some x =>
    obtain ⟨long, evs⟩ := x
    obtain ⟨hev, hl⟩ := h2 _ hc
    intro p hp
    rcases List.mem_append.mp hp with hp | hp
    · exact h1 p hp
    · rw [List.mem_singleton.mp hp]
      refine ⟨hev.snoc hl (fun h => by cases h) (fun _ => hl), ?_⟩
      simp only [left_snoc]; simp

/-! ## Where the tolerances must not matter -/

/-- The comparisons made at an order that exits. -/
def ClearStep (r t : ℚ) (s : List Pos × Option (Bool × List Ev)) (o : Fill) : Prop :=
  ∀ long evs, s.2 = some (long, evs) → o.buy ≠ long →
    NoTie r t o.size (left evs) ∧ NoTie r t (exited evs + o.size) (entered evs) ∧ NoTie r t (entered evs) (exited evs)

/-- No comparison of sizes is decided by a tolerance.  Always true with zero tolerances. -/
structure Clear (r t : ℚ) (os : List Fill) : Prop where
  step : ∀ pre o post, os = pre ++ o :: post → ClearStep r t (split pre) o
  last : ∀ long evs, (split os).2 = some (long, evs) →
    NoTie r t (exited evs) (entered evs) ∧ NoTie r t (entered evs) (exited evs) ∧ NoTie r t (left evs) 0

theorem Clear.zero (os : List Fill) : Clear 0 0 os :=
  ⟨fun _ _ _ _ _ _ _ _ => ⟨noTie_zero _ _, noTie_zero _ _, noTie_zero _ _⟩,
    fun _ _ _ => ⟨noTie_zero _ _, noTie_zero _ _, noTie_zero _ _⟩⟩

/-! ## Loops that keep an invariant over the prefix -/

theorem loopE_prefix {σ α : Type} {f : σ → α → Except Err σ} {I : List α → σ → Prop} {l : List α} {s : σ}
    (hstep : ∀ pre x post s, l = pre ++ x :: post → I pre s → ∃ s', f s x = .ok s' ∧ I (pre ++ [x]) s')
    (h0 : I [] s) : ∃ s', loopE f s l = .ok s' ∧ I l s' := by
  have key : ∀ (post pre : List α) (s : σ), l = pre ++ post → I pre s → ∃ s', loopE f s post = .ok s' ∧ I l s' := by
    intro post
    induction post with
    | nil => intro pre s e h; rw [List.append_nil] at e; subst e; exact ⟨s, rfl, h⟩
    | cons x post ih =>
      intro pre s e h
      obtain ⟨s1, e1, h1⟩ := hstep pre x post s e h
      obtain ⟨s2, e2, h2⟩ := ih (pre ++ [x]) s1 (by simp [e]) h1
      exact ⟨s2, by unfold loopE; rw [e1]; exact e2, h2⟩
  exact key l [] s rfl h0

/-! ## Entry trades follow the positions -/

/-- Index of the last event. -/
def lastIdx (evs : List Ev) : Int := (evs.getLast?.map (·.idx)).getD (-1)

theorem lastIdx_snoc (evs : List Ev) (e : Ev) : lastIdx (evs ++ [e]) = e.idx := by simp [lastIdx]

/-- The entry trades of a position: one per entry, each with the average exit. -/
def entryBlock (A : Arith) (col : Nat) (k : Int) (p : Pos) : List TradeRec :=
  (p.evs.filter (·.entry)).map fun e =>
    mkTrade A col k p.long p.open_ e.size e.idx e.price e.fees (lastIdx p.evs) (exitGross p.evs / entered p.evs)
      (e.size / entered p.evs * exitFees p.evs)

/-- The order at index `c` of the column is behind the event. -/
def Match (os : List OrderRec) (long : Bool) (firstC : Nat) (firstSize firstFees : F) (c : Nat) (e : Ev) : Prop :=
  ∃ o, os[c]? = some o ∧ isExit (dirOf long) o.side = !e.entry ∧ (e.entry = true →
    (if c = firstC then firstSize else o.size) = fin e.size ∧ (if c = firstC then firstFees else o.fees) = fin e.fees ∧
    (o.idx : Int) = e.idx ∧ o.price = fin e.price)

theorem fillEntry_loop {os : List OrderRec} {col firstC : Nat} {firstSize firstFees : F} {xidx k : Int} {X G W : ℚ}
    {long open_ : Bool} (hX : X ≠ 0) (evs : List Ev) (c : Nat) (records : List TradeRec)
    (hm : ∀ (j : Nat) e, evs[j]? = some e → Match os long firstC firstSize firstFees (c + j) e)
    (hs : ∀ e ∈ evs, e.entry = true → e.size ≠ 0 ∧ e.price ≠ 0) :
    loopE (fillEntryStep (Arith.exact r t) os col firstC firstSize firstFees xidx (fin X) (fin G) (fin W) (dirOf long)
      (statusOf open_) k) records (List.range' c evs.length) =
    .ok (records ++ numbered records.length ((evs.filter (·.entry)).map fun e =>
      mkTrade (Arith.exact r t) col k long open_ e.size e.idx e.price e.fees xidx (G / X) (e.size / X * W))) := by
  induction evs generalizing c records with
  | nil => simp [numbered]
  | cons e evs ih =>
    obtain ⟨o, ho, hx, he⟩ := hm 0 e rfl
    rw [Nat.add_zero] at ho
    have hm' : ∀ (j : Nat) e, evs[j]? = some e → Match os long firstC firstSize firstFees (c + 1 + j) e := by
      intro j e' hj
      have := hm (j + 1) e' (by simpa using hj)
      rwa [show c + (j + 1) = c + 1 + j by omega] at this
    have hs' : ∀ e ∈ evs, e.entry = true → e.size ≠ 0 ∧ e.price ≠ 0 := fun x hx => hs x (List.mem_cons_of_mem _ hx)
    rw [List.length_cons, List.range'_succ]
    unfold loopE
    by_cases hen : e.entry = true
    · obtain ⟨g1, g2, g3, g4⟩ := he hen
      rw [Nat.add_zero] at g1 g2
      obtain ⟨z1, z2⟩ := hs e List.mem_cons_self hen
      have : fillEntryStep (Arith.exact r t) os col firstC firstSize firstFees xidx (fin X) (fin G) (fin W) (dirOf long)
          (statusOf open_) k records c = .ok (records ++ [{ mkTrade (Arith.exact r t) col k long open_ e.size e.idx e.price
            e.fees xidx (G / X) (e.size / X * W) with id := records.length }]) := by
        unfold fillEntryStep
        rw [ho]
        simp only
        rw [hx, hen, if_neg (by simp), divE_exact, if_neg hX]
        simp only
        rw [g1, divE_exact, if_neg hX, g2, g4, g3]
        simp only [mul_exact]
        rw [fillTradeRecord_eq z1 z2]
      rw [this]
      simp only
      rw [ih (c + 1) _ hm' hs', List.filter_cons_of_pos hen, List.map_cons, numbered]
      simp
    · have : fillEntryStep (Arith.exact r t) os col firstC firstSize firstFees xidx (fin X) (fin G) (fin W) (dirOf long)
          (statusOf open_) k records c = .ok records := by
        unfold fillEntryStep
        rw [ho]
        simp only
        rw [hx, if_pos (by simpa using hen)]
      rw [this]
      simp only
      rw [ih (c + 1) _ hm' hs', List.filter_cons_of_neg (by simpa using hen)]

theorem isEntry_dirOf {long buy : Bool} :
    isEntry (dirOf long) (if buy then OrderSide.Buy else OrderSide.Sell) = decide (buy = long) := by
  cases long <;> cases buy <;> rfl

theorem isExit_dirOf {long buy : Bool} :
    isExit (dirOf long) (if buy then OrderSide.Buy else OrderSide.Sell) = decide (buy ≠ long) := by
  cases long <;> cases buy <;> rfl

/-- State of the entry loop after the fills `qs`. -/
structure EntryInv (r t : ℚ) (os : List OrderRec) (col : Nat) (par : Int) (recs : List TradeRec) (qs : List Fill)
    (s : EntryState) : Prop where
  lastId : s.lastId = (qs.getLast?.map fun o => (o.id : Int)).getD (-1)
  records : s.records = recs ++ numbered recs.length (blocks (entryBlock (Arith.exact r t) col) (par + 1) (split qs).1)
  parent : s.parentId = par + (split qs).1.length + (if (split qs).2.isSome then 1 else 0)
  inPos : s.inPos = (split qs).2.isSome
  cur : ∀ long evs, (split qs).2 = some (long, evs) → s.direction = dirOf long ∧ s.eSize = fin (entered evs) ∧
    s.eGross = fin (entryGross evs) ∧ s.eFees = fin (entryFees evs) ∧ s.xSize = fin (exited evs) ∧
    s.xGross = fin (exitGross evs) ∧ s.xFees = fin (exitFees evs) ∧ s.firstC + evs.length = qs.length ∧
    ∀ (j : Nat) e, evs[j]? = some e → Match os long s.firstC s.firstSize s.firstFees (s.firstC + j) e

theorem snoc_get {evs : List Ev} {e e' : Ev} {j : Nat} (h : (evs ++ [e])[j]? = some e') :
    evs[j]? = some e' ∨ (j = evs.length ∧ e' = e) := by
  rcases Nat.lt_trichotomy j evs.length with hj | hj | hj
  · left; rwa [List.getElem?_append_left hj] at h
  · right; subst hj; simp at h; exact ⟨rfl, h.symm⟩
  · rw [List.getElem?_eq_none (by simp; omega)] at h; cases h

theorem entryFill {os : List OrderRec} {col firstC lastC : Nat} {firstSize firstFees : F} {xidx k : Int} {G W : ℚ}
    {long open_ : Bool} {evs : List Ev} {records : List TradeRec} (hok : EvsOk evs)
    (hlen : firstC + evs.length = lastC + 1)
    (hm : ∀ (j : Nat) e, evs[j]? = some e → Match os long firstC firstSize firstFees (firstC + j) e)
    (hG : G = exitGross evs) (hW : W = exitFees evs) (hx : xidx = lastIdx evs) :
    fillEntryTrades (Arith.exact r t) os col firstC lastC firstSize firstFees xidx (fin (entered evs)) (fin G) (fin W)
      (dirOf long) (statusOf open_) k records =
    .ok (records ++ numbered records.length (entryBlock (Arith.exact r t) col k ⟨long, evs, open_⟩)) := by
  subst hG hW hx
  unfold fillEntryTrades entryBlock
  rw [show lastC + 1 - firstC = evs.length by omega]
  exact fillEntry_loop hok.entered_pos.ne' evs firstC records hm
    (fun e he h => ⟨(hok.size e he).ne', (hok.price e he h).ne'⟩)

theorem entryStep_inv {os : List OrderRec} {col : Nat} {par : Int} {recs : List TradeRec} {qs : List Fill} {s : EntryState}
    {q : Fill} {o : OrderRec} (hq : q.Is o) (hok : q.Ok) (hoks : ∀ x ∈ qs, x.Ok) (hget : os[qs.length]? = some o)
    (hid : ∀ x ∈ qs, x.id ≤ q.id) (hclear : ClearStep r t (split qs) q) (h : EntryInv r t os col par recs qs s) :
    ∃ s', entryStep (Arith.exact r t) os col s (o, qs.length) = .ok s' ∧ EntryInv r t os col par recs (qs ++ [q]) s' := by
  obtain ⟨q1, q2, q3, q4, q5, q6⟩ := hq
  have hlast : ¬ (o.id : Int) < s.lastId := by
    rw [h.lastId, q1]
    cases hl : qs.getLast? with
    | none => simp
    | some x =>
      have := hid x (List.mem_of_getLast? hl)
      simp; exact this
  have hlid : ((qs ++ [q]).getLast?.map fun o => (o.id : Int)).getD (-1) = q.id := by simp
  obtain ⟨hcl, hcur⟩ := split_ok hoks
  unfold entryStep
  simp only
  rw [if_neg hlast, q3, q4, if_neg (by simpa using hok.1), if_neg (by simpa using hok.2)]
  cases hc : (split qs).2 with
  | none =>
    have hin : s.inPos = false := by rw [h.inPos, hc]; rfl
    have hsp : split (qs ++ [q]) = ((split qs).1, some (q.buy, [⟨true, q.idx, q.size, q.price, q.fees⟩])) := by
      rw [split_concat]; unfold splitStep; rw [hc]
    have hd : (if o.side = OrderSide.Buy then TradeDirection.Long else TradeDirection.Short) = dirOf q.buy := by
      rw [q6]; cases q.buy <;> rfl
    simp only [EntryState.opened, hin, Bool.false_eq_true, if_false, hd]
    simp only [q6, isEntry_dirOf, decide_true, if_true]
    refine ⟨_, rfl, ?_⟩
    constructor
    · rw [hlid]; simp [q1]
    · rw [hsp]; exact h.records
    · have := h.parent
      rw [hc] at this
      rw [hsp]; simp only [Option.isSome_some, if_true]; simpa using this
    · rw [hsp]; rfl
    · intro long evs he
      rw [hsp] at he
      cases he
      obtain ⟨z1, z2, z3, z4, z5, z6⟩ := sums_entry [] q.idx q.size q.price q.fees
      rw [List.nil_append] at z1 z2 z3 z4 z5 z6
      refine ⟨rfl, ?_, ?_, ?_, ?_, ?_, ?_, ?_, ?_⟩
      · rw [z1]; simp [entered, total]
      · rw [z3]; simp [entryGross, total]
      · rw [z5, q5]; simp [entryFees, total]
      · rw [z2]; simp [exited, total]
      · rw [z4]; simp [exitGross, total]
      · rw [z6]; simp [exitFees, total]
      · simp
      · intro j e hj
        have hj0 : j = 0 := by
          by_contra hne
          rw [List.getElem?_eq_none (by simp; omega)] at hj; cases hj
        subst hj0
        simp only [List.getElem?_cons_zero, Option.some.injEq] at hj
        subst hj
        refine ⟨o, by simpa using hget, by rw [q6, isExit_dirOf]; simp, fun _ => ?_⟩
        simp only [Nat.add_zero, if_true]
        exact ⟨q3, q5, by rw [q2], q4⟩
  | some x =>
    obtain ⟨long, evs⟩ := x
    have hin : s.inPos = true := by rw [h.inPos, hc]; rfl
    obtain ⟨c1, c2, c3, c4, c5, c6, c7, c8, c9⟩ := h.cur long evs hc
    obtain ⟨hev, hleft⟩ := hcur _ hc
    simp only at hev hleft
    have hpar := h.parent
    rw [hc] at hpar
    simp only [Option.isSome_some, if_true] at hpar
    have hE := hev.entered_pos
    have hXn := hev.exited_nonneg
    simp only [EntryState.opened, hin, if_true, c1, q6, isEntry_dirOf, isExit_dirOf]
    have hne : ∀ {e : Ev} {sz fe : F}, os[s.firstC + evs.length]? = some o := by
      intro _ _ _; rw [c8]; exact hget
    have hpos : 0 < evs.length := by
      obtain ⟨e0, es, rfl, _⟩ := hev.first; simp
    have mnew : ∀ e : Ev, e.entry = decide (q.buy = long) →
        (e.entry = true → fin e.size = o.size ∧ fin e.fees = o.fees ∧ e.idx = (o.idx : Int) ∧ fin e.price = o.price) →
        ∀ (j : Nat) e', (evs ++ [e])[j]? = some e' → Match os long s.firstC s.firstSize s.firstFees (s.firstC + j) e' := by
      intro e he hfull j e' hj
      rcases snoc_get hj with hj | ⟨rfl, rfl⟩
      · exact c9 j e' hj
      · refine ⟨o, by rw [c8]; exact hget, ?_, ?_⟩
        · rw [q6, isExit_dirOf, he]
          by_cases hb : q.buy = long <;> simp [hb]
        · intro hen
          obtain ⟨f1, f2, f3, f4⟩ := hfull hen
          rw [if_neg (by omega), if_neg (by omega)]
          exact ⟨f1.symm, f2.symm, f3.symm, f4.symm⟩
    by_cases hb : q.buy = long
    · -- increased
      have hsp : split (qs ++ [q]) = ((split qs).1, some (long, evs ++ [⟨true, q.idx, q.size, q.price, q.fees⟩])) := by
        rw [split_concat]; unfold splitStep; rw [hc]; simp only; rw [if_pos hb]
      rw [if_pos (by simp [hb])]
      refine ⟨_, rfl, ?_⟩
      constructor
      · rw [hlid]; simp [q1]
      · rw [hsp]; exact h.records
      · rw [hsp]; simpa using hpar
      · rw [hsp]; simp
      · intro long' evs' he
        rw [hsp] at he
        cases he
        obtain ⟨z1, z2, z3, z4, z5, z6⟩ := sums_entry evs q.idx q.size q.price q.fees
        refine ⟨rfl, ?_, ?_, ?_, ?_, ?_, ?_, ?_, ?_⟩
        · rw [z1]; simp [c2]
        · rw [z3]; simp [c3]
        · rw [z5]; simp [c4, q5]
        · rw [z2]; exact c5
        · rw [z4]; exact c6
        · rw [z6]; exact c7
        · simp only [List.length_append, List.length_singleton]; omega
        · exact mnew _ (by simp [hb]) (fun _ => ⟨q3.symm, q5.symm, by rw [q2], q4.symm⟩)
    · rw [if_neg (by simp [hb]), if_pos (by simp [hb])]
      obtain ⟨t1, t2, t3⟩ := hclear long evs hc hb
      unfold entryExit
      simp only
      rw [c5, q3, c2, add_exact, isClose_noTie t2, isLess_noTie t2]
      by_cases heq : q.size = left evs
      · -- closed
        have hd : exited evs + q.size = entered evs := by rw [heq]; unfold left; ring
        have hsp : split (qs ++ [q]) =
            ((split qs).1 ++ [⟨long, evs ++ [⟨false, q.idx, q.size, q.price, q.fees⟩], false⟩], none) := by
          rw [split_concat]; unfold splitStep; rw [hc]; simp only
          rw [if_neg hb, if_neg (by rw [heq]; exact lt_irrefl _), if_pos heq]
        rw [if_pos (by simp [hd])]
        obtain ⟨z1, z2, z3, z4, z5, z6⟩ := sums_exit evs q.idx q.size q.price q.fees
        have hev' : EvsOk (evs ++ [⟨false, q.idx, q.size, q.price, q.fees⟩]) :=
          hev.snoc hok.1 (fun h => by cases h) (fun _ => hleft)
        have hf := entryFill (r := r) (t := t) (os := os) (col := col) (firstC := s.firstC) (lastC := qs.length)
          (firstSize := s.firstSize) (firstFees := s.firstFees) (xidx := (o.idx : Int)) (k := s.parentId)
          (G := exitGross evs + q.size * q.price) (W := exitFees evs + q.fees) (long := long) (open_ := false)
          (records := s.records) hev' (by simp; omega)
          (mnew _ (by simp [hb]) (fun h => by cases h)) z4.symm z6.symm (by rw [lastIdx_snoc, q2])
        rw [z1, show statusOf false = TradeStatus.Closed from rfl] at hf
        rw [c6, c7, q4, q5, mul_exact, add_exact, add_exact]
        rw [hf]
        refine ⟨_, rfl, ?_⟩
        constructor
        · rw [hlid]; simp [q1]
        · rw [hsp]
          simp only
          rw [blocks_append, numbered_append, ← List.append_assoc, ← h.records]
          congr 1
          simp only [blocks, List.append_nil]
          rw [hpar]
          congr 1
          · rw [h.records]; simp
          · rw [show par + 1 + ((split qs).1.length : Int) = par + ((split qs).1.length : Int) + 1 by ring]
        · rw [hsp]; simp only [Option.isSome_none, List.length_append, List.length_singleton]; push_cast
          rw [hpar]; simp; ring
        · rw [hsp]; rfl
        · intro long' evs' he
          rw [hsp] at he; cases he
      · have hd : ¬ exited evs + q.size = entered evs := by
          intro h; apply heq; unfold left; linarith
        rw [if_neg (by simp [hd])]
        by_cases hlt : q.size < left evs
        · -- decreased
          have hd' : exited evs + q.size < entered evs := by unfold left at hlt; linarith
          have hsp : split (qs ++ [q]) = ((split qs).1, some (long, evs ++ [⟨false, q.idx, q.size, q.price, q.fees⟩])) := by
            rw [split_concat]; unfold splitStep; rw [hc]; simp only; rw [if_neg hb, if_pos hlt]
          rw [if_pos (by simpa using hd')]
          refine ⟨_, rfl, ?_⟩
          obtain ⟨z1, z2, z3, z4, z5, z6⟩ := sums_exit evs q.idx q.size q.price q.fees
          constructor
          · rw [hlid]; simp [q1]
          · rw [hsp]; exact h.records
          · rw [hsp]; simpa using hpar
          · rw [hsp]; simp
          · intro long' evs' he
            rw [hsp] at he
            cases he
            refine ⟨rfl, ?_, ?_, ?_, ?_, ?_, ?_, ?_, ?_⟩
            · rw [z1]
            · rw [z3]; simp [c3]
            · rw [z5]; simp [c4]
            · rw [z2]
            · rw [z4]; simp [c6, q4]
            · rw [z6]; simp [c7, q5]
            · simp only [List.length_append, List.length_singleton]; omega
            · exact mnew _ (by simp [hb]) (fun h => by cases h)
        · -- reversed
          have hgt : left evs < q.size := lt_of_le_of_ne (not_lt.mp hlt) (Ne.symm heq)
          have hd' : ¬ exited evs + q.size < entered evs := by unfold left at hgt; intro h; linarith
          have hsp : split (qs ++ [q]) =
              ((split qs).1 ++ [⟨long, evs ++ [⟨false, q.idx, left evs, q.price, left evs / q.size * q.fees⟩], false⟩],
                some (!long, [⟨true, q.idx, q.size - left evs, q.price, (q.size - left evs) / q.size * q.fees⟩])) := by
            rw [split_concat]; unfold splitStep; rw [hc]; simp only
            rw [if_neg hb, if_neg hlt, if_neg heq]
          rw [if_neg (by simpa using hd')]
          have hrem : addNb (Arith.exact r t) (fin (entered evs)) (neg (fin (exited evs))) = fin (left evs) := by
            rw [neg_fin, addNb_noTie hE hXn t3]; rfl
          have hrem2 : addNb (Arith.exact r t) (fin q.size) (neg (fin (left evs))) = fin (q.size - left evs) := by
            rw [neg_fin, addNb_noTie hok.1 hleft.le t1]
          rw [hrem, divE_exact, if_neg hok.1.ne', hrem2]
          simp only
          rw [divE_exact, if_neg hok.1.ne']
          obtain ⟨z1, z2, z3, z4, z5, z6⟩ := sums_exit evs q.idx (left evs) q.price (left evs / q.size * q.fees)
          have hev' : EvsOk (evs ++ [⟨false, q.idx, left evs, q.price, left evs / q.size * q.fees⟩]) :=
            hev.snoc hleft (fun h => by cases h) (fun _ => hleft)
          have hf := entryFill (r := r) (t := t) (os := os) (col := col) (firstC := s.firstC) (lastC := qs.length)
            (firstSize := s.firstSize) (firstFees := s.firstFees) (xidx := (o.idx : Int)) (k := s.parentId)
            (G := exitGross evs + left evs * q.price) (W := exitFees evs + left evs / q.size * q.fees) (long := long)
            (open_ := false) (records := s.records) hev' (by simp; omega)
            (mnew _ (by simp [hb]) (fun h => by cases h)) z4.symm z6.symm (by rw [lastIdx_snoc, q2])
          rw [z1, show statusOf false = TradeStatus.Closed from rfl] at hf
          rw [c6, c7, q4, q5, mul_exact, mul_exact, add_exact, add_exact]
          rw [hf]
          have hd : (if o.side = OrderSide.Buy then TradeDirection.Long else TradeDirection.Short) = dirOf (!long) := by
            have : q.buy = !long := by cases hq : q.buy <;> cases long <;> simp_all
            rw [q6, this]; cases long <;> rfl
          refine ⟨_, rfl, ?_⟩
          constructor
          · rw [hlid]; simp [q1]
          · rw [hsp]
            simp only
            rw [blocks_append, numbered_append, ← List.append_assoc, ← h.records]
            congr 1
            simp only [blocks, List.append_nil]
            rw [hpar]
            congr 1
            · rw [h.records]; simp
            · rw [show par + 1 + ((split qs).1.length : Int) = par + ((split qs).1.length : Int) + 1 by ring]
          · rw [hsp]
            simp only [Option.isSome_some, List.length_append, List.length_singleton, if_true]
            push_cast; rw [hpar]; ring
          · rw [hsp]; simp
          · intro long' evs' he
            rw [hsp] at he
            cases he
            obtain ⟨z1, z2, z3, z4, z5, z6⟩ := sums_entry [] q.idx (q.size - left evs) q.price
              ((q.size - left evs) / q.size * q.fees)
            rw [List.nil_append] at z1 z2 z3 z4 z5 z6
            refine ⟨hd, ?_, ?_, ?_, ?_, ?_, ?_, ?_, ?_⟩
            · rw [z1]; simp [entered, total]
            · rw [z3]; simp [entryGross, total]
            · rw [z5]; simp [entryFees, total]
            · rw [z2]; simp [exited, total]
            · rw [z4]; simp [exitGross, total]
            · rw [z6]; simp [exitFees, total]
            · simp
            · intro j e hj
              have hj0 : j = 0 := by
                by_contra hne
                rw [List.getElem?_eq_none (by simp; omega)] at hj; cases hj
              subst hj0
              simp only [List.getElem?_cons_zero, Option.some.injEq] at hj
              subst hj
              refine ⟨o, by simpa using hget, ?_, fun _ => ?_⟩
              · rw [q6, isExit_dirOf]
                have : q.buy = !long := by cases hq : q.buy <;> cases long <;> simp_all
                simp [this]
              · simp only [Nat.add_zero, if_true]
                exact ⟨trivial, by simp, by rw [q2], q4⟩

end Vbt
