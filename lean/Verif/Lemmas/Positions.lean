import Verif.Lemmas.TradeColumns

/-! Aggregation of trades into positions. -/

namespace Vbt
open F

variable {r t : ℚ}

/-! ## The trades of one position -/

/-- A position ends with the exit of what is left. -/
def Ends (evs : List Ev) : Prop := ∃ es e, evs = es ++ [e] ∧ e.entry = false ∧ e.size = left es

theorem split_ends (os : List Fill) : ∀ p ∈ (split os).1, Ends p.evs := by
  induction os using List.reverseRecOn with
  | nil => intro p hp; simp [split] at hp
  | append_singleton os o ih =>
    intro p hp
    rw [split_concat] at hp
    unfold splitStep at hp
    cases hc : (split os).2 with
    | none => rw [hc] at hp; exact ih p hp
    | some x =>
      obtain ⟨long, evs⟩ := x
      rw [hc] at hp
      simp only at hp
      by_cases h1 : o.buy = long
      · rw [if_pos h1] at hp; exact ih p hp
      rw [if_neg h1] at hp
      by_cases h2 : o.size < left evs
      · rw [if_pos h2] at hp; exact ih p hp
      rw [if_neg h2] at hp
      by_cases h3 : o.size = left evs
      · rw [if_pos h3] at hp
        rcases List.mem_append.mp hp with hp | hp
        · exact ih p hp
        · rw [List.mem_singleton] at hp; subst hp; exact ⟨_, _, rfl, rfl, h3⟩
      · rw [if_neg h3] at hp
        rcases List.mem_append.mp hp with hp | hp
        · exact ih p hp
        · rw [List.mem_singleton] at hp; subst hp; exact ⟨_, _, rfl, rfl, rfl⟩

theorem positionsOf_ends (os : List Fill) (last : Int) (close : ℚ) : ∀ p ∈ positionsOf os last close, Ends p.evs := by
  intro p hp
  unfold positionsOf at hp
  cases hc : (split os).2 with
  | none => rw [hc] at hp; exact split_ends os p hp
  | some x =>
    rw [hc] at hp
    rcases List.mem_append.mp hp with hp | hp
    · exact split_ends os p hp
    · rw [List.mem_singleton] at hp; subst hp; exact ⟨_, _, rfl, rfl, rfl⟩

/-- The position record of some trades. -/
def aggregate (A : Arith) (n : Int) (g : List TradeRec) : Except Err TradeRec :=
  match g.head?, g.getLast? with
  | some first, some last =>
    if g.length > 1 then fillPosition A n g first last else .ok { first with id := n, parentId := n }
  | _, _ => .error (.indexError "empty slice")

/-- A trade with finite fields. -/
structure QTrade where
  size : ℚ
  eidx : Int
  ep : ℚ
  ef : ℚ
  xidx : Int
  xp : ℚ
  xf : ℚ
  open_ : Bool

def QTrade.mk' (A : Arith) (col : Nat) (k : Int) (long : Bool) (x : QTrade) : TradeRec :=
  mkTrade A col k long x.open_ x.size x.eidx x.ep x.ef x.xidx x.xp x.xf

/-- The position record of a position. -/
def posTrade (A : Arith) (col : Nat) (n : Int) (p : Pos) : TradeRec :=
  { mkTrade A col n p.long p.open_ (entered p.evs) (firstIdx p.evs) (entryGross p.evs / entered p.evs) (entryFees p.evs)
      (lastIdx p.evs) (exitGross p.evs / entered p.evs) (exitFees p.evs) with id := n }

theorem npSum_map_fin {α : Type} (l : List α) (g : α → ℚ) :
    npSum (Arith.exact r t) (l.map fun x => fin (g x)) = fin ((l.map g).sum) := by
  have key : ∀ (l : List α) (x : ℚ), (l.map fun x => fin (g x)).foldl (add (Arith.exact r t)) (fin x) =
      fin (x + (l.map g).sum) := by
    intro l
    induction l with
    | nil => intro x; simp
    | cons a l ih => intro x; rw [List.map_cons, List.foldl_cons, add_exact, ih]; simp [add_assoc]
  unfold npSum
  rw [show (F.zero : F) = fin 0 from rfl, key]
  simp

theorem aggregate_eq {col : Nat} {k n : Int} {long : Bool} {p : Pos} {g : List QTrade} (hl : p.long = long)
    (hs : (g.map (·.size)).sum = entered p.evs) (hE : entered p.evs ≠ 0) (hG : entryGross p.evs ≠ 0)
    (he : (g.map fun x => x.size * x.ep).sum = entryGross p.evs) (hx : (g.map fun x => x.size * x.xp).sum = exitGross p.evs)
    (hef : (g.map (·.ef)).sum = entryFees p.evs) (hxf : (g.map (·.xf)).sum = exitFees p.evs)
    (hfirst : ∀ x, g.head? = some x → x.eidx = firstIdx p.evs)
    (hlast : ∀ x, g.getLast? = some x → x.xidx = lastIdx p.evs ∧ x.open_ = p.open_) :
    aggregate (Arith.exact r t) n (g.map (QTrade.mk' (Arith.exact r t) col k long)) =
      .ok (posTrade (Arith.exact r t) col n p) := by
  unfold aggregate
  cases g with
  | nil => simp at hs; exact absurd hs.symm hE
  | cons a g' =>
    obtain ⟨z, hz⟩ : ∃ z, (a :: g').getLast? = some z := ⟨_, List.getLast?_eq_getLast (by simp)⟩
    have hz' : ((a :: g').map (QTrade.mk' (Arith.exact r t) col k long)).getLast? =
        some (QTrade.mk' (Arith.exact r t) col k long z) := by
      rw [List.getLast?_map, hz]; rfl
    rw [hz']
    obtain ⟨hz1, hz2⟩ := hlast z hz
    have ha := hfirst a rfl
    simp only [List.map_cons, List.head?_cons, List.length_cons, List.length_map]
    by_cases hlen : g'.length = 0
    · have : g' = [] := List.length_eq_zero_iff.mp hlen
      subst this
      rw [if_neg (by simp)]
      have hza : z = a := by simpa using hz.symm
      subst hza
      simp only [List.map_cons, List.map_nil, List.sum_cons, List.sum_nil, add_zero] at hs he hx hef hxf
      have h1 : z.ep = entryGross p.evs / entered p.evs := by rw [← hs, ← he]; rw [← hs] at hE; field_simp
      have h2 : z.xp = exitGross p.evs / entered p.evs := by rw [← hs, ← hx]; rw [← hs] at hE; field_simp
      unfold posTrade QTrade.mk'
      rw [hs, h1, h2, hef, hxf, ha, hz1, hz2, hl]
      rfl
    · rw [if_pos (by omega), ← List.map_cons]
      unfold fillPosition
      have m1 : ((a :: g').map (QTrade.mk' (Arith.exact r t) col k long)).map (·.size) =
          (a :: g').map fun x => fin x.size := by rw [List.map_map]; rfl
      have m2 : ((a :: g').map (QTrade.mk' (Arith.exact r t) col k long)).map
          (fun t' => mul (Arith.exact r t) t'.size t'.entryPrice) = (a :: g').map fun x => fin (x.size * x.ep) := by
        rw [List.map_map]; apply List.map_congr_left; intro x _; simp [QTrade.mk', mkTrade]
      have m3 : ((a :: g').map (QTrade.mk' (Arith.exact r t) col k long)).map
          (fun t' => mul (Arith.exact r t) t'.size t'.exitPrice) = (a :: g').map fun x => fin (x.size * x.xp) := by
        rw [List.map_map]; apply List.map_congr_left; intro x _; simp [QTrade.mk', mkTrade]
      have m4 : ((a :: g').map (QTrade.mk' (Arith.exact r t) col k long)).map (·.entryFees) =
          (a :: g').map fun x => fin x.ef := by rw [List.map_map]; rfl
      have m5 : ((a :: g').map (QTrade.mk' (Arith.exact r t) col k long)).map (·.exitFees) =
          (a :: g').map fun x => fin x.xf := by rw [List.map_map]; rfl
      simp only [m1, m2, m3, m4, m5, npSum_map_fin, hs, he, hx, hef, hxf, divE_exact, if_neg hE]
      have := fillTradeRecord_eq (r := r) (t := t) (id := n) (col := col) (k := n) (eidx := a.eidx) (xidx := z.xidx)
        (size := entered p.evs) (ep := entryGross p.evs / entered p.evs) (ef := entryFees p.evs)
        (xp := exitGross p.evs / entered p.evs) (xf := exitFees p.evs) (long := long) (open_ := z.open_) hE (div_ne_zero hG hE)
      rw [show (QTrade.mk' (Arith.exact r t) col k long a).col = col from rfl,
        show (QTrade.mk' (Arith.exact r t) col k long a).entryIdx = a.eidx from rfl,
        show (QTrade.mk' (Arith.exact r t) col k long z).exitIdx = z.xidx from rfl,
        show (QTrade.mk' (Arith.exact r t) col k long z).direction = dirOf long from rfl,
        show (QTrade.mk' (Arith.exact r t) col k long z).status = statusOf z.open_ from rfl, this]
      unfold posTrade
      rw [ha, hz1, hz2, hl]

theorem entryGross_pos {evs : List Ev} (h : EvsOk evs) : 0 < entryGross evs := by
  obtain ⟨e, es, rfl, he⟩ := h.first
  unfold entryGross
  rw [total_cons, if_pos he]
  have h1 := mul_pos (h.size e List.mem_cons_self) (h.price e List.mem_cons_self he)
  have h2 : 0 ≤ total true (fun e => e.size * e.price) es := by
    apply List.sum_nonneg
    intro x hx
    obtain ⟨e', he', rfl⟩ := List.mem_map.mp hx
    obtain ⟨hm, ht⟩ := List.mem_filter.mp he'
    exact (mul_pos (h.size e' (List.mem_cons_of_mem _ hm)) (h.price e' (List.mem_cons_of_mem _ hm) (by simpa using ht))).le
  linarith

theorem sum_map_mul_right' {α : Type} (l : List α) (f : α → ℚ) (c : ℚ) : (l.map fun x => f x * c).sum = (l.map f).sum * c := by
  induction l with
  | nil => simp
  | cons a l ih => simp [ih, add_mul]

theorem filter_true (evs : List Ev) : (evs.filter (·.entry)) = evs.filter fun e => e.entry = true := by
  congr 1; funext e; cases e.entry <;> rfl

/-- The entry trades of a position, as finite trades. -/
def entriesQ (p : Pos) : List QTrade := (p.evs.filter fun e => e.entry = true).map fun e =>
  ⟨e.size, e.idx, e.price, e.fees, lastIdx p.evs, exitGross p.evs / entered p.evs,
    e.size / entered p.evs * exitFees p.evs, p.open_⟩

theorem entryBlock_Q (A : Arith) (col : Nat) (k : Int) (p : Pos) :
    entryBlock A col k p = (entriesQ p).map (QTrade.mk' A col k p.long) := by
  unfold entryBlock entriesQ
  rw [List.map_map, filter_true]; rfl

theorem entriesQ_sums {p : Pos} (h : EvsOk p.evs) :
    ((entriesQ p).map (·.size)).sum = entered p.evs ∧
    ((entriesQ p).map fun x => x.size * x.ep).sum = entryGross p.evs ∧
    ((entriesQ p).map fun x => x.size * x.xp).sum = exitGross p.evs ∧
    ((entriesQ p).map (·.ef)).sum = entryFees p.evs ∧
    ((entriesQ p).map (·.xf)).sum = exitFees p.evs := by
  have hE := h.entered_pos.ne'
  unfold entriesQ
  refine ⟨?_, ?_, ?_, ?_, ?_⟩
  · rw [List.map_map]; rfl
  · rw [List.map_map]; rfl
  · rw [List.map_map]
    have : (p.evs.filter fun e => e.entry = true).map ((fun x : QTrade => x.size * x.xp) ∘ fun e =>
      (⟨e.size, e.idx, e.price, e.fees, lastIdx p.evs, exitGross p.evs / entered p.evs,
        e.size / entered p.evs * exitFees p.evs, p.open_⟩ : QTrade)) = (p.evs.filter fun e => e.entry = true).map fun e =>
          e.size * (exitGross p.evs / entered p.evs) := rfl
    rw [this, sum_map_mul_right', show ((p.evs.filter fun e => e.entry = true).map fun e => e.size).sum = entered p.evs from rfl]
    field_simp
  · rw [List.map_map]; rfl
  · rw [List.map_map]
    have : (p.evs.filter fun e => e.entry = true).map ((fun x : QTrade => x.xf) ∘ fun e =>
      (⟨e.size, e.idx, e.price, e.fees, lastIdx p.evs, exitGross p.evs / entered p.evs,
        e.size / entered p.evs * exitFees p.evs, p.open_⟩ : QTrade)) = (p.evs.filter fun e => e.entry = true).map fun e =>
          e.size * ((entered p.evs)⁻¹ * exitFees p.evs) := by
      apply List.map_congr_left; intro e _; simp only [Function.comp]; ring
    rw [this, sum_map_mul_right', show ((p.evs.filter fun e => e.entry = true).map fun e => e.size).sum = entered p.evs from rfl]
    field_simp

/-- The entry trades of a position make its record. -/
theorem aggregate_entry {p : Pos} (h : PosOk p) (hend : Ends p.evs) (col : Nat) (k n : Int) :
    aggregate (Arith.exact r t) n (entryBlock (Arith.exact r t) col k p) = .ok (posTrade (Arith.exact r t) col n p) := by
  have hE := h.evs.entered_pos
  obtain ⟨s1, s2, s3, s4, s5⟩ := entriesQ_sums h.evs
  rw [entryBlock_Q]
  apply aggregate_eq rfl s1 hE.ne' (entryGross_pos h.evs).ne' s2 s3 s4 s5
  · intro x hx
    obtain ⟨e, es, hes, he⟩ := h.evs.first
    unfold entriesQ at hx
    rw [hes] at hx ⊢
    rw [List.filter_cons_of_pos (by simpa using he)] at hx
    simp only [List.map_cons, List.head?_cons, Option.some.injEq] at hx
    subst hx
    rfl
  · intro x hx
    unfold entriesQ at hx
    rw [List.getLast?_map] at hx
    obtain ⟨e, _, rfl⟩ := Option.map_eq_some_iff.mp hx
    exact ⟨rfl, rfl⟩

/-- The exit trades of a position, as finite trades. -/
def exitsQ (open_ : Bool) (eidx : Int) : ℚ × ℚ × ℚ → List Ev → List QTrade
  | _, [] => []
  | s, e :: es =>
    (if e.entry then []
     else [⟨e.size, eidx, s.2.1 / s.1, e.size / s.1 * s.2.2, e.idx, e.price, e.fees, open_ && es.isEmpty⟩])
      ++ exitsQ open_ eidx (avgStep s e) es

theorem exitsFrom_Q (A : Arith) (col : Nat) (k : Int) (long open_ : Bool) (eidx : Int) (s : ℚ × ℚ × ℚ) (evs : List Ev) :
    exitsFrom A col k long open_ eidx s evs = (exitsQ open_ eidx s evs).map (QTrade.mk' A col k long) := by
  induction evs generalizing s with
  | nil => rfl
  | cons e es ih =>
    rw [exitsFrom, exitsQ, ih, List.map_append]
    cases e.entry <;> rfl

theorem exitsQ_snoc (open_ : Bool) (eidx : Int) (s : ℚ × ℚ × ℚ) (evs : List Ev) (e : Ev) (he : e.entry = false) :
    ∃ l, exitsQ open_ eidx s (evs ++ [e]) = l ++ [⟨e.size, eidx, (evs.foldl avgStep s).2.1 / (evs.foldl avgStep s).1,
      e.size / (evs.foldl avgStep s).1 * (evs.foldl avgStep s).2.2, e.idx, e.price, e.fees, open_⟩] := by
  induction evs generalizing s with
  | nil => exact ⟨[], by simp [exitsQ, he]⟩
  | cons x xs ih =>
    obtain ⟨l, hl⟩ := ih (avgStep s x)
    rw [List.cons_append, exitsQ, hl, ← List.append_assoc]
    exact ⟨_, rfl⟩

theorem exitsQ_eidx {open_ : Bool} {eidx : Int} {s : ℚ × ℚ × ℚ} {evs : List Ev} :
    ∀ x ∈ exitsQ open_ eidx s evs, x.eidx = eidx := by
  induction evs generalizing s with
  | nil => intro x hx; simp [exitsQ] at hx
  | cons e es ih =>
    intro x hx
    rw [exitsQ] at hx
    rcases List.mem_append.mp hx with hx | hx
    · cases he : e.entry
      · rw [he] at hx; simp at hx; subst hx; rfl
      · rw [he] at hx; simp at hx
    · exact ih x hx

theorem exitsQ_sums {open_ : Bool} {eidx : Int} {s : ℚ × ℚ × ℚ} {evs : List Ev} (ha : Alive s.1 evs) :
    ((exitsQ open_ eidx s evs).map (·.size)).sum = exited evs ∧
    ((exitsQ open_ eidx s evs).map fun x => x.size * x.ep).sum = s.2.1 + entryGross evs - (evs.foldl avgStep s).2.1 ∧
    ((exitsQ open_ eidx s evs).map fun x => x.size * x.xp).sum = exitGross evs ∧
    ((exitsQ open_ eidx s evs).map (·.ef)).sum = s.2.2 + entryFees evs - (evs.foldl avgStep s).2.2 ∧
    ((exitsQ open_ eidx s evs).map (·.xf)).sum = exitFees evs := by
  induction evs generalizing s with
  | nil => simp [exitsQ, exited, entryGross, exitGross, entryFees, exitFees, total_nil]
  | cons e es ih =>
    have ha' : Alive (avgStep s e).1 es := by
      have := ha.2
      unfold avgStep
      cases he : e.entry <;> simpa [he] using this
    obtain ⟨h1, h2, h3, h4, h5⟩ := ih ha'
    simp only [exited, entryGross, exitGross, entryFees, exitFees] at h1 h2 h3 h4 h5 ⊢
    simp only [exitsQ, List.map_append, List.sum_append, h1, h2, h3, h4, h5, total_cons, List.foldl_cons]
    cases he : e.entry
    · have hS : s.1 ≠ 0 := (ha.1 he).ne'
      simp [avgStep, he]
      constructor
      · field_simp; ring
      · field_simp; ring
    · simp [avgStep, he]
      constructor <;> ring

theorem exitsQ_pos {p : Pos} (h : PosOk p) (hend : Ends p.evs) :
    ((exitsQ p.open_ (firstIdx p.evs) (0, 0, 0) p.evs).map (·.size)).sum = entered p.evs ∧
    ((exitsQ p.open_ (firstIdx p.evs) (0, 0, 0) p.evs).map fun x => x.size * x.ep).sum = entryGross p.evs ∧
    ((exitsQ p.open_ (firstIdx p.evs) (0, 0, 0) p.evs).map fun x => x.size * x.xp).sum = exitGross p.evs ∧
    ((exitsQ p.open_ (firstIdx p.evs) (0, 0, 0) p.evs).map (·.ef)).sum = entryFees p.evs ∧
    ((exitsQ p.open_ (firstIdx p.evs) (0, 0, 0) p.evs).map (·.xf)).sum = exitFees p.evs := by
  obtain ⟨s1, s2, s3, s4, s5⟩ := exitsQ_sums (open_ := p.open_) (eidx := firstIdx p.evs) (s := (0, 0, 0)) h.evs.alive
  obtain ⟨es, e, hes, he, hsz⟩ := hend
  have hfin : (p.evs.foldl avgStep (0, 0, 0)).2.1 = 0 ∧ (p.evs.foldl avgStep (0, 0, 0)).2.2 = 0 := by
    rw [hes, List.foldl_append, List.foldl_cons, List.foldl_nil, avgStep, he]
    have : (es.foldl avgStep (0, 0, 0)).1 = left es := by rw [avg_left]; simp
    simp [this, hsz]
  rw [hfin.1] at s2
  rw [hfin.2] at s4
  have hd := h.done
  refine ⟨?_, ?_, s3, ?_, s5⟩
  · rw [s1]; unfold left at hd; linarith
  · rw [s2]; ring
  · rw [s4]; ring

/-- The exit trades of a position make its record. -/
theorem aggregate_exit {p : Pos} (h : PosOk p) (hend : Ends p.evs) (col : Nat) (k n : Int) :
    aggregate (Arith.exact r t) n (exitBlock (Arith.exact r t) col k p) = .ok (posTrade (Arith.exact r t) col n p) := by
  have hE := h.evs.entered_pos
  unfold exitBlock
  rw [exitsFrom_Q]
  obtain ⟨s1, s2, s3, s4, s5⟩ := exitsQ_pos h hend
  obtain ⟨es, e, hes, he, hsz⟩ := hend
  apply aggregate_eq rfl s1 hE.ne' (entryGross_pos h.evs).ne' s2 s3 s4 s5
  · intro x hx
    exact exitsQ_eidx x (List.mem_of_mem_head? hx)
  · intro x hx
    obtain ⟨l, hl⟩ := exitsQ_snoc p.open_ (firstIdx p.evs) (0, 0, 0) es e he
    rw [← hes] at hl
    rw [hl] at hx
    simp at hx
    rw [← hx, hes, lastIdx_snoc]
    exact ⟨rfl, rfl⟩

end Vbt
