import Verif.Lemmas.Positions

/-! Trades and positions of all columns. -/

namespace Vbt
open F

variable {r t : ℚ}

theorem numbered_get (n : Nat) (l : List TradeRec) (i : Nat) :
    (numbered n l)[i]? = l[i]?.map fun x => { x with id := (n : Int) + i } := by
  induction l generalizing n i with
  | nil => simp [numbered]
  | cons x xs ih =>
    cases i with
    | zero => simp [numbered]
    | succ i =>
      simp only [numbered, List.getElem?_cons_succ, ih]
      congr 1
      funext y
      congr 1
      push_cast; ring

theorem aggregate_numbered (A : Arith) (n : Int) (m : Nat) (g : List TradeRec) :
    aggregate A n (numbered m g) = aggregate A n g := by
  unfold aggregate
  have e1 : ∀ {β : Type} (f : TradeRec → β), (∀ x i, f { x with id := i } = f x) → (numbered m g).map f = g.map f :=
    fun f hf => numbered_map f hf m g
  have eh : (numbered m g).head? = g.head?.map fun x => { x with id := (m : Int) } := by
    cases g <;> simp [numbered]
  have el : (numbered m g).getLast? = g.getLast?.map fun x => { x with id := (m : Int) + ((g.length - 1 : Nat) : Int) } := by
    rw [List.getLast?_eq_getElem?, List.getLast?_eq_getElem?, numbered_length, numbered_get]
  rw [eh, el, numbered_length]
  cases hh : g.head? with
  | none => rfl
  | some first =>
    cases hl : g.getLast? with
    | none => rfl
    | some last =>
      simp only [Option.map_some]
      unfold fillPosition
      rw [e1 (·.size) (fun _ _ => rfl), e1 (fun t => mul A t.size t.entryPrice) (fun _ _ => rfl),
        e1 (fun t => mul A t.size t.exitPrice) (fun _ _ => rfl), e1 (·.entryFees) (fun _ _ => rfl),
        e1 (·.exitFees) (fun _ _ => rfl)]

theorem positionRecord_eq (A : Arith) (n : Nat) (pre g post : List TradeRec) :
    positionRecord A n (numbered 0 (pre ++ (g ++ post))) pre.length (pre.length + g.length) = aggregate A n g := by
  unfold positionRecord
  have : ((numbered 0 (pre ++ (g ++ post))).take (pre.length + g.length)).drop pre.length = numbered pre.length g := by
    rw [numbered_append, numbered_append, List.take_append, List.take_of_length_le (by simp)]
    simp
  simp only [this]
  rw [← aggregate_numbered A n pre.length g]
  unfold aggregate
  rw [numbered_length, show pre.length + g.length - pre.length = g.length by omega]
  cases (numbered pre.length g).head? <;> cases (numbered pre.length g).getLast? <;> rfl

theorem loopE_append_eq {σ α : Type} {f : σ → α → Except Err σ} {s s1 : σ} {l1 l2 : List α} (h : loopE f s l1 = .ok s1) :
    loopE f s (l1 ++ l2) = loopE f s1 l2 := by
  induction l1 generalizing s with
  | nil => cases h; rfl
  | cons x xs ih =>
    cases hx : f s x with
    | error e => simp only [loopE, hx] at h; cases h
    | ok s' => simp only [List.cons_append, loopE, hx] at h ⊢; exact ih h

/-- Trades of one position, in the loop over a column. -/
theorem posGroup {A : Arith} {pre g post : List TradeRec} {k : Int} {s : PosState} (hg : g ≠ []) (hk : ∀ x ∈ g, x.parentId = k)
    (hid : s.lastId < pre.length) (hne : s.lastPosId ≠ k) (rs : List TradeRec)
    (hrs : if s.lastPosId ≠ -1 then ∃ x, positionRecord A s.records.length (numbered 0 (pre ++ (g ++ post))) s.fromTidx
      pre.length = .ok x ∧ rs = s.records ++ [x] else rs = s.records) :
    loopE (posStep A (numbered 0 (pre ++ (g ++ post)))) s (List.range' pre.length g.length) =
      .ok { lastId := (pre.length : Int) + g.length - 1, lastPosId := k, fromTidx := pre.length,
            tidx := pre.length + g.length - 1, records := rs } := by
  have hget : ∀ j (hj : j < g.length), (numbered 0 (pre ++ (g ++ post)))[pre.length + j]? =
      some { g[j] with id := ((pre.length + j : Nat) : Int) } := by
    intro j hj
    rw [numbered_get, List.getElem?_append_right (by omega), show pre.length + j - pre.length = j by omega,
      List.getElem?_append_left hj, List.getElem?_eq_getElem hj]
    simp
  have hpos : 0 < g.length := List.length_pos_iff.mpr hg
  have first : posStep A (numbered 0 (pre ++ (g ++ post))) s pre.length =
      .ok { lastId := (pre.length : Int), lastPosId := k, fromTidx := pre.length, tidx := pre.length, records := rs } := by
    unfold posStep
    have := hget 0 hpos
    rw [Nat.add_zero] at this
    rw [this]
    simp only
    have hk0 : g[0].parentId = k := hk _ (List.getElem_mem hpos)
    rw [if_neg (by omega), hk0, if_pos (Ne.symm hne)]
    by_cases hm : s.lastPosId = -1
    · rw [if_neg (by simp [hm])] at hrs ⊢
      subst hrs; rfl
    · rw [if_pos hm] at hrs ⊢
      obtain ⟨x, hx, rfl⟩ := hrs
      rw [hx]
  have rest : ∀ n, n + 1 ≤ g.length → loopE (posStep A (numbered 0 (pre ++ (g ++ post)))) s (List.range' pre.length (n + 1)) =
      .ok { lastId := (pre.length : Int) + n, lastPosId := k, fromTidx := pre.length, tidx := pre.length + n, records := rs } := by
    intro n
    induction n with
    | zero =>
      intro _
      rw [show List.range' pre.length (0 + 1) = [pre.length] from rfl]
      simp [loopE, first]
    | succ n ih =>
      intro hn
      rw [List.range'_concat, loopE_append_eq (ih (by omega))]
      unfold loopE
      have hst : posStep A (numbered 0 (pre ++ (g ++ post)))
          { lastId := (pre.length : Int) + n, lastPosId := k, fromTidx := pre.length, tidx := pre.length + n, records := rs }
          (pre.length + 1 * (n + 1)) =
          .ok { lastId := (pre.length : Int) + (n + 1 : Nat), lastPosId := k, fromTidx := pre.length,
                tidx := pre.length + (n + 1), records := rs } := by
        unfold posStep
        rw [show pre.length + 1 * (n + 1) = pre.length + (n + 1) by ring, hget (n + 1) (by omega)]
        simp only
        have hkn : g[n + 1].parentId = k := hk _ (List.getElem_mem _)
        rw [if_neg (by push_cast; omega), hkn, if_neg (by simp)]
        push_cast
        rfl
      rw [hst]
      rfl
  have := rest (g.length - 1) (by omega)
  rw [show g.length - 1 + 1 = g.length by omega] at this
  rw [this]
  congr 2
  · push_cast; omega
  · omega

/-- The trades `f k p` make the record `h n p`. -/
def Makes (A : Arith) (f : Int → Pos → List TradeRec) (h : Int → Pos → TradeRec) (p : Pos) : Prop :=
  ∀ k, f k p ≠ [] ∧ (∀ x ∈ f k p, x.parentId = k) ∧ ∀ n, aggregate A n (f k p) = .ok (h n p)

theorem posGroups {A : Arith} {f : Int → Pos → List TradeRec} {h : Int → Pos → TradeRec} (ps : List Pos) :
    ∀ {pre g post : List TradeRec} {k : Int} {s : PosState} {p : Pos}, (∀ q ∈ ps, Makes A f h q) → Makes A f h p →
      g = f k p → s.lastId = (pre.length : Int) + g.length - 1 → s.lastPosId = k → 0 ≤ k → s.fromTidx = pre.length →
      s.tidx = pre.length + g.length - 1 →
      (match loopE (posStep A (numbered 0 (pre ++ (g ++ (blocks f (k + 1) ps ++ post))))) s
          (List.range' (pre.length + g.length) (blocks f (k + 1) ps).length) with
      | .error e => .error e
      | .ok s =>
        match positionRecord A s.records.length (numbered 0 (pre ++ (g ++ (blocks f (k + 1) ps ++ post)))) s.fromTidx
          (s.tidx + 1) with
        | .error e => .error e
        | .ok x => .ok (s.records ++ [x])) =
        (.ok (s.records ++ blocks (fun n p => [h n p]) s.records.length (p :: ps)) : Except Err (List TradeRec)) := by
  induction ps with
  | nil =>
    intro pre g post k s p _ hp hg h1 h2 h3 h4 h5
    have hpos : 0 < g.length := by rw [hg]; exact List.length_pos_iff.mpr (hp k).1
    simp only [blocks, List.length_nil, List.range'_zero, loopE, List.nil_append]
    rw [h4, h5, show pre.length + g.length - 1 + 1 = pre.length + g.length by omega, positionRecord_eq, hg, (hp k).2.2]
    simp
  | cons q ps ih =>
    intro pre g post k s p hps hp hg h1 h2 h3 h4 h5
    have hpos : 0 < g.length := by rw [hg]; exact List.length_pos_iff.mpr (hp k).1
    have hq := hps q List.mem_cons_self
    simp only [blocks]
    rw [List.length_append, ← List.range'_append_1]
    have eT : pre ++ (g ++ (f (k + 1) q ++ blocks f (k + 1 + 1) ps ++ post)) =
        (pre ++ g) ++ (f (k + 1) q ++ (blocks f (k + 1 + 1) ps ++ post)) := by simp
    have hgrp := posGroup (A := A) (pre := pre ++ g) (g := f (k + 1) q) (post := blocks f (k + 1 + 1) ps ++ post) (k := k + 1)
      (s := s) (hq (k + 1)).1 (hq (k + 1)).2.1 (by rw [h1]; simp) (by omega) (s.records ++ [h s.records.length p]) (by
        rw [if_pos (by omega)]
        refine ⟨h s.records.length p, ?_, rfl⟩
        rw [h4, show (pre ++ g).length = pre.length + g.length by simp, ← eT, positionRecord_eq, hg, (hp k).2.2])
    rw [List.length_append] at hgrp
    rw [eT, loopE_append_eq hgrp]
    have := ih (pre := pre ++ g) (g := f (k + 1) q) (post := post) (k := k + 1)
      (s := { lastId := ((pre.length + g.length : Nat) : Int) + (f (k + 1) q).length - 1, lastPosId := k + 1,
              fromTidx := pre.length + g.length, tidx := pre.length + g.length + (f (k + 1) q).length - 1,
              records := s.records ++ [h s.records.length p] }) (p := q)
      (fun x hx => hps x (List.mem_cons_of_mem _ hx)) hq rfl (by simp) rfl (by omega) (by simp) (by simp)
    rw [List.length_append] at this
    rw [this]
    simp [blocks]

theorem positions_segment {c : Nat} {pre mid post : List Nat} (h1 : ∀ x ∈ pre, x ≠ c) (h2 : ∀ x ∈ mid, x = c)
    (h3 : ∀ x ∈ post, x ≠ c) : positions c (pre ++ (mid ++ post)) = List.range' pre.length mid.length := by
  unfold positions
  rw [List.range_eq_range', List.length_append, List.length_append, ← List.range'_append_1, ← List.range'_append_1,
    List.filter_append, List.filter_append]
  have e1 : (List.range' 0 pre.length).filter (fun r => (pre ++ (mid ++ post))[r]? == some c) = [] := by
    rw [List.filter_eq_nil_iff]
    intro r hr
    rw [List.mem_range'_1] at hr
    rw [List.getElem?_append_left (by omega), List.getElem?_eq_getElem (by omega)]
    simpa using h1 _ (List.getElem_mem _)
  have e2 : (List.range' (0 + pre.length) mid.length).filter (fun r => (pre ++ (mid ++ post))[r]? == some c) =
      List.range' (0 + pre.length) mid.length := by
    rw [List.filter_eq_self]
    intro r hr
    rw [List.mem_range'_1] at hr
    rw [List.getElem?_append_right (by omega), List.getElem?_append_left (by omega), List.getElem?_eq_getElem (by omega)]
    simpa using h2 _ (List.getElem_mem _)
  have e3 : (List.range' (0 + pre.length + mid.length) post.length).filter (fun r => (pre ++ (mid ++ post))[r]? == some c) =
      [] := by
    rw [List.filter_eq_nil_iff]
    intro r hr
    rw [List.mem_range'_1] at hr
    rw [List.getElem?_append_right (by omega), List.getElem?_append_right (by omega), List.getElem?_eq_getElem (by omega)]
    simpa using h3 _ (List.getElem_mem _)
  rw [e1, e2, e3]
  simp

theorem posColumn_eq {A : Arith} {f : Int → Pos → List TradeRec} {h : Int → Pos → TradeRec} {ps : List Pos} {col : Nat}
    (hf : ∀ p ∈ ps, Makes A f h p) {k : Int} (hk : 0 ≤ k) {pre post : List TradeRec} (h1 : ∀ x ∈ pre, x.col ≠ col)
    (h2 : ∀ x ∈ blocks f k ps, x.col = col) (h3 : ∀ x ∈ post, x.col ≠ col) (junk : Nat → Nat) (records : List TradeRec) :
    posColumn A (numbered 0 (pre ++ (blocks f k ps ++ post))) junk records col =
      .ok (records ++ blocks (fun n p => [h n p]) records.length ps) := by
  unfold posColumn
  have hidx : (colMap ((numbered 0 (pre ++ (blocks f k ps ++ post))).map (·.col)) junk).col col =
      List.range' pre.length (blocks f k ps).length := by
    rw [(C45_map _ junk col).1, numbered_map _ (fun _ _ => rfl), List.map_append, List.map_append]
    have := positions_segment (c := col) (pre := pre.map (·.col)) (mid := (blocks f k ps).map (·.col))
      (post := post.map (·.col)) (by simpa using h1) (by simpa using h2) (by simpa using h3)
    simpa using this
  simp only [hidx]
  cases ps with
  | nil => simp [blocks]
  | cons p ps =>
    have hp := hf p List.mem_cons_self
    have hpos : 0 < (f k p).length := List.length_pos_iff.mpr (hp k).1
    rw [if_neg (by rw [List.length_range', blocks, List.length_append]; omega)]
    simp only [blocks]
    rw [List.length_append, ← List.range'_append_1]
    have eT : pre ++ (f k p ++ blocks f (k + 1) ps ++ post) = pre ++ (f k p ++ (blocks f (k + 1) ps ++ post)) := by simp
    have hgrp := posGroup (A := A) (pre := pre) (g := f k p) (post := blocks f (k + 1) ps ++ post) (k := k)
      (s := { lastId := -1, lastPosId := -1, fromTidx := 0, tidx := 0, records := records }) (hp k).1 (hp k).2.1
      (by simp; omega) (by simp; omega) records (by rw [if_neg (by simp)])
    rw [eT, loopE_append_eq hgrp]
    have := posGroups (A := A) (f := f) (h := h) ps (pre := pre) (g := f k p) (post := post) (k := k)
      (s := { lastId := (pre.length : Int) + (f k p).length - 1, lastPosId := k, fromTidx := pre.length,
              tidx := pre.length + (f k p).length - 1, records := records }) (p := p)
      (fun q hq => hf q (List.mem_cons_of_mem _ hq)) hp rfl rfl rfl hk rfl rfl
    exact this

/-! ## All columns -/

/-- Number of positions in the columns before `n`. -/
def countPos (P : Nat → List Pos) : Nat → Nat
  | 0 => 0
  | n + 1 => countPos P n + (P n).length

/-- The blocks of the columns before `n`, positions numbered through. -/
def flat (f : Nat → Int → Pos → List TradeRec) (P : Nat → List Pos) : Nat → List TradeRec
  | 0 => []
  | n + 1 => flat f P n ++ blocks (f n) (countPos P n) (P n)

theorem blocks_mem {f : Int → Pos → List TradeRec} {k : Int} {ps : List Pos} {x : TradeRec} (h : x ∈ blocks f k ps) :
    ∃ k' p, p ∈ ps ∧ x ∈ f k' p := by
  induction ps generalizing k with
  | nil => simp [blocks] at h
  | cons p ps ih =>
    rw [blocks] at h
    rcases List.mem_append.mp h with h | h
    · exact ⟨k, p, List.mem_cons_self, h⟩
    · obtain ⟨k', q, hq, hx⟩ := ih h
      exact ⟨k', q, List.mem_cons_of_mem _ hq, hx⟩

theorem flat_col {f : Nat → Int → Pos → List TradeRec} (hf : ∀ c k p, ∀ x ∈ f c k p, x.col = c) (P : Nat → List Pos) (n : Nat) :
    ∀ x ∈ flat f P n, x.col < n := by
  induction n with
  | zero => intro x hx; simp [flat] at hx
  | succ n ih =>
    intro x hx
    rw [flat] at hx
    rcases List.mem_append.mp hx with hx | hx
    · have := ih x hx; omega
    · obtain ⟨k, p, _, hx⟩ := blocks_mem hx
      rw [hf n k p x hx]; omega

theorem flat_split {f : Nat → Int → Pos → List TradeRec} (hf : ∀ c k p, ∀ x ∈ f c k p, x.col = c) (P : Nat → List Pos)
    {c n : Nat} (hc : c < n) : ∃ post, flat f P n = flat f P c ++ (blocks (f c) (countPos P c) (P c) ++ post) ∧
      ∀ x ∈ post, x.col ≠ c := by
  induction n with
  | zero => omega
  | succ n ih =>
    by_cases hcn : c = n
    · subst hcn
      exact ⟨[], by simp [flat], by simp⟩
    · obtain ⟨post, e, hp⟩ := ih (by omega)
      refine ⟨post ++ blocks (f n) (countPos P n) (P n), by rw [flat, e]; simp, ?_⟩
      intro x hx
      rcases List.mem_append.mp hx with hx | hx
      · exact hp x hx
      · obtain ⟨k, p, _, hx⟩ := blocks_mem hx
        rw [hf n k p x hx]; omega

theorem blocks_singleton_length (h : Int → Pos → TradeRec) (k : Int) (ps : List Pos) :
    (blocks (fun n p => [h n p]) k ps).length = ps.length := by
  induction ps generalizing k with
  | nil => rfl
  | cons p ps ih => simp [blocks, ih]

theorem flat_singleton_length (h : Nat → Int → Pos → TradeRec) (P : Nat → List Pos) (n : Nat) :
    (flat (fun c n p => [h c n p]) P n).length = countPos P n := by
  induction n with
  | zero => rfl
  | succ n ih => rw [flat, List.length_append, ih, blocks_singleton_length]; rfl

/-- `get_positions_nb` makes one record per position. -/
theorem getPositions_eq {A : Arith} {f : Nat → Int → Pos → List TradeRec} {h : Nat → Int → Pos → TradeRec}
    {P : Nat → List Pos} (hcol : ∀ c k p, ∀ x ∈ f c k p, x.col = c) {n : Nat}
    (hf : ∀ c < n, ∀ p ∈ P c, Makes A (f c) (h c) p) (junk : Nat → Nat) :
    getPositions A (numbered 0 (flat f P n)) junk n = .ok (flat (fun c n p => [h c n p]) P n) := by
  unfold getPositions
  have key : ∀ m ≤ n, loopE (posColumn A (numbered 0 (flat f P n)) junk) [] (List.range m) =
      .ok (flat (fun c n p => [h c n p]) P m) := by
    intro m
    induction m with
    | zero => intro _; rfl
    | succ m ih =>
      intro hm
      rw [List.range_succ, loopE_append_eq (ih (by omega))]
      unfold loopE
      obtain ⟨post, e, hp⟩ := flat_split hcol P (show m < n by omega)
      rw [e, posColumn_eq (hf m (by omega)) (by omega) (fun x hx => by have := flat_col hcol P m x hx; omega)
        (fun x hx => by obtain ⟨k, p, _, hx⟩ := blocks_mem hx; exact hcol _ _ _ x hx) hp]
      rw [flat_singleton_length]
      rfl
  exact key n le_rfl

theorem getEntryTrades_eq {orders : List OrderRec} {junk : Nat → Nat} {rows nCols : Nat} {lastClose : Nat → F}
    {qs : Nat → List Fill} {close : Nat → ℚ}
    (h : ∀ c < nCols, History r t (orders.filter fun o => o.col = c) (qs c) ∧ lastClose c = fin (close c)) :
    getEntryTrades (Arith.exact r t) orders junk rows nCols lastClose =
      .ok (numbered 0 (flat (entryBlock (Arith.exact r t)) (fun c => positionsOf (qs c) ((rows : Int) - 1) (close c)) nCols)) := by
  unfold getEntryTrades
  have key : ∀ m ≤ nCols, loopE (entryColumn (Arith.exact r t) orders junk rows lastClose) (-1, []) (List.range m) =
      .ok (-1 + (countPos (fun c => positionsOf (qs c) ((rows : Int) - 1) (close c)) m : Int),
        numbered 0 (flat (entryBlock (Arith.exact r t)) (fun c => positionsOf (qs c) ((rows : Int) - 1) (close c)) m)) := by
    intro m
    induction m with
    | zero => intro _; rfl
    | succ m ih =>
      intro hm
      rw [List.range_succ, loopE_append_eq (ih (by omega))]
      unfold loopE
      obtain ⟨h1, h2⟩ := h m (by omega)
      rw [entryColumn_eq h1 h2]
      simp only [loopE, flat, numbered_length, numbered_append, countPos, Nat.zero_add]
      congr 2
      · push_cast; ring
      · congr 2; ring_nf
  rw [key nCols le_rfl]

theorem getExitTrades_eq {orders : List OrderRec} {junk : Nat → Nat} {rows nCols : Nat} {lastClose : Nat → F}
    {qs : Nat → List Fill} {close : Nat → ℚ}
    (h : ∀ c < nCols, History r t (orders.filter fun o => o.col = c) (qs c) ∧ lastClose c = fin (close c)) :
    getExitTrades (Arith.exact r t) orders junk rows nCols lastClose =
      .ok (numbered 0 (flat (exitBlock (Arith.exact r t)) (fun c => positionsOf (qs c) ((rows : Int) - 1) (close c)) nCols)) := by
  unfold getExitTrades
  have key : ∀ m ≤ nCols, loopE (exitColumn (Arith.exact r t) orders junk rows lastClose) (-1, []) (List.range m) =
      .ok (-1 + (countPos (fun c => positionsOf (qs c) ((rows : Int) - 1) (close c)) m : Int),
        numbered 0 (flat (exitBlock (Arith.exact r t)) (fun c => positionsOf (qs c) ((rows : Int) - 1) (close c)) m)) := by
    intro m
    induction m with
    | zero => intro _; rfl
    | succ m ih =>
      intro hm
      rw [List.range_succ, loopE_append_eq (ih (by omega))]
      unfold loopE
      obtain ⟨h1, h2⟩ := h m (by omega)
      rw [exitColumn_eq h1 h2]
      simp only [loopE, flat, numbered_length, numbered_append, countPos, Nat.zero_add]
      congr 2
      · push_cast; ring
      · congr 2; ring_nf
  rw [key nCols le_rfl]

theorem entryBlock_col (A : Arith) (c : Nat) (k : Int) (p : Pos) : ∀ x ∈ entryBlock A c k p, x.col = c ∧ x.parentId = k := by
  intro x hx
  obtain ⟨e, _, rfl⟩ := List.mem_map.mp hx
  exact ⟨rfl, rfl⟩

theorem exitBlock_col (A : Arith) (c : Nat) (k : Int) (p : Pos) : ∀ x ∈ exitBlock A c k p, x.col = c ∧ x.parentId = k := by
  intro x hx
  unfold exitBlock at hx
  rw [exitsFrom_Q] at hx
  obtain ⟨e, _, rfl⟩ := List.mem_map.mp hx
  exact ⟨rfl, rfl⟩

theorem aggregate_nil (A : Arith) (n : Int) : aggregate A n [] = .error (.indexError "empty slice") := rfl

theorem entryBlock_makes {p : Pos} (h : PosOk p) (hend : Ends p.evs) (c : Nat) :
    Makes (Arith.exact r t) (entryBlock (Arith.exact r t) c) (posTrade (Arith.exact r t) c) p := by
  intro k
  refine ⟨fun e => ?_, fun x hx => (entryBlock_col _ c k p x hx).2, fun n => aggregate_entry h hend c k n⟩
  have := aggregate_entry (r := r) (t := t) h hend c k 0
  rw [e] at this; cases this

theorem exitBlock_makes {p : Pos} (h : PosOk p) (hend : Ends p.evs) (c : Nat) :
    Makes (Arith.exact r t) (exitBlock (Arith.exact r t) c) (posTrade (Arith.exact r t) c) p := by
  intro k
  refine ⟨fun e => ?_, fun x hx => (exitBlock_col _ c k p x hx).2, fun n => aggregate_exit h hend c k n⟩
  have := aggregate_exit (r := r) (t := t) h hend c k 0
  rw [e] at this; cases this

end Vbt
