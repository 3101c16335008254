import Verif.Props.C22

/-!
# C21: trades cover every order exactly once

Entry trades are one per entry order with the entered size; exit trades are one per exit order plus at most one open
trade per column, the last; within each position the entered sizes equal the exited sizes (counting the open remainder);
the entry is not after the exit.  What an order enters and exits is said by the holding before it alone
(`entersBy`, `exitsBy`), without following positions.

In the entry view all trades of the open position are open, not only the last trade: a trade has the status of its
position.
-/

namespace Vbt
open F

/-! ## The positions of a column against the holding -/

theorem parts_append (part : ℚ → Fill → ℚ) (h : ℚ) (qs rs : List Fill) :
    parts part h (qs ++ rs) = parts part h qs ++ parts part (h + held qs) rs := by
  induction qs generalizing h with
  | nil => simp [parts, held]
  | cons q qs ih =>
    simp only [List.cons_append, parts, ih, List.append_assoc]
    simp [held, add_assoc]

theorem held_concat (qs : List Fill) (q : Fill) : held (qs ++ [q]) = held qs + q.change := by simp [held]

/-- What an event says. -/
def Ev.part (e : Ev) : Int × ℚ × ℚ × ℚ := (e.idx, e.size, e.price, e.fees)

/-- The events of the positions, as parts of orders. -/
def evParts (entry : Bool) (evs : List Ev) : List (Int × ℚ × ℚ × ℚ) := (evs.filter fun e => e.entry = entry).map Ev.part

theorem evParts_append (b : Bool) (l m : List Ev) : evParts b (l ++ m) = evParts b l ++ evParts b m := by simp [evParts]

theorem evParts_single (b : Bool) (e : Ev) : evParts b [e] = if e.entry = b then [e.part] else [] := by
  unfold evParts
  by_cases h : e.entry = b <;> simp [h]

def curEvs (x : Option (Bool × List Ev)) : List Ev :=
  match x with
  | none => []
  | some y => y.2

/-- The parts of orders in the positions so far. -/
def allParts (entry : Bool) (s : List Pos × Option (Bool × List Ev)) : List (Int × ℚ × ℚ × ℚ) :=
  s.1.flatMap (fun p => evParts entry p.evs) ++ evParts entry (curEvs s.2)

theorem split_held {qs : List Fill} (h : ∀ q ∈ qs, q.Ok) :
    held qs = (match (split qs).2 with
      | none => 0
      | some (long, evs) => if long then left evs else -left evs) ∧
    allParts true (split qs) = parts entersBy 0 qs ∧ allParts false (split qs) = parts exitsBy 0 qs ∧
    ∀ p ∈ (split qs).1, p.open_ = false := by
  induction qs using List.reverseRecOn with
  | nil => simp [held, split, allParts, parts, curEvs, evParts]
  | append_singleton qs q ih =>
    obtain ⟨h1, h2, h3, h4⟩ := ih fun x hx => h x (List.mem_append_left _ hx)
    have hq := h q (by simp)
    obtain ⟨-, hcur⟩ := split_ok fun x hx => h x (List.mem_append_left _ hx)
    rw [held_concat, parts_append, parts_append, split_concat, zero_add]
    simp only [parts, List.append_nil]
    unfold splitStep
    cases hc : (split qs).2 with
    | none =>
      rw [hc] at h1
      simp only at h1
      unfold allParts at h2 h3 ⊢
      rw [hc] at h2 h3
      rw [h1]
      have e1 : entersBy 0 q = q.size := by
        unfold entersBy
        cases q.buy <;> simp [max_eq_right hq.1.le]
      have e2 : exitsBy 0 q = 0 := by
        unfold exitsBy
        cases q.buy <;> simp [hq.1.le]
      refine ⟨?_, ?_, ?_, h4⟩
      · simp only [zero_add, Fill.change]
        cases q.buy <;> simp [left, entered, exited, total]
      · simp only [curEvs] at h2 ⊢
        rw [e1, if_pos hq.1, ← h2, evParts_single]
        have := hq.1.ne'
        simp [evParts, Ev.part, this]
      · simp only [curEvs] at h3 ⊢
        rw [e2, if_neg (lt_irrefl _), ← h3, evParts_single]
        simp [evParts]
    | some x =>
      obtain ⟨long, evs⟩ := x
      rw [hc] at h1
      simp only at h1
      obtain ⟨hev, hleft⟩ := hcur _ hc
      simp only at hev hleft
      unfold allParts at h2 h3 ⊢
      rw [hc] at h2 h3
      simp only [curEvs] at h2 h3
      have hs := hq.1
      have hne := hs.ne'
      by_cases hb : q.buy = long
      · simp only [if_pos hb]
        have e1 : entersBy (held qs) q = q.size := by
          rw [h1]; unfold entersBy
          rw [hb]
          cases long
          · simp only [Bool.false_eq_true, if_false]
            rw [max_eq_right (by linarith), max_eq_right (by linarith)]; ring
          · simp only [if_true]
            rw [max_eq_right (by linarith), max_eq_right (by linarith)]; ring
        have e2 : exitsBy (held qs) q = 0 := by
          rw [h1]; unfold exitsBy
          rw [hb]
          cases long
          · simp only [Bool.false_eq_true, if_false]
            rw [max_eq_left (by linarith), max_eq_left (by linarith)]; ring
          · simp only [if_true]
            rw [max_eq_left (by linarith), max_eq_left (by linarith)]; ring
        refine ⟨?_, ?_, ?_, h4⟩
        · rw [h1, left_snoc, Fill.change, hb]
          cases long <;> simp
          ring
        · simp only [curEvs]
          rw [e1, if_pos hs, ← h2, evParts_append, evParts_single]
          simp [Ev.part, hne]
        · simp only [curEvs]
          rw [e2, if_neg (lt_irrefl _), ← h3, evParts_append, evParts_single]
          simp
      · simp only [if_neg hb]
        have hbl : q.buy = !long := by cases hq : q.buy <;> cases long <;> simp_all
        have e1 : entersBy (held qs) q = max 0 (q.size - left evs) := by
          rw [h1]; unfold entersBy
          rw [hbl]
          cases long
          · simp only [Bool.not_false, if_true, Bool.false_eq_true, if_false]
            rw [max_eq_left (show -left evs ≤ 0 by linarith), show -left evs + q.size = q.size - left evs by ring]; ring
          · simp only [Bool.not_true, if_true, Bool.false_eq_true, if_false]
            rw [max_eq_left (show -left evs ≤ 0 by linarith)]; ring
        have e2 : exitsBy (held qs) q = left evs - max 0 (left evs - q.size) := by
          rw [h1]; unfold exitsBy
          rw [hbl]
          cases long
          · simp only [Bool.not_false, if_true, Bool.false_eq_true, if_false, neg_neg]
            rw [max_eq_right hleft.le]
          · simp only [Bool.not_true, if_true, Bool.false_eq_true, if_false]
            rw [max_eq_right hleft.le]
        have hch : q.change = if long then -q.size else q.size := by
          rw [Fill.change, hbl]; cases long <;> rfl
        by_cases hlt : q.size < left evs
        · simp only [if_pos hlt]
          rw [max_eq_left (by linarith)] at e1
          rw [max_eq_right (by linarith)] at e2
          have e2' : exitsBy (held qs) q = q.size := by rw [e2]; ring
          refine ⟨?_, ?_, ?_, h4⟩
          · rw [h1, left_snoc, hch]
            cases long <;> simp <;> ring
          · simp only [curEvs]
            rw [e1, if_neg (lt_irrefl _), ← h2, evParts_append, evParts_single]
            simp
          · simp only [curEvs]
            rw [e2', if_pos hs, ← h3, evParts_append, evParts_single]
            simp [Ev.part, hne]
        · simp only [if_neg hlt]
          rw [max_eq_left (by linarith)] at e2
          have e2' : exitsBy (held qs) q = left evs := by rw [e2]; ring
          by_cases heq : q.size = left evs
          · simp only [if_pos heq]
            rw [max_eq_left (by linarith)] at e1
            refine ⟨?_, ?_, ?_, ?_⟩
            · rw [h1, hch, heq]
              cases long <;> simp
            · simp only [curEvs]
              rw [e1, if_neg (lt_irrefl _), ← h2, List.flatMap_append]
              simp [evParts]
            · simp only [curEvs]
              rw [e2', if_pos hleft, ← h3, List.flatMap_append, List.flatMap_cons, List.flatMap_nil, List.append_nil,
                evParts_append, evParts_single]
              simp [Ev.part, hleft.ne', heq, evParts]
            · intro p hp
              rcases List.mem_append.mp hp with hp | hp
              · exact h4 p hp
              · rw [List.mem_singleton] at hp; subst hp; rfl
          · simp only [if_neg heq]
            have hgt : left evs < q.size := lt_of_le_of_ne (not_lt.mp hlt) (Ne.symm heq)
            rw [max_eq_right (by linarith)] at e1
            refine ⟨?_, ?_, ?_, ?_⟩
            · rw [h1, hch]
              have : left [⟨true, (q.idx : Int), q.size - left evs, q.price, (q.size - left evs) / q.size * q.fees⟩] =
                  q.size - left evs := by simp [left, entered, exited, total]
              rw [this]
              cases long <;> simp <;> ring
            · simp only [curEvs]
              rw [e1, if_pos (by linarith), ← h2, List.flatMap_append, List.flatMap_cons, List.flatMap_nil, List.append_nil,
                evParts_append, evParts_single, evParts_single]
              simp [Ev.part]
            · simp only [curEvs]
              rw [e2', if_pos hleft, ← h3, List.flatMap_append, List.flatMap_cons, List.flatMap_nil, List.append_nil,
                evParts_append, evParts_single, evParts_single]
              simp [Ev.part]
            · intro p hp
              rcases List.mem_append.mp hp with hp | hp
              · exact h4 p hp
              · rw [List.mem_singleton] at hp; subst hp; rfl

theorem positionsOf_parts {qs : List Fill} (h : ∀ q ∈ qs, q.Ok) (last : Int) (close : ℚ) :
    (positionsOf qs last close).flatMap (fun p => evParts true p.evs) = parts entersBy 0 qs ∧
    (positionsOf qs last close).flatMap (fun p => evParts false p.evs) =
      parts exitsBy 0 qs ++ (if held qs = 0 then [] else [(last, |held qs|, close, 0)]) ∧
    (positionsOf qs last close).map (·.open_) =
      List.replicate (split qs).1.length false ++ (if held qs = 0 then [] else [true]) := by
  obtain ⟨h1, h2, h3, h4⟩ := split_held h
  obtain ⟨-, hcur⟩ := split_ok h
  have h5 : (split qs).1.map (·.open_) = List.replicate (split qs).1.length false := by
    rw [List.eq_replicate_iff]
    refine ⟨by simp, fun b hb => ?_⟩
    obtain ⟨p, hp, rfl⟩ := List.mem_map.mp hb
    exact h4 p hp
  unfold positionsOf
  unfold allParts at h2 h3
  cases hc : (split qs).2 with
  | none =>
    rw [hc] at h1 h2 h3
    simp only at h1
    simp only [curEvs] at h2 h3
    rw [if_pos h1, if_pos h1, List.append_nil, List.append_nil, ← h2, ← h3, h5]
    simp [evParts]
  | some x =>
    obtain ⟨long, evs⟩ := x
    rw [hc] at h1 h2 h3
    obtain ⟨hev, hleft⟩ := hcur _ hc
    simp only at h1 hev hleft
    simp only [curEvs] at h2 h3
    have hne : held qs ≠ 0 := by
      rw [h1]; cases long
      · simp only [Bool.false_eq_true, if_false, ne_eq, neg_eq_zero]; exact hleft.ne'
      · simp only [if_true]; exact hleft.ne'
    have habs : |held qs| = left evs := by
      rw [h1]; cases long
      · simp only [Bool.false_eq_true, if_false, abs_neg]; exact abs_of_pos hleft
      · simp only [if_true]; exact abs_of_pos hleft
    rw [if_neg hne, if_neg hne, habs, ← h2, ← h3]
    refine ⟨?_, ?_, ?_⟩
    · simp [evParts_append, evParts_single]
    · simp [evParts_append, evParts_single, Ev.part]
    · simp only [List.map_append, h5]; rfl

/-! ## Rows -/

theorem split_idx {qs : List Fill} (h : qs.Pairwise fun a b => a.idx ≤ b.idx) :
    (∀ p ∈ (split qs).1, p.evs.Pairwise fun a b => a.idx ≤ b.idx) ∧ (curEvs (split qs).2).Pairwise (fun a b => a.idx ≤ b.idx) ∧
    ∀ e ∈ curEvs (split qs).2, ∃ q ∈ qs, e.idx = (q.idx : Int) := by
  induction qs using List.reverseRecOn with
  | nil => simp [split, curEvs]
  | append_singleton qs q ih =>
    rw [List.pairwise_append] at h
    obtain ⟨h0, -, hlast⟩ := h
    obtain ⟨h1, h2, h3⟩ := ih h0
    have hle : ∀ e ∈ curEvs (split qs).2, e.idx ≤ (q.idx : Int) := by
      intro e he
      obtain ⟨q', hq', e1⟩ := h3 e he
      rw [e1]; exact_mod_cast hlast q' hq' q (by simp)
    rw [split_concat]
    unfold splitStep
    cases hc : (split qs).2 with
    | none => exact ⟨h1, by simp [curEvs], by simp [curEvs]⟩
    | some x =>
      obtain ⟨long, evs⟩ := x
      rw [hc] at h2 h3 hle
      simp only [curEvs] at h2 h3 hle
      have hsn : ∀ e : Ev, e.idx = (q.idx : Int) → (evs ++ [e]).Pairwise fun a b => a.idx ≤ b.idx := by
        intro e he
        rw [List.pairwise_append]
        refine ⟨h2, by simp, ?_⟩
        intro a ha b hb
        rw [List.mem_singleton] at hb; subst hb
        rw [he]; exact hle a ha
      have hmem : ∀ e : Ev, e.idx = (q.idx : Int) → ∀ x ∈ evs ++ [e], ∃ q' ∈ qs ++ [q], x.idx = (q'.idx : Int) := by
        intro e he x hx
        rcases List.mem_append.mp hx with hx | hx
        · obtain ⟨q', hq', e1⟩ := h3 x hx
          exact ⟨q', List.mem_append_left _ hq', e1⟩
        · rw [List.mem_singleton] at hx; subst hx; exact ⟨q, by simp, he⟩
      have hclosed : ∀ e : Ev, e.idx = (q.idx : Int) → ∀ p ∈ (split qs).1 ++ [⟨long, evs ++ [e], false⟩],
          p.evs.Pairwise fun a b => a.idx ≤ b.idx := by
        intro e he p hp
        rcases List.mem_append.mp hp with hp | hp
        · exact h1 p hp
        · rw [List.mem_singleton] at hp; subst hp; exact hsn e he
      simp only
      split_ifs
      · exact ⟨h1, hsn _ rfl, hmem _ rfl⟩
      · exact ⟨h1, hsn _ rfl, hmem _ rfl⟩
      · exact ⟨hclosed _ rfl, by simp [curEvs], by simp [curEvs]⟩
      · exact ⟨hclosed _ rfl, by simp [curEvs], by simp [curEvs]⟩

theorem positionsOf_idx {qs : List Fill} (h : qs.Pairwise fun a b => a.idx ≤ b.idx) {last : Int}
    (hl : ∀ q ∈ qs, (q.idx : Int) ≤ last) (close : ℚ) :
    ∀ p ∈ positionsOf qs last close, p.evs.Pairwise fun a b => a.idx ≤ b.idx := by
  obtain ⟨h1, h2, h3⟩ := split_idx h
  intro p hp
  unfold positionsOf at hp
  cases hc : (split qs).2 with
  | none => rw [hc] at hp; exact h1 p hp
  | some x =>
    rw [hc] at hp h2 h3
    simp only [curEvs] at h2 h3
    rcases List.mem_append.mp hp with hp | hp
    · exact h1 p hp
    · rw [List.mem_singleton] at hp
      subst hp
      rw [List.pairwise_append]
      refine ⟨h2, by simp, ?_⟩
      intro a ha b hb
      rw [List.mem_singleton] at hb; subst hb
      obtain ⟨q, hq, e⟩ := h3 a ha
      rw [e]; exact hl q hq

/-! ## Trades of a column -/

theorem filter_numbered_map {β : Type} (g : TradeRec → β) (hg : ∀ x i, g { x with id := i } = g x) (c n : Nat)
    (l : List TradeRec) : ((numbered n l).filter fun x => x.col = c).map g = (l.filter fun x => x.col = c).map g := by
  induction l generalizing n with
  | nil => rfl
  | cons x xs ih =>
    simp only [numbered, List.filter_cons]
    by_cases h : x.col = c
    · subst h; simp [ih, hg]
    · simp [h, ih]

theorem flat_filter {f : Nat → Int → Pos → List TradeRec} (hf : ∀ c k p, ∀ x ∈ f c k p, x.col = c) (P : Nat → List Pos)
    {c n : Nat} (hc : c < n) :
    (flat f P n).filter (fun x => x.col = c) = blocks (f c) (countPos P c) (P c) := by
  obtain ⟨post, e, hp⟩ := flat_split hf P hc
  rw [e, List.filter_append, List.filter_append]
  rw [List.filter_eq_nil_iff.mpr (by
    intro x hx; have := flat_col hf P c x hx; simp; omega)]
  rw [List.filter_eq_self.mpr (by
    intro x hx; obtain ⟨k, p, _, hx⟩ := blocks_mem hx; simpa using hf _ _ _ x hx)]
  rw [List.filter_eq_nil_iff.mpr (by intro x hx; simpa using hp x hx)]
  simp

theorem blocks_map {β : Type} {f : Int → Pos → List TradeRec} {g : TradeRec → β} {h : Pos → List β}
    (hf : ∀ k p, (f k p).map g = h p) (k : Int) (ps : List Pos) : (blocks f k ps).map g = ps.flatMap h := by
  induction ps generalizing k with
  | nil => rfl
  | cons p ps ih => simp [blocks, hf, ih]

theorem blocks_map_mem {β : Type} {f : Int → Pos → List TradeRec} {g : TradeRec → β} {h : Pos → List β} (k : Int) (ps : List Pos)
    (hf : ∀ k, ∀ p ∈ ps, (f k p).map g = h p) : (blocks f k ps).map g = ps.flatMap h := by
  induction ps generalizing k with
  | nil => rfl
  | cons p ps ih =>
    simp [blocks, hf k p List.mem_cons_self, ih (k + 1) fun k q hq => hf k q (List.mem_cons_of_mem _ hq)]

/-- Row, size, price and fees of the entry of a trade. -/
def entryPart (x : TradeRec) : Int × ℚ × ℚ × ℚ := (x.entryIdx, x.size.toQ, x.entryPrice.toQ, x.entryFees.toQ)

/-- Row, size, price and fees of the exit of a trade. -/
def exitPart (x : TradeRec) : Int × ℚ × ℚ × ℚ := (x.exitIdx, x.size.toQ, x.exitPrice.toQ, x.exitFees.toQ)

theorem entryBlock_part (A : Arith) (c : Nat) (k : Int) (p : Pos) : (entryBlock A c k p).map entryPart = evParts true p.evs := by
  unfold entryBlock evParts
  rw [List.map_map, filter_true]
  rfl

theorem exitsFrom_part (A : Arith) (c : Nat) (k : Int) (long open_ : Bool) (eidx : Int) (s : ℚ × ℚ × ℚ) (evs : List Ev) :
    (exitsFrom A c k long open_ eidx s evs).map exitPart = evParts false evs := by
  induction evs generalizing s with
  | nil => rfl
  | cons e es ih =>
    rw [exitsFrom, List.map_append, ih, show e :: es = [e] ++ es from rfl, evParts_append, evParts_single]
    congr 1
    cases e.entry <;> rfl

theorem exitsFrom_closed (A : Arith) (c : Nat) (k : Int) (long : Bool) (eidx : Int) (s : ℚ × ℚ × ℚ) (evs : List Ev) :
    ∀ x ∈ exitsFrom A c k long false eidx s evs, x.status = TradeStatus.Closed := by
  induction evs generalizing s with
  | nil => intro x hx; simp [exitsFrom] at hx
  | cons e es ih =>
    intro x hx
    rw [exitsFrom] at hx
    rcases List.mem_append.mp hx with hx | hx
    · cases he : e.entry
      · rw [he] at hx; simp at hx; subst hx; rfl
      · rw [he] at hx; simp at hx
    · exact ih _ x hx

theorem exitsFrom_part_closed (A : Arith) (c : Nat) (k : Int) (long : Bool) (eidx : Int) (s : ℚ × ℚ × ℚ) (evs : List Ev) :
    (exitsFrom A c k long false eidx s evs).map (fun x => (exitPart x, x.status)) =
      (evParts false evs).map fun x => (x, TradeStatus.Closed) := by
  rw [← exitsFrom_part A c k long false eidx s evs, List.map_map]
  apply List.map_congr_left
  intro x hx
  simp [exitsFrom_closed A c k long eidx s evs x hx]

theorem exitColumn_part {qs : List Fill} (h : ∀ q ∈ qs, q.Ok) (A : Arith) (c : Nat) (k last : Int) (close : ℚ) :
    (blocks (exitBlock A c) k (positionsOf qs last close)).map (fun x => (exitPart x, x.status)) =
      (parts exitsBy 0 qs).map (fun x => (x, TradeStatus.Closed)) ++
        (if held qs = 0 then [] else [((last, |held qs|, close, 0), TradeStatus.Open)]) := by
  obtain ⟨h1, h2, h3, h4⟩ := split_held h
  obtain ⟨-, hcur⟩ := split_ok h
  have hcl : ∀ k, (blocks (exitBlock A c) k (split qs).1).map (fun x => (exitPart x, x.status)) =
      (split qs).1.flatMap fun p => (evParts false p.evs).map fun x => (x, TradeStatus.Closed) := by
    intro k
    apply blocks_map_mem
    intro k p hp
    unfold exitBlock
    rw [h4 p hp, exitsFrom_part_closed]
  unfold positionsOf
  unfold allParts at h3
  cases hc : (split qs).2 with
  | none =>
    rw [hc] at h1 h3
    simp only at h1
    simp only [curEvs] at h3
    rw [if_pos h1, List.append_nil, ← h3, hcl]
    simp [evParts, List.map_flatMap]
  | some x =>
    obtain ⟨long, evs⟩ := x
    rw [hc] at h1 h3
    obtain ⟨hev, hleft⟩ := hcur _ hc
    simp only at h1 hev hleft
    simp only [curEvs] at h3
    have hne : held qs ≠ 0 := by
      rw [h1]; cases long
      · simp only [Bool.false_eq_true, if_false, ne_eq, neg_eq_zero]; exact hleft.ne'
      · simp only [if_true]; exact hleft.ne'
    have habs : |held qs| = left evs := by
      rw [h1]; cases long
      · simp only [Bool.false_eq_true, if_false, abs_neg]; exact abs_of_pos hleft
      · simp only [if_true]; exact abs_of_pos hleft
    rw [if_neg hne, habs, ← h3]
    simp only
    rw [blocks_append, blocks_single, List.map_append, hcl]
    unfold exitBlock
    simp only
    rw [exitsFrom_snoc, List.map_append, exitsFrom_part_closed]
    simp [List.map_flatMap, exitPart, mkTrade, F.toQ, statusOf]

/-- **C21**: one entry trade per entry order, with the entered part; one exit trade per exit order, closed, with the
exited part, and one open trade with what is held at the end. -/
theorem C21_trades {r t : ℚ} {orders : List OrderRec} {rows nCols : Nat} {lastClose : Nat → F} {qs : Nat → List Fill}
    {close : Nat → ℚ}
    (h : ∀ c < nCols, History r t (orders.filter fun o => o.col = c) (qs c) ∧ lastClose c = fin (close c)) (junk : Nat → Nat) :
    ∃ et xt, getEntryTrades (Arith.exact r t) orders junk rows nCols lastClose = .ok et ∧
      getExitTrades (Arith.exact r t) orders junk rows nCols lastClose = .ok xt ∧
      (∀ x ∈ et ++ xt, x.col < nCols) ∧
      ∀ c < nCols, (et.filter fun x => x.col = c).map entryPart = parts entersBy 0 (qs c) ∧
        (xt.filter fun x => x.col = c).map (fun x => (exitPart x, x.status)) =
          (parts exitsBy 0 (qs c)).map (fun x => (x, TradeStatus.Closed)) ++
            (if held (qs c) = 0 then [] else [(((rows : Int) - 1, |held (qs c)|, close c, 0), TradeStatus.Open)]) := by
  have hcolE : ∀ c k p, ∀ x ∈ entryBlock (Arith.exact r t) c k p, x.col = c := fun c k p x hx => (entryBlock_col _ c k p x hx).1
  have hcolX : ∀ c k p, ∀ x ∈ exitBlock (Arith.exact r t) c k p, x.col = c := fun c k p x hx => (exitBlock_col _ c k p x hx).1
  refine ⟨_, _, getEntryTrades_eq h, getExitTrades_eq h, ?_, ?_⟩
  · have key : ∀ (l : List TradeRec), (∀ x ∈ l, x.col < nCols) → ∀ x ∈ numbered 0 l, x.col < nCols := by
      intro l hl x hx
      have : x.col ∈ (numbered 0 l).map (·.col) := List.mem_map_of_mem hx
      rw [numbered_map _ (fun _ _ => rfl)] at this
      obtain ⟨y, hy, e⟩ := List.mem_map.mp this
      have := hl y hy
      omega
    intro x hx
    rcases List.mem_append.mp hx with hx | hx
    · exact key _ (flat_col hcolE _ _) x hx
    · exact key _ (flat_col hcolX _ _) x hx
  · intro c hc
    obtain ⟨hh, -⟩ := h c hc
    refine ⟨?_, ?_⟩
    · rw [filter_numbered_map _ (fun _ _ => rfl), flat_filter hcolE _ hc,
        blocks_map (fun k p => entryBlock_part _ c k p)]
      exact (positionsOf_parts hh.ok _ _).1
    · rw [filter_numbered_map _ (fun _ _ => rfl), flat_filter hcolX _ hc]
      exact exitColumn_part hh.ok _ c _ _ _

/-! ## Within a position -/

/-- Size of the trades of a position. -/
def sizeOf' (k : Int) (l : List TradeRec) : ℚ := ((l.filter fun x => x.parentId = k).map fun x => x.size.toQ).sum

theorem sizeOf'_numbered (k : Int) (n : Nat) (l : List TradeRec) : sizeOf' k (numbered n l) = sizeOf' k l := by
  unfold sizeOf'
  congr 1
  induction l generalizing n with
  | nil => rfl
  | cons x xs ih =>
    simp only [numbered, List.filter_cons]
    by_cases h : x.parentId = k
    · subst h; simp [ih]
    · simp [h, ih]

theorem sizeOf'_append (k : Int) (l m : List TradeRec) : sizeOf' k (l ++ m) = sizeOf' k l + sizeOf' k m := by simp [sizeOf']

theorem sizeOf'_block {k k' : Int} {l : List TradeRec} (h : ∀ x ∈ l, x.parentId = k') :
    sizeOf' k l = if k' = k then (l.map fun x => x.size.toQ).sum else 0 := by
  unfold sizeOf'
  by_cases hk : k' = k
  · rw [if_pos hk, List.filter_eq_self.mpr (by intro x hx; rw [h x hx]; simpa using hk)]
  · rw [if_neg hk, List.filter_eq_nil_iff.mpr (by intro x hx; rw [h x hx]; simpa using hk)]; rfl

theorem entryBlock_size (A : Arith) (c : Nat) (k : Int) (p : Pos) :
    ((entryBlock A c k p).map fun x => x.size.toQ).sum = entered p.evs := by
  unfold entryBlock entered total
  rw [List.map_map, filter_true]; rfl

theorem exitBlock_size (A : Arith) (c : Nat) (k : Int) {p : Pos} (h : PosOk p) :
    ((exitBlock A c k p).map fun x => x.size.toQ).sum = entered p.evs := by
  unfold exitBlock
  rw [exitsFrom_Q, List.map_map]
  have := (exitsQ_sums (open_ := p.open_) (eidx := firstIdx p.evs) (s := (0, 0, 0)) h.evs.alive).1
  have hd := h.done
  unfold left at hd
  rw [show entered p.evs = exited p.evs by linarith, ← this]
  rfl

theorem flat_size {f g : Nat → Int → Pos → List TradeRec} {P : Nat → List Pos} {n : Nat} (k : Int)
    (hf : ∀ c < n, ∀ p ∈ P c, ∀ k', sizeOf' k (f c k' p) = sizeOf' k (g c k' p)) : sizeOf' k (flat f P n) = sizeOf' k (flat g P n) := by
  induction n with
  | zero => rfl
  | succ n ih =>
    rw [flat, flat, sizeOf'_append, sizeOf'_append, ih fun c hc => hf c (by omega)]
    congr 1
    have key : ∀ (ps : List Pos) (m : Int), (∀ p ∈ ps, ∀ k', sizeOf' k (f n k' p) = sizeOf' k (g n k' p)) →
        sizeOf' k (blocks (f n) m ps) = sizeOf' k (blocks (g n) m ps) := by
      intro ps
      induction ps with
      | nil => intro m _; rfl
      | cons p ps ihp =>
        intro m hp
        rw [blocks, blocks, sizeOf'_append, sizeOf'_append, hp p List.mem_cons_self,
          ihp _ fun q hq => hp q (List.mem_cons_of_mem _ hq)]
    exact key _ _ (hf n (by omega))

/-- **C21**: within each position the entered sizes equal the exited sizes, and both the size of the position. -/
theorem C21_sizes {r t : ℚ} {orders : List OrderRec} {rows nCols : Nat} {lastClose : Nat → F} {qs : Nat → List Fill}
    {close : Nat → ℚ}
    (h : ∀ c < nCols, History r t (orders.filter fun o => o.col = c) (qs c) ∧ lastClose c = fin (close c))
    (junk junk' : Nat → Nat) :
    ∃ et xt ps, getEntryTrades (Arith.exact r t) orders junk rows nCols lastClose = .ok et ∧
      getExitTrades (Arith.exact r t) orders junk rows nCols lastClose = .ok xt ∧
      getPositions (Arith.exact r t) et junk' nCols = .ok ps ∧
      ∀ k : Int, sizeOf' k et = sizeOf' k xt ∧ sizeOf' k et = sizeOf' k ps := by
  obtain ⟨et, xt, h1, h2, h3, -⟩ := positions_of_history (rows := rows) h junk junk'
  refine ⟨et, xt, _, h1, h2, h3, fun k => ?_⟩
  rw [getEntryTrades_eq h] at h1
  rw [getExitTrades_eq h] at h2
  cases h1
  cases h2
  rw [sizeOf'_numbered, sizeOf'_numbered]
  refine ⟨flat_size k fun c hc p hp k' => ?_, flat_size k fun c hc p hp k' => ?_⟩
  · rw [sizeOf'_block (fun x hx => (entryBlock_col _ c k' p x hx).2), sizeOf'_block (fun x hx => (exitBlock_col _ c k' p x hx).2),
      entryBlock_size, exitBlock_size _ _ _ (positionsOf_ok (h c hc).1.ok _ _ p hp)]
  · rw [sizeOf'_block (fun x hx => (entryBlock_col _ c k' p x hx).2),
      sizeOf'_block (k' := k') (by intro x hx; rw [List.mem_singleton] at hx; subst hx; rfl), entryBlock_size]
    simp [posTrade, mkTrade, F.toQ]

/-! ## Rows and status -/

theorem numbered_mem {n : Nat} {l : List TradeRec} {x : TradeRec} (h : x ∈ numbered n l) : ∃ y ∈ l, x = { y with id := x.id } := by
  induction l generalizing n with
  | nil => simp [numbered] at h
  | cons y ys ih =>
    rw [numbered] at h
    rcases List.mem_cons.mp h with rfl | h
    · exact ⟨y, List.mem_cons_self, rfl⟩
    · obtain ⟨z, hz, e⟩ := ih h
      exact ⟨z, List.mem_cons_of_mem _ hz, e⟩

theorem flat_mem {f : Nat → Int → Pos → List TradeRec} {P : Nat → List Pos} {n : Nat} {x : TradeRec} (h : x ∈ flat f P n) :
    ∃ c < n, ∃ k, ∃ p ∈ P c, x ∈ f c k p := by
  induction n with
  | zero => simp [flat] at h
  | succ n ih =>
    rw [flat] at h
    rcases List.mem_append.mp h with h | h
    · obtain ⟨c, hc, r⟩ := ih h; exact ⟨c, by omega, r⟩
    · obtain ⟨k, p, hp, hx⟩ := blocks_mem h; exact ⟨n, by omega, k, p, hp, hx⟩

theorem exitsFrom_mem {A : Arith} {c : Nat} {k : Int} {long open_ : Bool} {eidx : Int} {s : ℚ × ℚ × ℚ} {evs : List Ev}
    {x : TradeRec} (h : x ∈ exitsFrom A c k long open_ eidx s evs) : x.entryIdx = eidx ∧ ∃ e ∈ evs, x.exitIdx = e.idx := by
  induction evs generalizing s with
  | nil => simp [exitsFrom] at h
  | cons e es ih =>
    rw [exitsFrom] at h
    rcases List.mem_append.mp h with h | h
    · cases he : e.entry
      · rw [he] at h; simp at h; subst h; exact ⟨rfl, e, List.mem_cons_self, rfl⟩
      · rw [he] at h; simp at h
    · obtain ⟨h1, e', he', h2⟩ := ih h
      exact ⟨h1, e', List.mem_cons_of_mem _ he', h2⟩

theorem le_lastIdx {evs : List Ev} (h : evs.Pairwise fun a b => a.idx ≤ b.idx) {e : Ev} (he : e ∈ evs) : e.idx ≤ lastIdx evs := by
  induction evs using List.reverseRecOn with
  | nil => simp at he
  | append_singleton es x _ =>
    rw [lastIdx_snoc]
    rw [List.pairwise_append] at h
    rcases List.mem_append.mp he with he | he
    · exact h.2.2 e he x (by simp)
    · rw [List.mem_singleton] at he; rw [he]

theorem firstIdx_le {evs : List Ev} (h : evs.Pairwise fun a b => a.idx ≤ b.idx) {e : Ev} (he : e ∈ evs) : firstIdx evs ≤ e.idx := by
  cases evs with
  | nil => simp at he
  | cons x xs =>
    rcases List.mem_cons.mp he with rfl | he
    · exact le_rfl
    · exact (List.pairwise_cons.mp h).1 e he

/-- **C21**: no trade is exited before it is entered, when the orders of a column are in the order of their rows. -/
theorem C21_rows {r t : ℚ} {orders : List OrderRec} {rows nCols : Nat} {lastClose : Nat → F} {qs : Nat → List Fill}
    {close : Nat → ℚ}
    (h : ∀ c < nCols, History r t (orders.filter fun o => o.col = c) (qs c) ∧ lastClose c = fin (close c))
    (hup : ∀ c < nCols, (qs c).Pairwise fun a b => a.idx ≤ b.idx) (hrows : ∀ c < nCols, ∀ q ∈ qs c, q.idx < rows)
    (junk : Nat → Nat) :
    ∃ et xt, getEntryTrades (Arith.exact r t) orders junk rows nCols lastClose = .ok et ∧
      getExitTrades (Arith.exact r t) orders junk rows nCols lastClose = .ok xt ∧
      ∀ x ∈ et ++ xt, 0 ≤ x.entryIdx ∧ x.entryIdx ≤ x.exitIdx ∧ x.exitIdx < rows := by
  have hs : ∀ c < nCols, ∀ p ∈ positionsOf (qs c) ((rows : Int) - 1) (close c), p.evs.Pairwise fun a b => a.idx ≤ b.idx :=
    fun c hc => positionsOf_idx (hup c hc) (fun q hq => by have := hrows c hc q hq; omega) _
  have hb : ∀ c < nCols, ∀ p ∈ positionsOf (qs c) ((rows : Int) - 1) (close c), ∀ e ∈ p.evs, 0 ≤ e.idx ∧ e.idx < rows := by
    intro c hc p hp e he
    obtain ⟨z1, z2, -⟩ := positionsOf_parts (h c hc).1.ok ((rows : Int) - 1) (close c)
    have hpart : ∀ (part : ℚ → Fill → ℚ) (l : List Fill) (a : ℚ), (∀ q ∈ l, q.idx < rows) →
        ∀ x ∈ parts part a l, 0 ≤ x.1 ∧ x.1 < rows := by
      intro part l
      induction l with
      | nil => intro a _ x hx; simp [parts] at hx
      | cons q l ih =>
        intro a hl x hx
        rw [parts] at hx
        rcases List.mem_append.mp hx with hx | hx
        · split_ifs at hx
          · rw [List.mem_singleton] at hx; subst hx
            have := hl q List.mem_cons_self
            simp only; omega
          · simp at hx
        · exact ih _ (fun q hq => hl q (List.mem_cons_of_mem _ hq)) x hx
    cases hen : e.entry
    · have hm : e.part ∈ (positionsOf (qs c) ((rows : Int) - 1) (close c)).flatMap fun p => evParts false p.evs :=
        List.mem_flatMap.mpr ⟨p, hp, List.mem_map_of_mem (List.mem_filter.mpr ⟨he, by simpa using hen⟩)⟩
      rw [z2] at hm
      rcases List.mem_append.mp hm with hm | hm
      · exact hpart _ _ _ (hrows c hc) _ hm
      · split_ifs at hm
        · simp at hm
        · rename_i hne
          rw [List.mem_singleton] at hm
          have e1 : e.idx = (rows : Int) - 1 := congrArg Prod.fst hm
          have : 0 < rows := by
            cases hq : qs c with
            | nil => rw [hq] at hne; simp [held] at hne
            | cons q l => have := hrows c hc q (by rw [hq]; simp); omega
          omega
    · have hm : e.part ∈ (positionsOf (qs c) ((rows : Int) - 1) (close c)).flatMap fun p => evParts true p.evs :=
        List.mem_flatMap.mpr ⟨p, hp, List.mem_map_of_mem (List.mem_filter.mpr ⟨he, by simpa using hen⟩)⟩
      rw [z1] at hm
      exact hpart _ _ _ (hrows c hc) _ hm
  have hlast : ∀ c < nCols, ∀ p ∈ positionsOf (qs c) ((rows : Int) - 1) (close c), lastIdx p.evs < rows := by
    intro c hc p hp
    obtain ⟨es, e, he, -⟩ := positionsOf_ends _ _ _ p hp
    rw [he, lastIdx_snoc]
    exact (hb c hc p hp e (by rw [he]; simp)).2
  have hfirst : ∀ c < nCols, ∀ p ∈ positionsOf (qs c) ((rows : Int) - 1) (close c), 0 ≤ firstIdx p.evs := by
    intro c hc p hp
    obtain ⟨e, es, he, -⟩ := (positionsOf_ok (h c hc).1.ok _ _ p hp).evs.first
    rw [he]
    exact (hb c hc p hp e (by rw [he]; simp)).1
  refine ⟨_, _, getEntryTrades_eq h, getExitTrades_eq h, ?_⟩
  intro x hx
  rcases List.mem_append.mp hx with hx | hx
  · obtain ⟨y, hy, e⟩ := numbered_mem hx
    rw [e]
    obtain ⟨c, hc, k, p, hp, hy⟩ := flat_mem hy
    obtain ⟨ev, hev, rfl⟩ := List.mem_map.mp hy
    have hm := List.mem_of_mem_filter hev
    exact ⟨(hb c hc p hp ev hm).1, le_lastIdx (hs c hc p hp) hm, hlast c hc p hp⟩
  · obtain ⟨y, hy, e⟩ := numbered_mem hx
    rw [e]
    obtain ⟨c, hc, k, p, hp, hy⟩ := flat_mem hy
    obtain ⟨e1, ev, hev, e2⟩ := exitsFrom_mem hy
    simp only
    rw [e1, e2]
    exact ⟨hfirst c hc p hp, firstIdx_le (hs c hc p hp) hev, (hb c hc p hp ev hev).2⟩

/-- **C21**: in each column only the last position can be open, and it is open if something is held at the end; entry
trades have column, direction and status of their position. -/
theorem C21_open {r t : ℚ} {orders : List OrderRec} {rows nCols : Nat} {lastClose : Nat → F} {qs : Nat → List Fill}
    {close : Nat → ℚ}
    (h : ∀ c < nCols, History r t (orders.filter fun o => o.col = c) (qs c) ∧ lastClose c = fin (close c))
    (junk junk' : Nat → Nat) :
    ∃ et ps, getEntryTrades (Arith.exact r t) orders junk rows nCols lastClose = .ok et ∧
      getPositions (Arith.exact r t) et junk' nCols = .ok ps ∧
      (∀ c < nCols, ∃ n, (ps.filter fun x => x.col = c).map (·.status) =
        List.replicate n TradeStatus.Closed ++ (if held (qs c) = 0 then [] else [TradeStatus.Open])) ∧
      ∀ x ∈ et, ∃ p ∈ ps, p.id = x.parentId ∧ p.col = x.col ∧ p.direction = x.direction ∧ p.status = x.status := by
  obtain ⟨et, xt, h1, h2, h3, -⟩ := positions_of_history (rows := rows) h junk junk'
  refine ⟨et, _, h1, h3, ?_, ?_⟩
  · intro c hc
    refine ⟨(split (qs c)).1.length, ?_⟩
    rw [flat_filter (by intro c k p x hx; rw [List.mem_singleton] at hx; subst hx; rfl) _ hc,
      blocks_map (h := fun p => [statusOf p.open_]) (fun k p => rfl)]
    obtain ⟨-, -, z⟩ := positionsOf_parts (h c hc).1.ok ((rows : Int) - 1) (close c)
    have : ∀ ps : List Pos, ps.flatMap (fun p => [statusOf p.open_]) = (ps.map (·.open_)).map statusOf := by
      intro ps; induction ps with
      | nil => rfl
      | cons p ps ih => simp [ih]
    rw [this, z, List.map_append, List.map_replicate]
    congr 1
    split_ifs <;> rfl
  · rw [getEntryTrades_eq h] at h1
    cases h1
    intro x hx
    obtain ⟨y, hy, e⟩ := numbered_mem hx
    have key : ∀ n ≤ nCols, y ∈ flat (entryBlock (Arith.exact r t)) (fun c => positionsOf (qs c) ((rows : Int) - 1) (close c)) n →
        ∃ p ∈ flat (fun c n p => [posTrade (Arith.exact r t) c n p]) (fun c => positionsOf (qs c) ((rows : Int) - 1) (close c)) n,
          p.id = y.parentId ∧ p.col = y.col ∧ p.direction = y.direction ∧ p.status = y.status := by
      intro n
      induction n with
      | zero => intro _ hy; simp [flat] at hy
      | succ n ih =>
        intro hn hy
        rw [flat] at hy ⊢
        rcases List.mem_append.mp hy with hy | hy
        · obtain ⟨p, hp, r⟩ := ih (by omega) hy
          exact ⟨p, List.mem_append_left _ hp, r⟩
        · have : ∀ (ps : List Pos) (m : Int), y ∈ blocks (entryBlock (Arith.exact r t) n) m ps →
              ∃ p ∈ blocks (fun k p => [posTrade (Arith.exact r t) n k p]) m ps,
                p.id = y.parentId ∧ p.col = y.col ∧ p.direction = y.direction ∧ p.status = y.status := by
            intro ps
            induction ps with
            | nil => intro m hy; simp [blocks] at hy
            | cons p ps ihp =>
              intro m hy
              rw [blocks] at hy
              rw [blocks]
              rcases List.mem_append.mp hy with hy | hy
              · obtain ⟨ev, _, rfl⟩ := List.mem_map.mp hy
                exact ⟨_, List.mem_append_left _ (List.mem_singleton.mpr rfl), rfl, rfl, rfl, rfl⟩
              · obtain ⟨q, hq, r⟩ := ihp _ hy
                exact ⟨q, List.mem_append_right _ hq, r⟩
          obtain ⟨q, hq, r⟩ := this _ _ hy
          exact ⟨q, List.mem_append_right _ hq, r⟩
    obtain ⟨p, hp, r⟩ := key nCols le_rfl hy
    refine ⟨p, hp, ?_⟩
    rw [e]
    exact r

/-! ## Examples -/

/-- The orders of `C22`: buy 10, sell 4, sell 9 (a reversal), buy 1. -/
def fillsC21 : List Fill := [⟨0, 0, true, 10, 5, 1⟩, ⟨1, 1, false, 4, 6, 2⟩, ⟨2, 2, false, 9, 7, 3⟩, ⟨3, 3, true, 1, 8, 0⟩]

theorem fillsC21_history : ∀ c < 1, History 0 0 (ordersC22.filter fun o => o.col = c) (fillsC21) ∧ (fin 9 : F) = fin 9 := by
  intro c hc
  have : c = 0 := by omega
  subst this
  refine ⟨⟨?_, ?_, by decide, Clear.zero _⟩, rfl⟩
  · exact .cons ⟨rfl, rfl, rfl, rfl, rfl, rfl⟩ (.cons ⟨rfl, rfl, rfl, rfl, rfl, rfl⟩
      (.cons ⟨rfl, rfl, rfl, rfl, rfl, rfl⟩ (.cons ⟨rfl, rfl, rfl, rfl, rfl, rfl⟩ .nil)))
  · intro q hq
    simp only [fillsC21, List.mem_cons, List.not_mem_nil, or_false] at hq
    rcases hq with rfl | rfl | rfl | rfl <;> norm_num [Fill.Ok]

/-- Hypotheses of the theorems above are met; the reversal of 9 exits 6 and enters 3. -/
example : (∀ c < 1, History 0 0 (ordersC22.filter fun o => o.col = c) fillsC21 ∧ (fun _ : Nat => (fin 9 : F)) c = fin 9) ∧
    fillsC21.Pairwise (fun a b => a.idx ≤ b.idx) ∧ (∀ q ∈ fillsC21, q.idx < 5) ∧
    parts entersBy 0 fillsC21 = [(0, 10, 5, 1), (2, 3, 7, 1)] ∧
    parts exitsBy 0 fillsC21 = [(1, 4, 6, 2), (2, 6, 7, 2), (3, 1, 8, 0)] ∧ held fillsC21 = -2 := by
  refine ⟨fun c hc => ⟨(fillsC21_history c hc).1, rfl⟩, by decide, by decide, ?_, ?_, ?_⟩ <;> decide +kernel

end Vbt
