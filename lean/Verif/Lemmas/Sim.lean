import Verif.Model.Sim
import Verif.Lemmas.Order
import Verif.Lemmas.CallSeq

/-! General lemmas on simulation loops and the records they append. -/

namespace Vbt
open F

section loops
variable {σ τ α : Type} {f : σ → α → Except Err σ}

@[simp] theorem loopE_nil (s : σ) : loopE f s [] = .ok s := rfl

theorem loopE_cons_ok {s s' : σ} {x : α} {xs : List α} (h : loopE f s (x :: xs) = .ok s') :
    ∃ s1, f s x = .ok s1 ∧ loopE f s1 xs = .ok s' := by
  unfold loopE at h
  split at h
  · cases h
  · rename_i s1 h1; exact ⟨s1, h1, h⟩

theorem loopE_append_ok {s s' : σ} {l1 l2 : List α} (h : loopE f s (l1 ++ l2) = .ok s') :
    ∃ s1, loopE f s l1 = .ok s1 ∧ loopE f s1 l2 = .ok s' := by
  induction l1 generalizing s with
  | nil => exact ⟨s, rfl, h⟩
  | cons x xs ih =>
    obtain ⟨s1, h1, h2⟩ := loopE_cons_ok h
    obtain ⟨s2, h3, h4⟩ := ih h2
    exact ⟨s2, by unfold loopE; rw [h1]; exact h3, h4⟩

/-- Invariants of loops. -/
theorem loopE_inv {P : σ → Prop} {l : List α} {s s' : σ}
    (hstep : ∀ s x s', x ∈ l → P s → f s x = .ok s' → P s') (h0 : P s) (h : loopE f s l = .ok s') : P s' := by
  induction l generalizing s with
  | nil => cases h; exact h0
  | cons x xs ih =>
    obtain ⟨s1, h1, h2⟩ := loopE_cons_ok h
    exact ih (fun s y s' hy => hstep s y s' (List.mem_cons_of_mem _ hy)) (hstep s x s1 List.mem_cons_self h0 h1) h2

/-- Two runs in lockstep, both successful. -/
theorem loopE_rel {g : τ → α → Except Err τ} {R : σ → τ → Prop} {l : List α} {s s' : σ} {t t' : τ}
    (hstep : ∀ s t x s' t', x ∈ l → R s t → f s x = .ok s' → g t x = .ok t' → R s' t')
    (h0 : R s t) (h : loopE f s l = .ok s') (h' : loopE g t l = .ok t') : R s' t' := by
  induction l generalizing s t with
  | nil => cases h; cases h'; exact h0
  | cons x xs ih =>
    obtain ⟨s1, h1, h2⟩ := loopE_cons_ok h
    obtain ⟨t1, h3, h4⟩ := loopE_cons_ok h'
    exact ih (fun s t y s' t' hy => hstep s t y s' t' (List.mem_cons_of_mem _ hy))
      (hstep s t x s1 t1 List.mem_cons_self h0 h1 h3) h2 h4

/-- The first run succeeds; the second one follows it or stops with an error in `E`. -/
theorem loopE_follow {g : τ → α → Except Err τ} {R : σ → τ → Prop} {E : Err → Prop} {l : List α} {s s' : σ} {t : τ}
    (hstep : ∀ s t x s', x ∈ l → R s t → f s x = .ok s' →
      (∃ t', g t x = .ok t' ∧ R s' t') ∨ ∃ e, g t x = .error e ∧ E e)
    (h0 : R s t) (h : loopE f s l = .ok s') :
    (∃ t', loopE g t l = .ok t' ∧ R s' t') ∨ ∃ e, loopE g t l = .error e ∧ E e := by
  induction l generalizing s t with
  | nil => cases h; exact Or.inl ⟨t, rfl, h0⟩
  | cons x xs ih =>
    obtain ⟨s1, h1, h2⟩ := loopE_cons_ok h
    rcases hstep s t x s1 List.mem_cons_self h0 h1 with ⟨t1, h3, hr⟩ | ⟨e, he, hE⟩
    · rcases ih (fun s t y s' hy => hstep s t y s' (List.mem_cons_of_mem _ hy)) hr h2 with ⟨t', h4, h5⟩ | ⟨e, h4, h5⟩
      · exact Or.inl ⟨t', by unfold loopE; rw [h3]; exact h4, h5⟩
      · exact Or.inr ⟨e, by unfold loopE; rw [h3]; exact h4, h5⟩
    · exact Or.inr ⟨e, by unfold loopE; rw [he], hE⟩

/-- Where a loop fails. -/
theorem loopE_err {l : List α} {s : σ} {e : Err} (h : loopE f s l = .error e) :
    ∃ pre x post s1, l = pre ++ x :: post ∧ loopE f s pre = .ok s1 ∧ f s1 x = .error e := by
  induction l generalizing s with
  | nil => cases h
  | cons x xs ih =>
    unfold loopE at h
    split at h
    · rename_i e' he
      cases h
      exact ⟨[], x, xs, s, rfl, rfl, he⟩
    · rename_i s1 h1
      obtain ⟨pre, y, post, s2, rfl, h2, h3⟩ := ih h
      exact ⟨x :: pre, y, post, s2, rfl, by unfold loopE; rw [h1]; exact h2, h3⟩

end loops

/-! ### Records -/

/-- (row, column) of an order record. -/
def OrderRec.cell (o : OrderRec) : Nat × Nat := (o.idx, o.col)
/-- (row, column) of a log record. -/
def LogRec.cell (l : LogRec) : Nat × Nat := (l.idx, l.col)

/-- A log record tells about an order record. -/
def LogRec.About (l : LogRec) (o : OrderRec) : Prop :=
  l.orderId = o.id ∧ l.idx = o.idx ∧ l.col = o.col ∧ l.resSize = o.size ∧ l.resPrice = o.price ∧
    l.resFees = o.fees ∧ l.resSide = o.side

/-- Going from `s` to `s'` records were appended for at most the given cells, in that order. -/
structure Appends (s s' : SimState) (cells : List (Nat × Nat)) : Prop where
  app : ∃ os ls, s'.buf.orders = s.buf.orders ++ os ∧ s'.buf.logs = s.buf.logs ++ ls ∧
    (os.map OrderRec.cell).Sublist cells ∧ (ls.map LogRec.cell).Sublist cells ∧
    s'.oidx = s.oidx + os.length ∧ s'.lidx = s.lidx + ls.length ∧
    os.map OrderRec.id = List.range' s.oidx os.length ∧ ls.map LogRec.id = List.range' s.lidx ls.length ∧
    (∀ l ∈ ls, (l.resStatus = OrderStatus.Filled → l.orderId ≠ -1) ∧
      (l.orderId ≠ -1 → l.resStatus = OrderStatus.Filled ∧ ∃ o ∈ os, l.About o))
  maxOrders : s'.buf.maxOrders = s.buf.maxOrders
  maxLogs : s'.buf.maxLogs = s.buf.maxLogs
  capOrders : s.oidx ≤ s.buf.maxOrders → s'.oidx ≤ s'.buf.maxOrders
  capLogs : s.lidx ≤ s.buf.maxLogs → s'.lidx ≤ s'.buf.maxLogs

theorem Appends.refl (s : SimState) : Appends s s [] :=
  ⟨⟨[], [], by simp, by simp, by simp, by simp, by simp, by simp, by simp, by simp, by simp⟩, rfl, rfl, id, id⟩

theorem Appends.trans {s1 s2 s3 : SimState} {c1 c2 : List (Nat × Nat)} (h1 : Appends s1 s2 c1)
    (h2 : Appends s2 s3 c2) : Appends s1 s3 (c1 ++ c2) := by
  obtain ⟨os, ls, a1, a2, a3, a4, a5, a6, a7, a8, a9⟩ := h1.app
  obtain ⟨os', ls', b1, b2, b3, b4, b5, b6, b7, b8, b9⟩ := h2.app
  refine ⟨⟨os ++ os', ls ++ ls', ?_, ?_, ?_, ?_, ?_, ?_, ?_, ?_, ?_⟩, ?_, ?_, ?_, ?_⟩
  · rw [b1, a1, List.append_assoc]
  · rw [b2, a2, List.append_assoc]
  · rw [List.map_append]; exact a3.append b3
  · rw [List.map_append]; exact a4.append b4
  · rw [b5, a5]; simp; omega
  · rw [b6, a6]; simp; omega
  · rw [List.map_append, a7, b7, a5, List.length_append, List.range'_append_1]
  · rw [List.map_append, a8, b8, a6, List.length_append, List.range'_append_1]
  · intro l hl
    rcases List.mem_append.mp hl with hl | hl
    · refine ⟨(a9 l hl).1, fun h => ?_⟩
      obtain ⟨x, o, ho, hab⟩ := (a9 l hl).2 h
      exact ⟨x, o, List.mem_append_left _ ho, hab⟩
    · refine ⟨(b9 l hl).1, fun h => ?_⟩
      obtain ⟨x, o, ho, hab⟩ := (b9 l hl).2 h
      exact ⟨x, o, List.mem_append_right _ ho, hab⟩
  · rw [h2.maxOrders, h1.maxOrders]
  · rw [h2.maxLogs, h1.maxLogs]
  · exact fun h => h2.capOrders (h1.capOrders h)
  · exact fun h => h2.capLogs (h1.capLogs h)

theorem Appends.mono {s s' : SimState} {c c' : List (Nat × Nat)} (h : Appends s s' c) (hc : c.Sublist c') :
    Appends s s' c' := by
  obtain ⟨os, ls, a1, a2, a3, a4, a5⟩ := h.app
  exact ⟨⟨os, ls, a1, a2, a3.trans hc, a4.trans hc, a5⟩, h.maxOrders, h.maxLogs, h.capOrders, h.capLogs⟩

/-- Changing cash, value or valuation prices appends nothing. -/
theorem Appends.of_eq {s s' : SimState} (h1 : s'.buf = s.buf) (h2 : s'.oidx = s.oidx) (h3 : s'.lidx = s.lidx) :
    Appends s s' [] :=
  ⟨⟨[], [], by simp [h1], by simp [h1], by simp, by simp, by simp [h2], by simp [h3], by simp, by simp, by simp⟩,
    by rw [h1], by rw [h1], by rw [h1, h2]; exact id, by rw [h1, h3]; exact id⟩

/-- The bound on the records written. -/
theorem Appends.oidx_le {s s' : SimState} {c : List (Nat × Nat)} (h : Appends s s' c) :
    s'.oidx ≤ s.oidx + c.length ∧ s'.lidx ≤ s.lidx + c.length := by
  obtain ⟨os, ls, -, -, a3, a4, a5, a6, -⟩ := h.app
  have h1 := a3.length_le
  have h2 := a4.length_le
  rw [List.length_map] at h1 h2
  omega

theorem callOrder_inv {A i col group value upd ffill o u s s'}
    (h : callOrder A i col group value upd ffill o u s = .ok s') :
    ∃ res st b, processOrder A i col group
      { cash := s.cash, position := s.position col, debt := s.debt col, freeCash := s.free,
        valPrice := s.valPrice col, value := value, oidx := s.oidx, lidx := s.lidx } upd o u s.buf = .ok (res, st, b) ∧
      s' = { cash := st.cash, free := st.freeCash, value := st.value,
             position := setAt s.position col st.position, debt := setAt s.debt col st.debt,
             valPrice := if !st.valPrice.isnan || !ffill then setAt s.valPrice col st.valPrice else s.valPrice,
             oidx := st.oidx, lidx := st.lidx, buf := b } := by
  unfold callOrder at h
  split at h
  · cases h
  · rename_i res st b hp
    cases h
    exact ⟨res, st, b, hp, rfl⟩

theorem callOrder_appends {A i col group value upd ffill o u s s'}
    (h : callOrder A i col group value upd ffill o u s = .ok s') : Appends s s' [(i, col)] := by
  obtain ⟨res, st, b, hp, rfl⟩ := callOrder_inv h
  obtain ⟨es, -, -, -, -, -, -, hrec, hlog, m1, m2⟩ := processOrder_inv hp
  refine ⟨?_, m1, m2, ?_, ?_⟩
  · simp only at hrec hlog
    rcases hrec with ⟨hf, -, ho, hob, -⟩ | ⟨hf, ho, hob, -⟩
    · rcases hlog with ⟨-, -, hl, l, hlb, i1, i2, i3, -, -, -, -, -, -, -, -, -, -, -, -, -, -, r1, r2, r3, r4, r5, -, r6⟩ |
        ⟨-, hl, hlb⟩
      · rw [if_pos hf] at r6
        refine ⟨[_], [l], hob, hlb, ?_, ?_, ho, hl, rfl, ?_, ?_⟩
        · exact List.Sublist.refl _
        · simp [LogRec.cell, i2, i3]
        · simp [i1, List.range']
        · intro l' hl'
          rw [List.mem_singleton] at hl'
          subst hl'
          refine ⟨fun _ => by rw [r6]; omega, fun _ => ⟨by rw [r5, hf], _, List.mem_singleton_self _, ?_⟩⟩
          exact ⟨r6, i3, i2, r1, r2, r3, r4⟩
      · exact ⟨[_], [], hob, by simp [hlb], List.Sublist.refl _, by simp, ho, by simp [hl], rfl, rfl, by simp⟩
    · rcases hlog with ⟨-, -, hl, l, hlb, i1, i2, i3, -, -, -, -, -, -, -, -, -, -, -, -, -, -, r1, r2, r3, r4, r5, -, r6⟩ |
        ⟨-, hl, hlb⟩
      · rw [if_neg hf] at r6
        refine ⟨[], [l], by simp [hob], hlb, by simp, ?_, by simp [ho], hl, rfl, ?_, ?_⟩
        · simp [LogRec.cell, i2, i3]
        · simp [i1, List.range']
        · intro l' hl'
          rw [List.mem_singleton] at hl'
          subst hl'
          refine ⟨fun h => absurd (r5 ▸ h) hf, fun h => absurd r6 h⟩
      · exact ⟨[], [], by simp [hob], by simp [hlb], by simp, by simp, by simp [ho], by simp [hl], rfl, rfl, by simp⟩
  · simp only at hrec ⊢
    intro hc
    rcases hrec with ⟨-, hlt, ho, -⟩ | ⟨-, ho, -⟩ <;> rw [m1] <;> omega
  · simp only at hlog ⊢
    intro hc
    rcases hlog with ⟨-, hlt, ho, -⟩ | ⟨-, ho, -⟩ <;> rw [m2] <;> omega

/-! ### The generic shape of a simulation -/

theorem layoutFrom_mem {lens : List Nat} {g c : Nat} {x : Nat × Nat × Nat} (h : x ∈ layoutFrom g c lens) :
    g ≤ x.1 ∧ x.1 < g + lens.length ∧ c ≤ x.2.1 ∧ x.2.1 + x.2.2 ≤ c + lens.sum ∧ x.2.2 ∈ lens := by
  induction lens generalizing g c with
  | nil => cases h
  | cons l ls ih =>
    rcases List.mem_cons.mp h with rfl | h
    · simp
    · have := ih h
      simp only [List.length_cons, List.sum_cons, List.mem_cons]
      refine ⟨by omega, by omega, by omega, by omega, Or.inr this.2.2.2.2⟩

theorem layoutFrom_pairwise (lens : List Nat) (g c : Nat) :
    (layoutFrom g c lens).Pairwise fun x y => x.1 < y.1 ∧ x.2.1 + x.2.2 ≤ y.2.1 := by
  induction lens generalizing g c with
  | nil => exact List.Pairwise.nil
  | cons l ls ih =>
    rw [layoutFrom, List.pairwise_cons]
    refine ⟨?_, ih _ _⟩
    intro y hy
    have := layoutFrom_mem hy
    simp; omega

/-- Cells of rows `lo ≤ i < hi` and of columns `from ≤ c < from + len`, at most `len` per row; if `nd` holds,
later cells have a larger row or the same row and another column. -/
structure RowsOk (nd : Prop) (lo hi fromCol len : Nat) (cells : List (Nat × Nat)) : Prop where
  mem : ∀ x ∈ cells, lo ≤ x.1 ∧ x.1 < hi ∧ fromCol ≤ x.2 ∧ x.2 < fromCol + len
  len : cells.length ≤ (hi - lo) * len
  ord : nd → cells.Pairwise fun x y => x.1 < y.1 ∨ (x.1 = y.1 ∧ x.2 ≠ y.2)

theorem RowsOk.append {nd lo mid hi fc len c1 c2} (h1 : RowsOk nd lo mid fc len c1) (h2 : RowsOk nd mid hi fc len c2)
    (hl : lo ≤ mid) (hm : mid ≤ hi) : RowsOk nd lo hi fc len (c1 ++ c2) := by
  refine ⟨?_, ?_, ?_⟩
  · intro x hx
    rcases List.mem_append.mp hx with hx | hx
    · have := h1.mem x hx; omega
    · have := h2.mem x hx; omega
  · rw [List.length_append]
    have e : hi - lo = (mid - lo) + (hi - mid) := by omega
    rw [e, Nat.add_mul]
    have := h1.len; have := h2.len
    omega
  · intro hn
    rw [List.pairwise_append]
    refine ⟨h1.ord hn, h2.ord hn, ?_⟩
    intro x hx y hy
    left
    have := h1.mem x hx; have := h2.mem y hy; omega

theorem RowsOk.row {nd : Prop} {i fc len : Nat} {cols : List Nat} (hm : ∀ c ∈ cols, fc ≤ c ∧ c < fc + len)
    (hl : cols.length ≤ len) (hn : nd → cols.Nodup) :
    RowsOk nd i (i + 1) fc len (cols.map fun c => (i, c)) := by
  refine ⟨?_, ?_, ?_⟩
  · intro x hx
    obtain ⟨c, hc, rfl⟩ := List.mem_map.mp hx
    have := hm c hc
    simp; omega
  · simpa using hl
  · intro h
    rw [List.pairwise_map]
    exact (hn h).imp fun h => Or.inr ⟨rfl, h⟩

/-- A list of cells over several groups. -/
structure CellsOk (nd : Prop) (rows lo hi : Nat) (cells : List (Nat × Nat)) : Prop where
  mem : ∀ x ∈ cells, x.1 < rows ∧ lo ≤ x.2 ∧ x.2 < hi
  len : cells.length ≤ rows * (hi - lo)
  ord : nd → cells.Pairwise fun x y => x.2 = y.2 → x.1 < y.1

theorem RowsOk.cells {nd rows fc len c} (h : RowsOk nd 0 rows fc len c) : CellsOk nd rows fc (fc + len) c := by
  refine ⟨fun x hx => (h.mem x hx).2, ?_, ?_⟩
  · have := h.len
    rw [Nat.add_sub_cancel_left]
    simpa using this
  · intro hn
    refine (h.ord hn).imp ?_
    rintro x y (h | h) he
    · exact h
    · exact absurd he h.2

theorem CellsOk.append {nd rows lo mid hi c1 c2} (h1 : CellsOk nd rows lo mid c1) (h2 : CellsOk nd rows mid hi c2)
    (hl : lo ≤ mid) (hm : mid ≤ hi) : CellsOk nd rows lo hi (c1 ++ c2) := by
  refine ⟨?_, ?_, ?_⟩
  · intro x hx
    rcases List.mem_append.mp hx with hx | hx
    · have := h1.mem x hx; omega
    · have := h2.mem x hx; omega
  · rw [List.length_append]
    have e : hi - lo = (mid - lo) + (hi - mid) := by omega
    rw [e, Nat.mul_add]
    have := h1.len; have := h2.len
    omega
  · intro hn
    rw [List.pairwise_append]
    refine ⟨h1.ord hn, h2.ord hn, ?_⟩
    intro x hx y hy he
    have := h1.mem x hx; have := h2.mem y hy; omega

section frame
variable {σ : Type} {proj : σ → SimState} {nd : Prop}

/-- What a row of a group may do to the records. -/
def RowAppends (proj : σ → SimState) (nd : Prop) (fc len i : Nat) (s s' : σ) : Prop :=
  ∃ cols : List Nat, (∀ c ∈ cols, fc ≤ c ∧ c < fc + len) ∧ cols.length ≤ len ∧ (nd → cols.Nodup) ∧
    Appends (proj s) (proj s') (cols.map fun c => (i, c))

theorem loop_rows_appends {row : σ → Nat → Except Err σ} {fc len lo n : Nat} {s s' : σ}
    (hrow : ∀ s i s', lo ≤ i → i < lo + n → row s i = .ok s' → RowAppends proj nd fc len i s s')
    (h : loopE row s (List.range' lo n) = .ok s') :
    ∃ cells, RowsOk nd lo (lo + n) fc len cells ∧ Appends (proj s) (proj s') cells := by
  induction n generalizing s lo with
  | zero =>
    cases h
    exact ⟨[], ⟨by simp, by simp, fun _ => List.Pairwise.nil⟩, Appends.refl _⟩
  | succ n ih =>
    rw [List.range'_succ] at h
    obtain ⟨s1, h1, h2⟩ := loopE_cons_ok h
    obtain ⟨cols, hm, hl, hn, ha⟩ := hrow s lo s1 le_rfl (by omega) h1
    obtain ⟨cells, hc, ha'⟩ := ih (fun s i s' hi hi' => hrow s i s' (by omega) (by omega)) h2
    refine ⟨_, RowsOk.append (RowsOk.row hm hl hn) ?_ (by omega) (by omega), ha.trans ha'⟩
    have e : lo + (n + 1) = lo + 1 + n := by omega
    rw [e]; exact hc

/-- The whole simulation: a loop over groups, each a loop over rows. -/
theorem loop_groups_appends {start : σ → Nat × Nat × Nat → σ} {row : Nat × Nat × Nat → σ → Nat → Except Err σ}
    {rows : Nat} {lens : List Nat} {g c : Nat} {s s' : σ}
    (hstart : ∀ s x, Appends (proj s) (proj (start s x)) [])
    (hrow : ∀ x s i s', x ∈ layoutFrom g c lens → i < rows → row x s i = .ok s' →
      RowAppends proj nd x.2.1 x.2.2 i s s')
    (h : loopE (fun s x => loopE (row x) (start s x) (List.range rows)) s (layoutFrom g c lens) = .ok s') :
    ∃ cells, CellsOk nd rows c (c + lens.sum) cells ∧ Appends (proj s) (proj s') cells := by
  induction lens generalizing s g c with
  | nil =>
    cases h
    exact ⟨[], ⟨by simp, by simp, fun _ => List.Pairwise.nil⟩, Appends.refl _⟩
  | cons l ls ih =>
    rw [layoutFrom] at h
    obtain ⟨s1, h1, h2⟩ := loopE_cons_ok h
    rw [List.range_eq_range'] at h1
    obtain ⟨cells1, hc1, ha1⟩ := loop_rows_appends (proj := proj) (nd := nd) (fc := c) (len := l) (lo := 0)
      (fun s i s' _ hi hr => hrow (g, c, l) s i s' (by simp [layoutFrom]) (by omega) hr) h1
    obtain ⟨cells2, hc2, ha2⟩ := ih (fun x s i s' hx => hrow x s i s' (by simp [layoutFrom, hx])) h2
    rw [zero_add] at hc1
    refine ⟨cells1 ++ cells2, ?_, ?_⟩
    · rw [List.sum_cons]
      have e : c + (l + ls.sum) = c + l + ls.sum := by omega
      rw [e]
      exact CellsOk.append hc1.cells hc2 (by omega) (by omega)
    · have := ((hstart s (g, c, l)).trans ha1).trans ha2
      simpa using this

end frame

/-! ### The simulation from orders -/

/-- The columns called in a row, in order. -/
def slotCol (sharing : Bool) (fc : Nat) (slot : Nat × Nat) : Nat := if sharing then fc + slot.2 else fc + slot.1

theorem callSlot_inv {A inp sharing g i fc len s slot s'}
    (h : callSlot A inp sharing g i fc len s slot = .ok s') :
    (sharing = true → slot.2 < len) ∧
    callOrder A i (slotCol sharing fc slot) g
      (if sharing then s.value
       else if !eqb (s.position (slotCol sharing fc slot)) zero then
         add A s.cash (mul A (s.position (slotCol sharing fc slot)) (s.valPrice (slotCol sharing fc slot)))
       else s.cash) inp.updateValue inp.ffillValPrice (orderAt inp i (slotCol sharing fc slot))
      (inp.draw i (fc + slot.1)) s = .ok s' := by
  unfold callSlot at h
  split at h
  · cases h
  · rename_i hc
    refine ⟨?_, h⟩
    intro hs
    simp only [hs, Bool.true_and, decide_eq_true_eq, ge_iff_le, not_le] at hc
    exact hc

theorem loop_slots_appends {A inp sharing g i fc len s s'} {slots : List (Nat × Nat)}
    (h : loopE (callSlot A inp sharing g i fc len) s slots = .ok s') :
    Appends s s' ((slots.map (slotCol sharing fc)).map fun c => (i, c)) ∧ (sharing = true → ∀ x ∈ slots, x.2 < len) := by
  induction slots generalizing s with
  | nil => cases h; exact ⟨Appends.refl _, by simp⟩
  | cons x xs ih =>
    obtain ⟨s1, h1, h2⟩ := loopE_cons_ok h
    obtain ⟨hx, hc⟩ := callSlot_inv h1
    obtain ⟨ha, hxs⟩ := ih h2
    refine ⟨(callOrder_appends hc).trans ha, fun hs y hy => ?_⟩
    rcases List.mem_cons.mp hy with rfl | hy
    · exact hx hs
    · exact hxs hs y hy

/-- The call sequence of row `i` and group is a permutation of the group's columns. -/
def CallSeqOk (inp : Inputs) (i fc len : Nat) : Prop :=
  ((List.range len).map fun k => inp.callSeq i (fc + k)).Perm (List.range len)

theorem rowCallSeq_length {A inp sharing i fc len s} : (rowCallSeq A inp sharing i fc len s).length = len := by
  unfold rowCallSeq
  simp only
  split
  · rw [(sortCallSeq_perm _ _ (by simp)).length_eq]; simp
  · simp

theorem rowCallSeq_perm {A inp sharing i fc len s} (h : CallSeqOk inp i fc len) :
    (rowCallSeq A inp sharing i fc len s).Perm (List.range len) := by
  unfold rowCallSeq
  simp only
  split
  · exact (sortCallSeq_perm _ _ (by simp)).trans h
  · exact h

theorem simRow_appends {A inp sharing g i fc len s s'} {nd : Prop}
    (h : simRow A inp sharing g fc len s i = .ok s')
    (hnd : nd → sharing = true → CallSeqOk inp i fc len) : RowAppends id nd fc len i s s' := by
  unfold simRow at h
  simp only at h
  generalize hs1 : ({ s with valPrice := rowValPrice inp i fc len s.valPrice,
                             value := if sharing then groupValue A s.cash s.position
                               (rowValPrice inp i fc len s.valPrice) fc len else s.value } : SimState) = s1 at h
  obtain ⟨ha, hlt⟩ := loop_slots_appends h
  have h0 : Appends s s1 [] := by subst hs1; exact Appends.of_eq rfl rfl rfl
  have hlen := rowCallSeq_length (A := A) (inp := inp) (sharing := sharing) (i := i) (fc := fc) (len := len) (s := s1)
  have hcols : ((List.range len).zip (rowCallSeq A inp sharing i fc len s1)).map (slotCol sharing fc) =
      if sharing then (rowCallSeq A inp sharing i fc len s1).map (fc + ·) else (List.range len).map (fc + ·) := by
    cases sharing
    · have : slotCol false fc = (fun x : Nat => fc + x) ∘ Prod.fst := rfl
      rw [this, ← List.map_map, List.map_fst_zip (by simp [hlen])]
      simp
    · have : slotCol true fc = (fun x : Nat => fc + x) ∘ Prod.snd := rfl
      rw [this, ← List.map_map, List.map_snd_zip (by simp [hlen])]
      simp
  refine ⟨_, ?_, ?_, ?_, h0.trans ha⟩
  · intro c hc
    obtain ⟨x, hx, rfl⟩ := List.mem_map.mp hc
    unfold slotCol
    cases hsh : sharing
    · have := (List.of_mem_zip hx).1
      rw [List.mem_range] at this
      simp; exact this
    · have := hlt hsh x hx
      simp; exact this
  · simp [hlen]
  · intro hn
    rw [hcols]
    cases hsh : sharing
    · simpa using (List.nodup_range).map (fun a b h => by simpa using h)
    · have := (rowCallSeq_perm (A := A) (sharing := sharing) (s := s1) (hnd hn hsh)).nodup_iff.mpr List.nodup_range
      rw [hsh] at this
      simpa using this.map (fun a b h => by simpa using h)

theorem simulateFromOrders_inv {A inp rows cols lens initCash mo ml s}
    (h : simulateFromOrders A inp rows cols lens initCash mo ml = .ok s) :
    lens.sum = cols ∧ (isGrouped lens = true → initCash.length = lens.length) ∧
    (isGrouped lens = false → initCash.length = cols) ∧
    loopE (simGroup A inp (isGrouped lens) (fun g => initCash.getD g nan) rows)
        (initState (initRecords rows cols mo ml)) (layout lens) = .ok s := by
  unfold simulateFromOrders at h
  split at h
  · cases h
  rename_i h1
  simp only at h
  split at h
  · cases h
  rename_i h2
  split at h
  · cases h
  rename_i h3
  refine ⟨by push Not at h1; exact h1, fun hg => ?_, fun hg => ?_, h⟩
  · by_contra hc; exact h2 ⟨hg, hc⟩
  · by_contra hc; exact h3 ⟨hg, hc⟩

/-- The records of a simulation. -/
theorem simulateFromOrders_appends {A inp rows cols lens initCash mo ml s} {nd : Prop}
    (h : simulateFromOrders A inp rows cols lens initCash mo ml = .ok s)
    (hnd : nd → isGrouped lens = true → ∀ x ∈ layout lens, ∀ i < rows, CallSeqOk inp i x.2.1 x.2.2) :
    ∃ cells, CellsOk nd rows 0 cols cells ∧ Appends (initState (initRecords rows cols mo ml)) s cells := by
  obtain ⟨hsum, -, -, hl⟩ := simulateFromOrders_inv h
  have := loop_groups_appends (proj := id) (nd := nd)
    (start := fun s x => { s with cash := (fun g => initCash.getD g nan) x.1, free := (fun g => initCash.getD g nan) x.1 })
    (row := fun x => simRow A inp (isGrouped lens) x.1 x.2.1 x.2.2) (rows := rows)
    (fun s x => Appends.of_eq rfl rfl rfl)
    (fun x s i s' hx hi hr => simRow_appends hr (fun hn hg => hnd hn hg x hx i hi)) hl
  rw [zero_add, hsum] at this
  exact this

end Vbt
