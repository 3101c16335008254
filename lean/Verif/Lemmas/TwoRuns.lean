import Verif.Lemmas.Sim

/-! Two runs of the simulation whose inputs agree on some rows and columns. -/

namespace Vbt
open F

/-- An order record without its id. -/
def OrderRec.strip (o : OrderRec) : OrderRec := { o with id := 0 }
/-- A log record without its id; of the order id only its presence is kept. -/
def LogRec.strip (l : LogRec) : LogRec := { l with id := 0, orderId := if l.orderId = -1 then -1 else 0 }

/-- The records of the cells selected by `p`, without ids. -/
def viewOf (p : Nat × Nat → Bool) (b : Buffers) : List OrderRec × List LogRec :=
  ((b.orders.filter fun o => p o.cell).map OrderRec.strip, (b.logs.filter fun l => p l.cell).map LogRec.strip)

theorem processOrder_twice {A i col group} {st : ProcState} {upd o u b1 b2 r1 r2 st1 st2 b1' b2'} (a1 l1 a2 l2 : Nat)
    (h1 : processOrder A i col group { st with oidx := a1, lidx := l1 } upd o u b1 = .ok (r1, st1, b1'))
    (h2 : processOrder A i col group { st with oidx := a2, lidx := l2 } upd o u b2 = .ok (r2, st2, b2')) :
    r1 = r2 ∧ st1.cash = st2.cash ∧ st1.position = st2.position ∧ st1.debt = st2.debt ∧ st1.freeCash = st2.freeCash ∧
    st1.valPrice = st2.valPrice ∧ st1.value = st2.value ∧
    (∀ p, viewOf p b1 = viewOf p b2 → viewOf p b1' = viewOf p b2') ∧
    (∀ p, p (i, col) = false → viewOf p b1' = viewOf p b1) ∧
    (a1 = a2 → l1 = l2 → b1.orders = b2.orders → b1.logs = b2.logs →
      st1.oidx = st2.oidx ∧ st1.lidx = st2.lidx ∧ b1'.orders = b2'.orders ∧ b1'.logs = b2'.logs) := by
  have hx : executeOrder A { st with oidx := a1, lidx := l1 } o u = executeOrder A st o u := rfl
  have hx' : executeOrder A { st with oidx := a2, lidx := l2 } o u = executeOrder A st o u := rfl
  unfold processOrder at h1 h2
  rw [hx] at h1
  rw [hx'] at h2
  cases hex : executeOrder A st o u with
  | error e => rw [hex] at h1; cases h1
  | ok er =>
    obtain ⟨es, res⟩ := er
    rw [hex] at h1 h2
    simp only at h1 h2
    split at h1
    · cases h1
    rename_i hrej
    rw [if_neg hrej] at h2
    split at h1
    · cases h1
    split at h1
    · cases h1
    split at h2
    · cases h2
    split at h2
    · cases h2
    cases h1
    cases h2
    refine ⟨rfl, rfl, rfl, rfl, rfl, rfl, rfl, ?_, ?_, ?_⟩
    rotate_left 2
    · intro e1 e2 e3 e4
      subst e1
      subst e2
      simp only [e3, e4]
      exact ⟨trivial, trivial, trivial, trivial⟩
    · intro p hp
      simp only [viewOf, Prod.mk.injEq] at hp ⊢
      constructor
      · split
        · rw [List.filter_append, List.filter_append, List.map_append, List.map_append, hp.1]
          congr 1
          by_cases hc : p (i, col) = true <;> simp [OrderRec.cell, hc, OrderRec.strip]
        · exact hp.1
      · split
        · rw [List.filter_append, List.filter_append, List.map_append, List.map_append, hp.2]
          congr 1
          by_cases hc : p (i, col) = true
          · by_cases hf : r1.status = OrderStatus.Filled
            · have e1 : ((a1 : Int) = -1) = False := by simp
              have e2 : ((a2 : Int) = -1) = False := by simp
              simp [LogRec.cell, hc, LogRec.strip, hf, e1, e2]
            · simp [LogRec.cell, hc, LogRec.strip, hf]
          · simp [LogRec.cell, hc]
        · exact hp.2
    · intro p hp
      simp only [viewOf, Prod.mk.injEq]
      constructor
      · split
        · rw [List.filter_append, List.map_append]
          simp [OrderRec.cell, hp]
        · rfl
      · split
        · rw [List.filter_append, List.map_append]
          simp [LogRec.cell, hp]
        · rfl

/-- Two states with the same account for the columns `lo ≤ c < hi`. -/
structure SameAt (lo hi : Nat) (s t : SimState) : Prop where
  cash : s.cash = t.cash
  free : s.free = t.free
  pos : ∀ c, lo ≤ c → c < hi → s.position c = t.position c
  debt : ∀ c, lo ≤ c → c < hi → s.debt c = t.debt c
  vp : ∀ c, lo ≤ c → c < hi → s.valPrice c = t.valPrice c

/-- The same records, with ids. -/
def SameBuf (s t : SimState) : Prop :=
  s.oidx = t.oidx ∧ s.lidx = t.lidx ∧ s.buf.orders = t.buf.orders ∧ s.buf.logs = t.buf.logs

theorem callOrder_twice {A i col group value upd ffill o u s t s' t' lo hi} (hlo : lo ≤ col) (hhi : col < hi)
    (hs : SameAt lo hi s t)
    (h1 : callOrder A i col group value upd ffill o u s = .ok s')
    (h2 : callOrder A i col group value upd ffill o u t = .ok t') :
    SameAt lo hi s' t' ∧ s'.value = t'.value ∧
    (∀ p, viewOf p s.buf = viewOf p t.buf → viewOf p s'.buf = viewOf p t'.buf) ∧ (SameBuf s t → SameBuf s' t') := by
  obtain ⟨r1, st1, b1, hp1, rfl⟩ := callOrder_inv h1
  obtain ⟨r2, st2, b2, hp2, rfl⟩ := callOrder_inv h2
  rw [← hs.cash, ← hs.free, ← hs.pos col hlo hhi, ← hs.debt col hlo hhi, ← hs.vp col hlo hhi] at hp2
  obtain ⟨-, e1, e2, e3, e4, e5, e6, hv, -, hb⟩ := processOrder_twice
    (st := { cash := s.cash, position := s.position col, debt := s.debt col, freeCash := s.free,
             valPrice := s.valPrice col, value := value, oidx := 0, lidx := 0 })
    s.oidx s.lidx t.oidx t.lidx hp1 hp2
  refine ⟨⟨e1, e4, ?_, ?_, ?_⟩, e6, hv, fun h => hb h.1 h.2.1 h.2.2.1 h.2.2.2⟩
  · intro c h1 h2
    simp only [setAt]
    split
    · exact e2
    · exact hs.pos c h1 h2
  · intro c h1 h2
    simp only [setAt]
    split
    · exact e3
    · exact hs.debt c h1 h2
  · intro c h1 h2
    simp only [e5]
    split
    · simp only [setAt]
      split
      · rfl
      · exact hs.vp c h1 h2
    · exact hs.vp c h1 h2

/-- A call for a cell not selected by `p` leaves the view; only the column called changes. -/
theorem callOrder_frame {A i col group value upd ffill o u s s'}
    (h : callOrder A i col group value upd ffill o u s = .ok s') :
    (∀ p, p (i, col) = false → viewOf p s'.buf = viewOf p s.buf) ∧
    (∀ c, c ≠ col → s'.position c = s.position c ∧ s'.debt c = s.debt c ∧ s'.valPrice c = s.valPrice c) := by
  obtain ⟨r1, st1, b1, hp1, rfl⟩ := callOrder_inv h
  constructor
  · intro p hp
    exact (processOrder_twice
      (st := { cash := s.cash, position := s.position col, debt := s.debt col, freeCash := s.free,
               valPrice := s.valPrice col, value := value, oidx := 0, lidx := 0 })
      s.oidx s.lidx s.oidx s.lidx hp1 hp1).2.2.2.2.2.2.2.2.1 p hp
  · intro c hc
    simp only [setAt, if_neg hc]
    refine ⟨trivial, trivial, ?_⟩
    split <;> simp [setAt, hc]

/-- The inputs agree in one cell (including the close before it, the call sequence and the draw). -/
structure AgreeAt (x y : Inputs) (i c : Nat) : Prop where
  size : x.size i c = y.size i c
  price : x.price i c = y.price i c
  sizeType : x.sizeType i c = y.sizeType i c
  direction : x.direction i c = y.direction i c
  fees : x.fees i c = y.fees i c
  fixedFees : x.fixedFees i c = y.fixedFees i c
  slippage : x.slippage i c = y.slippage i c
  minSize : x.minSize i c = y.minSize i c
  maxSize : x.maxSize i c = y.maxSize i c
  gran : x.gran i c = y.gran i c
  rejectProb : x.rejectProb i c = y.rejectProb i c
  lockCash : x.lockCash i c = y.lockCash i c
  allowPartial : x.allowPartial i c = y.allowPartial i c
  raiseReject : x.raiseReject i c = y.raiseReject i c
  log : x.log i c = y.log i c
  valPrice : x.valPrice i c = y.valPrice i c
  close : x.close i c = y.close i c
  callSeq : x.callSeq i c = y.callSeq i c
  draw : x.draw i c = y.draw i c

/-- The global flags agree. -/
structure AgreeFlags (x y : Inputs) : Prop where
  auto : x.autoCallSeq = y.autoCallSeq
  ffill : x.ffillValPrice = y.ffillValPrice
  upd : x.updateValue = y.updateValue

/-- Agreement in a row of a range of columns, and of the previous close. -/
structure AgreeRow (x y : Inputs) (i lo hi : Nat) : Prop where
  cell : ∀ c, lo ≤ c → c < hi → AgreeAt x y i c
  prev : ∀ c, lo ≤ c → c < hi → 0 < i → x.close (i - 1) c = y.close (i - 1) c

section
variable {x y : Inputs} {i lo hi : Nat}

theorem AgreeRow.price (h : AgreeRow x y i lo hi) {c : Nat} (h1 : lo ≤ c) (h2 : c < hi) :
    resolvePrice x i c = resolvePrice y i c := by
  have a := h.cell c h1 h2
  unfold resolvePrice
  rw [a.price, a.close]
  simp only
  split
  · split
    · rfl
    · split
      · rename_i hi; exact h.prev c h1 h2 hi
      · rfl
  · rfl

theorem AgreeRow.valPrice (h : AgreeRow x y i lo hi) {c : Nat} (h1 : lo ≤ c) (h2 : c < hi) :
    resolveValPrice x i c = resolveValPrice y i c := by
  have a := h.cell c h1 h2
  unfold resolveValPrice
  rw [a.valPrice, h.price h1 h2]
  simp only
  split
  · split
    · rfl
    · split
      · rename_i hi; exact h.prev c h1 h2 hi
      · rfl
  · rfl

theorem AgreeRow.order (h : AgreeRow x y i lo hi) {c : Nat} (h1 : lo ≤ c) (h2 : c < hi) :
    orderAt x i c = orderAt y i c := by
  have a := h.cell c h1 h2
  unfold orderAt
  rw [h.price h1 h2, a.size, a.sizeType, a.direction, a.fees, a.fixedFees, a.slippage, a.minSize, a.maxSize, a.gran,
    a.rejectProb, a.lockCash, a.allowPartial, a.raiseReject, a.log]

theorem slots_twice {A sharing g fc len s t s' t'} {slots : List (Nat × Nat)} (hf : AgreeFlags x y)
    (ha : AgreeRow x y i fc (fc + len)) (hslots : ∀ k ∈ slots, k.1 < len)
    (hs : SameAt fc (fc + len) s t) (hv : sharing = true → s.value = t.value)
    (h1 : loopE (callSlot A x sharing g i fc len) s slots = .ok s')
    (h2 : loopE (callSlot A y sharing g i fc len) t slots = .ok t') :
    SameAt fc (fc + len) s' t' ∧ (∀ p, viewOf p s.buf = viewOf p t.buf → viewOf p s'.buf = viewOf p t'.buf) ∧
    (SameBuf s t → SameBuf s' t') := by
  have := loopE_rel (f := callSlot A x sharing g i fc len) (g := callSlot A y sharing g i fc len)
    (R := fun a b => SameAt fc (fc + len) a b ∧ (sharing = true → a.value = b.value) ∧
      (∀ p, viewOf p s.buf = viewOf p t.buf → viewOf p a.buf = viewOf p b.buf) ∧ (SameBuf s t → SameBuf a b))
    (l := slots) (s := s) (t := t) ?_ ⟨hs, hv, fun p h => h, id⟩ h1 h2
  · exact ⟨this.1, this.2.2⟩
  · rintro a b slot a' b' hmem ⟨r1, r2, r3, r4⟩ e1 e2
    obtain ⟨hlt, c1⟩ := callSlot_inv e1
    obtain ⟨-, c2⟩ := callSlot_inv e2
    have hcol : fc ≤ slotCol sharing fc slot ∧ slotCol sharing fc slot < fc + len := by
      have := hslots slot hmem
      unfold slotCol
      cases hsh : sharing
      · simp; exact this
      · simp; exact hlt hsh
    have ed : x.draw i (fc + slot.1) = y.draw i (fc + slot.1) :=
      (ha.cell _ (by omega) (by have := hslots slot hmem; omega)).draw
    rw [hf.upd, hf.ffill, ha.order hcol.1 hcol.2, ed] at c1
    have ev : (if sharing then a.value else if !eqb (a.position (slotCol sharing fc slot)) zero then
        add A a.cash (mul A (a.position (slotCol sharing fc slot)) (a.valPrice (slotCol sharing fc slot)))
        else a.cash) = (if sharing then b.value else if !eqb (b.position (slotCol sharing fc slot)) zero then
        add A b.cash (mul A (b.position (slotCol sharing fc slot)) (b.valPrice (slotCol sharing fc slot)))
        else b.cash) := by
      cases hsh : sharing
      · rw [hsh] at hcol
        simp only [Bool.false_eq_true, if_false, r1.cash, r1.pos _ hcol.1 hcol.2, r1.vp _ hcol.1 hcol.2]
      · simp only [if_true]; exact r2 hsh
    rw [ev] at c1
    obtain ⟨q1, q2, q3, q4⟩ := callOrder_twice hcol.1 hcol.2 r1 c1 c2
    exact ⟨q1, fun _ => q2, fun p hp => q3 p (r3 p hp), fun h => q4 (r4 h)⟩

theorem groupValue_congr {A cash fc} {p q vp vq : Nat → F} {len : Nat}
    (h1 : ∀ c, fc ≤ c → c < fc + len → p c = q c) (h2 : ∀ c, fc ≤ c → c < fc + len → vp c = vq c) :
    groupValue A cash p vp fc len = groupValue A cash q vq fc len := by
  unfold groupValue
  apply List.foldl_ext
  intro v k hk
  rw [List.mem_range] at hk
  rw [h1 _ (by omega) (by omega), h2 _ (by omega) (by omega)]

theorem rowCallSeq_congr {A sharing fc len s t} (hf : AgreeFlags x y) (ha : AgreeRow x y i fc (fc + len))
    (hs : SameAt fc (fc + len) s t) (hv : sharing = true → s.value = t.value) :
    rowCallSeq A x sharing i fc len s = rowCallSeq A y sharing i fc len t := by
  have e1 : (List.range len).map (fun k => x.callSeq i (fc + k)) = (List.range len).map (fun k => y.callSeq i (fc + k)) := by
    apply List.map_congr_left
    intro k hk
    rw [List.mem_range] at hk
    exact (ha.cell _ (by omega) (by omega)).callSeq
  unfold rowCallSeq
  rw [hf.auto, e1]
  simp only
  split
  · rename_i hc
    rw [Bool.and_eq_true] at hc
    congr 1
    apply List.map_congr_left
    intro k hk
    rw [List.mem_range] at hk
    have a := ha.cell (fc + k) (by omega) (by omega)
    rw [a.size, a.sizeType, a.direction, hs.cash, hs.free, hs.pos _ (by omega) (by omega),
      hs.vp _ (by omega) (by omega), hv hc.1]
  · rfl

/-- Two rows with agreeing inputs. -/
theorem simRow_twice {A sharing g fc len s t s' t'} (hf : AgreeFlags x y) (ha : AgreeRow x y i fc (fc + len))
    (hs : SameAt fc (fc + len) s t)
    (h1 : simRow A x sharing g fc len s i = .ok s') (h2 : simRow A y sharing g fc len t i = .ok t') :
    SameAt fc (fc + len) s' t' ∧ (∀ p, viewOf p s.buf = viewOf p t.buf → viewOf p s'.buf = viewOf p t'.buf) ∧
    (SameBuf s t → SameBuf s' t') := by
  unfold simRow at h1 h2
  simp only at h1 h2
  have hvp : ∀ c, fc ≤ c → c < fc + len → rowValPrice x i fc len s.valPrice c = rowValPrice y i fc len t.valPrice c := by
    intro c hc1 hc2
    simp only [rowValPrice, hc1, hc2, and_self, if_true]
    rw [ha.valPrice hc1 hc2, hf.ffill, hs.vp c hc1 hc2]
  have hgv : sharing = true → groupValue A s.cash s.position (rowValPrice x i fc len s.valPrice) fc len =
      groupValue A t.cash t.position (rowValPrice y i fc len t.valPrice) fc len := by
    intro _
    rw [hs.cash]
    exact groupValue_congr hs.pos hvp
  have hsame : SameAt fc (fc + len)
      { s with valPrice := rowValPrice x i fc len s.valPrice,
               value := if sharing then groupValue A s.cash s.position (rowValPrice x i fc len s.valPrice) fc len
                 else s.value }
      { t with valPrice := rowValPrice y i fc len t.valPrice,
               value := if sharing then groupValue A t.cash t.position (rowValPrice y i fc len t.valPrice) fc len
                 else t.value } := ⟨hs.cash, hs.free, hs.pos, hs.debt, hvp⟩
  have hval : sharing = true →
      (if sharing then groupValue A s.cash s.position (rowValPrice x i fc len s.valPrice) fc len else s.value) =
      (if sharing then groupValue A t.cash t.position (rowValPrice y i fc len t.valPrice) fc len else t.value) := by
    intro hsh; rw [hsh]; exact hgv hsh
  rw [rowCallSeq_congr hf ha hsame hval] at h1
  have := slots_twice hf ha (fun k hk => List.mem_range.mp (List.of_mem_zip hk).1) hsame hval h1 h2
  exact this

end

/-- One run of a row: unselected cells leave the view, columns outside of the group stay. -/
theorem simRow_frame {A x sharing g fc len s s' i} (h : simRow A x sharing g fc len s i = .ok s') :
    (∀ p, (∀ c, fc ≤ c → c < fc + len → p (i, c) = false) → viewOf p s'.buf = viewOf p s.buf) ∧
    (∀ c, ¬ (fc ≤ c ∧ c < fc + len) → s'.position c = s.position c ∧ s'.debt c = s.debt c ∧
      s'.valPrice c = s.valPrice c) := by
  unfold simRow at h
  simp only at h
  have := loopE_inv (f := callSlot A x sharing g i fc len)
    (P := fun a => (∀ p, (∀ c, fc ≤ c → c < fc + len → p (i, c) = false) → viewOf p a.buf = viewOf p s.buf) ∧
      (∀ c, ¬ (fc ≤ c ∧ c < fc + len) → a.position c = s.position c ∧ a.debt c = s.debt c ∧
        a.valPrice c = s.valPrice c)) ?_ ?_ h
  · exact this
  · rintro a slot a' hmem ⟨q1, q2⟩ hc
    obtain ⟨hlt, hc⟩ := callSlot_inv hc
    have hcol : fc ≤ slotCol sharing fc slot ∧ slotCol sharing fc slot < fc + len := by
      have := List.mem_range.mp (List.of_mem_zip hmem).1
      unfold slotCol
      cases hsh : sharing
      · simp; exact this
      · simp; exact hlt hsh
    obtain ⟨f1, f2⟩ := callOrder_frame hc
    refine ⟨fun p hp => ?_, fun c hc' => ?_⟩
    · rw [f1 p (hp _ hcol.1 hcol.2), q1 p hp]
    · have := f2 c (by rintro rfl; exact hc' hcol)
      have := q2 c hc'
      simp_all
  · refine ⟨fun p hp => rfl, fun c hc => ⟨rfl, rfl, ?_⟩⟩
    simp only [rowValPrice, if_neg hc]

theorem simRows_frame {A x sharing g fc len s s'} {rows : List Nat}
    (h : loopE (simRow A x sharing g fc len) s rows = .ok s') :
    (∀ p, (∀ i ∈ rows, ∀ c, fc ≤ c → c < fc + len → p (i, c) = false) → viewOf p s'.buf = viewOf p s.buf) ∧
    (∀ c, ¬ (fc ≤ c ∧ c < fc + len) → s'.position c = s.position c ∧ s'.debt c = s.debt c ∧
      s'.valPrice c = s.valPrice c) := by
  induction rows generalizing s with
  | nil => cases h; simp
  | cons i is ih =>
    obtain ⟨s1, h1, h2⟩ := loopE_cons_ok h
    obtain ⟨a1, a2⟩ := simRow_frame h1
    obtain ⟨b1, b2⟩ := ih h2
    refine ⟨fun p hp => ?_, fun c hc => ?_⟩
    · rw [b1 p (fun j hj => hp j (List.mem_cons_of_mem _ hj)), a1 p (hp i List.mem_cons_self)]
    · have := a2 c hc; have := b2 c hc; simp_all

theorem simRows_twice {x y : Inputs} {A sharing g fc len s t s' t'} {rows : List Nat} (hf : AgreeFlags x y)
    (ha : ∀ i ∈ rows, AgreeRow x y i fc (fc + len)) (hs : SameAt fc (fc + len) s t)
    (h1 : loopE (simRow A x sharing g fc len) s rows = .ok s')
    (h2 : loopE (simRow A y sharing g fc len) t rows = .ok t') :
    SameAt fc (fc + len) s' t' ∧ (∀ p, viewOf p s.buf = viewOf p t.buf → viewOf p s'.buf = viewOf p t'.buf) ∧
    (SameBuf s t → SameBuf s' t') := by
  have := loopE_rel (f := simRow A x sharing g fc len) (g := simRow A y sharing g fc len)
    (R := fun a b => SameAt fc (fc + len) a b ∧
      (∀ p, viewOf p s.buf = viewOf p t.buf → viewOf p a.buf = viewOf p b.buf) ∧ (SameBuf s t → SameBuf a b))
    (l := rows) (s := s) (t := t) ?_ ⟨hs, fun p h => h, id⟩ h1 h2
  · exact this
  · rintro a b i a' b' hi ⟨r1, r2, r3⟩ e1 e2
    obtain ⟨q1, q2, q3⟩ := simRow_twice hf (ha i hi) r1 e1 e2
    exact ⟨q1, fun p hp => q2 p (r2 p hp), fun h => q3 (r3 h)⟩

end Vbt
