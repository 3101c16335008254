import Verif.Model.OrderCallbacks
import Verif.Lemmas.LocalSegment

/-! The simulation from orders and the callback simulator run in lockstep. -/

namespace Vbt
open F

/-- The run `q` is matched by the run `r`: success with related results, and, if `ex`, the same exceptions. -/
def Follows {σ τ : Type} (ex : Prop) (R : σ → τ → Prop) (r : Except Err σ) (q : Except Err τ) : Prop :=
  (∀ t, q = .ok t → ∃ s, r = .ok s ∧ R s t) ∧ (ex → ∀ e, q = .error e → r = .error e)

theorem Follows.ok {σ τ : Type} {ex : Prop} {R : σ → τ → Prop} {s : σ} {t : τ} (h : R s t) : Follows ex R (.ok s) (.ok t) := by
  refine ⟨?_, fun _ e he => by cases he⟩
  intro t' ht
  cases ht
  exact ⟨s, rfl, h⟩

theorem Follows.mono {σ τ : Type} {ex : Prop} {R R' : σ → τ → Prop} {r : Except Err σ} {q : Except Err τ}
    (h : Follows ex R r q) (hR : ∀ s t, R s t → R' s t) : Follows ex R' r q := by
  refine ⟨fun t ht => ?_, h.2⟩
  obtain ⟨s, h1, h2⟩ := h.1 t ht
  exact ⟨s, h1, hR _ _ h2⟩

/-- A step of the second run that the first does not have. -/
theorem Follows.extra {σ τ : Type} {ex : Prop} {R : σ → τ → Prop} {r : Except Err σ} {f g : τ → Except Err τ} {t : τ}
    (h : ∀ t1, f t = .ok t1 → Follows ex R r (g t1)) (hex : ex → ∃ t1, f t = .ok t1) : Follows ex R r (andThen f g t) := by
  unfold andThen
  cases hf : f t with
  | ok t1 => exact h t1 hf
  | error e =>
    refine ⟨fun _ ht => (by cases ht), fun h2 => ?_⟩
    obtain ⟨t1, ht1⟩ := hex h2
    rw [hf] at ht1
    cases ht1

/-- A step that succeeds. -/
theorem Follows.step {σ τ : Type} {ex : Prop} {R : σ → τ → Prop} {r : Except Err σ} {f g : τ → Except Err τ} {t t1 : τ}
    (hf : f t = .ok t1) (h : Follows ex R r (g t1)) : Follows ex R r (andThen f g t) := by
  unfold andThen
  rw [hf]
  exact h

/-- A common step. -/
theorem Follows.andThen {σ τ : Type} {ex : Prop} {R R' : σ → τ → Prop} {r : Except Err σ} {f g : τ → Except Err τ} {t : τ}
    (h1 : Follows ex R r (f t)) (h2 : ∀ s1 t1, R s1 t1 → Follows ex R' (.ok s1) (g t1)) :
    Follows ex R' r (andThen f g t) := by
  unfold Vbt.andThen
  cases hf : f t with
  | error e =>
    refine ⟨fun _ ht => (by cases ht), fun h3 e' he => ?_⟩
    cases he
    exact h1.2 h3 _ hf
  | ok t1 =>
    obtain ⟨s1, hs, hR⟩ := h1.1 t1 hf
    rw [hs]
    exact h2 s1 t1 hR

theorem Follows.loop {σ τ α : Type} {ex : Prop} {R : σ → τ → Prop} {f : σ → α → Except Err σ} {g : τ → α → Except Err τ}
    (l : List α) (hstep : ∀ s t x, x ∈ l → R s t → Follows ex R (f s x) (g t x)) {s : σ} {t : τ} (h : R s t) :
    Follows ex R (loopE f s l) (loopE g t l) := by
  induction l generalizing s t with
  | nil => exact Follows.ok h
  | cons x xs ih =>
    have hx := hstep s t x List.mem_cons_self h
    rw [loopE, loopE]
    cases hg : g t x with
    | error e =>
      refine ⟨fun _ ht => (by cases ht), fun h3 e' he => ?_⟩
      cases he
      rw [hx.2 h3 _ hg]
    | ok t1 =>
      obtain ⟨s1, hs, hR⟩ := hx.1 t1 hg
      rw [hs]
      exact ih (fun s t y hy => hstep s t y (List.mem_cons_of_mem _ hy)) hR

/-- A loop whose relation depends on the number of turns. -/
theorem Follows.range {σ τ : Type} {ex : Prop} {R : Nat → σ → τ → Prop} {f : σ → Nat → Except Err σ}
    {g : τ → Nat → Except Err τ} (n : Nat) (hstep : ∀ s t k, k < n → R k s t → Follows ex (R (k + 1)) (f s k) (g t k))
    {s : σ} {t : τ} (h : R 0 s t) : Follows ex (R n) (loopE f s (List.range n)) (loopE g t (List.range n)) := by
  have key : ∀ (m a : Nat) (s : σ) (t : τ), a + m = n → R a s t →
      Follows ex (R n) (loopE f s (List.range' a m)) (loopE g t (List.range' a m)) := by
    intro m
    induction m with
    | zero =>
      intro a s t ha h
      have : a = n := by omega
      subst this
      exact Follows.ok h
    | succ m ih =>
      intro a s t ha h
      rw [List.range'_succ]
      have hx := hstep s t a (by omega) h
      rw [loopE, loopE]
      cases hg : g t a with
      | error e =>
        refine ⟨fun _ ht => (by cases ht), fun h3 e' he => ?_⟩
        cases he
        rw [hx.2 h3 _ hg]
      | ok t1 =>
        obtain ⟨s1, hs, hR⟩ := hx.1 t1 hg
        rw [hs]
        exact ih (a + 1) s1 t1 (by omega) hR
  rw [List.range_eq_range']
  exact key n 0 s t (by omega) h

/-- The statistics of open positions change nothing else. -/
theorem openStats_inv {M : Type} {A : Arith} {x : SegCtx} {t t' : CbState × M} (h : openStats A x t = .ok t') :
    ∃ p, t' = ({ t.1 with arr := { t.1.arr with posRec := p } }, t.2) := by
  unfold openStats at h
  refine loopE_inv (P := fun t' => ∃ p, t' = ({ t.1 with arr := { t.1.arr with posRec := p } }, t.2)) ?_ ⟨t.1.arr.posRec, rfl⟩ h
  intro s k s' _ hs hk
  obtain ⟨p, rfl⟩ := hs
  simp only at hk
  split at hk
  · cases hk
  cases hk
  exact ⟨_, rfl⟩

/-! ## The relation -/

/-- The states of the two simulators at the beginning of a row of the group number `gi`. -/
structure Lockstep (remember : Bool) (init : Nat → F) (gi : Nat) (s : SimState) (t : CbState × (Nat → F)) : Prop where
  cash : s.cash = t.1.arr.cash gi
  free : s.free = t.1.arr.free gi
  position : s.position = t.1.arr.position
  debt : s.debt = t.1.arr.debt
  vp : remember = true → s.valPrice = t.2
  oidx : s.oidx = t.1.oidx
  lidx : s.lidx = t.1.lidx
  buf : s.buf = t.1.buf
  later : ∀ k, gi < k → t.1.arr.cash k = init k ∧ t.1.arr.free k = init k

/-- The value that the simulation from orders takes for a column without cash sharing, portfolio/nb.py:1509-1514. -/
def columnValue (A : Arith) (s : SimState) (col : Nat) : F :=
  if !eqb (s.position col) zero then add A s.cash (mul A (s.position col) (s.valPrice col)) else s.cash

/-- In the middle of a row, before the slot `k`. -/
structure LockSlot (A : Arith) (sharing remember : Bool) (init : Nat → F) (x : SegCtx) (seq : List Nat) (k : Nat)
    (s : SimState) (t : CbState × (Nat → F)) : Prop extends Lockstep remember init x.group s t where
  own : ∀ c, x.hasCol c = true → s.valPrice c = t.1.arr.valPrice c
  value : sharing = true → s.value = t.1.arr.value x.group
  alone : sharing = false → k = 0 → t.1.arr.value x.group = columnValue A s x.group
  calls : ∀ j, j < x.len → t.1.arr.callSeq x.i (x.fromCol + j) = seq.getD j 0

theorem resolve_rawOrder (inp : Inputs) (i col : Nat) : resolveInfPrice inp.close i col (rawOrder inp i col) = orderAt inp i col := by
  unfold resolveInfPrice rawOrder orderAt resolvePrice
  simp only
  by_cases h : (inp.price i col).isinf = true
  · rw [if_pos h, if_pos h]
  · rw [if_neg h, if_neg h]

/-- A slot. -/
theorem slot_follows {A : Arith} {inp : Inputs} {sharing remember fillPos : Bool} {init : Nat → F} {x : SegCtx}
    {seq : List Nat} (hone : sharing = false → x.len = 1 ∧ x.fromCol = x.group ∧ seq = [0])
    {k : Nat} (hk : k < x.len) {s : SimState} {t : CbState × (Nat → F)}
    (h : LockSlot A sharing remember init x seq k s t) (q : Nat) (hq : sharing = true → q = seq.getD k 0) :
    Follows (fillPos = false) (LockSlot A sharing remember init x seq (k + 1))
      (callSlot A inp sharing x.group x.i x.fromCol x.len s (k, q))
      (cbSlot A (orderCbInputs inp sharing fillPos) (orderCallbacks A inp sharing remember) x t k) := by
  have hcall := h.calls k hk
  have hcol : sharing = false → seq.getD k 0 = 0 ∧ k = 0 := by
    intro hs
    obtain ⟨h1, -, h3⟩ := hone hs
    have : k = 0 := by omega
    rw [h3, this]
    exact ⟨rfl, rfl⟩
  unfold callSlot cbSlot
  simp only
  rw [hcall]
  by_cases hge : seq.getD k 0 ≥ x.len
  · rw [if_pos hge]
    have hsh : sharing = true := by
      by_contra hn
      have := hcol (by simpa using hn)
      omega
    rw [if_pos (by rw [hsh, hq hsh]; simpa using hge)]
    exact ⟨fun _ ht => (by cases ht), fun _ e he => (by cases he; rfl)⟩
  · rw [if_neg hge, if_neg (by
      intro hc
      rw [Bool.and_eq_true, decide_eq_true_eq] at hc
      rw [hq hc.1] at hc
      exact hge hc.2)]
    -- the column
    have hc : (if sharing = true then x.fromCol + q else x.fromCol + k) = x.fromCol + seq.getD k 0 := by
      cases hsh : sharing with
      | true => simp only [if_true]; rw [hq hsh]
      | false =>
        simp only [Bool.false_eq_true, if_false]
        have := hcol hsh
        omega
    rw [hc]
    generalize hcc : x.fromCol + seq.getD k 0 = col
    have hown : x.hasCol col = true := by
      unfold SegCtx.hasCol
      rw [decide_eq_true_eq]
      omega
    have hkey : (if (orderCbInputs inp sharing fillPos).sharing = true then x.group else col) = x.group := by
      simp only [orderCbInputs]
      cases hsh : sharing with
      | true => rfl
      | false =>
        simp only [Bool.false_eq_true, if_false]
        obtain ⟨h1, h2, h3⟩ := hone hsh
        have := hcol hsh
        omega
    have hval : (if sharing = true then s.value
        else if (!eqb (s.position col) zero) = true then add A s.cash (mul A (s.position col) (s.valPrice col)) else s.cash) =
        t.1.arr.value x.group := by
      cases hsh : sharing with
      | true => simp only [if_true]; exact h.value hsh
      | false =>
        simp only [Bool.false_eq_true, if_false]
        obtain ⟨h1, h2, h3⟩ := hone hsh
        have h4 := hcol hsh
        rw [h.alone hsh h4.2]
        have : x.group = col := by omega
        rw [this]
        rfl
    rw [hkey, hval]
    simp only [orderCallbacks]
    unfold callOrder
    rw [h.cash, h.free, h.oidx, h.lidx, h.buf, h.own col hown]
    rw [show s.position col = t.1.arr.position col from congrFun h.position col,
      show s.debt col = t.1.arr.debt col from congrFun h.debt col]
    simp only [orderCbInputs, resolve_rawOrder]
    cases hp : processOrder A x.i col x.group
        { cash := t.1.arr.cash x.group, position := t.1.arr.position col, debt := t.1.arr.debt col,
          freeCash := t.1.arr.free x.group, valPrice := t.1.arr.valPrice col, value := t.1.arr.value x.group,
          oidx := t.1.oidx, lidx := t.1.lidx } inp.updateValue (orderAt inp x.i col) (inp.draw x.i (x.fromCol + k)) t.1.buf with
    | error e => exact ⟨fun _ ht => (by cases ht), fun _ e he => (by cases he; rfl)⟩
    | ok r =>
      obtain ⟨res, st, b⟩ := r
      simp only
      have hvp : ∀ c, x.hasCol c = true →
          (if (!st.valPrice.isnan || !inp.ffillValPrice) = true then setAt s.valPrice col st.valPrice else s.valPrice) c =
          (if (!st.valPrice.isnan || !inp.ffillValPrice) = true then setAt t.1.arr.valPrice col st.valPrice
            else t.1.arr.valPrice) c := by
        intro c hcown
        split
        · simp only [setAt]
          split
          · rfl
          · exact h.own c hcown
        · exact h.own c hcown
      have hfin : ∀ rec, Follows (fillPos = false) (LockSlot A sharing remember init x seq (k + 1))
          (.ok { cash := st.cash, free := st.freeCash, value := st.value, position := setAt s.position col st.position,
                 debt := setAt s.debt col st.debt,
                 valPrice := if (!st.valPrice.isnan || !inp.ffillValPrice) = true then setAt s.valPrice col st.valPrice
                   else s.valPrice,
                 oidx := st.oidx, lidx := st.lidx, buf := b })
          (callHook (fun s m => .ok (s.arr, setAt m col (s.arr.valPrice col)))
            ({ arr := storeOrder (orderCbInputs inp sharing fillPos) x.group col t.1.arr t.1 st
                        (returnOf A (t.1.arr.second x.group) st.value) rec,
               temp := t.1.temp, oidx := st.oidx, lidx := st.lidx, buf := b }, t.2)) := by
        intro rec
        unfold callHook
        apply Follows.ok
        refine ⟨⟨?_, ?_, ?_, ?_, ?_, rfl, rfl, rfl, ?_⟩, hvp, ?_, ?_, h.calls⟩
        · simp only [storeOrder, setAt, if_true]
        · simp only [storeOrder, setAt, if_true]
        · simp only [storeOrder, h.position]
        · simp only [storeOrder, h.debt]
        · intro hrem
          funext c
          by_cases hcc' : c = col
          · rw [hcc']
            exact (hvp col hown).trans (if_pos rfl).symm
          · refine Eq.trans ?_ (if_neg hcc').symm
            have h5 := congrFun (h.vp hrem) c
            beta_reduce
            split
            · exact (if_neg hcc').trans h5
            · exact h5
        · intro k' hk'
          simp only [storeOrder, setAt]
          rw [if_neg (by omega), if_neg (by omega)]
          exact h.later k' hk'
        · intro _
          simp only [storeOrder, setAt, if_true]
        · intro _ hk0
          omega
      cases fillPos with
      | false => exact hfin _
      | true =>
        cases hr : updatePosRecord A (t.1.arr.posRec col) x.i col (t.1.arr.position col) st.position res with
        | error e =>
          simp only [if_true]
          exact ⟨fun _ ht => (by cases ht), fun hf => (by cases hf)⟩
        | ok rec =>
          simp only [if_true]
          exact hfin rec

/-! ## A row -/

theorem rowCallSeq_same {A : Arith} {inp : Inputs} {sharing : Bool} {i fc len : Nat} {s t : SimState} (h1 : s.cash = t.cash)
    (h2 : s.free = t.free) (h3 : s.value = t.value) (h4 : ∀ c, fc ≤ c → c < fc + len → s.position c = t.position c)
    (h5 : ∀ c, fc ≤ c → c < fc + len → s.valPrice c = t.valPrice c) :
    rowCallSeq A inp sharing i fc len s = rowCallSeq A inp sharing i fc len t := by
  unfold rowCallSeq
  simp only
  congr 1
  congr 1
  apply List.map_congr_left
  intro k hk
  rw [List.mem_range] at hk
  rw [h1, h2, h3, h4 (fc + k) (by omega) (by omega), h5 (fc + k) (by omega) (by omega)]

theorem valuesOf_shared (A : Arith) {sharing : Bool} (h : sharing = true) (x : SegCtx) (a : CbArrays) :
    valuesOf A sharing x a x.group = groupValue A (a.cash x.group) a.position a.valPrice x.fromCol x.len := by
  subst h
  simp [valuesOf, setAt]

theorem valuesOf_alone (A : Arith) {sharing : Bool} (h : sharing = false) (x : SegCtx) (a : CbArrays) {c : Nat}
    (hc : x.hasCol c = true) : valuesOf A sharing x a c =
      if eqb (a.position c) zero then a.cash c else add A (a.cash c) (mul A (a.position c) (a.valPrice c)) := by
  subst h
  simp [valuesOf, hc]

theorem zip_range_getD (n : Nat) (l : List Nat) (h : l.length = n) :
    (List.range n).zip l = (List.range n).map fun k => (k, l.getD k 0) := by
  apply List.ext_getElem
  · simp [h]
  · intro k h1 h2
    have : k < l.length := by
      simp at h1
      omega
    simp [this]

theorem loopE_range_zip {σ : Type} {f : σ → Nat × Nat → Except Err σ} {s : σ} {n : Nat} {l : List Nat} (h : l.length = n) :
    loopE f s ((List.range n).zip l) = loopE (fun s k => f s (k, l.getD k 0)) s (List.range n) := by
  rw [zip_range_getD n l h]
  generalize List.range n = xs
  induction xs generalizing s with
  | nil => rfl
  | cons x xs ih =>
    rw [List.map_cons, loopE, loopE]
    cases f s (x, l.getD x 0) with
    | error e => rfl
    | ok s1 => exact ih

theorem row_follows {A : Arith} {inp : Inputs} {sharing remember fillPos : Bool} {init : Nat → F} {g : Nat × Nat × Nat}
    (hone : sharing = false → g.2.2 = 1 ∧ g.2.1 = g.1)
    (hvp : remember = true ∨ ∀ i c, (!(resolveValPrice inp i c).isnan || !inp.ffillValPrice) = true) (i : Nat)
    {s : SimState} {t : CbState × (Nat → F)} (h : Lockstep remember init g.1 s t) :
    Follows (fillPos = false) (Lockstep remember init g.1) (simRow A inp sharing g.1 g.2.1 g.2.2 s i)
      (segment A (orderCbInputs inp sharing fillPos) (orderCallbacks A inp sharing remember) (segCtx g i) t) := by
  unfold segment segmentWith
  -- the valuation prices of the group's columns
  have hown : ∀ c, g.2.1 ≤ c → c < g.2.1 + g.2.2 →
      rowValPrice inp i g.2.1 g.2.2 s.valPrice c = segValPrice inp remember (segCtx g i) t.1.arr t.2 c := by
    intro c h1 h2
    unfold segValPrice
    rcases hvp with hr | hr
    · rw [hr, h.vp hr]
      rfl
    · unfold rowValPrice
      rw [if_pos ⟨h1, h2⟩]
      have e : (segCtx g i).fromCol ≤ c ∧ c < (segCtx g i).fromCol + (segCtx g i).len := ⟨h1, h2⟩
      rw [if_pos e]
      simp only
      rw [if_pos (hr i c)]
      exact (if_pos (hr i c)).symm
  refine Follows.step (t1 := ({ t.1 with arr := { t.1.arr with
      valPrice := fun c => if (segCtx g i).hasCol c then segValPrice inp remember (segCtx g i) t.1.arr t.2 c
        else t.1.arr.valPrice c
      callSeq := fun i' c => if i' = (segCtx g i).i ∧ (segCtx g i).hasCol c = true then
        (segCallSeq A inp sharing (segCtx g i) t.1.arr (segValPrice inp remember (segCtx g i) t.1.arr t.2)).getD
          (c - (segCtx g i).fromCol) 0 else t.1.arr.callSeq i' c } },
    segValPrice inp remember (segCtx g i) t.1.arr t.2)) rfl ?_
  refine Follows.extra ?_ (by
    intro hf
    rw [hf]
    exact ⟨_, rfl⟩)
  intro t1 ht1
  have ht2 : ∃ p, t1 = ({ t.1 with arr := { t.1.arr with
      valPrice := fun c => if (segCtx g i).hasCol c then segValPrice inp remember (segCtx g i) t.1.arr t.2 c
        else t.1.arr.valPrice c
      callSeq := fun i' c => if i' = (segCtx g i).i ∧ (segCtx g i).hasCol c = true then
        (segCallSeq A inp sharing (segCtx g i) t.1.arr (segValPrice inp remember (segCtx g i) t.1.arr t.2)).getD
          (c - (segCtx g i).fromCol) 0 else t.1.arr.callSeq i' c
      posRec := p } },
    segValPrice inp remember (segCtx g i) t.1.arr t.2) := by
    unfold onlyIf at ht1
    split at ht1
    · obtain ⟨p, rfl⟩ := openStats_inv ht1
      exact ⟨p, rfl⟩
    · cases ht1
      exact ⟨_, rfl⟩
  obtain ⟨p, rfl⟩ := ht2
  clear ht1
  refine Follows.step rfl ?_
  -- the row of the simulation from orders
  have hgv : groupValue A s.cash s.position (rowValPrice inp i g.2.1 g.2.2 s.valPrice) g.2.1 g.2.2 =
      groupValue A (t.1.arr.cash g.1) t.1.arr.position (segValPrice inp remember (segCtx g i) t.1.arr t.2) g.2.1 g.2.2 := by
    rw [h.cash, h.position]
    exact groupValue_congr (fun _ _ _ => rfl) hown
  generalize hs1 : ({ s with valPrice := rowValPrice inp i g.2.1 g.2.2 s.valPrice,
                             value := if sharing then groupValue A s.cash s.position
                               (rowValPrice inp i g.2.1 g.2.2 s.valPrice) g.2.1 g.2.2 else s.value } : SimState) = s1
  have hseq : sharing = true → segCallSeq A inp sharing (segCtx g i) t.1.arr (segValPrice inp remember (segCtx g i) t.1.arr t.2) =
      rowCallSeq A inp sharing i g.2.1 g.2.2 s1 := by
    intro hsh
    unfold segCallSeq
    rw [if_pos hsh, hsh]
    subst hs1
    apply rowCallSeq_same
    · exact h.cash.symm
    · exact h.free.symm
    · simp only [hsh, if_true]
      exact hgv.symm
    · intro c _ _
      exact (congrFun h.position c).symm
    · intro c h1 h2
      exact (hown c h1 h2).symm
  have hrow : simRow A inp sharing g.1 g.2.1 g.2.2 s i =
      loopE (fun s k => callSlot A inp sharing g.1 i g.2.1 g.2.2 s (k, (rowCallSeq A inp sharing i g.2.1 g.2.2 s1).getD k 0))
        s1 (List.range g.2.2) := by
    unfold simRow
    simp only
    rw [hs1]
    exact loopE_range_zip rowCallSeq_length
  rw [hrow]
  have hcol1 : sharing = false → (segCtx g i).hasCol g.1 = true := by
    intro hsh
    rw [hasCol_iff]
    unfold ownsCol
    have := hone hsh
    omega
  refine Follows.andThen (R := LockSlot A sharing remember init (segCtx g i)
      (segCallSeq A inp sharing (segCtx g i) t.1.arr (segValPrice inp remember (segCtx g i) t.1.arr t.2)) g.2.2) ?_ ?_
  · change Follows _ _ _ (loopE _ _ (List.range g.2.2))
    refine Follows.range (R := LockSlot A sharing remember init (segCtx g i)
      (segCallSeq A inp sharing (segCtx g i) t.1.arr (segValPrice inp remember (segCtx g i) t.1.arr t.2))) g.2.2 ?_ ?_
    · intro s' t' k hk hs'
      refine slot_follows (x := segCtx g i) ?_ hk hs' _ ?_
      · intro hsh
        have h1 := hone hsh
        refine ⟨h1.1, h1.2, ?_⟩
        unfold segCallSeq
        rw [if_neg (by rw [hsh]; simp)]
        have : (segCtx g i).len = 1 := h1.1
        rw [this]
        rfl
      · intro hsh
        rw [hseq hsh]
    · subst hs1
      refine ⟨⟨h.cash, h.free, h.position, h.debt, ?_, h.oidx, h.lidx, h.buf, h.later⟩, ?_, ?_, ?_, ?_⟩
      · intro hr
        simp only [valuesBefore, segValPrice]
        rw [h.vp hr, hr]
        rfl
      · intro c hc
        simp only [valuesBefore]
        rw [if_pos hc]
        rw [hasCol_iff] at hc
        exact hown c hc.1 hc.2
      · intro hsh
        rw [if_pos hsh]
        refine Eq.trans ?_ (valuesOf_shared A (show (orderCbInputs inp sharing fillPos).sharing = true from hsh) (segCtx g i) _).symm
        rw [hgv]
        refine groupValue_congr (fun _ _ _ => rfl) ?_
        intro c h1 h2
        exact (if_pos (hasCol_iff.mpr ⟨h1, h2⟩)).symm
      · intro hsh _
        have hc := hcol1 hsh
        refine (valuesOf_alone A (show (orderCbInputs inp sharing fillPos).sharing = false from hsh) (segCtx g i) _ hc).trans ?_
        simp only
        rw [if_pos hc]
        have e : (segCtx g i).group = g.1 := rfl
        unfold columnValue
        simp only
        rw [e, h.cash, h.position, hown g.1 (by have := hone hsh; omega) (by have := hone hsh; omega)]
        by_cases hz : eqb (t.1.arr.position g.1) zero = true
        · rw [if_pos hz, if_neg (by simp [hz])]
        · rw [if_neg hz, if_pos (by simpa using hz)]
      · intro j hj
        have hc : (segCtx g i).hasCol ((segCtx g i).fromCol + j) = true :=
          hasCol_iff.mpr ⟨Nat.le_add_right _ _, Nat.add_lt_add_left hj _⟩
        exact (if_pos ⟨rfl, hc⟩).trans (by rw [Nat.add_sub_cancel_left])
  · intro s' t' hs'
    refine Follows.step rfl ?_
    refine Follows.extra ?_ (by
      intro hf
      rw [hf]
      exact ⟨_, rfl⟩)
    intro t2 ht2
    have ht3 : ∃ p, t2 = ({ (valuesAfter A (orderCbInputs inp sharing fillPos) (segCtx g i) t').1 with
        arr := { (valuesAfter A (orderCbInputs inp sharing fillPos) (segCtx g i) t').1.arr with posRec := p } },
        (valuesAfter A (orderCbInputs inp sharing fillPos) (segCtx g i) t').2) := by
      unfold onlyIf at ht2
      split at ht2
      · exact openStats_inv ht2
      · cases ht2
        exact ⟨_, rfl⟩
    obtain ⟨q, rfl⟩ := ht3
    exact Follows.ok ⟨hs'.cash, hs'.free, hs'.position, hs'.debt, hs'.vp, hs'.oidx, hs'.lidx, hs'.buf, hs'.later⟩

end Vbt
