import Verif.Props.C78

/-!
# C79: records and their positions in a simulation with callbacks
-/

namespace Vbt
open F

theorem last_append {α : Type} {p : α → Bool} {l : List α} {x : α} {f : α → Nat} :
    lastId (((l ++ [x]).filter p).map f) = if p x then (f x : Int) else lastId ((l.filter p).map f) := by
  rw [List.filter_append]
  cases hp : p x <;> simp [List.filter_cons, hp, lastId]

theorem ids_append {α : Type} {f : α → Nat} {l : List α} {x : α} (h : l.map f = List.range l.length) (hx : f x = l.length) :
    (l ++ [x]).map f = List.range (l ++ [x]).length := by
  rw [List.map_append, List.length_append, List.map_cons, List.map_nil, List.length_singleton, List.range_succ, h, hx]

theorem numbered_survives {A : Arith} {X : CbInputs} {rows cols : Nat} {lens : List Nat} (hsum : lens.sum = cols) :
    Survives A X rows lens (fun _ _ => True) (fun _ => True) (RecordsNumbered rows cols) (RecordsNumbered rows cols) := by
  refine ⟨fun s h => h, fun _ _ _ => trivial, ?_, ?_⟩
  · intro s s' hb ho hl _ h
    refine ⟨?_, ?_, ?_, ?_, ?_, ?_, ?_⟩
    · rw [ho, hb]; exact h.orders
    · rw [hl, hb]; exact h.logs
    · rw [hb]; exact h.orderIds
    · rw [hb]; exact h.logIds
    · rw [hb]; exact h.orderIn
    · rw [hb]; exact h.logIn
    · rw [hb]; exact h.linked
  · intro s a0 a g i col order u res st b ret rec hg hi h1 h2 _ _ hpo _ h
    obtain ⟨es, hex, -, -, -, -, -, hrec, hlog, -⟩ := processOrder_inv hpo
    have hcol : col < cols := by
      have := firstCol_sum lens (g := g)
      omega
    generalize nowAt a0 (if X.sharing then g else col) col = now at hpo hrec hlog
    have eo : (now.proc s.oidx s.lidx).oidx = s.oidx := rfl
    have el : (now.proc s.oidx s.lidx).lidx = s.lidx := rfl
    rw [eo] at hrec
    rw [el, eo] at hlog
    have h' : RecordsNumbered rows cols s := ⟨h.orders, h.logs, h.orderIds, h.logIds, h.orderIn, h.logIn, h.linked⟩
    clear h
    have key1 : st.oidx = b.orders.length ∧ b.orders.map (·.id) = List.range b.orders.length ∧
        (∀ o ∈ b.orders, o.idx < rows ∧ o.col < cols) ∧
        (∀ (n : Nat) (o : OrderRec), s.buf.orders[n]? = some o → b.orders[n]? = some o) ∧
        (res.status = OrderStatus.Filled → b.orders[s.oidx]? =
          some (OrderRec.mk s.oidx col i res.size res.price res.fees res.side)) := by
      rcases hrec with ⟨hfl, -, ho, hob, -⟩ | ⟨hfl, ho, hob, -⟩
      · rw [hob]
        refine ⟨?_, ids_append h'.orderIds h'.orders, ?_, fun n o hn => ?_, fun _ => ?_⟩
        · rw [ho, List.length_append, List.length_singleton, h'.orders]
        · intro o hm
          rw [List.mem_append] at hm
          rcases hm with hm | hm
          · exact h'.orderIn o hm
          · rw [List.mem_singleton] at hm
            subst hm
            exact ⟨hi, hcol⟩
        · rw [List.getElem?_append_left (List.getElem?_eq_some_iff.mp hn).1]
          exact hn
        · rw [h'.orders, List.getElem?_append_right le_rfl, Nat.sub_self]
          rfl
      · rw [hob, ho]
        exact ⟨h'.orders, h'.orderIds, h'.orderIn, fun _ _ hn => hn, fun hf => absurd hf hfl⟩
    have old : ∀ l ∈ s.buf.logs, if l.resStatus = OrderStatus.Filled then
        ∃ o : OrderRec, l.orderId = o.id ∧ b.orders[o.id]? = some o ∧ o.idx = l.idx ∧ o.col = l.col ∧ o.size = l.resSize ∧
          o.price = l.resPrice ∧ o.fees = l.resFees ∧ o.side = l.resSide
      else l.orderId = -1 := by
      intro l hl
      have := h'.linked l hl
      by_cases hf : l.resStatus = OrderStatus.Filled
      · rw [if_pos hf] at this ⊢
        obtain ⟨o, e1, e2, e3⟩ := this
        exact ⟨o, e1, key1.2.2.2.1 _ _ e2, e3⟩
      · rw [if_neg hf] at this ⊢
        exact this
    have key2 : st.lidx = b.logs.length ∧ b.logs.map (·.id) = List.range b.logs.length ∧
        (∀ o ∈ b.logs, o.idx < rows ∧ o.col < cols) ∧ LogsLinked b.orders b.logs := by
      rcases hlog with ⟨-, -, ho, l, hob, lid, lcol, lidx, lgrp, -, -, -, -, -, -, -, -, -, -, -, -, -, lsz, lpr, lfe, lsd, lst, -,
        loid⟩ | ⟨-, ho, hob⟩
      · rw [hob]
        refine ⟨?_, ids_append h'.logIds (by rw [lid]; exact h'.logs), ?_, ?_⟩
        · rw [ho, List.length_append, List.length_singleton, h'.logs]
        · intro o hm
          rw [List.mem_append] at hm
          rcases hm with hm | hm
          · exact h'.logIn o hm
          · rw [List.mem_singleton] at hm
            subst hm
            rw [lidx, lcol]
            exact ⟨hi, hcol⟩
        · intro o hm
          rw [List.mem_append] at hm
          rcases hm with hm | hm
          · exact old o hm
          · rw [List.mem_singleton] at hm
            subst hm
            rw [lst]
            by_cases hf : res.status = OrderStatus.Filled
            · rw [if_pos hf] at loid ⊢
              exact ⟨OrderRec.mk s.oidx col i res.size res.price res.fees res.side, loid, key1.2.2.2.2 hf, lidx.symm, lcol.symm, lsz.symm, lpr.symm, lfe.symm, lsd.symm⟩
            · rw [if_neg hf] at loid ⊢
              exact loid
      · rw [hob, ho]
        exact ⟨h'.logs, h'.logIds, h'.logIn, old⟩
    exact ⟨key1.1, key2.1, key1.2.1, key2.2.1, key1.2.2.1, key2.2.2.1, key2.2.2.2⟩

theorem marked_survives {A : Arith} {X : CbInputs} {rows : Nat} {lens : List Nat} :
    Survives A X rows lens SameLast (fun _ => True) LastMarked LastMarked := by
  refine ⟨fun s h => h, fun _ _ h => ⟨h.lastOidx, h.lastLidx⟩, ?_, ?_⟩
  · intro s s' hb ho hl hs h
    refine ⟨?_, ?_⟩
    · rw [hb, hs.1]; exact h.lastOrder
    · rw [hb, hs.2]; exact h.lastLog
  · intro s a0 a g i col order u res st b ret rec hg hi h1 h2 _ _ hpo _ h
    obtain ⟨es, hex, -, -, -, -, -, hrec, hlog, -⟩ := processOrder_inv hpo
    generalize nowAt a0 (if X.sharing then g else col) col = now at hpo hrec hlog
    have eo : (now.proc s.oidx s.lidx).oidx = s.oidx := rfl
    have el : (now.proc s.oidx s.lidx).lidx = s.lidx := rfl
    rw [eo] at hrec
    rw [el] at hlog
    refine ⟨fun c => ?_, fun c => ?_⟩
    · show (if s.oidx ≠ st.oidx then setAt a.lastOidx col (s.oidx : Int) else a.lastOidx) c =
        lastId ((b.orders.filter fun o => o.col = c).map (·.id))
      rcases hrec with ⟨hfl, -, ho, hob, -⟩ | ⟨hfl, ho, hob, -⟩
      · rw [hob, last_append, if_pos (by omega)]
        simp only [setAt]
        by_cases hcc : c = col
        · rw [if_pos hcc, if_pos (by simp [hcc])]
        · rw [if_neg hcc, if_neg (by simpa using fun h => hcc h.symm)]
          exact h.lastOrder c
      · rw [hob, if_neg (by omega)]
        exact h.lastOrder c
    · show (if s.lidx ≠ st.lidx then setAt a.lastLidx col (s.lidx : Int) else a.lastLidx) c =
        lastId ((b.logs.filter fun o => o.col = c).map (·.id))
      rcases hlog with ⟨-, -, ho, l, hob, lid, lcol, -⟩ | ⟨-, ho, hob⟩
      · rw [hob, last_append, if_pos (by omega)]
        simp only [setAt]
        by_cases hcc : c = col
        · rw [if_pos hcc, if_pos (by simp [hcc, lcol]), lid]
        · rw [if_neg hcc, if_neg (by rw [lcol]; simpa using fun h => hcc h.symm)]
          exact h.lastLog c
      · rw [hob, if_neg (by omega)]
        exact h.lastLog c

theorem numbered_init {rows cols : Nat} {initCash : Nat → F} {callSeq maxOrders maxLogs junk} :
    RecordsNumbered rows cols (cbInit rows cols initCash callSeq maxOrders maxLogs junk) :=
  ⟨rfl, rfl, rfl, rfl, (fun _ h => nomatch h), (fun _ h => nomatch h), fun _ h => nomatch h⟩

theorem marked_init {rows cols : Nat} {initCash : Nat → F} {callSeq maxOrders maxLogs junk} :
    LastMarked (cbInit rows cols initCash callSeq maxOrders maxLogs junk) := ⟨fun _ => rfl, fun _ => rfl⟩

theorem keeps_any {M : Type} (cb : Callbacks M) : Keeps (fun _ _ => True) cb := by
  constructor <;> intros <;> trivial

/-! ## The order of the records -/

/-- `f` appends order records of the kind `W` and log records of the kind `V`. -/
def AddsRecs {M : Type} (W : List OrderRec → Prop) (V : List LogRec → Prop)
    (f : CbState × M → Except Err (CbState × M)) : Prop :=
  ∀ s s', f s = .ok s' → ∃ os ls, W os ∧ V ls ∧ s'.1.buf.orders = s.1.buf.orders ++ os ∧ s'.1.buf.logs = s.1.buf.logs ++ ls

section
variable {M : Type}

theorem adds_andThen {W1 W2 W : List OrderRec → Prop} {V1 V2 V : List LogRec → Prop} {f g} (h1 : AddsRecs (M := M) W1 V1 f)
    (h2 : AddsRecs W2 V2 g) (hW : ∀ a b, W1 a → W2 b → W (a ++ b)) (hV : ∀ a b, V1 a → V2 b → V (a ++ b)) :
    AddsRecs W V (andThen f g) := by
  intro s s' h
  obtain ⟨t, ht, h⟩ := andThen_ok h
  obtain ⟨o1, l1, w1, v1, e1, e2⟩ := h1 s t ht
  obtain ⟨o2, l2, w2, v2, e3, e4⟩ := h2 t s' h
  exact ⟨o1 ++ o2, l1 ++ l2, hW _ _ w1 w2, hV _ _ v1 v2, by rw [e3, e1, List.append_assoc], by rw [e4, e2, List.append_assoc]⟩

theorem adds_hook (f : CbState → M → Except Err (CbArrays × M)) : AddsRecs (· = []) (· = []) (callHook f) := by
  intro s s' h
  obtain ⟨a, m, -, rfl⟩ := callHook_ok h
  exact ⟨[], [], rfl, rfl, by simp, by simp⟩

theorem adds_loop {α : Type} [DecidableEq α] {f : CbState × M → α → Except Err (CbState × M)} {W : α → List OrderRec → Prop}
    {V : α → List LogRec → Prop} (l : List α) (hl : l.Nodup) (h : ∀ x ∈ l, AddsRecs (W x) (V x) (fun s => f s x)) :
    AddsRecs (fun c => ∃ w : α → List OrderRec, (∀ x ∈ l, W x (w x)) ∧ c = l.flatMap w)
      (fun c => ∃ w : α → List LogRec, (∀ x ∈ l, V x (w x)) ∧ c = l.flatMap w) (fun s => loopE f s l) := by
  have join : ∀ {β : Type} {x : α} {xs : List α} {K : α → List β → Prop} {a b : List β}, x ∉ xs → K x a →
      (∃ w : α → List β, (∀ y ∈ xs, K y (w y)) ∧ b = xs.flatMap w) →
      ∃ w : α → List β, (∀ y ∈ x :: xs, K y (w y)) ∧ a ++ b = (x :: xs).flatMap w := by
    rintro β x xs K a b hx ha ⟨w, hw, rfl⟩
    refine ⟨fun y => if y = x then a else w y, ?_, ?_⟩
    · intro y hy
      beta_reduce
      by_cases he : y = x
      · rw [if_pos he, he]; exact ha
      · rw [if_neg he]
        rw [List.mem_cons] at hy
        exact hw y (hy.resolve_left he)
    · rw [List.flatMap_cons]
      simp only [if_true]
      congr 1
      apply List.flatMap_congr
      intro y hy
      have hne : y ≠ x := fun he => hx (he ▸ hy)
      rw [if_neg hne]
  induction l with
  | nil =>
    intro s s' h
    cases h
    exact ⟨[], [], ⟨fun _ => [], by simp, rfl⟩, ⟨fun _ => [], by simp, rfl⟩, by simp, by simp⟩
  | cons x xs ih =>
    rw [List.nodup_cons] at hl
    exact adds_andThen (h x (by simp)) (ih hl.2 fun y hy => h y (List.mem_cons_of_mem _ hy))
      (fun a b ha hb => join hl.1 ha hb) (fun a b ha hb => join hl.1 ha hb)

variable {A : Arith} {X : CbInputs} {cb : Callbacks M} {fo : FlexOrder M} {draw : Nat → Nat → Nat → F} {fuel : Nat}

theorem placeOrder_adds {x : SegCtx} {col k : Nat} {now : Now} {order : Order} {u : F} {a : CbArrays} {m : M} {s : CbState}
    {s' : CbState × M} (h1 : x.fromCol ≤ col) (h2 : col < x.fromCol + x.len)
    (h : placeOrder A X cb x col k now order u a m s = .ok s') :
    ∃ os ls, OfSegment x os ∧ LogsOfSegment x ls ∧ s'.1.buf.orders = s.buf.orders ++ os ∧ s'.1.buf.logs = s.buf.logs ++ ls := by
  rw [placeOrder_store] at h
  cases hpo : processOrder A x.i col x.group (now.proc s.oidx s.lidx) X.updVal (resolveInfPrice X.close x.i col order) u s.buf with
  | error e => rw [hpo] at h; cases h
  | ok r =>
    obtain ⟨res, st, b⟩ := r
    rw [hpo] at h
    simp only at h
    split at h
    · cases h
    obtain ⟨a', m', -, rfl⟩ := callHook_ok h
    obtain ⟨es, hex, -, -, -, -, -, hrec, hlog, -⟩ := processOrder_inv hpo
    have k1 : ∃ os, OfSegment x os ∧ b.orders = s.buf.orders ++ os := by
      rcases hrec with ⟨-, -, -, hob, -⟩ | ⟨-, -, hob, -⟩
      · refine ⟨_, ?_, hob⟩
        intro o ho
        rw [List.mem_singleton] at ho
        subst ho
        exact ⟨rfl, h1, h2⟩
      · exact ⟨[], (fun _ ho => nomatch ho), by rw [hob, List.append_nil]⟩
    have k2 : ∃ ls, LogsOfSegment x ls ∧ b.logs = s.buf.logs ++ ls := by
      rcases hlog with ⟨-, -, -, l, hob, -, lcol, lidx, lgrp, -⟩ | ⟨-, -, hob⟩
      · refine ⟨_, ?_, hob⟩
        intro o ho
        rw [List.mem_singleton] at ho
        subst ho
        rw [lidx, lgrp, lcol]
        exact ⟨rfl, rfl, h1, h2⟩
      · exact ⟨[], (fun _ ho => nomatch ho), by rw [hob, List.append_nil]⟩
    obtain ⟨os, w, e1⟩ := k1
    obtain ⟨ls, v, e2⟩ := k2
    exact ⟨os, ls, w, v, e1, e2⟩

theorem OfSegment.append {x : SegCtx} {a b : List OrderRec} (h1 : OfSegment x a) (h2 : OfSegment x b) : OfSegment x (a ++ b) := by
  intro o ho
  rw [List.mem_append] at ho
  rcases ho with ho | ho
  · exact h1 o ho
  · exact h2 o ho

theorem LogsOfSegment.append {x : SegCtx} {a b : List LogRec} (h1 : LogsOfSegment x a) (h2 : LogsOfSegment x b) :
    LogsOfSegment x (a ++ b) := by
  intro o ho
  rw [List.mem_append] at ho
  rcases ho with ho | ho
  · exact h1 o ho
  · exact h2 o ho

theorem slot_adds (x : SegCtx) (k : Nat) : AddsRecs (OfSegment x) (LogsOfSegment x) (fun s => cbSlot A X cb x s k) := by
  intro s s' h
  beta_reduce at h
  rw [cbSlot_place] at h
  simp only at h
  by_cases hc : s.1.arr.callSeq x.i (x.fromCol + k) ≥ x.len
  · rw [if_pos hc] at h; cases h
  · rw [if_neg hc] at h
    split at h
    · cases h
    exact placeOrder_adds (by omega) (by omega) h

theorem slots_add (x : SegCtx) : AddsRecs (OfSegment x) (LogsOfSegment x)
    (fun s => loopE (cbSlot A X cb x) s (List.range x.len)) := by
  generalize List.range x.len = l
  induction l with
  | nil =>
    intro s s' h
    cases h
    exact ⟨[], [], (fun _ ho => nomatch ho), (fun _ ho => nomatch ho), by simp, by simp⟩
  | cons k l ih => exact adds_andThen (slot_adds x k) ih (fun _ _ => OfSegment.append) (fun _ _ => LogsOfSegment.append)

theorem flex_adds (x : SegCtx) (fuel k : Nat) :
    AddsRecs (OfSegment x) (LogsOfSegment x) (flexLoop A X cb fo draw x fuel k) := by
  induction fuel generalizing k with
  | zero => intro s s' h; cases h
  | succ fuel ih =>
    intro s s' h
    rw [flexLoop] at h
    split at h
    · cases h
    rename_i c o a m1 hor
    by_cases h1 : c = -1
    · rw [if_pos h1] at h
      cases h
      exact ⟨[], [], (fun _ ho => nomatch ho), (fun _ ho => nomatch ho), by simp, by simp⟩
    · rw [if_neg h1] at h
      by_cases h2 : c < x.fromCol ∨ c ≥ x.fromCol + x.len
      · rw [if_pos h2] at h; cases h
      · rw [if_neg h2] at h
        simp only at h
        split at h
        · cases h
        rename_i s1 hp
        obtain ⟨o1, l1, w1, v1, e1, e2⟩ := placeOrder_adds (by omega) (by omega) hp
        obtain ⟨o2, l2, w2, v2, e3, e4⟩ := ih (k + 1) s1 s' h
        exact ⟨o1 ++ o2, l1 ++ l2, w1.append w2, v1.append v2, by rw [e3, e1, List.append_assoc],
          by rw [e4, e2, List.append_assoc]⟩

theorem adds_still {f : CbState × M → Except Err (CbState × M)} (h : ∀ s s', f s = .ok s' → s'.1.buf = s.1.buf) :
    AddsRecs (· = []) (· = []) f := by
  intro s s' hs
  rw [h s s' hs]
  exact ⟨[], [], rfl, rfl, by simp, by simp⟩

theorem adds_skip {W : List OrderRec → Prop} {V : List LogRec → Prop} {f} (h : AddsRecs (M := M) W V f) (hW : W []) (hV : V [])
    (b : Bool) : AddsRecs W V (onlyIf b f) := by
  cases b with
  | true => exact h
  | false =>
    intro s s' hs
    cases hs
    exact ⟨[], [], hW, hV, by simp, by simp⟩

theorem openStats_still (x : SegCtx) : AddsRecs (M := M) (· = []) (· = []) (openStats A x) := by
  refine adds_still fun s s' h => ?_
  refine loopE_inv (P := fun t : CbState × M => t.1.buf = s.1.buf) ?_ rfl h
  intro t k t' _ ht he
  simp only at he
  split at he
  · cases he
  · cases he
    exact ht

theorem segment_adds (x : SegCtx) {f} (h : AddsRecs (M := M) (OfSegment x) (LogsOfSegment x) f) :
    AddsRecs (OfSegment x) (LogsOfSegment x) (segmentWith A X cb x f) := by
  have nil1 : OfSegment x [] := fun _ ho => nomatch ho
  have nil2 : LogsOfSegment x [] := fun _ ho => nomatch ho
  have left : ∀ {f g}, AddsRecs (M := M) (· = []) (· = []) f → AddsRecs (OfSegment x) (LogsOfSegment x) g →
      AddsRecs (OfSegment x) (LogsOfSegment x) (andThen f g) := fun hf hg =>
    adds_andThen hf hg (fun a b ha hb => by rw [ha]; exact hb) (fun a b ha hb => by rw [ha]; exact hb)
  refine left (adds_skip (adds_hook _) rfl rfl _) (left (adds_skip (openStats_still x) rfl rfl _) (left ?_ ?_))
  · exact adds_still fun s s' h => by cases h; rfl
  refine adds_andThen (adds_skip h nil1 nil2 _) (left ?_ (left (adds_skip (openStats_still x) rfl rfl _) ?_))
    (fun _ _ => OfSegment.append) (fun _ _ => LogsOfSegment.append)
  · exact adds_still fun s s' h => by cases h; rfl
  · intro s s' hs
    obtain ⟨os, ls, rfl, rfl, e1, e2⟩ := adds_skip (adds_hook (cb.postSeg x)) rfl rfl _ s s' hs
    exact ⟨[], [], nil1, nil2, e1, e2⟩

theorem nested_recs {α : Type} {n k : Nat} {K : Nat → Nat → List α → Prop} {c : List α}
    (h : ∃ w : Nat → List α, (∀ x ∈ List.range n, ∃ v : Nat → List α, (∀ y ∈ List.range k, K x y (v y)) ∧
      w x = (List.range k).flatMap v) ∧ c = (List.range n).flatMap w) :
    ∃ w : Nat → Nat → List α, (∀ x < n, ∀ y < k, K x y (w x y)) ∧
      c = (List.range n).flatMap fun x => (List.range k).flatMap fun y => w x y := by
  obtain ⟨w, hw, rfl⟩ := h
  choose! v hv using hw
  exact ⟨v, fun x hx y hy => (hv x (List.mem_range.mpr hx)).1 y (List.mem_range.mpr hy),
    List.flatMap_congr fun x hx => (hv x hx).2⟩

theorem adds_between {W : List OrderRec → Prop} {V : List LogRec → Prop} {f} (h : AddsRecs (M := M) W V f)
    (p q : CbState → M → Except Err (CbArrays × M)) : AddsRecs W V (andThen (callHook p) (andThen f (callHook q))) :=
  adds_andThen (adds_hook p) (adds_andThen h (adds_hook q) (W := W) (V := V)
    (fun a b ha hb => by rw [hb, List.append_nil]; exact ha) (fun a b ha hb => by rw [hb, List.append_nil]; exact ha))
    (fun a b ha hb => by rw [ha]; exact hb) (fun a b ha hb => by rw [ha]; exact hb)

theorem groupWise_adds {seg : SegCtx → CbState × M → Except Err (CbState × M)}
    (h : ∀ x, AddsRecs (OfSegment x) (LogsOfSegment x) (seg x)) (rows : Nat) (lens : List Nat) :
    AddsRecs (GroupWiseRecs rows lens OfSegment) (GroupWiseRecs rows lens LogsOfSegment)
      (andThen (callHook cb.preSim) (andThen (fun s => loopE (groupLoopWith cb seg rows) s (layout lens))
        (callHook cb.postSim))) := by
  simp only [layout_range, loopE_mapped]
  refine adds_between ?_ _ _
  intro s s' hs
  obtain ⟨os, ls, w, v, e⟩ := adds_loop (List.range lens.length) List.nodup_range (fun g _ =>
    adds_between (adds_loop (f := fun s i => seg (segAt lens g i) s) (List.range rows) List.nodup_range
      (fun i _ => h (segAt lens g i))) (cb.preGroup (g, firstCol lens g, lens.getD g 0))
      (cb.postGroup (g, firstCol lens g, lens.getD g 0))) s s' hs
  exact ⟨os, ls, nested_recs (K := fun g i => OfSegment (segAt lens g i)) w,
    nested_recs (K := fun g i => LogsOfSegment (segAt lens g i)) v, e⟩

theorem rowWise_adds {seg : SegCtx → CbState × M → Except Err (CbState × M)}
    (h : ∀ x, AddsRecs (OfSegment x) (LogsOfSegment x) (seg x)) (rows : Nat) (lens : List Nat) :
    AddsRecs (RowWiseRecs rows lens OfSegment) (RowWiseRecs rows lens LogsOfSegment)
      (andThen (callHook cb.preSim) (andThen (fun s => loopE (rowLoopWith cb seg lens) s (List.range rows))
        (callHook cb.postSim))) := by
  unfold rowLoopWith
  simp only [layout_range, loopE_mapped]
  refine adds_between ?_ _ _
  intro s s' hs
  obtain ⟨os, ls, w, v, e⟩ := adds_loop (List.range rows) List.nodup_range (fun i _ =>
    adds_between (adds_loop (f := fun s g => seg (segAt lens g i) s) (List.range lens.length) List.nodup_range
      (fun g _ => h (segAt lens g i))) (cb.preRow i) (cb.postRow i)) s s' hs
  obtain ⟨w, hw, e1⟩ := nested_recs (K := fun i g => OfSegment (segAt lens g i)) w
  obtain ⟨v, hv, e2⟩ := nested_recs (K := fun i g => LogsOfSegment (segAt lens g i)) v
  exact ⟨os, ls, ⟨fun g i => w i g, fun g hg i hi => hw i hi g hg, e1⟩, ⟨fun g i => v i g, fun g hg i hi => hv i hi g hg, e2⟩, e⟩

variable {m : M} {rows cols : Nat} {lens : List Nat} {initCash : List F} {callSeq : Nat → Nat → Nat} {maxOrders : Option Nat}
  {maxLogs : Nat} {junk : Nat → TradeRec}

theorem AddsRecs.checked {W : List OrderRec → Prop} {V : List LogRec → Prop} {f} (h : AddsRecs (M := M) W V f) {sharing : Bool}
    {cash : Nat → F} {s' : CbState} {m' : M} (hs : checkedSim sharing cols lens initCash
      (f (cbInit rows cols cash callSeq maxOrders maxLogs junk, m)) = .ok (s', m')) :
    lens.sum = cols ∧ W s'.buf.orders ∧ V s'.buf.logs := by
  unfold checkedSim at hs
  split_ifs at hs with h1 h2 h3
  obtain ⟨os, ls, w, v, e1, e2⟩ := h _ _ hs
  have k1 : s'.buf.orders = os := e1
  have k2 : s'.buf.logs = ls := e2
  exact ⟨not_not.mp h1, by rw [k1]; exact w, by rw [k2]; exact v⟩

/-- The records of `simulate_nb` are those of its segments, one group after the other and for each group in the order of rows.
The callbacks may do anything. -/
theorem C79_segments {s' : CbState} {m' : M}
    (h : simulateNb A X cb m rows cols lens initCash callSeq maxOrders maxLogs junk = .ok (s', m')) :
    GroupWiseRecs rows lens OfSegment s'.buf.orders ∧ GroupWiseRecs rows lens LogsOfSegment s'.buf.logs :=
  ((groupWise_adds (fun x => segment_adds x (slots_add x)) rows lens).checked h).2

/-- The records of `simulate_row_wise_nb`: in the order of rows, for each row one group after the other. -/
theorem C79_segments_row_wise {s' : CbState} {m' : M}
    (h : simulateRowWiseNb A X cb m rows cols lens initCash callSeq maxOrders maxLogs junk = .ok (s', m')) :
    RowWiseRecs rows lens OfSegment s'.buf.orders ∧ RowWiseRecs rows lens LogsOfSegment s'.buf.logs :=
  ((rowWise_adds (fun x => segment_adds x (slots_add x)) rows lens).checked h).2

/-- The same for `flex_simulate_nb`. -/
theorem C79_segments_flex {s' : CbState} {m' : M}
    (h : flexSimulateNb A X cb fo draw fuel m rows cols lens initCash callSeq maxOrders maxLogs junk = .ok (s', m')) :
    GroupWiseRecs rows lens OfSegment s'.buf.orders ∧ GroupWiseRecs rows lens LogsOfSegment s'.buf.logs :=
  ((groupWise_adds (fun x => segment_adds x (flex_adds x fuel 0)) rows lens).checked h).2

/-- The same for `flex_simulate_row_wise_nb`. -/
theorem C79_segments_flex_row_wise {s' : CbState} {m' : M}
    (h : flexSimulateRowWiseNb A X cb fo draw fuel m rows cols lens initCash callSeq maxOrders maxLogs junk = .ok (s', m')) :
    RowWiseRecs rows lens OfSegment s'.buf.orders ∧ RowWiseRecs rows lens LogsOfSegment s'.buf.logs :=
  ((rowWise_adds (fun x => segment_adds x (flex_adds x fuel 0)) rows lens).checked h).2

/-! ## Counters and positions of the last records -/

theorem checked_sum {sharing : Bool} {run : Except Err (CbState × M)} {x : CbState × M}
    (h : checkedSim sharing cols lens initCash run = .ok x) : lens.sum = cols := by
  unfold checkedSim at h
  split_ifs at h with h1
  exact not_not.mp h1

theorem Seen.of_sum {P : CbState → Prop} {run : Callbacks M → FlexOrder M → Except Err (CbState × M)}
    (hw : lens.sum ≠ cols → ∃ e, ∀ cb fo, run cb fo = .error e) (h : lens.sum = cols → Seen P run cb fo) : Seen P run cb fo := by
  by_cases hs : lens.sum = cols
  · exact h hs
  · obtain ⟨e, he⟩ := hw hs
    exact ⟨fun _ => by rw [he, he], fun s m hr => by rw [he] at hr; cases hr⟩

theorem checked_wrong (hs : lens.sum ≠ cols) {sharing : Bool} {σ : Type} (run : Except Err σ) :
    checkedSim sharing cols lens initCash run =
      .error (.valueError "group_lens has incorrect total number of columns") := by
  unfold checkedSim
  rw [if_pos hs]

/-- In `simulate_nb` counters, ids, rows and columns of the records and links of the logs are right in every state seen by a
callback.  The callbacks may do anything. -/
theorem C79_numbered :
    Seen (RecordsNumbered rows cols)
      (fun cb _ =>
        simulateNb A X cb m rows cols lens initCash callSeq maxOrders maxLogs junk) cb fo :=
  Seen.of_sum (fun hs => ⟨_, fun _ _ => checked_wrong hs _⟩) fun hs =>
    (numbered_survives hs).simulate (keeps_any cb) (fun _ _ _ _ _ _ _ _ _ _ => trivial) numbered_init

/-- In `simulate_nb` the positions of the last records are right, if the callbacks do not write to them. -/
theorem C79_last (hk : Keeps SameLast cb) :
    Seen LastMarked
      (fun cb _ =>
        simulateNb A X cb m rows cols lens initCash callSeq maxOrders maxLogs junk) cb fo :=
  marked_survives.simulate hk (fun _ _ _ _ _ _ _ _ _ _ => trivial) marked_init

/-- In `simulate_row_wise_nb` counters, ids, rows and columns of the records and links of the logs are right in every state seen by a
callback.  The callbacks may do anything. -/
theorem C79_numbered_row_wise :
    Seen (RecordsNumbered rows cols)
      (fun cb _ =>
        simulateRowWiseNb A X cb m rows cols lens initCash callSeq maxOrders maxLogs junk) cb fo :=
  Seen.of_sum (fun hs => ⟨_, fun _ _ => checked_wrong hs _⟩) fun hs =>
    (numbered_survives hs).simulateRowWise (keeps_any cb) (fun _ _ _ _ _ _ _ _ _ _ => trivial) numbered_init

/-- In `simulate_row_wise_nb` the positions of the last records are right, if the callbacks do not write to them. -/
theorem C79_last_row_wise (hk : Keeps SameLast cb) :
    Seen LastMarked
      (fun cb _ =>
        simulateRowWiseNb A X cb m rows cols lens initCash callSeq maxOrders maxLogs junk) cb fo :=
  marked_survives.simulateRowWise hk (fun _ _ _ _ _ _ _ _ _ _ => trivial) marked_init

/-- In `flex_simulate_nb` counters, ids, rows and columns of the records and links of the logs are right in every state seen by a
callback.  The callbacks may do anything. -/
theorem C79_numbered_flex :
    Seen (RecordsNumbered rows cols)
      (fun cb fo =>
        flexSimulateNb A X cb fo draw fuel m rows cols lens initCash callSeq maxOrders maxLogs junk) cb fo :=
  Seen.of_sum (fun hs => ⟨_, fun _ _ => checked_wrong hs _⟩) fun hs =>
    (numbered_survives hs).flexSimulate (keeps_any cb) (fun _ _ _ _ _ _ _ _ _ => trivial) (fun _ _ _ _ _ _ _ _ _ => trivial) numbered_init

/-- In `flex_simulate_nb` the positions of the last records are right, if the callbacks do not write to them. -/
theorem C79_last_flex (hk : Keeps SameLast cb) (hf : FlexKeeps SameLast fo) :
    Seen LastMarked
      (fun cb fo =>
        flexSimulateNb A X cb fo draw fuel m rows cols lens initCash callSeq maxOrders maxLogs junk) cb fo :=
  marked_survives.flexSimulate hk hf (fun _ _ _ _ _ _ _ _ _ => trivial) marked_init

/-- In `flex_simulate_row_wise_nb` counters, ids, rows and columns of the records and links of the logs are right in every state seen by a
callback.  The callbacks may do anything. -/
theorem C79_numbered_flex_row_wise :
    Seen (RecordsNumbered rows cols)
      (fun cb fo =>
        flexSimulateRowWiseNb A X cb fo draw fuel m rows cols lens initCash callSeq maxOrders maxLogs junk) cb fo :=
  Seen.of_sum (fun hs => ⟨_, fun _ _ => checked_wrong hs _⟩) fun hs =>
    (numbered_survives hs).flexSimulateRowWise (keeps_any cb) (fun _ _ _ _ _ _ _ _ _ => trivial) (fun _ _ _ _ _ _ _ _ _ => trivial) numbered_init

/-- In `flex_simulate_row_wise_nb` the positions of the last records are right, if the callbacks do not write to them. -/
theorem C79_last_flex_row_wise (hk : Keeps SameLast cb) (hf : FlexKeeps SameLast fo) :
    Seen LastMarked
      (fun cb fo =>
        flexSimulateRowWiseNb A X cb fo draw fuel m rows cols lens initCash callSeq maxOrders maxLogs junk) cb fo :=
  marked_survives.flexSimulateRowWise hk hf (fun _ _ _ _ _ _ _ _ _ => trivial) marked_init

/-! ## Records of one column are in the order of rows -/

theorem pairwise_flatMap {α β : Type} {R : β → β → Prop} {l : List α} {f : α → List β} {S : α → α → Prop} (hl : l.Pairwise S)
    (h1 : ∀ x ∈ l, (f x).Pairwise R) (h2 : ∀ x ∈ l, ∀ y ∈ l, S x y → ∀ a ∈ f x, ∀ b ∈ f y, R a b) :
    (l.flatMap f).Pairwise R := by
  induction l with
  | nil => exact List.Pairwise.nil
  | cons x l ih =>
    rw [List.pairwise_cons] at hl
    rw [List.flatMap_cons, List.pairwise_append]
    refine ⟨h1 x (by simp), ih hl.2 (fun y hy => h1 y (List.mem_cons_of_mem _ hy))
      (fun y hy z hz => h2 y (List.mem_cons_of_mem _ hy) z (List.mem_cons_of_mem _ hz)), ?_⟩
    intro a ha b hb
    rw [List.mem_flatMap] at hb
    obtain ⟨y, hy, hb⟩ := hb
    exact h2 x (by simp) y (List.mem_cons_of_mem _ hy) (hl.1 y hy) a ha b hb

theorem same_pairwise {α : Type} {col idx : α → Nat} {i : Nat} {l : List α} (h : ∀ o ∈ l, idx o = i) : ByRows col idx l := by
  refine List.Pairwise.imp_of_mem (R := fun _ _ => True) ?_ (List.pairwise_of_forall fun _ _ => trivial)
  intro a b ha hb _ _
  rw [h a ha, h b hb]

theorem GroupWiseRecs.byRows {α : Type} {W : SegCtx → List α → Prop} {col idx : α → Nat}
    (hW : ∀ x l, W x l → ∀ o ∈ l, idx o = x.i ∧ x.fromCol ≤ col o ∧ col o < x.fromCol + x.len) {l : List α}
    (h : GroupWiseRecs rows lens W l) : ByRows col idx l := by
  obtain ⟨w, hw, rfl⟩ := h
  refine pairwise_flatMap List.pairwise_lt_range (fun g hg => ?_) ?_
  · refine pairwise_flatMap List.pairwise_lt_range (fun i hi => ?_) ?_
    · exact same_pairwise fun o ho => (hW _ _ (hw g (List.mem_range.mp hg) i (List.mem_range.mp hi)) o ho).1
    · intro i hi j hj hij a ha b hb _
      rw [(hW _ _ (hw g (List.mem_range.mp hg) i (List.mem_range.mp hi)) a ha).1,
        (hW _ _ (hw g (List.mem_range.mp hg) j (List.mem_range.mp hj)) b hb).1]
      exact hij.le
  · intro g hg g' hg' hlt a ha b hb he
    rw [List.mem_flatMap] at ha hb
    obtain ⟨i, hi, ha⟩ := ha
    obtain ⟨j, hj, hb⟩ := hb
    have k1 := (hW _ _ (hw g (List.mem_range.mp hg) i (List.mem_range.mp hi)) a ha).2
    have k2 := (hW _ _ (hw g' (List.mem_range.mp hg') j (List.mem_range.mp hj)) b hb).2
    have := firstCol_le lens hlt
    simp only [segAt] at k1 k2
    omega

theorem RowWiseRecs.byRows {α : Type} {W : SegCtx → List α → Prop} {idx : α → Nat}
    (hW : ∀ x l, W x l → ∀ o ∈ l, idx o = x.i) {l : List α} (h : RowWiseRecs rows lens W l) :
    l.Pairwise fun a b => idx a ≤ idx b := by
  obtain ⟨w, hw, rfl⟩ := h
  have hin : ∀ i ∈ List.range rows, ∀ o ∈ (List.range lens.length).flatMap (fun g => w g i), idx o = i := by
    intro i hi o ho
    rw [List.mem_flatMap] at ho
    obtain ⟨g, hg, ho⟩ := ho
    exact hW _ _ (hw g (List.mem_range.mp hg) i (List.mem_range.mp hi)) o ho
  refine pairwise_flatMap List.pairwise_lt_range (fun i hi => ?_) ?_
  · refine List.Pairwise.imp_of_mem (R := fun _ _ => True) ?_ (List.pairwise_of_forall fun _ _ => trivial)
    intro a b ha hb _
    rw [hin i hi a ha, hin i hi b hb]
  · intro i hi j hj hij a ha b hb
    rw [hin i hi a ha, hin j hj b hb]
    exact hij.le

/-- Within a column the records of `simulate_nb` are in the order of rows. -/
theorem C79_by_rows {s' : CbState} {m' : M}
    (h : simulateNb A X cb m rows cols lens initCash callSeq maxOrders maxLogs junk = .ok (s', m')) :
    ByRows (·.col) (·.idx) s'.buf.orders ∧ ByRows (·.col) (·.idx) s'.buf.logs :=
  ⟨(C79_segments h).1.byRows fun _ _ hw o ho => hw o ho,
    (C79_segments h).2.byRows fun _ _ hw o ho => ⟨(hw o ho).1, (hw o ho).2.2⟩⟩

/-- Within a column the records of `flex_simulate_nb` are in the order of rows. -/
theorem C79_by_rows_flex {s' : CbState} {m' : M}
    (h : flexSimulateNb A X cb fo draw fuel m rows cols lens initCash callSeq maxOrders maxLogs junk = .ok (s', m')) :
    ByRows (·.col) (·.idx) s'.buf.orders ∧ ByRows (·.col) (·.idx) s'.buf.logs :=
  ⟨(C79_segments_flex h).1.byRows fun _ _ hw o ho => hw o ho,
    (C79_segments_flex h).2.byRows fun _ _ hw o ho => ⟨(hw o ho).1, (hw o ho).2.2⟩⟩

/-- All records of `simulate_row_wise_nb` are in the order of rows. -/
theorem C79_by_rows_row_wise {s' : CbState} {m' : M}
    (h : simulateRowWiseNb A X cb m rows cols lens initCash callSeq maxOrders maxLogs junk = .ok (s', m')) :
    (s'.buf.orders.Pairwise fun a b => a.idx ≤ b.idx) ∧ s'.buf.logs.Pairwise fun a b => a.idx ≤ b.idx :=
  ⟨(C79_segments_row_wise h).1.byRows fun _ _ hw o ho => (hw o ho).1,
    (C79_segments_row_wise h).2.byRows fun _ _ hw o ho => (hw o ho).1⟩

/-- All records of `flex_simulate_row_wise_nb` are in the order of rows. -/
theorem C79_by_rows_flex_row_wise {s' : CbState} {m' : M}
    (h : flexSimulateRowWiseNb A X cb fo draw fuel m rows cols lens initCash callSeq maxOrders maxLogs junk = .ok (s', m')) :
    (s'.buf.orders.Pairwise fun a b => a.idx ≤ b.idx) ∧ s'.buf.logs.Pairwise fun a b => a.idx ≤ b.idx :=
  ⟨(C79_segments_flex_row_wise h).1.byRows fun _ _ hw o ho => (hw o ho).1,
    (C79_segments_flex_row_wise h).2.byRows fun _ _ hw o ho => (hw o ho).1⟩

end

/-! ## Examples -/

/-- With a flexible order function a column can have several orders in a row: strictly increasing rows, as in C13, do not
hold. -/
theorem C79_counterexample_strict :
    okAnd (flexSimulateNb Arith.std wCalls wCb wFlexOrder (fun _ _ _ => F.zero) 9 () 1 2 [2] [fin 1000] (fun _ _ => 0)
        (some 9) 0 (fun _ => wNoRec))
      (fun r => r.1.buf.orders.map (fun o => (o.id, o.idx, o.col)) = [(0, 0, 1), (1, 0, 1), (2, 0, 0)] ∧
        r.1.arr.lastOidx 0 = 2 ∧ r.1.arr.lastOidx 1 = 1 ∧ r.1.arr.lastLidx 0 = -1) := by
  decide +kernel

end Vbt
