import Verif.Spec.Seen
import Verif.Props.C76

/-!
# Invariants of the callback simulators
-/

namespace Vbt

/-- `P` survives everything a simulator does between the callbacks, which write as allowed by `R`, and implies `Q`.  `G` holds
of the orders. -/
structure Survives (A : Arith) (X : CbInputs) (rows : Nat) (lens : List Nat) (R : CbArrays → CbArrays → Prop) (G : Order → Prop)
    (P Q : CbState → Prop) : Prop where
  shows : ∀ s, P s → Q s
  allows : ∀ a b, SameBooks a b → R a b
  frame : ∀ s s' : CbState, s'.buf = s.buf → s'.oidx = s.oidx → s'.lidx = s.lidx → R s.arr s'.arr → P s → P s'
  place : ∀ (s : CbState) (a0 a : CbArrays) (g i col : Nat) (order : Order) (u : F) res st b ret rec,
    g < lens.length → i < rows → firstCol lens g ≤ col → col < firstCol lens g + lens.getD g 0 → G order → R a0 a →
    processOrder A i col g ((nowAt a0 (if X.sharing then g else col) col).proc s.oidx s.lidx) X.updVal
      (resolveInfPrice X.close i col order) u s.buf = .ok (res, st, b) →
    P { s with arr := a0 } → P { s with arr := a } →
    P { s with arr := storeOrder X (if X.sharing then g else col) col a s st ret rec, oidx := st.oidx, lidx := st.lidx, buf := b }

/-- Under `P`, `f` does what `g` does and keeps `P`. -/
def Alike {M : Type} (P : CbState → Prop) (f g : CbState × M → Except Err (CbState × M)) : Prop :=
  ∀ s, P s.1 → f s = g s ∧ ∀ s', g s = .ok s' → P s'.1

theorem SameBooks.refl (a : CbArrays) : SameBooks a a := ⟨rfl, rfl, rfl, rfl, rfl, rfl⟩

theorem guarding_pos {M R : Type} {P : CbState → Prop} {e : Err} {f : CbState → M → Except Err R} {s : CbState} {m : M}
    (h : P s) : guarding P e f s m = f s m := by
  unfold guarding
  rw [if_pos h]

section
variable {M : Type} {P Q : CbState → Prop} {e : Err}

theorem alike_andThen {f1 f2 g1 g2} (h1 : Alike (M := M) P f1 g1) (h2 : Alike P f2 g2) :
    Alike P (andThen f1 f2) (andThen g1 g2) := by
  intro s hs
  obtain ⟨e1, k1⟩ := h1 s hs
  unfold andThen
  rw [e1]
  cases hg : g1 s with
  | error e => exact ⟨rfl, fun s' h => by cases h⟩
  | ok t => exact h2 t (k1 t hg)

theorem alike_onlyIf {f g} (b : Bool) (h : Alike (M := M) P f g) : Alike P (onlyIf b f) (onlyIf b g) := by
  cases b with
  | true => exact h
  | false => exact fun s hs => ⟨rfl, fun s' h => by cases h; exact hs⟩

theorem alike_loop {α : Type} {f g : CbState × M → α → Except Err (CbState × M)} (l : List α)
    (h : ∀ x ∈ l, Alike P (fun s => f s x) (fun s => g s x)) : Alike P (fun s => loopE f s l) (fun s => loopE g s l) := by
  induction l with
  | nil => exact fun s hs => ⟨rfl, fun s' h => by cases h; exact hs⟩
  | cons x l ih =>
    exact alike_andThen (h x (by simp)) (ih fun y hy => h y (List.mem_cons_of_mem _ hy))

variable {A : Arith} {X : CbInputs} {rows : Nat} {lens : List Nat} {R : CbArrays → CbArrays → Prop} {G : Order → Prop}
  {cb : Callbacks M}

theorem Survives.hook (hP : Survives A X rows lens R G P Q) {f : CbState → M → Except Err (CbArrays × M)}
    (hf : ∀ s m a m', f s m = .ok (a, m') → R s.arr a) : Alike P (callHook (guarding Q e f)) (callHook f) := by
  intro s hs
  unfold callHook
  rw [guarding_pos (hP.shows _ hs)]
  refine ⟨rfl, fun s' h => ?_⟩
  cases hr : f s.1 s.2 with
  | error e => rw [hr] at h; cases h
  | ok r =>
    rw [hr] at h
    cases h
    exact hP.frame s.1 _ rfl rfl rfl (hf _ _ _ _ hr) hs

theorem Survives.openStats (hP : Survives A X rows lens R G P Q) (x : SegCtx) :
    Alike (M := M) P (openStats A x) (Vbt.openStats A x) := by
  refine fun s hs => ⟨rfl, fun s' h => ?_⟩
  refine loopE_inv (P := fun t : CbState × M => P t.1) ?_ hs h
  intro t k t' _ ht he
  simp only at he
  split at he
  · cases he
  · cases he
    exact hP.frame t.1 _ rfl rfl rfl (hP.allows _ _ ⟨rfl, rfl, rfl, rfl, rfl, rfl⟩) ht

theorem Survives.placed (hP : Survives A X rows lens R G P Q) (hk : Keeps R cb) {g i col k : Nat} {now : Now} {order : Order}
    {u : F} {a0 a : CbArrays} {m : M} {s : CbState} (hg : g < lens.length) (hi : i < rows) (h1 : firstCol lens g ≤ col)
    (h2 : col < firstCol lens g + lens.getD g 0) (ho : G order) (hR : R a0 a)
    (hn : now = nowAt a0 (if X.sharing then g else col) col) (hs0 : P { s with arr := a0 }) (hs : P { s with arr := a }) :
    placeOrder A X (cb.guarded Q e) (segAt lens g i) col k now order u a m s =
      placeOrder A X cb (segAt lens g i) col k now order u a m s ∧
    ∀ s', placeOrder A X cb (segAt lens g i) col k now order u a m s = .ok s' → P s'.1 := by
  subst hn
  rw [placeOrder_store, placeOrder_store]
  generalize hnow : nowAt a0 (if X.sharing then g else col) col = now
  cases hpo : processOrder A (segAt lens g i).i col (segAt lens g i).group (now.proc s.oidx s.lidx) X.updVal
      (resolveInfPrice X.close (segAt lens g i).i col order) u s.buf with
  | error e => exact ⟨rfl, fun s' h => by cases h⟩
  | ok r =>
    obtain ⟨res, st, b⟩ := r
    simp only
    cases (if X.fillPos = true then updatePosRecord A (a.posRec col) (segAt lens g i).i col now.position st.position res
        else .ok (a.posRec col)) with
    | error e => exact ⟨rfl, fun s' h => by cases h⟩
    | ok r =>
      exact hP.hook (hk.postOrder _ col k now res _) _ (hP.place s a0 a g i col order u res st b _ r hg hi h1 h2 ho hR
        (by rw [hnow]; exact hpo) hs0 hs)

theorem Survives.slot (hP : Survives A X rows lens R G P Q) (hk : Keeps R cb) (ho : OrdersAre G cb) {g i : Nat}
    (hg : g < lens.length) (hi : i < rows) (k : Nat) :
    Alike P (fun s => cbSlot A X (cb.guarded Q e) (segAt lens g i) s k) (fun s => cbSlot A X cb (segAt lens g i) s k) := by
  intro s hs
  simp only [cbSlot_place]
  by_cases hc : s.1.arr.callSeq (segAt lens g i).i ((segAt lens g i).fromCol + k) ≥ (segAt lens g i).len
  · rw [if_pos hc, if_pos hc]
    exact ⟨rfl, fun s' h => by cases h⟩
  · rw [if_neg hc, if_neg hc]
    generalize hcol : (segAt lens g i).fromCol + s.1.arr.callSeq (segAt lens g i).i ((segAt lens g i).fromCol + k) = col
    have hlt : firstCol lens g ≤ col ∧ col < firstCol lens g + lens.getD g 0 := by
      have e1 : (segAt lens g i).fromCol = firstCol lens g := rfl
      have e2 : (segAt lens g i).len = lens.getD g 0 := rfl
      omega
    have hgd : ∀ now, (cb.guarded Q e).order (segAt lens g i) col k now s.1 s.2 = cb.order (segAt lens g i) col k now s.1 s.2 :=
      fun now => guarding_pos (hP.shows _ hs)
    rw [hgd]
    cases hor : cb.order (segAt lens g i) col k
        (nowAt s.1.arr (if X.sharing = true then (segAt lens g i).group else col) col) s.1 s.2 with
    | error e => exact ⟨rfl, fun s' h => by cases h⟩
    | ok r =>
      obtain ⟨o, a, m1⟩ := r
      have hb := hk.order _ _ _ _ _ _ _ _ _ hor
      exact hP.placed hk hg hi hlt.1 hlt.2 (ho _ _ _ _ _ _ _ _ _ hor) hb rfl hs (hP.frame s.1 _ rfl rfl rfl hb hs)

theorem Survives.flex (hP : Survives A X rows lens R G P Q) (hk : Keeps R cb) {fo : FlexOrder M} (hf : FlexKeeps R fo)
    (ho : FlexOrdersAre G fo) {draw : Nat → Nat → Nat → F} {g i : Nat} (hg : g < lens.length) (hi : i < rows)
    (fuel k : Nat) :
    Alike P (flexLoop A X (cb.guarded Q e) (guardedFlex Q e fo) draw (segAt lens g i) fuel k)
      (flexLoop A X cb fo draw (segAt lens g i) fuel k) := by
  induction fuel generalizing k with
  | zero => exact fun s hs => ⟨rfl, fun s' h => by cases h⟩
  | succ fuel ih =>
    intro s hs
    rw [flexLoop, flexLoop]
    have hgd : guardedFlex Q e fo (segAt lens g i) k s.1 s.2 = fo (segAt lens g i) k s.1 s.2 := guarding_pos (hP.shows _ hs)
    rw [hgd]
    cases hor : fo (segAt lens g i) k s.1 s.2 with
    | error e => exact ⟨rfl, fun s' h => by cases h⟩
    | ok r =>
      obtain ⟨c, o, a, m1⟩ := r
      have hb := hf _ _ _ _ _ _ _ _ hor
      have hs' := hP.frame s.1 { s.1 with arr := a } rfl rfl rfl hb hs
      simp only
      by_cases h1 : c = -1
      · rw [if_pos h1, if_pos h1]
        exact ⟨rfl, fun s' h => by cases h; exact hs'⟩
      · rw [if_neg h1, if_neg h1]
        by_cases h2 : c < (segAt lens g i).fromCol ∨ c ≥ (segAt lens g i).fromCol + (segAt lens g i).len
        · rw [if_pos h2, if_pos h2]
          exact ⟨rfl, fun s' h => by cases h⟩
        · rw [if_neg h2, if_neg h2]
          have e1 : (segAt lens g i).fromCol = firstCol lens g := rfl
          have e2 : (segAt lens g i).len = lens.getD g 0 := rfl
          rw [e1, e2] at h2
          obtain ⟨p1, p2⟩ := hP.placed (e := e) hk (k := k)
            (now := nowAt a (if X.sharing = true then g else c.toNat) c.toNat) (u := draw (segAt lens g i).i c.toNat k)
            (m := m1) (s := s.1) (a := a) (order := o) hg hi (col := c.toNat) (by omega) (by omega)
            (ho _ _ _ _ _ _ _ _ hor) (hP.allows _ _ (SameBooks.refl a)) rfl hs' hs'
          unfold nowAt at p1 p2
          have e3 : (segAt lens g i).group = g := rfl
          simp only [e3] at p1 p2 ⊢
          rw [p1]
          cases hp : placeOrder A X cb (segAt lens g i) c.toNat k _ o (draw (segAt lens g i).i c.toNat k) a m1 s.1 with
          | error e => exact ⟨rfl, fun s' h => by cases h⟩
          | ok s1 => exact ih (k + 1) s1 (p2 s1 hp)

theorem Survives.segment (hP : Survives A X rows lens R G P Q) (hk : Keeps R cb) (x : SegCtx) {f g} (h : Alike P f g) :
    Alike P (segmentWith A X (cb.guarded Q e) x f) (segmentWith A X cb x g) := by
  refine alike_andThen (alike_onlyIf _ (hP.hook (hk.preSeg x))) ?_
  refine alike_andThen (alike_onlyIf _ (hP.openStats x)) ?_
  refine alike_andThen (fun s hs => ⟨rfl, fun s' h => ?_⟩) ?_
  · cases h
    exact hP.frame s.1 _ rfl rfl rfl (hP.allows _ _ ⟨rfl, rfl, rfl, rfl, rfl, rfl⟩) hs
  refine alike_andThen (alike_onlyIf _ h) ?_
  refine alike_andThen (fun s hs => ⟨rfl, fun s' h => ?_⟩) ?_
  · cases h
    exact hP.frame s.1 _ rfl rfl rfl (hP.allows _ _ ⟨rfl, rfl, rfl, rfl, rfl, rfl⟩) hs
  refine alike_andThen (alike_onlyIf _ (hP.openStats x)) ?_
  exact alike_onlyIf _ (hP.hook (hk.postSeg x))

theorem Survives.groupWise (hP : Survives A X rows lens R G P Q) (hk : Keeps R cb)
    {sf sg : SegCtx → CbState × M → Except Err (CbState × M)}
    (h : ∀ g i, g < lens.length → i < rows → Alike P (sf (segAt lens g i)) (sg (segAt lens g i))) :
    Alike P
      (andThen (callHook (cb.guarded Q e).preSim) (andThen (fun s => loopE (groupLoopWith (cb.guarded Q e) sf rows) s
        (layout lens)) (callHook (cb.guarded Q e).postSim)))
      (andThen (callHook cb.preSim) (andThen (fun s => loopE (groupLoopWith cb sg rows) s (layout lens))
        (callHook cb.postSim))) := by
  simp only [layout_range, loopE_mapped]
  refine alike_andThen (hP.hook hk.preSim) (alike_andThen (alike_loop _ fun g hg => ?_) (hP.hook hk.postSim))
  refine alike_andThen (hP.hook (hk.preGroup _)) (alike_andThen (alike_loop _ fun i hi => ?_) (hP.hook (hk.postGroup _)))
  exact h g i (List.mem_range.mp hg) (List.mem_range.mp hi)

theorem Survives.rowWise (hP : Survives A X rows lens R G P Q) (hk : Keeps R cb)
    {sf sg : SegCtx → CbState × M → Except Err (CbState × M)}
    (h : ∀ g i, g < lens.length → i < rows → Alike P (sf (segAt lens g i)) (sg (segAt lens g i))) :
    Alike P
      (andThen (callHook (cb.guarded Q e).preSim) (andThen (fun s => loopE (rowLoopWith (cb.guarded Q e) sf lens) s
        (List.range rows)) (callHook (cb.guarded Q e).postSim)))
      (andThen (callHook cb.preSim) (andThen (fun s => loopE (rowLoopWith cb sg lens) s (List.range rows))
        (callHook cb.postSim))) := by
  refine alike_andThen (hP.hook hk.preSim) (alike_andThen (alike_loop _ fun i hi => ?_) (hP.hook hk.postSim))
  unfold rowLoopWith
  simp only [layout_range, loopE_mapped]
  refine alike_andThen (hP.hook (hk.preRow _)) (alike_andThen (alike_loop _ fun g hg => ?_) (hP.hook (hk.postRow _)))
  exact h g i (List.mem_range.mp hg) (List.mem_range.mp hi)

theorem Alike.checked {f g} (h : Alike (M := M) P f g) {sharing : Bool} {cols : Nat} {lens : List Nat} {initCash : List F}
    {s : CbState × M} (hs : lens.sum = cols → P s.1) :
    checkedSim sharing cols lens initCash (f s) = checkedSim sharing cols lens initCash (g s) ∧
    ∀ s', checkedSim sharing cols lens initCash (g s) = .ok s' → P s'.1 := by
  unfold checkedSim
  split_ifs with h1 h2 h3
  · exact ⟨rfl, fun s' h => by cases h⟩
  · exact ⟨rfl, fun s' h => by cases h⟩
  · exact ⟨rfl, fun s' h => by cases h⟩
  · exact h s (hs (not_not.mp h1))

variable {fo : FlexOrder M} {draw : Nat → Nat → Nat → F} {fuel : Nat} {m : M} {cols : Nat} {initCash : List F}
  {callSeq : Nat → Nat → Nat} {maxOrders : Option Nat} {maxLogs : Nat} {junk : Nat → TradeRec}

theorem Survives.simulate (hP : Survives A X rows lens R G P Q) (hk : Keeps R cb) (ho : OrdersAre G cb)
    (h0 : P (cbInit rows cols (fun k => initCash.getD k .nan) callSeq maxOrders maxLogs junk)) :
    Seen Q (fun cb _ => simulateNb A X cb m rows cols lens initCash callSeq maxOrders maxLogs junk) cb fo := by
  have h : ∀ e, _ := fun e => (hP.groupWise (e := e) hk (sf := Vbt.segment A X (cb.guarded Q e)) (sg := Vbt.segment A X cb)
    fun g i hg hi => hP.segment hk _ (alike_loop _ fun k _ => hP.slot hk ho hg hi k)).checked (sharing := X.sharing)
      (cols := cols) (lens := lens) (initCash := initCash) (s := (cbInit rows cols (fun k => initCash.getD k .nan) callSeq
        maxOrders maxLogs junk, m)) (fun _ => h0)
  exact ⟨fun e => (h e).1, fun s m' hs => hP.shows _ ((h .zeroDivision).2 _ hs)⟩

theorem Survives.simulateRowWise (hP : Survives A X rows lens R G P Q) (hk : Keeps R cb) (ho : OrdersAre G cb)
    (h0 : P (cbInit rows cols (fun k => initCash.getD k .nan) callSeq maxOrders maxLogs junk)) :
    Seen Q (fun cb _ => simulateRowWiseNb A X cb m rows cols lens initCash callSeq maxOrders maxLogs junk) cb fo := by
  have h : ∀ e, _ := fun e => (hP.rowWise (e := e) hk (sf := Vbt.segment A X (cb.guarded Q e)) (sg := Vbt.segment A X cb)
    fun g i hg hi => hP.segment hk _ (alike_loop _ fun k _ => hP.slot hk ho hg hi k)).checked (sharing := X.sharing)
      (cols := cols) (lens := lens) (initCash := initCash) (s := (cbInit rows cols (fun k => initCash.getD k .nan) callSeq
        maxOrders maxLogs junk, m)) (fun _ => h0)
  exact ⟨fun e => (h e).1, fun s m' hs => hP.shows _ ((h .zeroDivision).2 _ hs)⟩

theorem Survives.flexSimulate (hP : Survives A X rows lens R G P Q) (hk : Keeps R cb) (hf : FlexKeeps R fo)
    (ho : FlexOrdersAre G fo)
    (h0 : P (cbInit rows cols (fun k => initCash.getD k .nan) callSeq maxOrders maxLogs junk)) :
    Seen Q (fun cb fo => flexSimulateNb A X cb fo draw fuel m rows cols lens initCash callSeq maxOrders maxLogs junk) cb fo := by
  have h : ∀ e, _ := fun e => (hP.groupWise (e := e) hk (sf := flexSegment A X (cb.guarded Q e) (guardedFlex Q e fo) draw fuel)
    (sg := flexSegment A X cb fo draw fuel)
    fun g i hg hi => hP.segment hk _ (hP.flex hk hf ho hg hi fuel 0)).checked (sharing := X.sharing)
      (cols := cols) (lens := lens) (initCash := initCash) (s := (cbInit rows cols (fun k => initCash.getD k .nan) callSeq
        maxOrders maxLogs junk, m)) (fun _ => h0)
  exact ⟨fun e => (h e).1, fun s m' hs => hP.shows _ ((h .zeroDivision).2 _ hs)⟩

theorem Survives.flexSimulateRowWise (hP : Survives A X rows lens R G P Q) (hk : Keeps R cb) (hf : FlexKeeps R fo)
    (ho : FlexOrdersAre G fo)
    (h0 : P (cbInit rows cols (fun k => initCash.getD k .nan) callSeq maxOrders maxLogs junk)) :
    Seen Q (fun cb fo => flexSimulateRowWiseNb A X cb fo draw fuel m rows cols lens initCash callSeq maxOrders maxLogs junk)
      cb fo := by
  have h : ∀ e, _ := fun e => (hP.rowWise (e := e) hk (sf := flexSegment A X (cb.guarded Q e) (guardedFlex Q e fo) draw fuel)
    (sg := flexSegment A X cb fo draw fuel)
    fun g i hg hi => hP.segment hk _ (hP.flex hk hf ho hg hi fuel 0)).checked (sharing := X.sharing)
      (cols := cols) (lens := lens) (initCash := initCash) (s := (cbInit rows cols (fun k => initCash.getD k .nan) callSeq
        maxOrders maxLogs junk, m)) (fun _ => h0)
  exact ⟨fun e => (h e).1, fun s m' hs => hP.shows _ ((h .zeroDivision).2 _ hs)⟩

end

end Vbt
