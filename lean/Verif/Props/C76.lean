import Verif.Lemmas.Calls
import Verif.Spec.Books
import Verif.Props.C56

/-!
# C76: which callbacks a simulation calls, and in which order
-/

namespace Vbt

theorem layoutFrom_range (lens : List Nat) (g0 c0 : Nat) : layoutFrom g0 c0 lens =
    (List.range lens.length).map fun g => (g0 + g, c0 + firstCol lens g, lens.getD g 0) := by
  induction lens generalizing g0 c0 with
  | nil => rfl
  | cons n lens ih =>
    rw [layoutFrom, ih, List.length_cons, List.range_succ_eq_map, List.map_cons, List.map_map]
    refine congrArg₂ _ rfl (List.map_congr_left fun g _ => ?_)
    unfold firstCol
    simp only [Function.comp, Nat.succ_eq_add_one, List.take_succ_cons, List.sum_cons, List.getD_cons_succ]
    refine Prod.ext (by simp only; omega) (Prod.ext (by simp only; omega) rfl)

theorem layout_range (lens : List Nat) : layout lens =
    (List.range lens.length).map fun g => (g, firstCol lens g, lens.getD g 0) := by
  unfold layout
  rw [layoutFrom_range]
  simp only [Nat.zero_add]

section
variable {M : Type} {A : Arith} {X : CbInputs} {cb : Callbacks M} {Q : (Nat → Nat → Nat) → Prop}

/-- What `simulate_nb` and `flex_simulate_nb` call. -/
theorem Logs.groupWise (hk : (∀ q, Q q) ∨ KeepsCallSeq cb) {sf : SegCtx → CbState × (M × List Call) → Except Err (CbState × (M × List Call))}
    {sg : SegCtx → CbState × M → Except Err (CbState × M)} {W : SegCtx → List Call → Prop}
    (h : ∀ x, Logs Q (sf x) (sg x) (W x)) (rows : Nat) (lens : List Nat) :
    Logs Q
      (andThen (callHook cb.noted.preSim) (andThen (fun s => loopE (groupLoopWith cb.noted sf rows) s (layout lens))
        (callHook cb.noted.postSim)))
      (andThen (callHook cb.preSim) (andThen (fun s => loopE (groupLoopWith cb sg rows) s (layout lens)) (callHook cb.postSim)))
      (fun c => ∃ seg : Nat → Nat → List Call, (∀ i < rows, ∀ g < lens.length, W (segAt lens g i) (seg i g)) ∧
        c = groupWiseCalls rows (List.range lens.length) seg) := by
  have hgroup : ∀ g, Logs Q (fun s => groupLoopWith cb.noted sf rows s (g, firstCol lens g, lens.getD g 0))
      (fun s => groupLoopWith cb sg rows s (g, firstCol lens g, lens.getD g 0))
      (fun c => ∃ w : Nat → List Call, (∀ i < rows, W (segAt lens g i) (w i)) ∧
        c = [.preGroup g] ++ (List.range rows).flatMap w ++ [.postGroup g]) := by
    intro g
    have hrows := Logs.loop (Q := Q) (f := fun s i => sf (segAt lens g i) s) (g := fun s i => sg (segAt lens g i) s)
      (W := fun i => W (segAt lens g i)) (List.range rows) List.nodup_range (fun i _ => h (segAt lens g i))
    refine logs_andThen (Logs.hook (.preGroup g) (hk.imp_right fun h => h.preGroup _))
      (logs_andThen hrows (Logs.hook (.postGroup g) (hk.imp_right fun h => h.postGroup _))
        (W := fun c => ∃ w : Nat → List Call, (∀ i < rows, W (segAt lens g i) (w i)) ∧
          c = (List.range rows).flatMap w ++ [.postGroup g]) ?_) ?_
    · rintro a b ⟨w, hw, rfl⟩ rfl
      exact ⟨w, fun i hi => hw i (List.mem_range.mpr hi), rfl⟩
    · rintro a b rfl ⟨w, hw, rfl⟩
      exact ⟨w, hw, by rw [List.append_assoc]⟩
  have hall := Logs.loop (Q := Q) (List.range lens.length) List.nodup_range (fun g _ => hgroup g)
  simp only [layout_range, loopE_mapped]
  refine logs_andThen (Logs.hook .preSim (hk.imp_right fun h => h.preSim))
    (logs_andThen hall (Logs.hook .postSim (hk.imp_right fun h => h.postSim))
      (W := fun c => ∃ seg : Nat → Nat → List Call, (∀ i < rows, ∀ g < lens.length, W (segAt lens g i) (seg i g)) ∧
        c = (List.range lens.length).flatMap (fun g => [.preGroup g] ++ (List.range rows).flatMap (fun i => seg i g) ++
          [.postGroup g]) ++ [.postSim]) ?_) ?_
  · rintro a b ⟨w, hw, rfl⟩ rfl
    choose! v hv using hw
    refine ⟨fun i g => v g i, fun i hi g hg => (hv g (List.mem_range.mpr hg)).1 i hi, ?_⟩
    congr 1
    exact List.flatMap_congr fun g hg => (hv g hg).2
  · rintro a b rfl ⟨seg, hs, rfl⟩
    exact ⟨seg, hs, by unfold groupWiseCalls; rw [List.append_assoc]⟩

/-- What `simulate_row_wise_nb` and `flex_simulate_row_wise_nb` call. -/
theorem Logs.rowWise (hk : (∀ q, Q q) ∨ KeepsCallSeq cb) {sf : SegCtx → CbState × (M × List Call) → Except Err (CbState × (M × List Call))}
    {sg : SegCtx → CbState × M → Except Err (CbState × M)} {W : SegCtx → List Call → Prop}
    (h : ∀ x, Logs Q (sf x) (sg x) (W x)) (rows : Nat) (lens : List Nat) :
    Logs Q
      (andThen (callHook cb.noted.preSim) (andThen (fun s => loopE (rowLoopWith cb.noted sf lens) s (List.range rows))
        (callHook cb.noted.postSim)))
      (andThen (callHook cb.preSim) (andThen (fun s => loopE (rowLoopWith cb sg lens) s (List.range rows)) (callHook cb.postSim)))
      (fun c => ∃ seg : Nat → Nat → List Call, (∀ i < rows, ∀ g < lens.length, W (segAt lens g i) (seg i g)) ∧
        c = rowWiseCalls rows (List.range lens.length) seg) := by
  have hrow : ∀ i, Logs Q (fun s => rowLoopWith cb.noted sf lens s i) (fun s => rowLoopWith cb sg lens s i)
      (fun c => ∃ w : Nat → List Call, (∀ g < lens.length, W (segAt lens g i) (w g)) ∧
        c = [.preRow i] ++ (List.range lens.length).flatMap w ++ [.postRow i]) := by
    intro i
    have hgroups := Logs.loop (Q := Q) (f := fun s g => sf (segAt lens g i) s) (g := fun s g => sg (segAt lens g i) s)
      (W := fun g => W (segAt lens g i)) (List.range lens.length) List.nodup_range (fun g _ => h (segAt lens g i))
    unfold rowLoopWith
    simp only [layout_range, loopE_mapped]
    refine logs_andThen (Logs.hook (.preRow i) (hk.imp_right fun h => h.preRow _))
      (logs_andThen hgroups (Logs.hook (.postRow i) (hk.imp_right fun h => h.postRow _))
        (W := fun c => ∃ w : Nat → List Call, (∀ g < lens.length, W (segAt lens g i) (w g)) ∧
          c = (List.range lens.length).flatMap w ++ [.postRow i]) ?_) ?_
    · rintro a b ⟨w, hw, rfl⟩ rfl
      exact ⟨w, fun i hi => hw i (List.mem_range.mpr hi), rfl⟩
    · rintro a b rfl ⟨w, hw, rfl⟩
      exact ⟨w, hw, by rw [List.append_assoc]⟩
  have hall := Logs.loop (Q := Q) (List.range rows) List.nodup_range (fun i _ => hrow i)
  refine logs_andThen (Logs.hook .preSim (hk.imp_right fun h => h.preSim))
    (logs_andThen hall (Logs.hook .postSim (hk.imp_right fun h => h.postSim))
      (W := fun c => ∃ seg : Nat → Nat → List Call, (∀ i < rows, ∀ g < lens.length, W (segAt lens g i) (seg i g)) ∧
        c = (List.range rows).flatMap (fun i => [.preRow i] ++ (List.range lens.length).flatMap (fun g => seg i g) ++
          [.postRow i]) ++ [.postSim]) ?_) ?_
  · rintro a b ⟨w, hw, rfl⟩ rfl
    choose! v hv using hw
    refine ⟨v, fun i hi g hg => (hv i (List.mem_range.mpr hi)).1 g hg, ?_⟩
    congr 1
    exact List.flatMap_congr fun i hi => (hv i hi).2
  · rintro a b rfl ⟨seg, hs, rfl⟩
    exact ⟨seg, hs, by unfold rowWiseCalls; rw [List.append_assoc]⟩

/-- The orders of a segment. -/
theorem Logs.slots (hk : (∀ q, Q q) ∨ KeepsCallSeq cb) (x : SegCtx) :
    Logs Q (fun s => loopE (cbSlot A X cb.noted x) s (List.range x.len)) (fun s => loopE (cbSlot A X cb x) s (List.range x.len))
      (fun c => ∃ col, (∀ k < x.len, ∃ cs, Q cs ∧ cs x.i (x.fromCol + k) < x.len ∧ col k = x.fromCol + cs x.i (x.fromCol + k)) ∧
        c = orderCalls x.i x.group x.len col) := by
  refine (Logs.loop (List.range x.len) List.nodup_range (fun k _ => Logs.slot hk x k)).mono ?_
  rintro c ⟨w, hw, rfl⟩
  choose! cs hcs using hw
  refine ⟨fun k => x.fromCol + cs k x.i (x.fromCol + k), fun k hk => ?_, ?_⟩
  · exact ⟨cs k, (hcs k (List.mem_range.mpr hk)).1, (hcs k (List.mem_range.mpr hk)).2.1, rfl⟩
  · unfold orderCalls
    exact List.flatMap_congr fun k hk => (hcs k hk).2.2

end

/-- A simulation with callbacks that write down their calls. -/
theorem checked_logs {M : Type} {Q : (Nat → Nat → Nat) → Prop} {f g} {W : List Call → Prop} (h : Logs (M := M) Q f g W)
    {sharing : Bool} {cols : Nat} {lens : List Nat} {initCash : List F} {s : CbState} {m : M} (hq : Q s.arr.callSeq) :
    match checkedSim sharing cols lens initCash (g (s, m)) with
    | .error e => checkedSim sharing cols lens initCash (f (s, (m, []))) = .error e
    | .ok (s', m') => ∃ calls, W calls ∧ checkedSim sharing cols lens initCash (f (s, (m, []))) = .ok (s', (m', calls)) := by
  unfold checkedSim
  split_ifs with h1 h2 h3
  · rfl
  · rfl
  · rfl
  · have h4 := h s m [] hq
    cases hg : g (s, m) with
    | error e => rw [hg] at h4; exact h4
    | ok r =>
      rw [hg] at h4
      obtain ⟨_, c, hc, he⟩ := h4
      exact ⟨c, hc, he⟩

section
variable {M : Type} {A : Arith} {X : CbInputs} {cb : Callbacks M} {m : M} {rows cols : Nat} {lens : List Nat}
  {initCash : List F} {callSeq : Nat → Nat → Nat} {maxOrders : Option Nat} {maxLogs : Nat} {junk : Nat → TradeRec}

/-- The columns of the calls of a group belong to the group. -/
def ColsOk (lens : List Nat) (g : Nat) (col : Nat → Nat) : Prop :=
  ∀ k < lens.getD g 0, firstCol lens g ≤ col k ∧ col k < firstCol lens g + lens.getD g 0

/-- Any segment. -/
theorem logs_anySegment (x : SegCtx) : Logs (fun _ => True) (segment A X cb.noted x) (segment A X cb x)
    (fun c => ∃ col, (∀ k < x.len, x.fromCol ≤ col k ∧ col k < x.fromCol + x.len) ∧
      c = segmentCalls X x.i x.group (orderCalls x.i x.group x.len col)) := by
  have h1 := (Logs.slots (A := A) (X := X) (cb := cb) (Q := fun _ => True) (Or.inl fun _ => trivial) x).mono
    (W' := fun c => ∃ col, (∀ k < x.len, x.fromCol ≤ col k ∧ col k < x.fromCol + x.len) ∧
      c = orderCalls x.i x.group x.len col) (by
      rintro c ⟨col, hcol, rfl⟩
      refine ⟨col, fun k hk => ?_, rfl⟩
      obtain ⟨cs, _, h1, h2⟩ := hcol k hk
      omega)
  refine (logs_segment (Or.inl fun _ => trivial) x ?_ h1).mono ?_
  · exact ⟨_, fun _ => x.fromCol, fun k hk => by simp only; omega, rfl⟩
  · rintro c ⟨o, ⟨col, hcol, rfl⟩, rfl⟩
    exact ⟨col, hcol, rfl⟩

/-- A segment of callbacks that leave the call sequence alone. -/
theorem logs_fixedSegment (hk : KeepsCallSeq cb) (x : SegCtx) :
    Logs (· = callSeq) (segment A X cb.noted x) (segment A X cb x)
      (· = segmentCalls X x.i x.group (orderCalls x.i x.group x.len fun k => x.fromCol + callSeq x.i (x.fromCol + k))) := by
  have h1 := (Logs.slots (A := A) (X := X) (Q := (· = callSeq)) (Or.inr hk) x).mono
    (W' := (· = orderCalls x.i x.group x.len fun k => x.fromCol + callSeq x.i (x.fromCol + k))) (by
      rintro c ⟨col, hcol, rfl⟩
      unfold orderCalls
      refine List.flatMap_congr fun k hk => ?_
      obtain ⟨cs, rfl, _, h2⟩ := hcol k (List.mem_range.mp hk)
      rw [h2])
  refine (logs_segment (Or.inr hk) x (W := (· = orderCalls x.i x.group x.len fun k => x.fromCol + callSeq x.i (x.fromCol + k)))
    ⟨_, rfl⟩ h1).mono ?_
  rintro c ⟨o, rfl, rfl⟩
  rfl

/-- A segment with a flexible order function. -/
theorem logs_flexSegment {fo : FlexOrder M} {draw : Nat → Nat → Nat → F} {fuel : Nat} (x : SegCtx) :
    Logs (fun _ => True) (flexSegment A X cb.noted (notedFlex fo) draw fuel x) (flexSegment A X cb fo draw fuel x)
      (fun c => ∃ cols : List Nat, (∀ col ∈ cols, x.fromCol ≤ col ∧ col < x.fromCol + x.len) ∧
        c = segmentCalls X x.i x.group (flexCalls x.i x.group cols)) := by
  have h1 := (Logs.flex (A := A) (X := X) (cb := cb) (fo := fo) (draw := draw) x fuel 0).mono
    (W' := fun c => ∃ cols : List Nat, (∀ col ∈ cols, x.fromCol ≤ col ∧ col < x.fromCol + x.len) ∧
      c = flexCalls x.i x.group cols) (by
      rintro c ⟨cols, hcols, rfl⟩
      refine ⟨cols, hcols, ?_⟩
      unfold flexCalls
      simp only [Nat.zero_add])
  refine (logs_segment (Or.inl fun _ => trivial) x ⟨_, [], by simp, rfl⟩ h1).mono ?_
  rintro c ⟨o, ⟨cols, hcols, rfl⟩, rfl⟩
  exact ⟨cols, hcols, rfl⟩

theorem groupLoop_fun {N : Type} (cb : Callbacks N) : groupLoop A X cb rows = groupLoopWith cb (segment A X cb) rows := rfl

theorem rowLoop_fun {N : Type} (cb : Callbacks N) : rowLoop A X cb lens = rowLoopWith cb (segment A X cb) lens := rfl

theorem groupWiseCalls_congr {G : Nat} {f f' : Nat → Nat → List Call} (h : ∀ i < rows, ∀ g < G, f i g = f' i g) :
    groupWiseCalls rows (List.range G) f = groupWiseCalls rows (List.range G) f' := by
  unfold groupWiseCalls
  congr 2
  refine List.flatMap_congr fun g hg => ?_
  congr 2
  exact List.flatMap_congr fun i hi => h i (List.mem_range.mp hi) g (List.mem_range.mp hg)

theorem rowWiseCalls_congr {G : Nat} {f f' : Nat → Nat → List Call} (h : ∀ i < rows, ∀ g < G, f i g = f' i g) :
    rowWiseCalls rows (List.range G) f = rowWiseCalls rows (List.range G) f' := by
  unfold rowWiseCalls
  congr 2
  refine List.flatMap_congr fun i hi => ?_
  congr 2
  exact List.flatMap_congr fun g hg => h i (List.mem_range.mp hi) g (List.mem_range.mp hg)

/-- A simulation with `simulate_nb`.  With callbacks that write down their calls the result is the same, and the calls are:
the function before the simulation; for each group the function before the group, its segments in the order of rows, the
function after the group; the function after the simulation.  An active segment calls the function before the segment, then
for each slot the order function and the function after the order, then the function after the segment; a segment that is not
active calls only those before and after it that are asked for.  The columns are columns of the group. -/
theorem C76_simulate :
    match simulateNb A X cb m rows cols lens initCash callSeq maxOrders maxLogs junk with
    | .error e => simulateNb A X cb.noted (m, []) rows cols lens initCash callSeq maxOrders maxLogs junk = .error e
    | .ok (s, m') => ∃ col : Nat → Nat → Nat → Nat, (∀ i < rows, ∀ g < lens.length, ColsOk lens g (col i g)) ∧
        simulateNb A X cb.noted (m, []) rows cols lens initCash callSeq maxOrders maxLogs junk =
          .ok (s, (m', groupWiseCalls rows (List.range lens.length)
            (fun i g => segmentCalls X i g (orderCalls i g (lens.getD g 0) (col i g))))) := by
  have h := checked_logs (Logs.groupWise (cb := cb) (Q := fun _ => True) (Or.inl fun _ => trivial)
    (fun x => logs_anySegment (A := A) (X := X) (cb := cb) x) rows lens) (sharing := X.sharing) (cols := cols) (lens := lens)
    (initCash := initCash)
    (s := cbInit rows cols (fun k => initCash.getD k .nan) callSeq maxOrders maxLogs junk) (m := m) trivial
  unfold simulateNb
  rw [groupLoop_fun, groupLoop_fun]
  split at h
  · exact h
  · obtain ⟨c, ⟨seg, hseg, rfl⟩, he⟩ := h
    choose! col hcol using hseg
    refine ⟨col, fun i hi g hg => (hcol i hi g hg).1, ?_⟩
    rw [he, groupWiseCalls_congr fun i hi g hg => (hcol i hi g hg).2]
    rfl

/-- The same for `simulate_row_wise_nb`: row by row, with the functions before and after the row in place of those before and
after the group. -/
theorem C76_row_wise :
    match simulateRowWiseNb A X cb m rows cols lens initCash callSeq maxOrders maxLogs junk with
    | .error e => simulateRowWiseNb A X cb.noted (m, []) rows cols lens initCash callSeq maxOrders maxLogs junk = .error e
    | .ok (s, m') => ∃ col : Nat → Nat → Nat → Nat, (∀ i < rows, ∀ g < lens.length, ColsOk lens g (col i g)) ∧
        simulateRowWiseNb A X cb.noted (m, []) rows cols lens initCash callSeq maxOrders maxLogs junk =
          .ok (s, (m', rowWiseCalls rows (List.range lens.length)
            (fun i g => segmentCalls X i g (orderCalls i g (lens.getD g 0) (col i g))))) := by
  have h := checked_logs (Logs.rowWise (cb := cb) (Q := fun _ => True) (Or.inl fun _ => trivial)
    (fun x => logs_anySegment (A := A) (X := X) (cb := cb) x) rows lens) (sharing := X.sharing) (cols := cols) (lens := lens)
    (initCash := initCash)
    (s := cbInit rows cols (fun k => initCash.getD k .nan) callSeq maxOrders maxLogs junk) (m := m) trivial
  unfold simulateRowWiseNb
  rw [rowLoop_fun, rowLoop_fun]
  split at h
  · exact h
  · obtain ⟨c, ⟨seg, hseg, rfl⟩, he⟩ := h
    choose! col hcol using hseg
    refine ⟨col, fun i hi g hg => (hcol i hi g hg).1, ?_⟩
    rw [he, rowWiseCalls_congr fun i hi g hg => (hcol i hi g hg).2]
    rfl

/-- The column of slot `k` of the call sequence. -/
def seqCol (lens : List Nat) (callSeq : Nat → Nat → Nat) (i g k : Nat) : Nat :=
  firstCol lens g + callSeq i (firstCol lens g + k)

/-- If the callbacks leave the call sequence alone, the columns are those of the call sequence that was passed. -/
theorem C76_simulate_seq (hk : KeepsCallSeq cb) :
    match simulateNb A X cb m rows cols lens initCash callSeq maxOrders maxLogs junk with
    | .error e => simulateNb A X cb.noted (m, []) rows cols lens initCash callSeq maxOrders maxLogs junk = .error e
    | .ok (s, m') => simulateNb A X cb.noted (m, []) rows cols lens initCash callSeq maxOrders maxLogs junk =
        .ok (s, (m', groupWiseCalls rows (List.range lens.length)
          (fun i g => segmentCalls X i g (orderCalls i g (lens.getD g 0) (seqCol lens callSeq i g))))) := by
  have h := checked_logs (Logs.groupWise (cb := cb) (Q := (· = callSeq)) (Or.inr hk)
    (fun x => logs_fixedSegment (A := A) (X := X) (cb := cb) hk x) rows lens) (sharing := X.sharing) (cols := cols)
    (lens := lens) (initCash := initCash)
    (s := cbInit rows cols (fun k => initCash.getD k .nan) callSeq maxOrders maxLogs junk) (m := m) rfl
  unfold simulateNb
  rw [groupLoop_fun, groupLoop_fun]
  split at h
  · exact h
  · obtain ⟨c, ⟨seg, hseg, rfl⟩, he⟩ := h
    rw [he, groupWiseCalls_congr hseg]
    rfl

/-- The same row by row. -/
theorem C76_row_wise_seq (hk : KeepsCallSeq cb) :
    match simulateRowWiseNb A X cb m rows cols lens initCash callSeq maxOrders maxLogs junk with
    | .error e => simulateRowWiseNb A X cb.noted (m, []) rows cols lens initCash callSeq maxOrders maxLogs junk = .error e
    | .ok (s, m') => simulateRowWiseNb A X cb.noted (m, []) rows cols lens initCash callSeq maxOrders maxLogs junk =
        .ok (s, (m', rowWiseCalls rows (List.range lens.length)
          (fun i g => segmentCalls X i g (orderCalls i g (lens.getD g 0) (seqCol lens callSeq i g))))) := by
  have h := checked_logs (Logs.rowWise (cb := cb) (Q := (· = callSeq)) (Or.inr hk)
    (fun x => logs_fixedSegment (A := A) (X := X) (cb := cb) hk x) rows lens) (sharing := X.sharing) (cols := cols)
    (lens := lens) (initCash := initCash)
    (s := cbInit rows cols (fun k => initCash.getD k .nan) callSeq maxOrders maxLogs junk) (m := m) rfl
  unfold simulateRowWiseNb
  rw [rowLoop_fun, rowLoop_fun]
  split at h
  · exact h
  · obtain ⟨c, ⟨seg, hseg, rfl⟩, he⟩ := h
    rw [he, rowWiseCalls_congr hseg]
    rfl

variable {fo : FlexOrder M} {draw : Nat → Nat → Nat → F} {fuel : Nat}

/-- `flex_simulate_nb`: an active segment calls the order function again and again, numbering the calls from 0, until it
returns -1, and after every other call the function after the order, with the column returned, which is one of the group. -/
theorem C76_flex :
    match flexSimulateNb A X cb fo draw fuel m rows cols lens initCash callSeq maxOrders maxLogs junk with
    | .error e =>
      flexSimulateNb A X cb.noted (notedFlex fo) draw fuel (m, []) rows cols lens initCash callSeq maxOrders maxLogs junk =
        .error e
    | .ok (s, m') => ∃ ret : Nat → Nat → List Nat,
        (∀ i < rows, ∀ g < lens.length, ∀ c ∈ ret i g, firstCol lens g ≤ c ∧ c < firstCol lens g + lens.getD g 0) ∧
        flexSimulateNb A X cb.noted (notedFlex fo) draw fuel (m, []) rows cols lens initCash callSeq maxOrders maxLogs junk =
          .ok (s, (m', groupWiseCalls rows (List.range lens.length)
            (fun i g => segmentCalls X i g (flexCalls i g (ret i g))))) := by
  have h := checked_logs (Logs.groupWise (cb := cb) (Q := fun _ => True) (Or.inl fun _ => trivial)
    (fun x => logs_flexSegment (A := A) (X := X) (cb := cb) (fo := fo) (draw := draw) (fuel := fuel) x) rows lens)
    (sharing := X.sharing) (cols := cols) (lens := lens) (initCash := initCash)
    (s := cbInit rows cols (fun k => initCash.getD k .nan) callSeq maxOrders maxLogs junk) (m := m) trivial
  unfold flexSimulateNb
  split at h
  · exact h
  · obtain ⟨c, ⟨seg, hseg, rfl⟩, he⟩ := h
    choose! ret hret using hseg
    refine ⟨ret, fun i hi g hg => (hret i hi g hg).1, ?_⟩
    rw [he, groupWiseCalls_congr fun i hi g hg => (hret i hi g hg).2]
    rfl

/-- The same for `flex_simulate_row_wise_nb`. -/
theorem C76_flex_row_wise :
    match flexSimulateRowWiseNb A X cb fo draw fuel m rows cols lens initCash callSeq maxOrders maxLogs junk with
    | .error e =>
      flexSimulateRowWiseNb A X cb.noted (notedFlex fo) draw fuel (m, []) rows cols lens initCash callSeq maxOrders maxLogs
        junk = .error e
    | .ok (s, m') => ∃ ret : Nat → Nat → List Nat,
        (∀ i < rows, ∀ g < lens.length, ∀ c ∈ ret i g, firstCol lens g ≤ c ∧ c < firstCol lens g + lens.getD g 0) ∧
        flexSimulateRowWiseNb A X cb.noted (notedFlex fo) draw fuel (m, []) rows cols lens initCash callSeq maxOrders maxLogs
          junk = .ok (s, (m', rowWiseCalls rows (List.range lens.length)
            (fun i g => segmentCalls X i g (flexCalls i g (ret i g))))) := by
  have h := checked_logs (Logs.rowWise (cb := cb) (Q := fun _ => True) (Or.inl fun _ => trivial)
    (fun x => logs_flexSegment (A := A) (X := X) (cb := cb) (fo := fo) (draw := draw) (fuel := fuel) x) rows lens)
    (sharing := X.sharing) (cols := cols) (lens := lens) (initCash := initCash)
    (s := cbInit rows cols (fun k => initCash.getD k .nan) callSeq maxOrders maxLogs junk) (m := m) trivial
  unfold flexSimulateRowWiseNb
  split at h
  · exact h
  · obtain ⟨c, ⟨seg, hseg, rfl⟩, he⟩ := h
    choose! ret hret using hseg
    refine ⟨ret, fun i hi g hg => (hret i hi g hg).1, ?_⟩
    rw [he, rowWiseCalls_congr fun i hi g hg => (hret i hi g hg).2]
    rfl

end

/-! ## Examples -/

/-- Two columns in one group, three rows of which the second is not active; the function after the segment is asked for. -/
def wCalls : CbInputs :=
  { wCbIn with sharing := true, segMask := fun i _ => decide (i ≠ 1), callPost := true }

example : okAnd (simulateNb Arith.std wCalls wCb.noted ((), []) 3 2 [2] [.fin 100] (fun _ c => 1 - c) none 0 (fun _ => wNoRec))
    (fun r => r.2.2 = [.preSim, .preGroup 0,
      .preSegment 0 0, .order 0 0 0 1, .postOrder 0 0 0 1, .order 0 0 1 0, .postOrder 0 0 1 0, .postSegment 0 0,
      .postSegment 1 0,
      .preSegment 2 0, .order 2 0 0 1, .postOrder 2 0 0 1, .order 2 0 1 0, .postOrder 2 0 1 0, .postSegment 2 0,
      .postGroup 0, .postSim]) := by
  decide +kernel

/-- Orders the second column twice, then the first one. -/
def wFlexOrder : FlexOrder Unit := fun x k s m =>
  .ok (if k < 2 then x.fromCol + 1 else if k = 2 then x.fromCol else -1, wBuy, s.arr, m)

example : okAnd (flexSimulateNb Arith.std wCalls wCb.noted (notedFlex wFlexOrder) (fun _ _ _ => F.zero) 9 ((), []) 2 2 [2]
      [.fin 100] (fun _ _ => 0) none 0 (fun _ => wNoRec))
    (fun r => r.2.2 = [.preSim, .preGroup 0,
      .preSegment 0 0, .flexOrder 0 0 0, .postOrder 0 0 0 1, .flexOrder 0 0 1, .postOrder 0 0 1 1, .flexOrder 0 0 2,
      .postOrder 0 0 2 0, .flexOrder 0 0 3, .postSegment 0 0, .postSegment 1 0, .postGroup 0, .postSim]) := by
  decide +kernel

end Vbt
