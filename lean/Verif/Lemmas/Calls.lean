import Verif.Spec.Calls
import Verif.Lemmas.Callback
import Verif.Props.C57

/-!
# Following the calls of a simulation
-/

namespace Vbt

/-- `f` does what `g` does, and writes down calls of the kind `W`.  `Q` holds of the call sequence throughout. -/
def Logs {M : Type} (Q : (Nat → Nat → Nat) → Prop) (f : CbState × (M × List Call) → Except Err (CbState × (M × List Call)))
    (g : CbState × M → Except Err (CbState × M)) (W : List Call → Prop) : Prop :=
  ∀ s m l, Q s.arr.callSeq → match g (s, m) with
    | .error e => f (s, (m, l)) = .error e
    | .ok (s', m') => Q s'.arr.callSeq ∧ ∃ calls, W calls ∧ f (s, (m, l)) = .ok (s', (m', l ++ calls))

section
variable {M : Type} {Q : (Nat → Nat → Nat) → Prop}

theorem logs_andThen {f1 f2 g1 g2} {W1 W2 W : List Call → Prop} (h1 : Logs (M := M) Q f1 g1 W1) (h2 : Logs Q f2 g2 W2)
    (hW : ∀ a b, W1 a → W2 b → W (a ++ b)) : Logs Q (andThen f1 f2) (andThen g1 g2) W := by
  intro s m l hq
  have e1 := h1 s m l hq
  unfold andThen
  cases hg : g1 (s, m) with
  | error e =>
    rw [hg] at e1
    simp only at e1 ⊢
    rw [e1]
  | ok r =>
    obtain ⟨s1, m1⟩ := r
    rw [hg] at e1
    obtain ⟨q1, c1, w1, e1⟩ := e1
    simp only
    rw [e1]
    have e2 := h2 s1 m1 (l ++ c1) q1
    cases hg2 : g2 (s1, m1) with
    | error e =>
      rw [hg2] at e2
      exact e2
    | ok r2 =>
      obtain ⟨s2, m2⟩ := r2
      rw [hg2] at e2
      obtain ⟨q2, c2, w2, e2⟩ := e2
      exact ⟨q2, c1 ++ c2, hW _ _ w1 w2, by rw [← List.append_assoc]; exact e2⟩

theorem Logs.mono {f g} {W W' : List Call → Prop} (h : Logs (M := M) Q f g W) (hW : ∀ a, W a → W' a) : Logs Q f g W' := by
  intro s m l hq
  have e1 := h s m l hq
  cases hg : g (s, m) with
  | error e => rw [hg] at e1; exact e1
  | ok r =>
    rw [hg] at e1
    obtain ⟨q1, c1, w1, e1⟩ := e1
    exact ⟨q1, c1, hW _ w1, e1⟩

theorem logs_onlyIf {f g} {W : List Call → Prop} (b : Bool) (h : Logs (M := M) Q f g W) :
    Logs Q (onlyIf b f) (onlyIf b g) (fun c => if b then W c else c = []) := by
  cases b with
  | true => exact h
  | false =>
    intro s m l hq
    exact ⟨hq, [], rfl, by rw [List.append_nil]; rfl⟩

/-- A callback. -/
theorem Logs.hook {f : CbState → M → Except Err (CbArrays × M)} (c : Call)
    (hf : (∀ q, Q q) ∨ ∀ s m a m', f s m = .ok (a, m') → a.callSeq = s.arr.callSeq) :
    Logs Q (callHook (noting c f)) (callHook f) (· = [c]) := by
  intro s m l hq
  unfold callHook noting
  simp only
  cases hr : f s m with
  | error e => rfl
  | ok r =>
    obtain ⟨a, m'⟩ := r
    refine ⟨?_, [c], rfl, rfl⟩
    rcases hf with hf | hf
    · exact hf _
    · simp only
      rw [hf s m a m' hr]
      exact hq

/-- What does not concern the callbacks. -/
theorem Logs.silent {f : CbState × (M × List Call) → Except Err (CbState × (M × List Call))}
    {g : CbState × M → Except Err (CbState × M)} (step : CbState → Except Err CbState)
    (hf : ∀ s n, f (s, n) = match step s with | .error e => .error e | .ok s' => .ok (s', n))
    (hg : ∀ s n, g (s, n) = match step s with | .error e => .error e | .ok s' => .ok (s', n))
    (hc : ∀ s s', step s = .ok s' → s'.arr.callSeq = s.arr.callSeq) : Logs Q f g (· = []) := by
  intro s m l hq
  rw [hg, hf]
  cases hs : step s with
  | error e => rfl
  | ok s' => exact ⟨by rw [hc s s' hs]; exact hq, [], rfl, by rw [List.append_nil]⟩

/-- A loop. -/
theorem Logs.loop {α : Type} [DecidableEq α] {f : CbState × (M × List Call) → α → Except Err (CbState × (M × List Call))}
    {g : CbState × M → α → Except Err (CbState × M)} {W : α → List Call → Prop} (l : List α) (hl : l.Nodup)
    (h : ∀ x ∈ l, Logs Q (fun s => f s x) (fun s => g s x) (W x)) :
    Logs Q (fun s => loopE f s l) (fun s => loopE g s l)
      (fun c => ∃ w : α → List Call, (∀ x ∈ l, W x (w x)) ∧ c = l.flatMap w) := by
  induction l with
  | nil =>
    intro s m l hq
    exact ⟨hq, [], ⟨fun _ => [], by simp, rfl⟩, by rw [List.append_nil]; rfl⟩
  | cons x xs ih =>
    have h1 := h x (by simp)
    rw [List.nodup_cons] at hl
    have h2 := ih hl.2 (fun y hy => h y (List.mem_cons_of_mem _ hy))
    have := logs_andThen (W := fun c => ∃ w : α → List Call, (∀ y ∈ x :: xs, W y (w y)) ∧ c = (x :: xs).flatMap w) h1 h2 ?_
    · intro s m l hq
      exact this s m l hq
    · rintro a b ha ⟨w, hw, rfl⟩
      refine ⟨fun y => if y = x then a else w y, ?_, ?_⟩
      · intro y hy
        beta_reduce
        by_cases he : y = x
        · rw [if_pos he, he]; exact ha
        · rw [if_neg he]
          rw [List.mem_cons] at hy
          exact hw y (hy.resolve_left he)
      · rw [List.flatMap_cons]
        simp only [if_true]
        congr 1
        apply List.flatMap_congr
        intro y hy
        have hne : y ≠ x := fun he => hl.1 (he ▸ hy)
        rw [if_neg hne]

/-! ## Orders -/

variable {A : Arith} {X : CbInputs} {cb : Callbacks M}

theorem openStats_state (x : SegCtx) {N : Type} (s : CbState) (n : N) :
    openStats A x (s, n) = match loopE (fun (s : CbState) (k : Nat) =>
        match updateOpenPosStats A (s.arr.posRec (x.fromCol + k)) (s.arr.position (x.fromCol + k))
          (s.arr.valPrice (x.fromCol + k)) with
        | .error e => .error e
        | .ok r => .ok { s with arr := { s.arr with posRec := setAt s.arr.posRec (x.fromCol + k) r } }) s (List.range x.len) with
      | .error e => .error e
      | .ok s' => .ok (s', n) := by
  unfold openStats
  simp only
  generalize List.range x.len = l
  induction l generalizing s with
  | nil => rfl
  | cons k l ih =>
    rw [loopE, loopE]
    simp only
    cases updateOpenPosStats A (s.arr.posRec (x.fromCol + k)) (s.arr.position (x.fromCol + k))
      (s.arr.valPrice (x.fromCol + k)) with
    | error e => rfl
    | ok r => exact ih _

theorem logs_openStats (x : SegCtx) : Logs (M := M) Q (openStats A x) (openStats A x) (· = []) := by
  refine Logs.silent _ (fun s n => openStats_state x s n) (fun s n => openStats_state x s n) ?_
  intro s s' h
  refine loopE_inv (P := fun t : CbState => t.arr.callSeq = s.arr.callSeq) ?_ rfl h
  intro t k t' _ ht he
  split at he
  · cases he
  · cases he
    exact ht

theorem placeOrder_store (col k : Nat) (now : Now) (order : Order) (u : F) (x : SegCtx) (a : CbArrays) (m : M) (s : CbState) :
    placeOrder A X cb x col k now order u a m s =
      match processOrder A x.i col x.group (now.proc s.oidx s.lidx) X.updVal (resolveInfPrice X.close x.i col order) u
          s.buf with
      | .error e => .error e
      | .ok (res, st, b) =>
        match (if X.fillPos then updatePosRecord A (a.posRec col) x.i col now.position st.position res
            else .ok (a.posRec col)) with
        | .error e => .error e
        | .ok r => callHook (cb.postOrder x col k now res (afterOrder st (returnOf A (a.second (keyOf X x col)) st.value)))
            ({ s with arr := storeOrder X (keyOf X x col) col a s st (returnOf A (a.second (keyOf X x col)) st.value) r,
                      oidx := st.oidx, lidx := st.lidx, buf := b }, m) := rfl

theorem placeOrder_logs {col k : Nat} {now : Now} {order : Order} {u : F} {x : SegCtx} (a : CbArrays) (m : M) (s : CbState)
    (l : List Call) (hk : (∀ q, Q q) ∨ KeepsCallSeq cb) (hq : Q a.callSeq) :
    match placeOrder A X cb x col k now order u a m s with
    | .error e => placeOrder A X cb.noted x col k now order u a (m, l) s = .error e
    | .ok (s', m') => Q s'.arr.callSeq ∧ placeOrder A X cb.noted x col k now order u a (m, l) s =
        .ok (s', (m', l ++ [.postOrder x.i x.group k col])) := by
  rw [placeOrder_store, placeOrder_store]
  cases processOrder A x.i col x.group (now.proc s.oidx s.lidx) X.updVal (resolveInfPrice X.close x.i col order) u s.buf with
  | error e => rfl
  | ok r =>
    obtain ⟨res, st, b⟩ := r
    simp only
    cases (if X.fillPos = true then updatePosRecord A (a.posRec col) x.i col now.position st.position res
        else .ok (a.posRec col)) with
    | error e => rfl
    | ok r =>
      simp only
      have h1 := Logs.hook (Q := Q)
        (f := cb.postOrder x col k now res (afterOrder st (returnOf A (a.second (keyOf X x col)) st.value)))
        (.postOrder x.i x.group k col) (hk.imp_right fun h => h.postOrder x col k now res _)
        { s with arr := storeOrder X (keyOf X x col) col a s st (returnOf A (a.second (keyOf X x col)) st.value) r,
                 oidx := st.oidx, lidx := st.lidx, buf := b } m l hq
      split at h1
      · exact h1
      · obtain ⟨q1, c, rfl, h1⟩ := h1
        exact ⟨q1, h1⟩

theorem cbSlot_place (x : SegCtx) (s : CbState × M) (k : Nat) :
    cbSlot A X cb x s k =
      let col := x.fromCol + s.1.arr.callSeq x.i (x.fromCol + k)
      let now := nowAt s.1.arr (if X.sharing then x.group else col) col
      if s.1.arr.callSeq x.i (x.fromCol + k) ≥ x.len then .error (.valueError "Call index exceeds bounds of the group")
      else
        match cb.order x col k now s.1 s.2 with
        | .error e => .error e
        | .ok (order, a1, m1) => placeOrder A X cb x col k now order (X.draw x.i (x.fromCol + k)) a1 m1 s.1 := rfl

/-- One slot: the order function, then the function after the order, for the column of the call sequence. -/
theorem Logs.slot (hk : (∀ q, Q q) ∨ KeepsCallSeq cb) (x : SegCtx) (k : Nat) :
    Logs Q (fun s => cbSlot A X cb.noted x s k) (fun s => cbSlot A X cb x s k)
      (fun c => ∃ cs, Q cs ∧ cs x.i (x.fromCol + k) < x.len ∧
        c = [.order x.i x.group k (x.fromCol + cs x.i (x.fromCol + k)),
          .postOrder x.i x.group k (x.fromCol + cs x.i (x.fromCol + k))]) := by
  intro s m l hq
  simp only [cbSlot_place]
  by_cases hc : s.arr.callSeq x.i (x.fromCol + k) ≥ x.len
  · rw [if_pos hc, if_pos hc]
  · rw [if_neg hc, if_neg hc]
    generalize hcol : x.fromCol + s.arr.callSeq x.i (x.fromCol + k) = col
    generalize hnow : nowAt s.arr (if X.sharing then x.group else col) col = now
    have hnoted : cb.noted.order x col k now s (m, l) = match cb.order x col k now s m with
      | .error e => .error e
      | .ok (o, a, m') => .ok (o, a, (m', l ++ [.order x.i x.group k col])) := rfl
    rw [hnoted]
    cases ho : cb.order x col k now s m with
    | error e => rfl
    | ok r =>
      obtain ⟨o, a, m1⟩ := r
      simp only
      have hqa : Q a.callSeq := by
        rcases hk with h | h
        · exact h _
        · rw [h.order x col k now s m o a m1 ho]; exact hq
      have h1 := placeOrder_logs (A := A) (X := X) (col := col) (k := k) (now := now) (order := o)
        (u := X.draw x.i (x.fromCol + k)) (x := x) a m1 s (l ++ [.order x.i x.group k col]) hk hqa
      cases hp : placeOrder A X cb x col k now o (X.draw x.i (x.fromCol + k)) a m1 s with
      | error e =>
        rw [hp] at h1
        exact h1
      | ok r =>
        obtain ⟨s', m'⟩ := r
        rw [hp] at h1
        refine ⟨h1.1, _, ⟨s.arr.callSeq, hq, by omega, rfl⟩, ?_⟩
        rw [h1.2, hcol, List.append_assoc]
        rfl

/-- The loop of a segment with a flexible order function. -/
theorem Logs.flex {fo : FlexOrder M} {draw : Nat → Nat → Nat → F} (x : SegCtx) (fuel k : Nat) :
    Logs (fun _ => True) (flexLoop A X cb.noted (notedFlex fo) draw x fuel k) (flexLoop A X cb fo draw x fuel k)
      (fun c => ∃ cols : List Nat, (∀ col ∈ cols, x.fromCol ≤ col ∧ col < x.fromCol + x.len) ∧
        c = (List.range cols.length).flatMap (fun j => [.flexOrder x.i x.group (k + j),
          .postOrder x.i x.group (k + j) (cols.getD j 0)]) ++ [.flexOrder x.i x.group (k + cols.length)]) := by
  induction fuel generalizing k with
  | zero => intro s m l _; rfl
  | succ fuel ih =>
    intro s m l _
    rw [flexLoop, flexLoop]
    have hnoted : notedFlex fo x k (s, (m, l)).1 (s, (m, l)).2 = match fo x k s m with
      | .error e => .error e
      | .ok (c, o, a, m') => .ok (c, o, a, (m', l ++ [.flexOrder x.i x.group k])) := rfl
    rw [hnoted]
    cases ho : fo x k s m with
    | error e => simp only [ho]
    | ok r =>
      obtain ⟨c, o, a, m1⟩ := r
      simp only [ho]
      by_cases h1 : c = -1
      · rw [if_pos h1, if_pos h1]
        exact ⟨trivial, _, ⟨[], by simp, rfl⟩, rfl⟩
      · rw [if_neg h1, if_neg h1]
        by_cases h2 : c < x.fromCol ∨ c ≥ x.fromCol + x.len
        · rw [if_pos h2, if_pos h2]
        · rw [if_neg h2, if_neg h2]
          generalize hnow : (Now.mk (a.cash (if X.sharing then x.group else c.toNat)) (a.position c.toNat) (a.debt c.toNat)
            (a.free (if X.sharing then x.group else c.toNat)) (a.valPrice c.toNat)
            (a.value (if X.sharing then x.group else c.toNat)) (a.ret (if X.sharing then x.group else c.toNat))) = now
          have h3 := placeOrder_logs (Q := fun _ => True) (cb := cb) (A := A) (X := X) (col := c.toNat) (k := k) (now := now)
            (order := o) (u := draw x.i c.toNat k) (x := x) a m1 s (l ++ [.flexOrder x.i x.group k])
            (Or.inl fun _ => trivial) trivial
          cases hp : placeOrder A X cb x c.toNat k now o (draw x.i c.toNat k) a m1 s with
          | error e =>
            rw [hp] at h3
            simp only at h3 ⊢
            rw [h3]
          | ok r =>
            obtain ⟨s1, m2⟩ := r
            rw [hp] at h3
            simp only
            rw [h3.2]
            simp only
            have h4 := ih (k + 1) s1 m2 (l ++ [.flexOrder x.i x.group k] ++ [.postOrder x.i x.group k c.toNat]) trivial
            cases hf : flexLoop A X cb fo draw x fuel (k + 1) (s1, m2) with
            | error e =>
              rw [hf] at h4
              exact h4
            | ok r =>
              obtain ⟨s2, m3⟩ := r
              rw [hf] at h4
              obtain ⟨_, calls, ⟨cols, hcols, rfl⟩, h4⟩ := h4
              refine ⟨trivial, _, ⟨c.toNat :: cols, ?_, rfl⟩, ?_⟩
              · intro col hcol
                rw [List.mem_cons] at hcol
                rcases hcol with rfl | hcol
                · omega
                · exact hcols col hcol
              · rw [h4, List.length_cons, List.range_succ_eq_map, List.flatMap_cons, List.flatMap_map]
                simp only [List.append_assoc, List.cons_append, List.nil_append, Nat.add_zero, List.getD_cons_zero,
                  List.getD_cons_succ, Nat.succ_eq_add_one]
                have e1 : ∀ j : Nat, k + 1 + j = k + (j + 1) := fun j => by omega
                simp only [e1]

/-! ## Segments -/

/-- A segment. -/
theorem logs_segment (hk : (∀ q, Q q) ∨ KeepsCallSeq cb) (x : SegCtx) {f g} {W : List Call → Prop} (hW : ∃ c, W c)
    (h : Logs Q f g W) : Logs Q (segmentWith A X cb.noted x f) (segmentWith A X cb x g)
      (fun c => ∃ orders, W orders ∧ c = segmentCalls X x.i x.group orders) := by
  have hpre := logs_onlyIf (X.callPre || X.segMask x.i x.group)
    (Logs.hook (.preSegment x.i x.group) (hk.imp_right fun h => h.preSeg x))
  have hpost := logs_onlyIf (X.callPost || X.segMask x.i x.group)
    (Logs.hook (.postSegment x.i x.group) (hk.imp_right fun h => h.postSeg x))
  have hopen : Logs (M := M) Q (onlyIf X.fillPos (openStats A x)) (onlyIf X.fillPos (openStats A x)) (· = []) :=
    (logs_onlyIf X.fillPos (logs_openStats x)).mono (fun a ha => by split at ha <;> exact ha)
  have hbefore : Logs (M := M) Q (fun s => .ok (valuesBefore A X.sharing x s)) (fun s => .ok (valuesBefore A X.sharing x s))
      (· = []) := by
    intro s m l hq
    exact ⟨hq, [], rfl, by rw [List.append_nil]; rfl⟩
  have hafter : Logs (M := M) Q (fun s => .ok (valuesAfter A X x s)) (fun s => .ok (valuesAfter A X x s)) (· = []) := by
    intro s m l hq
    exact ⟨hq, [], rfl, by rw [List.append_nil]; rfl⟩
  have h6 := logs_andThen hopen hpost (W := fun c => if X.callPost || X.segMask x.i x.group then c = [.postSegment x.i x.group] else c = [])
    (fun a b ha hb => by rw [ha, List.nil_append]; exact hb)
  have h5 := logs_andThen hafter h6 (W := fun c => if X.callPost || X.segMask x.i x.group then c = [.postSegment x.i x.group] else c = [])
    (fun a b ha hb => by rw [ha, List.nil_append]; exact hb)
  have h4 := logs_andThen (logs_onlyIf (X.segMask x.i x.group) h) h5
    (W := fun c => ∃ orders, W orders ∧ c = (if X.segMask x.i x.group then orders else []) ++
      (if X.callPost || X.segMask x.i x.group then [.postSegment x.i x.group] else []))
    (fun a b ha hb => by
      have hb' : b = if X.callPost || X.segMask x.i x.group then [.postSegment x.i x.group] else [] := by
        split at hb <;> (rename_i hc; first | rw [if_pos hc] | rw [if_neg hc]) <;> exact hb
      rw [hb']
      cases hm : X.segMask x.i x.group with
      | true => rw [hm] at ha; exact ⟨a, ha, rfl⟩
      | false =>
        rw [hm] at ha
        obtain ⟨c, hc⟩ := hW
        exact ⟨c, hc, by rw [show a = [] from ha]; rfl⟩)
  have h3 := logs_andThen hbefore h4 (W := fun c => ∃ orders, W orders ∧ c = (if X.segMask x.i x.group then orders else []) ++
      (if X.callPost || X.segMask x.i x.group then [.postSegment x.i x.group] else []))
    (fun a b ha hb => by rw [ha, List.nil_append]; exact hb)
  have h2 := logs_andThen hopen h3 (W := fun c => ∃ orders, W orders ∧ c = (if X.segMask x.i x.group then orders else []) ++
      (if X.callPost || X.segMask x.i x.group then [.postSegment x.i x.group] else []))
    (fun a b ha hb => by rw [ha, List.nil_append]; exact hb)
  refine logs_andThen hpre h2 (fun a b ha hb => ?_)
  obtain ⟨orders, ho, hb⟩ := hb
  refine ⟨orders, ho, ?_⟩
  have ha' : a = if X.callPre || X.segMask x.i x.group then [.preSegment x.i x.group] else [] := by
    split at ha <;> (rename_i hc; first | rw [if_pos hc] | rw [if_neg hc]) <;> exact ha
  rw [ha', hb]
  unfold segmentCalls
  rw [List.append_assoc]

end

end Vbt
