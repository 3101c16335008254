import Verif.Lemmas.LocalSteps
import Verif.Spec.Group

/-! A segment of the callback simulators is a local step of its group. -/

namespace Vbt
open F

theorem SameGroup.refl {M : Type} {sharing : Bool} {mem : Nat × Nat × Nat → M → M → Prop} (he : ∀ g, Equivalence (mem g))
    (g : Nat × Nat × Nat) (s : CbState × M) : SameGroup sharing mem g s s := by
  constructor <;> first | exact (he g).refl _ | (intros; rfl) | rfl

theorem SameGroup.symm {M : Type} {sharing : Bool} {mem : Nat × Nat × Nat → M → M → Prop} (he : ∀ g, Equivalence (mem g))
    {g : Nat × Nat × Nat} {s t : CbState × M} (h : SameGroup sharing mem g s t) : SameGroup sharing mem g t s where
  cash k hk := (h.cash k hk).symm
  free k hk := (h.free k hk).symm
  value k hk := (h.value k hk).symm
  second k hk := (h.second k hk).symm
  ret k hk := (h.ret k hk).symm
  temp k hk := (h.temp k hk).symm
  position k hk := (h.position k hk).symm
  debt k hk := (h.debt k hk).symm
  valPrice k hk := (h.valPrice k hk).symm
  posRec k hk := (h.posRec k hk).symm
  callSeq i k hk := (h.callSeq i k hk).symm
  view := h.view.symm
  mem := (he g).symm h.mem

theorem SameGroup.trans {M : Type} {sharing : Bool} {mem : Nat × Nat × Nat → M → M → Prop} (he : ∀ g, Equivalence (mem g))
    {g : Nat × Nat × Nat} {s t u : CbState × M} (h : SameGroup sharing mem g s t) (h' : SameGroup sharing mem g t u) :
    SameGroup sharing mem g s u where
  cash k hk := (h.cash k hk).trans (h'.cash k hk)
  free k hk := (h.free k hk).trans (h'.free k hk)
  value k hk := (h.value k hk).trans (h'.value k hk)
  second k hk := (h.second k hk).trans (h'.second k hk)
  ret k hk := (h.ret k hk).trans (h'.ret k hk)
  temp k hk := (h.temp k hk).trans (h'.temp k hk)
  position k hk := (h.position k hk).trans (h'.position k hk)
  debt k hk := (h.debt k hk).trans (h'.debt k hk)
  valPrice k hk := (h.valPrice k hk).trans (h'.valPrice k hk)
  posRec k hk := (h.posRec k hk).trans (h'.posRec k hk)
  callSeq i k hk := (h.callSeq i k hk).trans (h'.callSeq i k hk)
  view := h.view.trans h'.view
  mem := (he g).trans h.mem h'.mem

/-- What the groups of a simulation share: the space for records. -/
def groupShares {M : Type} (sharing : Bool) (mem : Nat × Nat × Nat → M → M → Prop) (he : ∀ g, Equivalence (mem g)) :
    Shares (CbState × M) (Nat × Nat × Nat) where
  same := SameGroup sharing mem
  refl := SameGroup.refl he
  symm _ _ _ h := h.symm he
  trans _ _ _ _ h h' := h.trans he h'
  cnt b s := if b then s.1.lidx else s.1.oidx
  cap b s := if b then s.1.buf.maxLogs else s.1.buf.maxOrders

/-- Groups have different numbers and no common columns. -/
def Apart (g h : Nat × Nat × Nat) : Prop := g.1 ≠ h.1 ∧ ∀ c, ownsCol g c → ¬ ownsCol h c

theorem Apart.key {sharing : Bool} {g h : Nat × Nat × Nat} (hd : Apart g h) {k : Nat} (hk : ownsKey sharing g k) :
    ¬ ownsKey sharing h k := by
  unfold ownsKey at hk ⊢
  cases sharing with
  | true =>
    simp only [if_true] at hk ⊢
    intro he
    exact hd.1 (hk.symm.trans he)
  | false =>
    simp only [Bool.false_eq_true, if_false] at hk ⊢
    exact hd.2 k hk

variable {M : Type} {sharing : Bool} {mem : Nat × Nat × Nat → M → M → Prop} {he : ∀ g, Equivalence (mem g)}
  {gs : List (Nat × Nat × Nat)} {g : Nat × Nat × Nat}

/-- A step that does not touch the records. -/
theorem LocalStep.quiet {f : CbState × M → Except Err (CbState × M)}
    (hq : ∀ s s', f s = .ok s' → s'.1.oidx = s.1.oidx ∧ s'.1.lidx = s.1.lidx ∧ s'.1.buf = s.1.buf)
    (hsim : ∀ s t s', SameGroup sharing mem g s t → f s = .ok s' → ∃ t', f t = .ok t' ∧ SameGroup sharing mem g s' t')
    (hframe : ∀ s s', f s = .ok s' → ∀ h ∈ gs, h ≠ g → SameGroup sharing mem h s s') :
    LocalStep (groupShares sharing mem he) gs g f where
  sim := by
    intro s t s' hs h _
    obtain ⟨t', h1, h2⟩ := hsim s t s' hs h
    refine ⟨t', h1, h2, fun b => ?_⟩
    have q1 := hq _ _ h
    have q2 := hq _ _ h1
    simp only [groupShares, q1.1, q1.2.1, q2.1, q2.2.1]
  mono := by
    intro s s' h b
    have q1 := hq _ _ h
    simp only [groupShares, q1.1, q1.2.1, q1.2.2]
    exact ⟨le_refl _, trivial, fun h => h⟩
  frame := hframe

theorem callHook_local {f : CbState → M → Except Err (CbArrays × M)} (hf : LocalHook sharing mem gs g f) :
    LocalStep (groupShares sharing mem he) gs g (callHook f) := by
  apply LocalStep.quiet
  · intro s s' h
    obtain ⟨a, m, -, rfl⟩ := callHook_ok h
    exact ⟨rfl, rfl, rfl⟩
  · intro s t s' hs h
    obtain ⟨a, m, h1, rfl⟩ := callHook_ok h
    obtain ⟨⟨a', m', h2, h3⟩, -⟩ := hf s t a m hs h1
    refine ⟨_, ?_, h3⟩
    unfold callHook
    rw [h2]
  · intro s s' h k hk hne
    obtain ⟨a, m, h1, rfl⟩ := callHook_ok h
    exact (hf s s a m (SameGroup.refl he g s) h1).2 k hk hne

theorem hasCol_iff {g : Nat × Nat × Nat} {i c : Nat} : (segCtx g i).hasCol c = true ↔ ownsCol g c := by
  unfold SegCtx.hasCol segCtx ownsCol
  exact decide_eq_true_iff

theorem hasKey_iff {sharing : Bool} {g : Nat × Nat × Nat} {i k : Nat} : (segCtx g i).hasKey sharing k = true ↔ ownsKey sharing g k := by
  unfold SegCtx.hasKey ownsKey
  cases sharing with
  | true => simp only [if_true]; exact decide_eq_true_iff
  | false => simp only [Bool.false_eq_true, if_false]; exact hasCol_iff

/-! ## The statistics of open positions -/

theorem openStat_local (A : Arith) (hd : ∀ h ∈ gs, h ≠ g → Apart g h) (i k : Nat) (hk : k < g.2.2) :
    LocalStep (groupShares sharing mem he) gs g (fun (s : CbState × M) =>
      match updateOpenPosStats A (s.1.arr.posRec ((segCtx g i).fromCol + k)) (s.1.arr.position ((segCtx g i).fromCol + k))
          (s.1.arr.valPrice ((segCtx g i).fromCol + k)) with
      | .error e => .error e
      | .ok r => .ok ({ s.1 with arr := { s.1.arr with
          posRec := setAt s.1.arr.posRec ((segCtx g i).fromCol + k) r } }, s.2)) := by
  have hown : ownsCol g ((segCtx g i).fromCol + k) := by unfold ownsCol segCtx; simp only; omega
  apply LocalStep.quiet
  · intro s s' h
    split at h
    · cases h
    cases h
    exact ⟨rfl, rfl, rfl⟩
  · intro s t s' hs h
    rw [← hs.posRec _ hown, ← hs.position _ hown, ← hs.valPrice _ hown]
    split at h
    · cases h
    rename_i r hr
    cases h
    refine ⟨_, rfl, ?_⟩
    refine { hs with posRec := ?_ }
    intro c hc
    simp only [setAt]
    split
    · rfl
    · exact hs.posRec c hc
  · intro s s' h k' hk' hne
    split at h
    · cases h
    rename_i r hr
    cases h
    refine { SameGroup.refl he k' s with posRec := ?_ }
    intro c hc
    simp only [setAt]
    rw [if_neg]
    intro hcc
    rw [hcc] at hc
    exact (hd k' hk' hne).2 _ hown hc

theorem openStats_local (A : Arith) (hd : ∀ h ∈ gs, h ≠ g → Apart g h) (i : Nat) :
    LocalStep (groupShares sharing mem he) gs g (openStats (M := M) A (segCtx g i)) := by
  unfold openStats
  apply LocalStep.loop
  intro k hk
  exact openStat_local A hd i k (List.mem_range.mp hk)

/-! ## Values -/

theorem valuesOf_own {A : Arith} {sharing : Bool} {g : Nat × Nat × Nat} {i : Nat} {a b : CbArrays}
    (hc : ∀ k, ownsKey sharing g k → a.cash k = b.cash k) (hp : ∀ c, ownsCol g c → a.position c = b.position c)
    (hv : ∀ c, ownsCol g c → a.valPrice c = b.valPrice c) (k : Nat) (hk : ownsKey sharing g k) :
    valuesOf A sharing (segCtx g i) a k = valuesOf A sharing (segCtx g i) b k := by
  unfold valuesOf
  cases sharing with
  | true =>
    unfold ownsKey at hk
    simp only [if_true] at hk ⊢
    subst hk
    have e : (segCtx g i).group = g.1 := rfl
    rw [e, setAt, setAt, if_pos rfl, if_pos rfl, hc _ (by unfold ownsKey; simp)]
    exact groupValue_congr (fun c h1 h2 => hp c ⟨h1, h2⟩) (fun c h1 h2 => hv c ⟨h1, h2⟩)
  | false =>
    unfold ownsKey at hk
    simp only [Bool.false_eq_true, if_false] at hk ⊢
    rw [if_pos (hasCol_iff.mpr hk), if_pos (hasCol_iff.mpr hk), hp k hk, hv k hk, hc k (by unfold ownsKey; simpa using hk)]

theorem valuesOf_other {A : Arith} {sharing : Bool} {g : Nat × Nat × Nat} {i : Nat} {a : CbArrays} (k : Nat)
    (hk : ¬ ownsKey sharing g k) : valuesOf A sharing (segCtx g i) a k = a.value k := by
  unfold valuesOf
  cases sharing with
  | true =>
    unfold ownsKey at hk
    simp only [if_true] at hk ⊢
    have e : (segCtx g i).group = g.1 := rfl
    rw [setAt, e, if_neg hk]
  | false =>
    unfold ownsKey at hk
    simp only [Bool.false_eq_true, if_false] at hk ⊢
    rw [if_neg (fun h => hk (hasCol_iff.mp h))]

theorem valuesBefore_local (A : Arith) (hd : ∀ h ∈ gs, h ≠ g → Apart g h) (i : Nat) :
    LocalStep (groupShares sharing mem he) gs g (fun (s : CbState × M) => .ok (valuesBefore A sharing (segCtx g i) s)) := by
  apply LocalStep.quiet
  · intro s s' h
    cases h
    exact ⟨rfl, rfl, rfl⟩
  · intro s t s' hs h
    cases h
    refine ⟨_, rfl, ?_⟩
    have hv := valuesOf_own (A := A) (i := i) hs.cash hs.position hs.valPrice
    refine { hs with value := hv, ret := ?_ }
    intro k hk
    simp only [valuesBefore]
    rw [if_pos (hasKey_iff.mpr hk), if_pos (hasKey_iff.mpr hk), hv k hk, hs.second k hk]
  · intro s s' h k' hk' hne
    cases h
    have hx := hd k' hk' hne
    refine { SameGroup.refl he k' s with value := ?_, ret := ?_ }
    · intro k hk
      exact (valuesOf_other k (fun h => hx.key h hk)).symm
    · intro k hk
      simp only [valuesBefore]
      rw [if_neg (fun h => hx.key (hasKey_iff.mp h) hk)]

theorem valuesAfter_local (A : Arith) (X : CbInputs) (hX : X.sharing = sharing) (hd : ∀ h ∈ gs, h ≠ g → Apart g h) (i : Nat) :
    LocalStep (groupShares sharing mem he) gs g (fun (s : CbState × M) => .ok (valuesAfter A X (segCtx g i) s)) := by
  subst hX
  apply LocalStep.quiet
  · intro s s' h
    cases h
    exact ⟨rfl, rfl, rfl⟩
  · intro s t s' hs h
    cases h
    refine ⟨_, rfl, ?_⟩
    have hvp : ∀ c, ownsCol g c →
        (valuesAfter A X (segCtx g i) s).1.arr.valPrice c = (valuesAfter A X (segCtx g i) t).1.arr.valPrice c := by
      intro c hc
      simp only [valuesAfter, hs.valPrice c hc]
    have hv : ∀ k, ownsKey X.sharing g k →
        (valuesAfter A X (segCtx g i) s).1.arr.value k = (valuesAfter A X (segCtx g i) t).1.arr.value k :=
      valuesOf_own (A := A) (i := i) hs.cash hs.position hvp
    refine { hs with valPrice := hvp, value := hv, second := ?_, ret := ?_, temp := ?_ }
    · intro k hk
      simp only [valuesAfter]
      rw [if_pos (hasKey_iff.mpr hk), if_pos (hasKey_iff.mpr hk), hs.temp k hk]
    · intro k hk
      have := hv k hk
      simp only [valuesAfter] at this ⊢
      rw [if_pos (hasKey_iff.mpr hk), if_pos (hasKey_iff.mpr hk), this, hs.temp k hk]
    · intro k hk
      have := hv k hk
      simp only [valuesAfter] at this ⊢
      rw [if_pos (hasKey_iff.mpr hk), if_pos (hasKey_iff.mpr hk), this]
  · intro s s' h k' hk' hne
    cases h
    have hx := hd k' hk' hne
    refine { SameGroup.refl he k' s with valPrice := ?_, value := ?_, second := ?_, ret := ?_, temp := ?_ }
    · intro k hk
      symm
      simp only [valuesAfter]
      exact valuesOf_other k (fun h => hx.key h hk)
    · intro k hk
      simp only [valuesAfter]
      rw [if_neg (fun h => hx.key (hasKey_iff.mp h) hk)]
    · intro k hk
      simp only [valuesAfter]
      rw [if_neg (fun h => hx.key (hasKey_iff.mp h) hk)]
    · intro k hk
      simp only [valuesAfter]
      rw [if_neg (fun h => hx.key (hasKey_iff.mp h) hk)]
    · intro c hc
      have : (segCtx g i).hasCol c = false := by
        rw [Bool.eq_false_iff]
        intro h
        exact hx.2 c (hasCol_iff.mp h) hc
      simp only [valuesAfter, this, Bool.false_and, Bool.false_eq_true, if_false]

/-! ## A slot -/

/-- Processing an order again with other record ids and enough space. -/
theorem processOrder_again {A i col group} {st : ProcState} {upd o u b1 b2 r1 st1 b1'} (a1 l1 a2 l2 : Nat)
    (h1 : processOrder A i col group { st with oidx := a1, lidx := l1 } upd o u b1 = .ok (r1, st1, b1'))
    (hroom : a2 + st1.oidx ≤ b2.maxOrders + a1) (hroom' : l2 + st1.lidx ≤ b2.maxLogs + l1) :
    ∃ st2 b2', processOrder A i col group { st with oidx := a2, lidx := l2 } upd o u b2 = .ok (r1, st2, b2') ∧
      st2.oidx + a1 = a2 + st1.oidx ∧ st2.lidx + l1 = l2 + st1.lidx := by
  have hx : executeOrder A { st with oidx := a1, lidx := l1 } o u = executeOrder A st o u := rfl
  have hx' : executeOrder A { st with oidx := a2, lidx := l2 } o u = executeOrder A st o u := rfl
  unfold processOrder at h1 ⊢
  rw [hx] at h1
  rw [hx']
  cases hex : executeOrder A st o u with
  | error e => rw [hex] at h1; cases h1
  | ok er =>
    obtain ⟨es, res⟩ := er
    rw [hex] at h1
    simp only at h1 ⊢
    split at h1
    · cases h1
    rename_i hrej
    rw [if_neg hrej]
    split at h1
    · cases h1
    split at h1
    · cases h1
    cases h1
    simp only at hroom hroom'
    by_cases hf : r1.status = OrderStatus.Filled
    · simp only [hf, decide_true, if_true] at hroom ⊢
      rw [if_neg (by intro hc; have := hc.2; omega)]
      by_cases hl : o.log = true
      · simp only [hl, if_true] at hroom' ⊢
        rw [if_neg (by intro hc; have := hc.2; omega)]
        exact ⟨_, _, rfl, by simp only <;> omega, by simp only <;> omega⟩
      · simp only [hl, Bool.false_eq_true, if_false, false_and] at hroom' ⊢
        exact ⟨_, _, rfl, by simp only <;> omega, by simp only <;> omega⟩
    · simp only [hf, decide_false, Bool.false_eq_true, if_false, false_and] at hroom ⊢
      by_cases hl : o.log = true
      · simp only [hl, if_true] at hroom' ⊢
        rw [if_neg (by intro hc; have := hc.2; omega)]
        exact ⟨_, _, rfl, by simp only <;> omega, by simp only <;> omega⟩
      · simp only [hl, Bool.false_eq_true, if_false, false_and] at hroom' ⊢
        exact ⟨_, _, rfl, by simp only <;> omega, by simp only <;> omega⟩

/-- The counters of records and the space. -/
theorem processOrder_counts {A i col group} {st : ProcState} {upd o u b r st1 b'}
    (h : processOrder A i col group st upd o u b = .ok (r, st1, b')) :
    st.oidx ≤ st1.oidx ∧ st.lidx ≤ st1.lidx ∧ b'.maxOrders = b.maxOrders ∧ b'.maxLogs = b.maxLogs ∧
    (st.oidx ≤ b.maxOrders → st1.oidx ≤ b.maxOrders) ∧ (st.lidx ≤ b.maxLogs → st1.lidx ≤ b.maxLogs) := by
  unfold processOrder at h
  cases hex : executeOrder A st o u with
  | error e => rw [hex] at h; cases h
  | ok er =>
    obtain ⟨es, res⟩ := er
    rw [hex] at h
    simp only at h
    split at h
    · cases h
    split at h
    · cases h
    rename_i hn1
    split at h
    · cases h
    rename_i hn2
    cases h
    simp only
    refine ⟨?_, ?_, trivial, trivial, ?_, ?_⟩
    · split <;> omega
    · split <;> omega
    · intro h1
      split
      · rename_i hf
        have : ¬ st.oidx ≥ b.maxOrders := fun hc => hn1 ⟨hf, hc⟩
        omega
      · exact h1
    · intro h1
      split
      · rename_i hf
        have : ¬ st.lidx ≥ b.maxLogs := fun hc => hn2 ⟨hf, hc⟩
        omega
      · exact h1

/-- A callback does not touch the records. -/
theorem hook_counts {f : CbState → M → Except Err (CbArrays × M)} {s s' : CbState × M} (h : callHook f s = .ok s') :
    s'.1.oidx = s.1.oidx ∧ s'.1.lidx = s.1.lidx ∧ s'.1.buf = s.1.buf := by
  obtain ⟨a, m, -, rfl⟩ := callHook_ok h
  exact ⟨rfl, rfl, rfl⟩

/-- A slot when the steps succeed. -/
theorem cbSlot_run {A : Arith} {X : CbInputs} {cb : Callbacks M} {x : SegCtx} {s : CbState × M} {k col key : Nat}
    (hc : s.1.arr.callSeq x.i (x.fromCol + k) < x.len) (hcol : col = x.fromCol + s.1.arr.callSeq x.i (x.fromCol + k))
    (hkey : key = keyOf X x col) {order a1 m1} (ho : cb.order x col k (nowAt s.1.arr key col) s.1 s.2 = .ok (order, a1, m1))
    {res st b} (hp : processOrder A x.i col x.group ((nowAt s.1.arr key col).proc s.1.oidx s.1.lidx) X.updVal
          (resolveInfPrice X.close x.i col order) (X.draw x.i (x.fromCol + k)) s.1.buf = .ok (res, st, b))
    {r} (hr : (if X.fillPos then updatePosRecord A (a1.posRec col) x.i col (s.1.arr.position col) st.position res
          else .ok (a1.posRec col)) = .ok r) :
    cbSlot A X cb x s k =
      callHook (cb.postOrder x col k (nowAt s.1.arr key col) res (afterOrder st (returnOf A (a1.second key) st.value)))
        ({ s.1 with arr := storeOrder X key col a1 s.1 st (returnOf A (a1.second key) st.value) r,
                    oidx := st.oidx, lidx := st.lidx, buf := b }, m1) := by
  subst hkey
  subst hcol
  unfold cbSlot
  simp only
  rw [if_neg (by omega)]
  unfold nowAt keyOf at ho hp
  unfold Now.proc at hp
  rw [ho]
  simp only
  simp only at hp
  rw [hp]
  simp only
  rw [hr]
  rfl

/-- Storing the results of the same order. -/
theorem storeOrder_same {X : CbInputs} (hX : X.sharing = sharing) {A : Arith} {col key : Nat} {s t : CbState × M}
    {a a' : CbArrays} {m m' : M} (hs : SameGroup sharing mem g ({ s.1 with arr := a }, m) ({ t.1 with arr := a' }, m'))
    (hk : ownsKey sharing g key) {st st' : ProcState} {b b' : Buffers} {r : TradeRec}
    (e1 : st.cash = st'.cash) (e2 : st.position = st'.position) (e3 : st.debt = st'.debt) (e4 : st.freeCash = st'.freeCash)
    (e5 : st.valPrice = st'.valPrice) (e6 : st.value = st'.value) (hv : viewOf (ownsCell g) b = viewOf (ownsCell g) b') :
    SameGroup sharing mem g
      ({ s.1 with arr := storeOrder X key col a s.1 st (returnOf A (a.second key) st.value) r,
                  oidx := st.oidx, lidx := st.lidx, buf := b }, m)
      ({ t.1 with arr := storeOrder X key col a' t.1 st' (returnOf A (a'.second key) st'.value) r,
                  oidx := st'.oidx, lidx := st'.lidx, buf := b' }, m') := by
  have h2 := hs.second key hk
  simp only at h2
  constructor
  · intro k hk'
    simp only [storeOrder, setAt, e1]
    split
    · rfl
    · exact hs.cash k hk'
  · intro k hk'
    simp only [storeOrder, setAt, e4]
    split
    · rfl
    · exact hs.free k hk'
  · intro k hk'
    simp only [storeOrder, setAt, e6]
    split
    · rfl
    · exact hs.value k hk'
  · exact hs.second
  · intro k hk'
    simp only [storeOrder, setAt, e6, h2]
    split
    · rfl
    · exact hs.ret k hk'
  · exact hs.temp
  · intro k hk'
    simp only [storeOrder, setAt, e2]
    split
    · rfl
    · exact hs.position k hk'
  · intro k hk'
    simp only [storeOrder, setAt, e3]
    split
    · rfl
    · exact hs.debt k hk'
  · intro k hk'
    simp only [storeOrder, e5]
    split
    · simp only [setAt]
      split
      · rfl
      · exact hs.valPrice k hk'
    · exact hs.valPrice k hk'
  · intro k hk'
    simp only [storeOrder, setAt]
    split
    · rfl
    · exact hs.posRec k hk'
  · exact hs.callSeq
  · exact hv
  · exact hs.mem

/-- Storing the results of an order does not touch another group. -/
theorem storeOrder_frame {X : CbInputs} {h : Nat × Nat × Nat} (hd : Apart g h) {col key : Nat}
    {s : CbState × M} {a : CbArrays} {m : M} (hcol : ownsCol g col) (hk : ownsKey sharing g key) {st : ProcState}
    {b : Buffers} {ret : F} {r : TradeRec} (he : ∀ g, Equivalence (mem g))
    (hv : viewOf (ownsCell h) b = viewOf (ownsCell h) s.1.buf) :
    SameGroup sharing mem h ({ s.1 with arr := a }, m)
      ({ s.1 with arr := storeOrder X key col a s.1 st ret r, oidx := st.oidx, lidx := st.lidx, buf := b }, m) := by
  have n1 : ∀ c, ownsCol h c → c ≠ col := by
    intro c hc hcc
    rw [hcc] at hc
    exact hd.2 col hcol hc
  have n2 : ∀ k, ownsKey sharing h k → k ≠ key := by
    intro k hk' hkk
    rw [hkk] at hk'
    exact hd.key hk hk'
  constructor
  · intro k hk'; simp only [storeOrder, setAt, if_neg (n2 k hk')]
  · intro k hk'; simp only [storeOrder, setAt, if_neg (n2 k hk')]
  · intro k hk'; simp only [storeOrder, setAt, if_neg (n2 k hk')]
  · intro k hk'; rfl
  · intro k hk'; simp only [storeOrder, setAt, if_neg (n2 k hk')]
  · intro k hk'; rfl
  · intro k hk'; simp only [storeOrder, setAt, if_neg (n1 k hk')]
  · intro k hk'; simp only [storeOrder, setAt, if_neg (n1 k hk')]
  · intro k hk'
    simp only [storeOrder]
    split
    · simp only [setAt, if_neg (n1 k hk')]
    · rfl
  · intro k hk'; simp only [storeOrder, setAt, if_neg (n1 k hk')]
  · intro i k hk'; rfl
  · exact hv.symm
  · exact (he h).refl _

theorem ownsKey_keyOf {X : CbInputs} (hX : X.sharing = sharing) {i col : Nat} (h : ownsCol g col) :
    ownsKey sharing g (keyOf X (segCtx g i) col) := by
  unfold ownsKey keyOf
  rw [hX]
  cases sharing with
  | true => simp only [if_true]; rfl
  | false => simp only [Bool.false_eq_true, if_false]; exact h

theorem cbSlot_local (A : Arith) (X : CbInputs) (hX : X.sharing = sharing) (hd : ∀ h ∈ gs, h ≠ g → Apart g h)
    (cb : Callbacks M) (i k : Nat) (hk : k < g.2.2)
    (ho : ∀ col now, LocalOrderFn sharing mem gs g (cb.order (segCtx g i) col k now))
    (hpo : ∀ col now res after, LocalHook sharing mem gs g (cb.postOrder (segCtx g i) col k now res after)) :
    LocalStep (groupShares sharing mem he) gs g (fun s => cbSlot A X cb (segCtx g i) s k) where
  sim := by
    intro s t s' hs h hroom
    obtain ⟨colI, col, key, rfl, hlt, hcol, hkey, order, a1, m1, ho1, res, st, b, hp, r, hr, hk1⟩ := cbSlot_ok h
    have hown : ownsCol g col := by
      rw [hcol]
      have : (segCtx g i).len = g.2.2 := rfl
      have : (segCtx g i).fromCol = g.2.1 := rfl
      unfold ownsCol
      omega
    have hslot : ownsCol g ((segCtx g i).fromCol + k) := by
      have : (segCtx g i).fromCol = g.2.1 := rfl
      unfold ownsCol
      omega
    have hok : ownsKey sharing g key := by rw [hkey]; exact ownsKey_keyOf hX hown
    have hnow : nowAt t.1.arr key col = nowAt s.1.arr key col := by
      unfold nowAt
      rw [hs.cash _ hok, hs.position _ hown, hs.debt _ hown, hs.free _ hok, hs.valPrice _ hown, hs.value _ hok, hs.ret _ hok]
    have hcs : t.1.arr.callSeq (segCtx g i).i ((segCtx g i).fromCol + k) =
        s.1.arr.callSeq (segCtx g i).i ((segCtx g i).fromCol + k) := (hs.callSeq _ _ hslot).symm
    obtain ⟨⟨a1', m1', ho2, hs1⟩, -⟩ := ho col (nowAt s.1.arr key col) s t order a1 m1 hs ho1
    have hc1 := hook_counts hk1
    have hroomO := hroom false
    have hroomL := hroom true
    simp only [groupShares, Bool.false_eq_true, if_false, if_true] at hroomO hroomL
    rw [hc1.1] at hroomO
    rw [hc1.2.1] at hroomL
    obtain ⟨st2, b2, hp2, hcnt, hcnt'⟩ := processOrder_again (st := (nowAt s.1.arr key col).proc 0 0)
      s.1.oidx s.1.lidx t.1.oidx t.1.lidx (b2 := t.1.buf) hp (by simp only at hroomO; omega) (by simp only at hroomL; omega)
    obtain ⟨-, e1, e2, e3, e4, e5, e6, hv, -, -⟩ := processOrder_twice (st := (nowAt s.1.arr key col).proc 0 0)
      s.1.oidx s.1.lidx t.1.oidx t.1.lidx hp hp2
    have hpr : a1.posRec col = a1'.posRec col := hs1.posRec col hown
    have hr2 : (if X.fillPos then updatePosRecord A (a1'.posRec col) (segCtx g i).i col (t.1.arr.position col) st2.position res
          else .ok (a1'.posRec col)) = .ok r := by
      rw [← hpr, ← e2, ← hs.position _ hown]
      exact hr
    have hs2 := storeOrder_same (A := A) (col := col) hX hs1 hok (r := r) e1 e2 e3 e4 e5 e6 (hv _ hs.view)
    have hsec : a1.second key = a1'.second key := hs1.second key hok
    have hafter : afterOrder st2 (returnOf A (a1'.second key) st2.value) = afterOrder st (returnOf A (a1.second key) st.value) := by
      unfold afterOrder
      rw [e1, e2, e3, e4, e5, e6, hsec]
    have hrun := cbSlot_run (cb := cb) (s := t) (by rw [hcs]; exact hlt) (by rw [hcs]; exact hcol) hkey
      (by rw [hnow]; exact ho2) (by rw [hnow]; exact hp2) hr2
    rw [hnow, hafter] at hrun
    obtain ⟨t', q1, q2, q3⟩ := (callHook_local (he := he) (hpo col (nowAt s.1.arr key col) res
      (afterOrder st (returnOf A (a1.second key) st.value)))).sim _ _ _ hs2 hk1 (by
        intro b
        have hm := processOrder_counts hp2
        cases b with
        | false =>
          simp only [groupShares, Bool.false_eq_true, if_false]
          rw [hc1.1]
          simp only at hroomO ⊢
          rw [hm.2.2.1]
          omega
        | true =>
          simp only [groupShares, if_true]
          rw [hc1.2.1]
          simp only at hroomL ⊢
          rw [hm.2.2.2.1]
          omega)
    refine ⟨t', hrun.trans q1, q2, fun b => ?_⟩
    have q4 := q3 b
    cases b with
    | false =>
      simp only [groupShares, Bool.false_eq_true, if_false] at q4 ⊢
      omega
    | true =>
      simp only [groupShares, if_true] at q4 ⊢
      omega
  mono := by
    intro s s' h b
    obtain ⟨colI, col, key, rfl, hlt, hcol, hkey, order, a1, m1, ho1, res, st, b1, hp, r, hr, hk1⟩ := cbSlot_ok h
    have hc1 := hook_counts hk1
    have hm := processOrder_counts hp
    simp only [Now.proc] at hm
    cases b with
    | false =>
      simp only [groupShares, Bool.false_eq_true, if_false, hc1.1, hc1.2.2]
      exact ⟨hm.1, hm.2.2.1, hm.2.2.2.2.1⟩
    | true =>
      simp only [groupShares, if_true, hc1.2.1, hc1.2.2]
      exact ⟨hm.2.1, hm.2.2.2.1, hm.2.2.2.2.2⟩
  frame := by
    intro s s' h k' hk' hne
    obtain ⟨colI, col, key, rfl, hlt, hcol, hkey, order, a1, m1, ho1, res, st, b1, hp, r, hr, hk1⟩ := cbSlot_ok h
    have hown : ownsCol g col := by
      rw [hcol]
      have : (segCtx g i).len = g.2.2 := rfl
      have : (segCtx g i).fromCol = g.2.1 := rfl
      unfold ownsCol
      omega
    have hok : ownsKey sharing g key := by rw [hkey]; exact ownsKey_keyOf hX hown
    have f1 := (ho col (nowAt s.1.arr key col) s s order a1 m1 (SameGroup.refl he g s) ho1).2 k' hk' hne
    have hv := (processOrder_twice (st := (nowAt s.1.arr key col).proc 0 0)
      s.1.oidx s.1.lidx s.1.oidx s.1.lidx hp hp).2.2.2.2.2.2.2.2.1 (ownsCell k') (by
        unfold ownsCell
        exact decide_eq_false ((hd k' hk' hne).2 col hown))
    have f2 := storeOrder_frame (X := X) (hd k' hk' hne) (s := s) (a := a1) (m := m1) hown hok (st := st)
      (ret := returnOf A (a1.second key) st.value) (r := r) he hv
    have f3 := (callHook_local (he := he) (hpo col (nowAt s.1.arr key col) res
      (afterOrder st (returnOf A (a1.second key) st.value)))).frame _ _ hk1 k' hk' hne
    exact (f1.trans he f2).trans he f3

/-! ## A segment -/

theorem segment_local (A : Arith) (X : CbInputs) (cb : Callbacks M) (hcb : OwnGroupOnly X.sharing mem gs cb) (hg : g ∈ gs)
    (hd : ∀ h ∈ gs, h ≠ g → Apart g h) (i : Nat) :
    LocalStep (groupShares X.sharing mem hcb.equiv) gs g (segment A X cb (segCtx g i)) := by
  unfold segment segmentWith
  refine LocalStep.andThen (LocalStep.onlyIf _ fun _ => callHook_local (hcb.preSeg g hg i)) ?_
  refine LocalStep.andThen (LocalStep.onlyIf _ fun _ => openStats_local A hd i) ?_
  refine LocalStep.andThen (valuesBefore_local A hd i) ?_
  refine LocalStep.andThen (LocalStep.onlyIf _ fun _ => ?_) ?_
  · apply LocalStep.loop
    intro k hk
    exact cbSlot_local A X rfl hd cb i k (List.mem_range.mp hk) (fun col now => hcb.order g hg i col k now)
      (fun col now res after => hcb.postOrder g hg i col k now res after)
  refine LocalStep.andThen (valuesAfter_local A X rfl hd i) ?_
  refine LocalStep.andThen (LocalStep.onlyIf _ fun _ => openStats_local A hd i) ?_
  exact LocalStep.onlyIf _ fun _ => callHook_local (hcb.postSeg g hg i)

end Vbt
