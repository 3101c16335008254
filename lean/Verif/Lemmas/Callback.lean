import Verif.Model.Callback
import Verif.Lemmas.Timeline

/-! The callback simulators: inversion of their steps. -/

namespace Vbt
open F

/-- `get_return_nb` does not raise. -/
theorem getReturn_total (A : Arith) (input output : F) : getReturn A input output = .ok (returnOf A input output) := by
  unfold returnOf
  cases h : getReturn A input output with
  | ok v => rfl
  | error e =>
    unfold getReturn at h
    split at h
    · split at h <;> cases h
    · rename_i hz
      unfold divE at h
      rw [if_neg hz] at h
      cases h

theorem andThen_ok {σ : Type} {f g : σ → Except Err σ} {s s' : σ} (h : andThen f g s = .ok s') :
    ∃ t, f s = .ok t ∧ g t = .ok s' := by
  unfold andThen at h
  cases hf : f s with
  | error e => rw [hf] at h; cases h
  | ok t => rw [hf] at h; exact ⟨t, rfl, h⟩

theorem callHook_ok {M : Type} {f : CbState → M → Except Err (CbArrays × M)} {s s' : CbState × M}
    (h : callHook f s = .ok s') : ∃ a m, f s.1 s.2 = .ok (a, m) ∧ s' = ({ s.1 with arr := a }, m) := by
  unfold callHook at h
  cases hf : f s.1 s.2 with
  | error e => rw [hf] at h; cases h
  | ok r => rw [hf] at h; cases h; exact ⟨r.1, r.2, rfl, rfl⟩

/-- The current values handed to the order function. -/
def nowAt (a : CbArrays) (key col : Nat) : Now :=
  { cash := a.cash key, position := a.position col, debt := a.debt col, free := a.free key,
    valPrice := a.valPrice col, value := a.value key, ret := a.ret key }

/-- The state handed to `process_order_nb`. -/
def Now.proc (n : Now) (oidx lidx : Nat) : ProcState :=
  { cash := n.cash, position := n.position, debt := n.debt, freeCash := n.free,
    valPrice := n.valPrice, value := n.value, oidx := oidx, lidx := lidx }

/-- The values after an order. -/
def afterOrder (st : ProcState) (ret : F) : Now :=
  { cash := st.cash, position := st.position, debt := st.debt, free := st.freeCash,
    valPrice := st.valPrice, value := st.value, ret := ret }

/-- The arrays after an order. -/
def storeOrder (X : CbInputs) (key col : Nat) (a : CbArrays) (s : CbState) (st : ProcState) (ret : F) (r : TradeRec) :
    CbArrays := { a with
      position := setAt a.position col st.position
      debt := setAt a.debt col st.debt
      valPrice := if !st.valPrice.isnan || !X.ffill then setAt a.valPrice col st.valPrice else a.valPrice
      cash := setAt a.cash key st.cash
      free := setAt a.free key st.freeCash
      value := setAt a.value key st.value
      ret := setAt a.ret key ret
      lastOidx := if s.oidx ≠ st.oidx then setAt a.lastOidx col s.oidx else a.lastOidx
      lastLidx := if s.lidx ≠ st.lidx then setAt a.lastLidx col s.lidx else a.lastLidx
      posRec := setAt a.posRec col r }

/-- The index of the balances of a column. -/
def keyOf (X : CbInputs) (x : SegCtx) (col : Nat) : Nat := if X.sharing then x.group else col

theorem cbSlot_ok {M : Type} {A : Arith} {X : CbInputs} {cb : Callbacks M} {x : SegCtx} {s s' : CbState × M} {k : Nat}
    (h : cbSlot A X cb x s k = .ok s') :
    ∃ colI col key, colI = s.1.arr.callSeq x.i (x.fromCol + k) ∧ colI < x.len ∧ col = x.fromCol + colI ∧
      key = keyOf X x col ∧
      ∃ order a1 m1, cb.order x col k (nowAt s.1.arr key col) s.1 s.2 = .ok (order, a1, m1) ∧
      ∃ res st b, processOrder A x.i col x.group ((nowAt s.1.arr key col).proc s.1.oidx s.1.lidx) X.updVal
          (resolveInfPrice X.close x.i col order) (X.draw x.i (x.fromCol + k)) s.1.buf = .ok (res, st, b) ∧
      ∃ r, (if X.fillPos then updatePosRecord A (a1.posRec col) x.i col (s.1.arr.position col) st.position res
          else .ok (a1.posRec col)) = .ok r ∧
      callHook (cb.postOrder x col k (nowAt s.1.arr key col) res (afterOrder st (returnOf A (a1.second key) st.value)))
        ({ s.1 with arr := storeOrder X key col a1 s.1 st (returnOf A (a1.second key) st.value) r,
                    oidx := st.oidx, lidx := st.lidx, buf := b }, m1) = .ok s' := by
  unfold cbSlot at h
  simp only at h
  by_cases hc : s.1.arr.callSeq x.i (x.fromCol + k) ≥ x.len
  · rw [if_pos hc] at h; cases h
  · rw [if_neg hc] at h
    refine ⟨_, _, _, rfl, by omega, rfl, rfl, ?_⟩
    cases ho : cb.order x (x.fromCol + s.1.arr.callSeq x.i (x.fromCol + k)) k
        (nowAt s.1.arr (keyOf X x (x.fromCol + s.1.arr.callSeq x.i (x.fromCol + k)))
          (x.fromCol + s.1.arr.callSeq x.i (x.fromCol + k))) s.1 s.2 with
    | error e =>
      unfold nowAt keyOf at ho
      rw [ho] at h; cases h
    | ok r =>
      obtain ⟨order, a1, m1⟩ := r
      refine ⟨order, a1, m1, rfl, ?_⟩
      unfold nowAt keyOf at ho
      rw [ho] at h
      simp only at h
      split at h
      · cases h
      rename_i res st b hp
      refine ⟨res, st, b, hp, ?_⟩
      split at h
      · cases h
      rename_i r hr
      exact ⟨r, hr, h⟩

end Vbt
