import Verif.Props.C02

/-!
# C11  Order validation is complete and precedes trading

Every arithmetic.  `Valid` (Spec/Order) lists the documented requirements; balances are taken as read
(zero when close to zero).
-/

namespace Vbt
open F

/-- The errors an order may raise although it is valid. -/
def tradingMessages : List String :=
  [ "val_price_now must be finite and greater than 0",
    "Attempt to go in long direction infinitely",
    "Attempt to go in short direction infinitely" ]

/-- **C11** (NaN size).  Ignored, never an error (unless the log buffer is full), whatever else is wrong. -/
theorem C11_nan_size {A : Arith} {i col group st upd o u b}
    (hn : o.size = nan) (hlog : o.log = true → st.lidx < b.maxLogs) :
    ∃ res st' b', processOrder A i col group st upd o u b = .ok (res, st', b') ∧
      res.status = OrderStatus.Ignored ∧ res.statusInfo = Info.SizeNaN := by
  have hex : executeOrder A st o u = .ok (snapExec A st, orderNotFilled OrderStatus.Ignored Info.SizeNaN) := by
    simp [executeOrder, hn]
  unfold processOrder
  rw [hex]
  simp only [orderNotFilled]
  have h1 : ¬ (o.log = true ∧ st.lidx ≥ b.maxLogs) := by
    rintro ⟨h, h'⟩; have := hlog h; omega
  rw [if_neg h1]
  simp

/-- **C11** (NaN price). -/
theorem C11_nan_price {A : Arith} {i col group st upd o u b}
    (hs : o.size ≠ nan) (hn : o.price = nan) (hlog : o.log = true → st.lidx < b.maxLogs) :
    ∃ res st' b', processOrder A i col group st upd o u b = .ok (res, st', b') ∧
      res.status = OrderStatus.Ignored ∧ res.statusInfo = Info.PriceNaN := by
  have h0 : o.size.isnan = false := by cases h : o.size <;> simp_all
  have hex : executeOrder A st o u = .ok (snapExec A st, orderNotFilled OrderStatus.Ignored Info.PriceNaN) := by
    simp [executeOrder, hn, h0]
  unfold processOrder
  rw [hex]
  simp only [orderNotFilled]
  have h1 : ¬ (o.log = true ∧ st.lidx ≥ b.maxLogs) := by
    rintro ⟨h, h'⟩; have := hlog h; omega
  rw [if_neg h1]
  simp

/-- **C11** (invalid).  If a documented requirement fails, the order raises one of the validation errors. -/
theorem C11_invalid_raises {A : Arith} {i col group st upd o u b}
    (hs : o.size ≠ nan) (hp : o.price ≠ nan) (hv : ¬ Valid (snapExec A st) o) :
    ∃ msg ∈ validationMessages, processOrder A i col group st upd o u b = .error (.valueError msg) := by
  have h1 : o.size.isnan = false := by cases h : o.size <;> simp_all
  have h2 : o.price.isnan = false := by cases h : o.price <;> simp_all
  have : checkOrder (snapExec A st) o ≠ none := fun h => hv (checkOrder_none h)
  obtain ⟨msg, hm⟩ := Option.ne_none_iff_exists'.mp this
  refine ⟨msg, checkOrder_some hm, ?_⟩
  simp [processOrder, executeOrder, h1, h2, hm]

theorem divE_err {A a b e} (h : divE A a b = .error e) : e = .zeroDivision := by
  unfold divE at h; split at h <;> cases h; rfl

theorem ite_ok_err {c : Prop} [Decidable c] {α : Type} {a : α} {x : Except Err α} {e : Err}
    (h : (if c then .ok a else x) = .error e) : x = .error e := by
  by_cases hc : c
  · rw [if_pos hc] at h; cases h
  · rw [if_neg hc] at h; exact h

theorem buyFinal_err {A o sz p l e} (h : buyFinal A o sz p l = .error e) : e = .zeroDivision := by
  unfold buyFinal at h
  replace h := ite_ok_err h
  split at h
  · rename_i hd; cases h; exact divE_err hd
  replace h := ite_ok_err h
  split at h
  · rename_i hd; cases h; exact divE_err hd
  · replace h := ite_ok_err h; cases h

theorem buyCommit_err {A s p f e} (h : buyCommit A s p f = .error e) : e = .zeroDivision := by
  unfold buyCommit at h
  simp only at h
  by_cases hc : lt s.position zero = true
  · rw [if_pos hc] at h
    split at h
    · rename_i hd; cases h; exact divE_err hd
    · cases h
  · rw [if_neg hc] at h; cases h

theorem buyBody_err {A s o size p l e} (h : buyBody A s o size p l = .error e) : e = .zeroDivision := by
  unfold buyBody at h
  replace h := ite_ok_err (ite_ok_err h)
  simp only at h
  cases hf : buyFinal A o (granulate A o.gran (if gt (if o.direction = Direction.ShortOnly then
      pmin s.position.neg size else size) o.maxSize then o.maxSize else
      (if o.direction = Direction.ShortOnly then pmin s.position.neg size else size))) p l with
  | error e' =>
    rw [hf] at h
    cases h
    exact buyFinal_err hf
  | ok x =>
    rw [hf] at h
    cases x with
    | none => cases h
    | some f => exact buyCommit_err (ite_ok_err (ite_ok_err (ite_ok_err h)))

theorem buyCashLimit_err {A s o p pc e} (h : buyCashLimit A s o p pc = .error e) : e = .zeroDivision := by
  unfold buyCashLimit at h
  simp only at h
  split at h
  · rename_i hl
    cases h
    by_cases hk : o.lockCash = true
    · rw [if_pos hk] at hl
      replace hl := ite_ok_err (ite_ok_err hl)
      split at hl
      · split at hl
        · rename_i hd; cases hl; exact divE_err hd
        · split at hl
          · rename_i hd; cases hl; exact divE_err hd
          · cases hl
      · cases hl
    · rw [if_neg hk] at hl; cases hl
  · cases h

theorem buy_err {A s o size percent e} (h : buy A s o size percent = .error e) :
    e = .zeroDivision ∨ e = .valueError "Attempt to go in long direction infinitely" := by
  unfold buy at h
  simp only at h
  split at h
  · rename_i hl; cases h; exact Or.inl (buyCashLimit_err hl)
  · split at h
    · replace h := ite_ok_err h
      split at h
      · cases h; right; rfl
      · exact Or.inl (buyBody_err h)
    · exact Or.inl (buyBody_err (ite_ok_err h))

theorem sellLimit_err {A s o size p pc e} (h : sellLimit A s o size p pc = .error e) : e = .zeroDivision := by
  unfold sellLimit at h
  replace h := ite_ok_err h
  split at h
  · simp only at h
    split at h
    · rename_i hl
      cases h
      split at hl
      · replace hl := ite_ok_err hl; cases hl
      · split at hl
        · rename_i hd; cases hl; exact divE_err hd
        · replace hl := ite_ok_err hl; cases hl
    · cases h
    · split at h
      · replace h := ite_ok_err (ite_ok_err h); cases h
      · cases h
  · cases h

theorem sellBody_err {A s o size p l pc e} (h : sellBody A s o size p l pc = .error e) :
    e = .valueError "Attempt to go in short direction infinitely" := by
  unfold sellBody at h
  replace h := ite_ok_err h
  simp only at h
  by_cases hc : (o.direction = Direction.ShortOnly ∨ o.direction = Direction.Both) ∧
      (if gt (if pc.isnan then l else mul A pc l) o.maxSize then o.maxSize else
        (if pc.isnan then l else mul A pc l)).isinf = true
  · rw [if_pos hc] at h; cases h; rfl
  · rw [if_neg hc] at h
    have := ite_ok_err (ite_ok_err (ite_ok_err (ite_ok_err h)))
    cases this

theorem sell_err {A s o size percent e} (h : sell A s o size percent = .error e) :
    e = .zeroDivision ∨ e = .valueError "Attempt to go in short direction infinitely" := by
  unfold sell at h
  simp only at h
  split at h
  · rename_i hl; cases h; exact Or.inl (sellLimit_err hl)
  · cases h
  · exact Or.inr (sellBody_err h)

theorem resolvePercent_bad {A o size ty m} (h : resolvePercent A o size ty = .bad m) : False := by
  unfold resolvePercent at h
  simp only at h
  repeat' split at h
  all_goals cases h

theorem resolveSize_bad {A s o vp v m} (h : resolveSize A s o vp v = .bad m) :
    m = "val_price_now must be finite and greater than 0" := by
  have hT : ∀ {size ty}, resolveTargetAmount A s o size ty = .bad m → False := by
    intro size ty h
    unfold resolveTargetAmount at h
    split at h <;> exact resolvePercent_bad h
  have hV : ∀ {size ty}, resolveValue A s o vp size ty = .bad m →
      m = "val_price_now must be finite and greater than 0" := by
    intro size ty h
    unfold resolveValue at h
    split at h
    · split at h
      · cases h; rfl
      · split at h
        · cases h
        · exact (hT h).elim
    · exact (hT h).elim
  unfold resolveSize at h
  simp only at h
  split at h
  · split at h
    · cases h
    · split at h
      · cases h
      · exact hV h
  · exact hV h

/-- **C11** (valid).  A valid order raises no validation error: it is processed, or raises one of the errors that
are not about validation (a bad valuation price, infinite size, division by zero, a rejection that was asked
to raise, a full record buffer). -/
theorem C11_valid {A : Arith} {i col group st upd o u b e}
    (hv : Valid (snapExec A st) o) (h : processOrder A i col group st upd o u b = .error e) :
    (∃ msg ∈ tradingMessages, e = .valueError msg) ∨ e = .zeroDivision ∨
    (∃ info, e = .rejectedOrder info ∧ o.raiseReject = true) ∨
    (∃ msg, e = .indexError msg ∧ (b.maxOrders ≤ st.oidx ∨ b.maxLogs ≤ st.lidx)) := by
  unfold processOrder at h
  split at h
  · rename_i hex
    cases h
    unfold executeOrder at hex
    simp only [hv.check] at hex
    split at hex
    · cases hex
    split at hex
    · cases hex
    split at hex
    · rename_i m hr
      cases hex
      left
      exact ⟨_, by rw [resolveSize_bad hr]; simp [tradingMessages], rfl⟩
    · cases hex
    · split at hex
      · rename_i hb
        cases hex
        split at hb
        · rcases buy_err hb with h | h
          · exact Or.inr (Or.inl h)
          · left; exact ⟨_, by simp [tradingMessages], h⟩
        · rcases sell_err hb with h | h
          · exact Or.inr (Or.inl h)
          · left; exact ⟨_, by simp [tradingMessages], h⟩
      · cases hex
  · split at h
    · rename_i hrej
      cases h
      right; right; left
      exact ⟨_, rfl, hrej.2⟩
    · simp only at h
      split at h
      · rename_i hi
        cases h
        right; right; right
        exact ⟨_, rfl, Or.inl hi.2⟩
      · split at h
        · rename_i hi
          cases h
          right; right; right
          exact ⟨_, rfl, Or.inr hi.2⟩
        · cases h

/-- **C11**: the two lists of messages are disjoint, so validation errors are raised exactly when invalid. -/
theorem C11_exactly {A : Arith} {i col group st upd o u b}
    (hs : o.size ≠ nan) (hp : o.price ≠ nan) :
    (∃ msg ∈ validationMessages, processOrder A i col group st upd o u b = .error (.valueError msg)) ↔
      ¬ Valid (snapExec A st) o := by
  constructor
  · rintro ⟨msg, hm, h⟩ hv
    rcases C11_valid hv h with ⟨m, hm', e⟩ | e | ⟨_, e, -⟩ | ⟨_, e, -⟩
    · cases e
      simp only [validationMessages, tradingMessages, List.mem_cons, List.not_mem_nil, or_false] at hm hm'
      rcases hm' with rfl | rfl | rfl <;> simp at hm
    · cases e
    · cases e
    · cases e
  · intro hv; exact C11_invalid_raises hs hp hv

/-- Non-vacuity: invalid (short position, LongOnly) and valid orders exist. -/
example : ¬ Valid (snapExec Arith.std (wSt 100 (-1) 1 98)) { size := fin 1, price := fin 1, direction := Direction.LongOnly } ∧
    Valid (snapExec Arith.std (wSt 100 1 0 100)) { size := fin 1, price := fin 1, direction := Direction.LongOnly } := by
  constructor
  · intro h; have := h.check; revert this; decide +kernel
  · exact checkOrder_none (by decide +kernel)

end Vbt
