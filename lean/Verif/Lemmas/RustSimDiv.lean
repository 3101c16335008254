import Verif.Lemmas.RustSim

/-! # Simulations without locked cash divide by zero only if an argument makes a divisor zero -/

namespace Vbt.Rs
open F

variable {A : Arith}

theorem divE_fine {a b : F} (h : eqb b zero = false) : divE A a b ≠ .error .zeroDivision := by
  unfold divE; rw [h]; intro e; cases e

theorem err_trans {α β : Type} {x : Except Err α} {e e' : Err} (h : x = .error e)
    (h' : (Except.error e : Except Err β) = .error e') : x = .error e' := h.trans (congrArg _ (Except.error.inj h'))

theorem if_fine {α : Type} {c : Prop} [Decidable c] {a b : Except Err α} (ha : a ≠ .error .zeroDivision)
    (hb : b ≠ .error .zeroDivision) : (if c then a else b) ≠ .error .zeroDivision := by
  split
  · exact ha
  · exact hb

theorem ok_fine {α : Type} (a : α) : (Except.ok a : Except Err α) ≠ .error .zeroDivision := fun h => nomatch h

theorem value_fine {α : Type} (m : String) : (Except.error (.valueError m) : Except Err α) ≠ .error .zeroDivision :=
  fun h => nomatch h

theorem buyCommit_fine {s : ExecState} {p : F} {f : BuyFill} :
    Vbt.buyCommit A s p f ≠ .error .zeroDivision := by
  intro h
  unfold Vbt.buyCommit at h
  simp only at h
  split at h
  · rename_i hneg
    split at h
    · rename_i e hd
      refine divE_fine (A := A) (a := s.debt) (b := s.position.abs) ?_ (err_trans hd h)
      cases hp : s.position with
      | fin q =>
        rw [hp] at hneg
        have : q < 0 := by simpa [lt] using hneg
        simp [F.abs, eqb, abs_eq_zero, this.ne]
      | _ => rfl
    · cases h
  · cases h

theorem buyFinal_fine {o : Order} {x p l : F} (hf : eqb (F.add A one o.fees) zero = false) (hp : eqb p zero = false) :
    Vbt.buyFinal A o x p l ≠ .error .zeroDivision := by
  intro h
  unfold Vbt.buyFinal at h
  simp only at h
  split at h
  · cases h
  · split at h
    · rename_i hd; exact divE_fine hf (err_trans hd h)
    · split at h
      · cases h
      · split at h
        · rename_i hd; exact divE_fine hp (err_trans hd h)
        · split at h <;> cases h

theorem buy_fine {s : ExecState} {o : Order} {x pc : F} (hl : o.lockCash = false) (hf : eqb (F.add A one o.fees) zero = false)
    (hp : eqb (mul A o.price (F.add A one o.slippage)) zero = false) : Vbt.buy A s o x pc ≠ .error .zeroDivision := by
  intro h
  have body : ∀ l, Vbt.buyBody A s o x (mul A o.price (F.add A one o.slippage)) l ≠ .error .zeroDivision := by
    intro l h
    unfold Vbt.buyBody at h
    simp only at h
    generalize (if o.direction = Direction.ShortOnly then pmin s.position.neg x else x) = a at h
    split at h
    · cases h
    split at h
    · cases h
    split at h
    · rename_i hd; exact buyFinal_fine hf hp (err_trans hd h)
    · cases h
    · exact if_fine (ok_fine _) (if_fine (ok_fine _) (if_fine (ok_fine _) buyCommit_fine)) h
  unfold Vbt.buy at h
  simp only at h
  split at h
  · rename_i hd
    unfold Vbt.buyCashLimit at hd
    simp [hl] at hd
  · split at h
    · split at h
      · cases h
      split at h
      · cases h
      exact body _ h
    · split at h
      · cases h
      exact body _ h

theorem sell_fine {s : ExecState} {o : Order} {x pc : F}
    (hp : eqb (mul A (mul A o.price (F.sub A one o.slippage)) (F.add A one o.fees)) zero = false) :
    Vbt.sell A s o x pc ≠ .error .zeroDivision := by
  intro h
  unfold Vbt.sell at h
  simp only at h
  split at h
  · rename_i e hd
    have h := Except.error.inj h
    subst h
    unfold Vbt.sellLimit at hd
    simp only at hd
    split at hd
    · cases hd
    · split at hd
      · split at hd
        · rename_i he
          split at he
          · split at he <;> cases he
          · split at he
            · rename_i hz
              exact divE_fine hp (err_trans hz (err_trans he hd))
            · split at he <;> cases he
        · cases hd
        · split at hd
          · split at hd
            · cases hd
            · split at hd <;> cases hd
          · cases hd
      · cases hd
  · cases h
  · unfold Vbt.sellBody at h
    exact if_fine (ok_fine _) (if_fine (value_fine _) (if_fine (ok_fine _) (if_fine (ok_fine _) (if_fine (ok_fine _)
      (if_fine (ok_fine _) (ok_fine _)))))) h

theorem execute_fine {st : ProcState} {o : Order} {u : F} (hl : o.lockCash = false)
    (hf : eqb (F.add A one o.fees) zero = false)
    (hb : gt o.price zero = true → eqb (mul A o.price (F.add A one o.slippage)) zero = false)
    (hs : gt o.price zero = true →
      eqb (mul A (mul A o.price (F.sub A one o.slippage)) (F.add A one o.fees)) zero = false) :
    Vbt.executeOrder A st o u ≠ .error .zeroDivision := by
  intro h
  unfold Vbt.executeOrder at h
  simp only at h
  split at h
  · cases h
  split at h
  · cases h
  split at h
  · cases h
  rename_i hc
  have hv := checkOrder_none hc
  have hp : gt o.price zero = true := by
    obtain ⟨q, e, hq⟩ := hv.price
    rw [e]; simpa [gt, lt] using hq
  split at h
  · cases h
  · cases h
  split at h
  · rename_i hd
    split at hd
    · exact buy_fine hl hf (hb hp) (err_trans hd h)
    · exact sell_fine (hs hp) (err_trans hd h)
  · cases h

theorem process_fine {i col group : Nat} {st : ProcState} {updVal : Bool} {o : Order} {u : F} {b : Buffers}
    (hx : Vbt.executeOrder A st o u ≠ .error .zeroDivision) :
    Vbt.processOrder A i col group st updVal o u b ≠ .error .zeroDivision := by
  intro h
  unfold Vbt.processOrder at h
  split at h
  · rename_i hd; exact hx (err_trans hd h)
  simp only at h
  split at h
  · cases h
  split at h
  · cases h
  split at h
  · cases h
  cases h

theorem orderPrice_quoted (inp : Inputs) (i c : Nat) :
    Vbt.resolvePrice inp i c = quoted (inp.price i c) (inp.close i c) (previousClose inp i c) := by
  unfold Vbt.resolvePrice previousClose quoted
  cases inp.price i c <;> cases i <;> simp [F.isinf, F.gt, F.lt]

theorem loop_fine {σ α : Type} {f : σ → α → Except Err σ} {l : List α} {s : σ}
    (h : ∀ s, ∀ x ∈ l, f s x ≠ .error .zeroDivision) : loopE f s l ≠ .error .zeroDivision := by
  intro e
  obtain ⟨pre, x, post, s1, rfl, -, h3⟩ := loopE_err e
  exact h s1 x (by simp) h3

theorem simulate_fine {inp : Inputs} {rows cols : Nat} {lens : List Nat} {initCash : List F} {maxOrders : Option Nat}
    {maxLogs : Nat} (hl : ∀ i < rows, ∀ c < cols, inp.lockCash i c = false) (hz : NoZeroDivisor A inp rows cols) :
    Vbt.simulateFromOrders A inp rows cols lens initCash maxOrders maxLogs ≠ .error .zeroDivision := by
  intro h
  unfold Vbt.simulateFromOrders at h
  split at h
  · cases h
  rename_i hsum
  simp only at h
  split at h
  · cases h
  split at h
  · cases h
  refine loop_fine ?_ h
  intro s x hx
  refine loop_fine ?_
  intro s i hi
  refine loop_fine ?_
  intro s slot hslot
  have hi : i < rows := List.mem_range.mp hi
  have hsl : slot.1 < x.2.2 := List.mem_range.mp (List.of_mem_zip hslot).1
  have hx := (layoutFrom_mem hx).2.2.2.1
  have hsum : lens.sum = cols := by simpa using hsum
  intro h
  unfold callSlot at h
  split at h
  · cases h
  rename_i hb
  simp only at h
  unfold callOrder at h
  split at h
  · rename_i hd
    have hcol : (if isGrouped lens = true then x.2.1 + slot.2 else x.2.1 + slot.1) < cols := by
      split
      · rename_i hg
        have : ¬ slot.2 ≥ x.2.2 := by
          intro hge; apply hb; simp [hg, hge]
        omega
      · omega
    generalize (if isGrouped lens = true then x.2.1 + slot.2 else x.2.1 + slot.1) = col at *
    refine process_fine (execute_fine (hl i hi col hcol) (hz.fees i hi col hcol) ?_ ?_) (err_trans hd h)
    · intro hp
      have := hz.buy i hi col hcol
      rw [← orderPrice_quoted] at this
      exact this hp
    · intro hp
      have := hz.sell i hi col hcol
      rw [← orderPrice_quoted] at this
      exact this hp
  · cases h

end Vbt.Rs
