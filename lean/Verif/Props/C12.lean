import Verif.Props.C02

/-!
# C12  Random rejection only when asked for  (every arithmetic)

`u` is the number drawn from the random source, in `[0, 1)`.
-/

namespace Vbt
open F

/-- **C12** (never).  With `reject_prob = 0` the outcome does not depend on the random source. -/
theorem C12_zero {A : Arith} {i col group st upd o b} (h0 : o.rejectProb = fin 0) (u u' : F) :
    processOrder A i col group st upd o u b = processOrder A i col group st upd o u' b := by
  have : ∀ s rr, applyReject o u s rr = applyReject o u' s rr := by
    intro s rr; simp [applyReject, h0]
  unfold processOrder executeOrder
  simp only [this]

/-- **C12** (always).  With `reject_prob = 1` no order is ever filled. -/
theorem C12_one {A : Arith} {i col group st upd o u b res st' b'} (h1 : o.rejectProb = fin 1)
    (hu : FinAnd u fun q => 0 ≤ q ∧ q < 1)
    (h : processOrder A i col group st upd o u b = .ok (res, st', b')) :
    res.status ≠ OrderStatus.Filled := by
  obtain ⟨q, rfl, -, hq⟩ := hu
  obtain ⟨es, hex, -⟩ := processOrder_inv h
  cases executeOrder_cases hex with
  | notFilled _ hn => exact notFilled_status hn
  | bought _ _ _ _ _ _ _ _ _ hrej _ => simp [h1, hq] at hrej
  | sold _ _ _ _ _ _ _ _ _ hrej _ => simp [h1, hq] at hrej

/-- **C12** (otherwise).  The order is executed exactly as with `reject_prob = 0`, or -- only if the number drawn
is below a positive `reject_prob` -- rejected with the random-event reason and balances as read. -/
theorem C12_otherwise {A : Arith} {st o u} (hp : FinAnd o.rejectProb fun p => 0 ≤ p ∧ p ≤ 1) :
    executeOrder A st o u = executeOrder A st { o with rejectProb := fin 0 } u ∨
    (executeOrder A st o u =
        .ok (snapExec A st, orderNotFilled OrderStatus.Rejected Info.RandomEvent) ∧
      lt u o.rejectProb = true ∧ gt o.rejectProb (fin 0) = true) := by
  obtain ⟨p, hp, hp0, hp1⟩ := hp
  by_cases hr : (gt o.rejectProb zero && lt u o.rejectProb) = true
  · -- either nothing was attempted, or the random event strikes
    have hck : checkOrder (snapExec A st) { o with rejectProb := fin 0 } = checkOrder (snapExec A st) o := by
      have e : (!(fin p).isfinite || lt (fin p) zero || gt (fin p) one) =
          (!(fin 0).isfinite || lt (fin 0) zero || gt (fin 0) one) := by
        simp [decide_eq_false (not_lt.mpr hp0), decide_eq_false (not_lt.mpr hp1)]
      simp only [checkOrder, hp, e]
    have hrs : ∀ vp v, resolveSize A (snapExec A st) { o with rejectProb := fin 0 } vp v =
      resolveSize A (snapExec A st) o vp v := fun _ _ => rfl
    have hb : ∀ sz pc, buy A (snapExec A st) { o with rejectProb := fin 0 } sz pc = buy A (snapExec A st) o sz pc :=
      fun _ _ => rfl
    have hs : ∀ sz pc, sell A (snapExec A st) { o with rejectProb := fin 0 } sz pc = sell A (snapExec A st) o sz pc :=
      fun _ _ => rfl
    have hr' := hr
    rw [Bool.and_eq_true] at hr'
    unfold executeOrder
    simp only [hck, hrs, hb, hs]
    by_cases h1 : o.size.isnan = true
    · left; simp [h1]
    by_cases h2 : o.price.isnan = true
    · left; simp [h1, h2]
    simp only [h1, h2, Bool.false_eq_true, if_false]
    split
    · left; rfl
    split
    · left; rfl
    · left; rfl
    · split
      · left; rfl
      · right
        refine ⟨?_, hr'.2, hr'.1⟩
        simp only [applyReject, hr, if_true]
  · left
    have hck : checkOrder (snapExec A st) { o with rejectProb := fin 0 } = checkOrder (snapExec A st) o := by
      have e : (!(fin p).isfinite || lt (fin p) zero || gt (fin p) one) =
          (!(fin 0).isfinite || lt (fin 0) zero || gt (fin 0) one) := by
        simp [decide_eq_false (not_lt.mpr hp0), decide_eq_false (not_lt.mpr hp1)]
      simp only [checkOrder, hp, e]
    have hrs : ∀ vp v, resolveSize A (snapExec A st) { o with rejectProb := fin 0 } vp v =
      resolveSize A (snapExec A st) o vp v := fun _ _ => rfl
    have hb : ∀ sz pc, buy A (snapExec A st) { o with rejectProb := fin 0 } sz pc = buy A (snapExec A st) o sz pc :=
      fun _ _ => rfl
    have hs : ∀ sz pc, sell A (snapExec A st) { o with rejectProb := fin 0 } sz pc = sell A (snapExec A st) o sz pc :=
      fun _ _ => rfl
    have ha : ∀ s rr, applyReject { o with rejectProb := fin 0 } u s rr = applyReject o u s rr := by
      intro s rr
      simp only [applyReject, hr]
      simp
    unfold executeOrder
    simp only [hck, hrs, hb, hs, ha]

/-- Non-vacuity: the same order filled with u = 1/2 and randomly rejected with u = 1/4 (`reject_prob` 1/3). -/
example : ∃ o, (∃ es res, executeOrder Arith.std (wSt 100 0 0 100) o (fin (1/2)) = .ok (es, res) ∧
      res.status = OrderStatus.Filled) ∧
    (∃ es res, executeOrder Arith.std (wSt 100 0 0 100) o (fin (1/4)) = .ok (es, res) ∧
      res.status = OrderStatus.Rejected) ∧ FinAnd o.rejectProb fun p => 0 ≤ p ∧ p ≤ 1 := by
  obtain ⟨⟨e1, r1⟩, h1, hf1⟩ := okAnd_iff (x := executeOrder Arith.std (wSt 100 0 0 100)
      { size := fin 1, price := fin 1, rejectProb := fin (1/3) } (fin (1/2)))
    (f := fun x => decide (x.2.status = OrderStatus.Filled)) (by decide +kernel)
  obtain ⟨⟨e2, r2⟩, h2, hf2⟩ := okAnd_iff (x := executeOrder Arith.std (wSt 100 0 0 100)
      { size := fin 1, price := fin 1, rejectProb := fin (1/3) } (fin (1/4)))
    (f := fun x => decide (x.2.status = OrderStatus.Rejected)) (by decide +kernel)
  exact ⟨_, ⟨e1, r1, h1, of_decide_eq_true hf1⟩, ⟨e2, r2, h2, of_decide_eq_true hf2⟩, 1/3, rfl, by norm_num⟩

end Vbt
