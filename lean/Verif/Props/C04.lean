import Verif.Props.C02
import Verif.Lemmas.Requested

/-!
# C04  Direction restrictions are respected

Full claim: with `LongOnly` the position never becomes negative, with `ShortOnly` never positive.  It is
false for a `LongOnly` `Percent` order of more than 100 % (`C04_counterexample`), and inherits the guards of
C01 (fees above -100 %, a size that does not turn into NaN).
-/

namespace Vbt
open F

/-- **C04** (contradicting position).  An order against the sign of the position raises, for every
arithmetic, unless its size or price is NaN (then it is ignored). -/
theorem C04_contradiction {A : Arith} {i col group st upd o u b}
    (hsz : o.size ≠ nan) (hpr : o.price ≠ nan)
    (hd : (o.direction = Direction.LongOnly ∧ lt st.position zero = true ∧ isClose A st.position zero = false) ∨
      (o.direction = Direction.ShortOnly ∧ gt st.position zero = true ∧ isClose A st.position zero = false)) :
    ∃ msg, processOrder A i col group st upd o u b = .error (.valueError msg) ∧ msg ∈ validationMessages := by
  have hchk : checkOrder (snapExec A st) o ≠ none := by
    intro h
    have hv := checkOrder_none h
    rcases hd with ⟨hd, hp, hcl⟩ | ⟨hd, hp, hcl⟩
    · obtain ⟨P, hP, hP0⟩ := hv.long hd
      have : snap A st.position = fin P := hP
      simp only [snap, hcl, Bool.false_eq_true, if_false] at this
      rw [this] at hp; simp at hp; linarith
    · obtain ⟨P, hP, hP0⟩ := hv.short hd
      have : snap A st.position = fin P := hP
      simp only [snap, hcl, Bool.false_eq_true, if_false] at this
      rw [this] at hp; simp at hp; linarith
  obtain ⟨msg, hm⟩ := Option.ne_none_iff_exists'.mp hchk
  refine ⟨msg, ?_, checkOrder_some hm⟩
  have h1 : o.size.isnan = false := by cases h : o.size <;> simp_all
  have h2 : o.price.isnan = false := by cases h : o.price <;> simp_all
  unfold processOrder executeOrder
  simp [h1, h2, hm]

/-- The order does not sell more than 100 % (of the position, for `LongOnly`). -/
def PercentLeOne (o : Order) : Prop := o.sizeType = SizeType.Percent → ∀ a, o.size = fin a → |a| ≤ 1

section
variable {r t : ℚ}

/-- **C04** (one order).  The sign of the position is kept. -/
theorem C04_direction_partial {i col group st upd o u b res st' b'}
    (h : processOrder (Arith.exact r t) i col group st upd o u b = .ok (res, st', b'))
    (hfees : ∀ φ, o.fees = fin φ → 0 < 1 + φ)
    (hsane : SaneSize o (snap (Arith.exact r t) st.value)) (hpct : PercentLeOne o) :
    (o.direction = Direction.LongOnly → FinAnd st.position (0 ≤ ·) → FinAnd st'.position (0 ≤ ·)) ∧
    (o.direction = Direction.ShortOnly → FinAnd st.position (· ≤ 0) → FinAnd st'.position (· ≤ 0)) := by
  obtain ⟨es, hex, -, -, e2, -⟩ := processOrder_inv h
  rw [e2]
  cases executeOrder_cases hex with
  | notFilled hs _ =>
    rw [hs]
    have : ∀ q, st.position = fin q → (snapExec (Arith.exact r t) st).position = fin q ∨
        (snapExec (Arith.exact r t) st).position = fin 0 := by
      intro q hq
      show snap _ st.position = _ ∨ snap _ st.position = _
      rw [hq]; exact snap_fin q
    constructor
    · rintro - ⟨q, hq, hq0⟩
      rcases this q hq with h | h <;> exact ⟨_, h, by first | exact hq0 | exact le_rfl⟩
    · rintro - ⟨q, hq, hq0⟩
      rcases this q hq with h | h <;> exact ⟨_, h, by first | exact hq0 | exact le_rfl⟩
  | bought size percent lim f _ _ hchk hres hpos _ hf =>
    have hv := checkOrder_none hchk
    obtain ⟨p, φ, x, sz, hn⟩ := buy_num hv hpos hfees hf
    obtain ⟨-, -, hposi, -⟩ := buyCommit_inv hf.hcommit
    rw [hposi, hn.fill]
    constructor
    · rintro hd -
      obtain ⟨P, hP, hP0⟩ := hv.long hd
      rw [hP]
      exact addNb_sign_nonneg (by have := hn.nonneg; linarith)
    · rintro hd -
      obtain ⟨P, hP, hP0⟩ := hv.short hd
      rw [hP]
      exact addNb_sign_nonpos (by have := hn.lePos hd P hP; linarith)
  | sold size percent limit percent' hsz _ hchk hres hpos _ hf =>
    have hv := checkOrder_none hchk
    have ha := resolve_sell hv (by intro h; rw [h] at hsz; cases hsz) hsane hres hpos
    obtain ⟨p, φ, x, l, hn⟩ := sell_num hv ha hf
    obtain ⟨-, -, hposi, -⟩ := sellCommit_inv hf.hcommit hf.hcover
    rw [hposi, hn.lim]
    constructor
    · rintro hd -
      obtain ⟨P, hP, hP0⟩ := hv.long hd
      rw [hP, neg_fin]
      exact addNb_sign_nonneg
        (by have := hn.lePos hd (fun w hw => resolve_percent_le hpct hres hw) P hP; linarith)
    · rintro hd -
      obtain ⟨P, hP, hP0⟩ := hv.short hd
      rw [hP, neg_fin]
      exact addNb_sign_nonpos (by have := hn.pos; linarith)

/-- **C04** (histories).  Only long orders from a non-negative position: it stays non-negative;
only short orders from a non-positive position: it stays non-positive. -/
theorem C04_history_partial (hr : r ≤ 1) {upd} (qs : List Request) :
    ∀ {st b st' b'}, processAll (Arith.exact r t) upd st b qs = .ok (st', b') →
      (∀ q ∈ qs, Covered q.order ∧ PercentLeOne q.order) → Healthy st →
      ((∀ q ∈ qs, q.order.direction = Direction.LongOnly) → FinAnd st.position (0 ≤ ·) →
        FinAnd st'.position (0 ≤ ·)) ∧
      ((∀ q ∈ qs, q.order.direction = Direction.ShortOnly) → FinAnd st.position (· ≤ 0) →
        FinAnd st'.position (· ≤ 0)) := by
  induction qs with
  | nil => intro st b st' b' h _ hh; cases h; exact ⟨fun _ h => h, fun _ h => h⟩
  | cons q qs ih =>
    intro st b st' b' h hf hh
    unfold processAll at h
    split at h
    · cases h
    rename_i res st1 b1 h1
    have hq := hf q List.mem_cons_self
    have hsv : snap (Arith.exact r t) st.value ≠ pinf := by
      rcases snap_cases (Arith.exact r t) st.value with h | h
      · rw [h]; exact hh.value
      · rw [h.1]; simp
    have hstep := C04_direction_partial h1 hq.1.fees ⟨hq.1.percent, fun _ => Or.inl hsv⟩ hq.2
    have hih := ih h (fun q hq => hf q (List.mem_cons_of_mem _ hq)) (C01_healthy_partial hr h1 hq.1 hh)
    exact ⟨fun hd hp => hih.1 (fun q hq => hd q (List.mem_cons_of_mem _ hq))
        (hstep.1 (hd q List.mem_cons_self) hp),
      fun hd hp => hih.2 (fun q hq => hd q (List.mem_cons_of_mem _ hq))
        (hstep.2 (hd q List.mem_cons_self) hp)⟩

end

/-- A `LongOnly` order to sell 200 % turns a long position of 1 into a short position of -1. -/
theorem C04_counterexample : ∃ o res st' b',
    processOrder Arith.std 0 0 0 (wSt 100 1 0 100) true o (fin 0) wBuf = .ok (res, st', b') ∧
      o.direction = Direction.LongOnly ∧ st'.position = fin (-1) := by
  obtain ⟨⟨res, st', b'⟩, h, hf⟩ := okAnd_iff (x := processOrder Arith.std 0 0 0 (wSt 100 1 0 100) true
    { size := fin (-2), price := fin 10, sizeType := SizeType.Percent, direction := Direction.LongOnly }
      (fin 0) wBuf)
    (f := fun x => x.2.1.position = fin (-1)) (by decide +kernel)
  exact ⟨_, res, st', b', h, rfl, by simpa using hf⟩

/-- Non-vacuity: a long history (buy 50 %, sell 30 %) and a contradicting order. -/
example : ∃ qs st' b', qs.length = 2 ∧ (∀ q ∈ qs, Covered q.order ∧ PercentLeOne q.order) ∧
    (∀ q ∈ qs, q.order.direction = Direction.LongOnly) ∧ Healthy (wSt 100 1 0 100) ∧
    processAll Arith.std true (wSt 100 1 0 100) wBuf qs = .ok (st', b') ∧ b'.orders.length = 2 := by
  obtain ⟨⟨st', b'⟩, h, hf⟩ := okAnd_iff (x := processAll Arith.std true (wSt 100 1 0 100) wBuf
    [⟨0, 0, 0, { size := fin (1/2), price := fin 10, sizeType := SizeType.Percent,
                 direction := Direction.LongOnly, fees := fin (1/100) }, fin 0⟩,
     ⟨1, 0, 0, { size := fin (-3/10), price := fin 12, sizeType := SizeType.Percent,
                 direction := Direction.LongOnly, fees := fin (1/100) }, fin 0⟩])
    (f := fun x => x.2.orders.length = 2) (by decide +kernel)
  refine ⟨_, st', b', rfl, ?_, ?_, ?_, h, by simpa using hf⟩
  · intro q hq
    simp only [List.mem_cons, List.not_mem_nil, or_false] at hq
    rcases hq with rfl | rfl
    · exact ⟨⟨fun φ h => by cases h; norm_num, fun _ => ⟨_, rfl, by norm_num⟩⟩,
        fun _ a ha => by cases ha; norm_num [abs_le]⟩
    · exact ⟨⟨fun φ h => by cases h; norm_num, fun _ => ⟨_, rfl, by norm_num⟩⟩,
        fun _ a ha => by cases ha; norm_num [abs_le]⟩
  · intro q hq
    simp only [List.mem_cons, List.not_mem_nil, or_false] at hq
    rcases hq with rfl | rfl <;> rfl
  · exact ⟨⟨100, rfl, by norm_num⟩, ⟨1, rfl, trivial⟩, by simp [wSt], by simp [wSt]⟩

example : isClose Arith.std (wSt 100 (-1) 10 80).position zero = false ∧
    lt (wSt 100 (-1) 10 80).position zero = true := by decide +kernel

end Vbt
