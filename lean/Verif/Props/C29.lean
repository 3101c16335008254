import Verif.Props.C27

/-!
# C29  Stop orders fill only at reachable prices

A stop loss of a long position and a take profit of a short one trigger downwards at `ref * (1 - stop)`; the other two
trigger upwards at `ref * (1 + stop)`.
* `C29_down`, `C29_up`: hit exactly if the bar reaches the level; the price is the open or the level;
* `C29_within`: for every arithmetic, the price lies within the bar;
* `C29_order_stop`: the simulators hand that price to the order;
* `C29_not_held`, `C29_negative`: no position, no stop; negative stops raise.
-/

namespace Vbt
open F

/-- The stop triggers when the price falls: stop loss of a long or take profit of a short position. -/
def Falling (position : F) (loss : Bool) : Prop :=
  (Holds position .long ∧ loss = true) ∨ (Holds position .short ∧ loss = false)

/-- The stop triggers when the price rises. -/
def Rising (position : F) (loss : Bool) : Prop :=
  (Holds position .short ∧ loss = true) ∨ (Holds position .long ∧ loss = false)

theorem Falling.tests {p : F} {b : Bool} (h : Falling p b) :
    ((gt p zero && b) || (lt p zero && !b)) = true := by
  rcases h with ⟨h, rfl⟩ | ⟨h, rfl⟩
  · simp [h.tests.1]
  · simp [h.tests.2.1]

theorem Rising.tests {p : F} {b : Bool} (h : Rising p b) :
    ((gt p zero && b) || (lt p zero && !b)) = false ∧ ((lt p zero && b) || (gt p zero && !b)) = true := by
  rcases h with ⟨h, rfl⟩ | ⟨h, rfl⟩
  · simp [h.tests.1, h.tests.2.1]
  · simp [h.tests.1, h.tests.2.1]

section
variable {r t : ℚ}

/-- **C29** (falling).  Hit exactly if the low reaches the level, at the open if that is already beyond it, else at the
level. -/
theorem C29_down {position : F} {loss : Bool} (hp : Falling position loss) {ref stop o l h : ℚ} (hs : 0 ≤ stop)
    (hl : l ≤ o) (hh : o ≤ h) :
    getStopPrice (Arith.exact r t) position (fin ref) (fin stop) (fin o) (fin l) (fin h) loss =
      .ok (if l ≤ ref * (1 - stop) then fin (min o (ref * (1 - stop))) else nan) := by
  unfold getStopPrice
  rw [if_neg (by simp [hs]), if_pos hp.tests]
  simp only [one_def, sub_exact, mul_exact, le_fin, decide_eq_true_eq, Bool.and_eq_true]
  generalize ref * (1 - stop) = L
  by_cases h1 : o ≤ L
  · rw [if_pos h1, if_pos (hl.trans h1), min_eq_left h1]
  · rw [if_neg h1]
    have h1' := not_le.mp h1
    by_cases h2 : l ≤ L
    · rw [if_pos ⟨h2, by linarith⟩, if_pos h2, min_eq_right h1'.le]
    · rw [if_neg (fun h => h2 h.1), if_neg h2]

/-- **C29** (rising). -/
theorem C29_up {position : F} {loss : Bool} (hp : Rising position loss) {ref stop o l h : ℚ} (hs : 0 ≤ stop)
    (hl : l ≤ o) (hh : o ≤ h) :
    getStopPrice (Arith.exact r t) position (fin ref) (fin stop) (fin o) (fin l) (fin h) loss =
      .ok (if ref * (1 + stop) ≤ h then fin (max o (ref * (1 + stop))) else nan) := by
  unfold getStopPrice
  rw [if_neg (by simp [hs]), if_neg (by rw [hp.tests.1]; exact Bool.false_ne_true), if_pos hp.tests.2]
  simp only [one_def, add_exact, mul_exact, le_fin, decide_eq_true_eq, Bool.and_eq_true]
  generalize ref * (1 + stop) = L
  by_cases h1 : L ≤ o
  · rw [if_pos h1, if_pos (h1.trans hh), max_eq_left h1]
  · rw [if_neg h1]
    have h1' := not_le.mp h1
    by_cases h2 : L ≤ h
    · rw [if_pos ⟨by linarith, h2⟩, if_pos h2, max_eq_right h1'.le]
    · rw [if_neg (fun h => h2 h.2), if_neg h2]

end

/-- **C29** (reachable).  For every arithmetic and every bar, a price that is reported lies within the bar. -/
theorem C29_within {A : Arith} {position ref stop o l h x : F} {loss : Bool} (hl : le l o = true) (hh : le o h = true)
    (hx : getStopPrice A position ref stop o l h loss = .ok x) (hn : x ≠ nan) : le l x = true ∧ le x h = true := by
  unfold getStopPrice at hx
  dsimp only at hx
  split at hx
  · cases hx
  split at hx
  · split at hx
    · cases hx; exact ⟨hl, hh⟩
    split at hx
    · rename_i hc; cases hx; simpa using hc
    · cases hx; exact absurd rfl hn
  split at hx
  · split at hx
    · cases hx; exact ⟨hl, hh⟩
    split at hx
    · rename_i hc; cases hx; simpa using hc
    · cases hx; exact absurd rfl hn
  · cases hx; exact absurd rfl hn

/-- **C29** (no position).  Without a position nothing is hit. -/
theorem C29_not_held {A : Arith} {position ref stop o l h x : F} {loss : Bool} (hp : position = fin 0 ∨ position = nan)
    (hx : getStopPrice A position ref stop o l h loss = .ok x) : x = nan := by
  have h1 : gt position zero = false := by rcases hp with rfl | rfl <;> decide +kernel
  have h2 : lt position zero = false := by rcases hp with rfl | rfl <;> decide +kernel
  unfold getStopPrice at hx
  rw [h1, h2] at hx
  simp only [Bool.false_and, Bool.or_self, Bool.false_eq_true, if_false] at hx
  split at hx
  · cases hx
  · cases hx; rfl

/-- **C29** (negative stop). -/
theorem C29_negative {A : Arith} {position ref stop o l h : F} {loss : Bool} :
    (∃ e, getStopPrice A position ref stop o l h loss = .error e) ↔ lt stop zero = true := by
  unfold getStopPrice
  dsimp only
  constructor
  · rintro ⟨e, he⟩
    by_contra hc
    rw [if_neg hc] at he
    repeat' split at he
    all_goals cases he
  · intro h; rw [if_pos h]; exact ⟨_, rfl⟩

/-- The range of the current bar contains its open, also if parts of the bar are missing: what is given must be ordered. -/
theorem currentBar_ordered {inp : SigInputs} {i col : Nat} {c : ℚ} (hc : inp.close i col = fin c)
    (ho : inp.open_ i col = nan ∨ ∃ o, inp.open_ i col = fin o)
    (hl : inp.low i col = nan ∨ le (inp.low i col) (currentBar inp i col).open_ = true)
    (hh : inp.high i col = nan ∨ le (currentBar inp i col).open_ (inp.high i col) = true) :
    le (currentBar inp i col).low (currentBar inp i col).open_ = true ∧
      le (currentBar inp i col).open_ (currentBar inp i col).high = true := by
  obtain ⟨o, ho'⟩ : ∃ o, (currentBar inp i col).open_ = fin o := by
    unfold currentBar
    rcases ho with ho | ⟨o, ho⟩
    · exact ⟨c, by simp [ho, hc]⟩
    · exact ⟨o, by simp [ho]⟩
  have el : (currentBar inp i col).low =
      if (inp.low i col).isnan then pmin (currentBar inp i col).open_ (inp.close i col) else inp.low i col := rfl
  have eh : (currentBar inp i col).high =
      if (inp.high i col).isnan then pmax (currentBar inp i col).open_ (inp.close i col) else inp.high i col := rfl
  constructor
  · rw [el]
    split
    · rw [ho', hc]; simp
    · rename_i hn
      exact hl.resolve_left (fun h => hn (by rw [h]; rfl))
  · rw [eh]
    split
    · rw [ho', hc]; simp
    · rename_i hn
      exact hh.resolve_left (fun h => hn (by rw [h]; rfl))

/-- A stop price comes from the stop loss, or from the take profit if the stop loss was not hit. -/
theorem stopPriceOf_cases {A : Arith} {position p : F} {st : Stops} {b : Bar} (h : stopPriceOf A position st b = .ok p)
    (hn : p ≠ nan) :
    (st.slCurrStop ≠ nan ∧ getStopPrice A position st.slCurrPrice st.slCurrStop b.open_ b.low b.high true = .ok p) ∨
      (st.tpCurrStop ≠ nan ∧ getStopPrice A position st.tpInitPrice st.tpCurrStop b.open_ b.low b.high false = .ok p ∧
        (st.slCurrStop = nan ∨
          getStopPrice A position st.slCurrPrice st.slCurrStop b.open_ b.low b.high true = .ok nan)) := by
  unfold stopPriceOf at h
  dsimp only at h
  split at h
  · cases h
  rename_i p1 h1
  split at h1
  · rename_i hs
    have hs' : st.slCurrStop ≠ nan := fun e => by rw [e] at hs; exact absurd hs (by decide)
    split at h
    · rename_i hc
      have hc' : p1 = nan ∧ st.tpCurrStop.isnan = false := by simpa [isnan_iff] using hc
      refine Or.inr ⟨fun e => ?_, h, Or.inr (hc'.1 ▸ h1)⟩
      rw [e] at hc'; exact absurd hc'.2 (by decide)
    · cases h; exact Or.inl ⟨hs', h1⟩
  · rename_i hs
    have hs' : st.slCurrStop = nan := by simpa [isnan_iff] using hs
    cases h1
    split at h
    · rename_i hc
      have hc' : st.tpCurrStop.isnan = false := by simpa using hc
      refine Or.inr ⟨fun e => ?_, h, Or.inl hs'⟩
      rw [e] at hc'; exact absurd hc' (by decide)
    · cases h; exact absurd rfl hn

/-- The order of a column, with a stop, comes from a hit stop. -/
def StopHit (A : Arith) (inp : SigInputs) (i col : Nat) (position : F) (st : Stops) (p : F) : Prop :=
  ∃ st', checkStops A inp i col position st = .ok (p, st') ∧ p ≠ nan

/-- **C29** (simulators).  If a stop is hit, the price found lies within the current bar, a position is held, and a
stop order is placed at that price (`StopLimit`: without slippage). -/
theorem C29_order_stop {A : Arith} {inp : SigInputs} {a : SigArrays} {i col : Nat} {position valPrice p : F} {st : Stops}
    (hit : StopHit A inp i col position st p)
    (hbar : le (currentBar inp i col).low (currentBar inp i col).open_ = true ∧
      le (currentBar inp i col).open_ (currentBar inp i col).high = true)
    {st' c} (hc : arrayCell A inp a i col position valPrice st = .ok (st', c)) :
    le (currentBar inp i col).low p = true ∧ le p (currentBar inp i col).high = true ∧
      (Holds position .long ∨ Holds position .short) ∧
      (inp.stopExitPrice i col = StopExitPrice.StopLimit → c.price = p ∧ c.slippage = zero) ∧
      (inp.stopExitPrice i col = StopExitPrice.StopMarket → c.price = p ∧ c.slippage = inp.slippage i col) ∧
      (inp.stopExitPrice i col = StopExitPrice.Close → c.price = inp.close i col ∧ c.slippage = inp.slippage i col) ∧
      (inp.stopExitPrice i col = StopExitPrice.Price → c.price = sigPrice inp i col ∧ c.slippage = inp.slippage i col) := by
  obtain ⟨st1, hck, hn⟩ := hit
  unfold arrayCell at hc
  rw [hck] at hc
  dsimp only at hc
  split at hc
  · cases hc
  rename_i c' hc'
  cases hc
  unfold checkStops at hck
  split at hck
  swap
  · cases hck; exact absurd rfl hn
  rename_i huse
  have huse' : inp.useStops = true := by simp only [Bool.and_eq_true] at huse; exact huse.1
  dsimp only at hck
  split at hck
  · cases hck
  rename_i p' hp'
  cases hck
  have hheld : ∀ {ref stop : F} {loss : Bool}, getStopPrice A position ref stop (currentBar inp i col).open_
      (currentBar inp i col).low (currentBar inp i col).high loss = .ok p →
      Holds position .long ∨ Holds position .short := by
    intro ref stop loss hg
    cases hpos : position with
    | nan => exact absurd (C29_not_held (Or.inr hpos) hg) hn
    | pinf => exact Or.inl .longInf
    | ninf => exact Or.inr .shortInf
    | fin q =>
      rcases lt_trichotomy q 0 with h | h | h
      · exact Or.inr (.short h)
      · subst h; exact absurd (C29_not_held (Or.inl hpos) hg) hn
      · exact Or.inl (.long h)
  have hw : (le (currentBar inp i col).low p = true ∧ le p (currentBar inp i col).high = true) ∧
      (Holds position .long ∨ Holds position .short) := by
    rcases stopPriceOf_cases hp' hn with ⟨-, h⟩ | ⟨-, h, -⟩
    · exact ⟨C29_within hbar.1 hbar.2 h hn, hheld h⟩
    · exact ⟨C29_within hbar.1 hbar.2 h hn, hheld h⟩
  have hpn : p.isnan = false := by cases p <;> simp_all
  unfold cellOrder at hc'
  simp only [huse', hpn, Bool.not_false, Bool.and_self, if_true] at hc'
  split at hc'
  · cases hc'
  cases hc'
  refine ⟨hw.1.1, hw.1.2, hw.2, ?_, ?_, ?_, ?_⟩ <;> intro hm <;> rw [hm] <;>
    simp [resolveStopPriceAndSlippage]

/-! Non-vacuity -/

example : getStopPrice Arith.std (fin 1) (fin 100) (fin (1/10)) (fin 95) (fin 85) (fin 96) true = .ok (fin 90) := by
  decide +kernel
example : getStopPrice Arith.std (fin 1) (fin 100) (fin (1/10)) (fin 80) (fin 75) (fin 96) true = .ok (fin 80) := by
  decide +kernel
example : getStopPrice Arith.std (fin (-1)) (fin 100) (fin (1/10)) (fin 95) (fin 85) (fin 99) true = .ok nan := by
  decide +kernel
example : Falling (fin 1) true ∧ Rising (fin 1) false ∧ Rising (fin (-1)) true :=
  ⟨Or.inl ⟨.long (by norm_num), rfl⟩, Or.inr ⟨.long (by norm_num), rfl⟩, Or.inl ⟨.short (by norm_num), rfl⟩⟩

/-- A trailing stop at 12 * 0.9 = 10.8 is hit by the bar at 9: the bar opens below, so the order is at 9. -/
example : StopHit Arith.std wSig 2 0 (fin 2)
      { Stops.none with slCurrStop := fin (1/10), slCurrPrice := fin 12, slCurrTrail := true } (fin 9) ∧
    ∃ st' c, arrayCell Arith.std wSig wArr 2 0 (fin 2) (fin 9)
      { Stops.none with slCurrStop := fin (1/10), slCurrPrice := fin 12, slCurrTrail := true } = .ok (st', c) ∧
      c.price = fin 9 ∧ c.size = fin (-2) := by
  obtain ⟨⟨p, st'⟩, h, hf⟩ := okAnd_iff (x := checkStops Arith.std wSig 2 0 (fin 2)
      { Stops.none with slCurrStop := fin (1/10), slCurrPrice := fin 12, slCurrTrail := true })
    (f := fun x => decide (x.1 = fin 9)) (by decide +kernel)
  obtain ⟨⟨st2, c⟩, h2, hf2⟩ := okAnd_iff (x := arrayCell Arith.std wSig wArr 2 0 (fin 2) (fin 9)
      { Stops.none with slCurrStop := fin (1/10), slCurrPrice := fin 12, slCurrTrail := true })
    (f := fun x => decide (x.2.price = fin 9 ∧ x.2.size = fin (-2))) (by decide +kernel)
  have e := of_decide_eq_true hf
  have e2 := of_decide_eq_true hf2
  exact ⟨⟨st', by rw [h]; exact congrArg _ (Prod.ext e rfl), by simp⟩, st2, c, h2, e2.1, e2.2⟩

end Vbt
