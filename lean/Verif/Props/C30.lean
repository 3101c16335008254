import Verif.Lemmas.SigSim
import Verif.Props.C29
import Verif.Lemmas.FloatOrder

/-!
# C30  Trailing stops only tighten

A run of rows during which a column is held on one side and its stop is not overridden (`HeldRun`).
* `C30_tightens`: whatever the signals and the hooks, the reference price of the stop never moves against the position;
* `C30_extreme`: with arrays, a trailing stop keeps its width and its reference price is the best price reached: the
  maximum of the highs for a long, the minimum of the lows for a short position;
* `C30_fixed`: a stop that does not trail does not move;
* `C30_level`, `C30_still_hit`: so the level does not loosen: a bar that hits the level also hits every later level;
* `C30_opened`, `C30_closed`: an opened or reversed position starts with the configured stop; a closed one has none.
-/

namespace Vbt
open F

/-- The two sides of a position. -/
inductive Side
  | long
  | short
deriving DecidableEq

/-- The position is on a side. -/
def OnSide (p : F) : Side → Prop
  | .long => gt p zero = true
  | .short => lt p zero = true

/-- `y` is a better price than `x` for a position. -/
def Better (x y : F) : Side → Prop
  | .long => lt x y = true
  | .short => lt y x = true

/-- The best price of a bar. -/
def Bar.best (b : Bar) : Side → F
  | .long => b.high
  | .short => b.low

/-- The stop is overridden by an order that increases the position, as the update mode says. -/
def Overridden (inp : SigInputs) (i c : Nat) (before now : F) : Prop :=
  lt before.abs now.abs = true ∧
    (inp.uponStopUpdate i c = StopUpdateMode.OverrideNaN ∨
      (inp.uponStopUpdate i c = StopUpdateMode.Override ∧ inp.slStop i c ≠ nan))

/-- Rows `a`, ..., `i - 1` lead from `s0` to `s` with column `c` held on a side throughout, its stop not overridden. -/
inductive HeldRun (A : Arith) (inp : SigInputs) (cell : CellFn) (sharing : Bool) (g fc len c : Nat) (side : Side)
    (a : Nat) (s0 : SigState) : Nat → SigState → Prop
  | start (h : OnSide (s0.sim.position c) side) : HeldRun A inp cell sharing g fc len c side a s0 a s0
  | row {i s s'} (h : HeldRun A inp cell sharing g fc len c side a s0 i s)
      (hr : sigRow A inp cell sharing g fc len s i = .ok s') (hp : OnSide (s'.sim.position c) side)
      (ho : ¬ Overridden inp i c (s.sim.position c) (s'.sim.position c)) :
      HeldRun A inp cell sharing g fc len c side a s0 (i + 1) s'

/-- The reference price moves to the best price of the bar if that is better, in a trailing stop. -/
def Trails (b : Bar) (side : Side) (st st' : Stops) : Prop :=
  (st'.slCurrPrice = b.best side ∧ Better st.slCurrPrice st'.slCurrPrice side) ∨
    (st'.slCurrPrice = st.slCurrPrice ∧
      (st'.slCurrStop ≠ nan → st'.slCurrTrail = true → ¬ Better st.slCurrPrice (b.best side) side))

theorem OnSide.tests {p : F} {side : Side} (h : OnSide p side) :
    (side = .long → gt p zero = true) ∧ (side = .short → gt p zero = false ∧ lt p zero = true) ∧ eqb p zero = false := by
  cases side <;> cases p <;> simp_all [OnSide, gt, lt, eqb] <;> first | linarith | exact ne_of_gt h | (exact ⟨h.le, ne_of_lt h⟩)

/-- The sign of positions on a side. -/
def Side.sign : Side → F
  | .long => fin 1
  | .short => fin (-1)

theorem OnSide.sign {p : F} {side : Side} (h : OnSide p side) : p.sign = side.sign := by
  cases side with
  | long =>
    cases p with
    | nan => cases h
    | ninf => cases h
    | pinf => rfl
    | fin q =>
      have h : 0 < q := of_decide_eq_true h
      simp [F.sign, Side.sign, not_lt.mpr h.le, h]
  | short =>
    cases p with
    | nan => cases h
    | pinf => cases h
    | ninf => rfl
    | fin q =>
      have h : q < 0 := of_decide_eq_true h
      simp [F.sign, Side.sign, h]

theorem sign_cases {p : F} (h : p ≠ nan) : eqb p zero = true ∨ (gt p zero = true ∧ p.sign = fin 1) ∨
    (lt p zero = true ∧ p.sign = fin (-1)) := by
  cases p with
  | nan => exact absurd rfl h
  | ninf => right; right; exact ⟨rfl, rfl⟩
  | pinf => right; left; exact ⟨rfl, rfl⟩
  | fin q =>
    rcases lt_trichotomy q 0 with hq | hq | hq
    · right; right; simp [lt, F.sign, hq]
    · left; simp [eqb, hq]
    · right; left; simp [gt, lt, F.sign, hq, not_lt.mpr hq.le]

theorem trailStop_trails {i : Nat} {p : F} {b : Bar} {st : Stops} {side : Side} (hp : OnSide p side) :
    Trails b side st (trailStop i p b st) ∧ (trailStop i p b st).slCurrStop = st.slCurrStop ∧
      (trailStop i p b st).slCurrTrail = st.slCurrTrail ∧
      ((st.slCurrStop = nan ∨ st.slCurrTrail = false) → trailStop i p b st = st) := by
  obtain ⟨h1, h2, -⟩ := hp.tests
  unfold trailStop
  split
  · rename_i hc
    have hno : ¬ (st.slCurrStop = nan ∨ st.slCurrTrail = false) := by
      rintro (h | h) <;> simp [h, isnan] at hc
    cases side
    · rw [if_pos (h1 rfl)]
      split
      · rename_i hb
        exact ⟨Or.inl ⟨rfl, hb⟩, rfl, rfl, fun h => absurd h hno⟩
      · rename_i hb
        exact ⟨Or.inr ⟨rfl, fun _ _ => hb⟩, rfl, rfl, fun _ => rfl⟩
    · rw [if_neg (by simp [h2 rfl]), if_pos (h2 rfl).2]
      split
      · rename_i hb
        exact ⟨Or.inl ⟨rfl, hb⟩, rfl, rfl, fun h => absurd h hno⟩
      · rename_i hb
        exact ⟨Or.inr ⟨rfl, fun _ _ => hb⟩, rfl, rfl, fun _ => rfl⟩
  · rename_i hc
    refine ⟨Or.inr ⟨rfl, fun ha hb => absurd ?_ hc⟩, rfl, rfl, fun _ => rfl⟩
    simp only [hb, Bool.and_true]
    revert ha; cases st.slCurrStop <;> simp [isnan]

theorem checkStops_trails {A : Arith} {inp : SigInputs} {i c : Nat} {p q : F} {st st' : Stops} {side : Side}
    (hp : OnSide p side) (h : checkStops A inp i c p st = .ok (q, st')) :
    (st'.slCurrStop = st.slCurrStop ∧ st'.slCurrTrail = st.slCurrTrail) ∧
    (st'.slCurrPrice = st.slCurrPrice ∨ Better st.slCurrPrice st'.slCurrPrice side) ∧
    (inp.useStops = true → st.slCurrStop ≠ nan → Trails (currentBar inp i c) side st st') ∧
    ((st.slCurrStop = nan ∨ st.slCurrTrail = false) → st'.slCurrPrice = st.slCurrPrice) := by
  unfold checkStops at h
  split at h
  · dsimp only at h
    split at h
    · cases h
    cases h
    obtain ⟨h1, h2, h3, h4⟩ := trailStop_trails (i := i) (b := currentBar inp i c) (st := st) hp
    refine ⟨⟨h2, h3⟩, ?_, fun _ _ => h1, fun h => by rw [h4 h]⟩
    rcases h1 with h1 | h1
    · exact Or.inr h1.2
    · exact Or.inl h1.1
  · rename_i hc
    cases h
    refine ⟨⟨rfl, rfl⟩, Or.inl rfl, fun hu hn => absurd ?_ hc, fun _ => rfl⟩
    rw [hu]
    revert hn; cases st.slCurrStop <;> simp [isnan]

/-- An order that keeps the side and does not override the stop leaves the stop loss alone. -/
theorem updateStops_keeps {inp : SigInputs} {i c : Nat} {o : Order} {res : OrderResult} {p p' vp : F} {st : Stops}
    {side : Side} (hp : OnSide p side) (hp' : OnSide p' side) (ho : ¬ Overridden inp i c p p') :
    (updateStops inp i c o res p p' vp st).slCurrPrice = st.slCurrPrice ∧
      (updateStops inp i c o res p p' vp st).slCurrStop = st.slCurrStop ∧
      (updateStops inp i c o res p p' vp st).slCurrTrail = st.slCurrTrail := by
  have hz := hp.tests.2.2
  have hz' := hp'.tests.2.2
  have hsg : eqb p'.sign p.sign = true := by
    rw [hp.sign, hp'.sign]; cases side <;> decide +kernel
  unfold updateStops
  split
  · rw [if_neg (by simp [hz'])]
    dsimp only
    rw [if_neg (by simp [hz, hsg])]
    split
    · rename_i hab
      have hm : shouldUpdateStop (inp.slStop i c) (inp.uponStopUpdate i c) = false := by
        by_contra hm
        apply ho
        refine ⟨hab, ?_⟩
        unfold shouldUpdateStop at hm
        split at hm
        · rename_i hmode
          rcases hmode with hmode | hmode
          · by_cases hn : inp.slStop i c = nan
            · rw [hn, hmode] at hm; exact absurd rfl hm
            · exact Or.inr ⟨hmode, hn⟩
          · exact Or.inl hmode
        · exact absurd rfl hm
      rw [hm]
      simp only [Bool.false_eq_true, if_false]
      split <;> exact ⟨rfl, rfl, rfl⟩
    · exact ⟨rfl, rfl, rfl⟩
  · exact ⟨rfl, rfl, rfl⟩

theorem ColumnStep.keeps {inp : SigInputs} {i c : Nat} {p p' : F} {st st' : Stops} {side : Side}
    (h : ColumnStep inp i c p p' st st') (hp : OnSide p side) (hp' : OnSide p' side) (ho : ¬ Overridden inp i c p p') :
    st'.slCurrPrice = st.slCurrPrice ∧ st'.slCurrStop = st.slCurrStop ∧ st'.slCurrTrail = st.slCurrTrail := by
  rcases h with ⟨-, rfl⟩ | ⟨o, res, vp, rfl⟩
  · exact ⟨rfl, rfl, rfl⟩
  · exact updateStops_keeps hp hp' ho

section
variable {A : Arith} {inp : SigInputs} {sharing : Bool} {g fc len c a i : Nat} {side : Side} {s0 s : SigState}

theorem HeldRun.onSide {cell : CellFn} (h : HeldRun A inp cell sharing g fc len c side a s0 i s) :
    OnSide (s.sim.position c) side := by cases h <;> assumption

theorem Better.trans' {x y z : F} (h1 : Better x y side) (h2 : Better y z side) : Better x z side := by
  cases side
  · exact lt_trans' h1 h2
  · exact lt_trans' h2 h1

/-- **C30**.  With a signal function and any hooks, the reference price of the stop never moves against the position. -/
theorem C30_tightens {f : SigFuncs} (hseq : sharing = true → ∀ i, SigSeqOk inp i fc len) (h1 : fc ≤ c) (h2 : c < fc + len)
    (h : HeldRun A inp (funcCell A inp f) sharing g fc len c side a s0 i s) :
    (s.stops c).slCurrPrice = (s0.stops c).slCurrPrice ∨
      Better (s0.stops c).slCurrPrice (s.stops c).slCurrPrice side := by
  induction h with
  | start => exact Or.inl rfl
  | @row j s1 s2 hrun hr hp ho ih =>
    obtain ⟨vp, st, o, hc, hcs⟩ := sigRow_column hr (fun hs => hseq hs j) h1 h2
    obtain ⟨e, -⟩ := hcs.keeps hrun.onSide hp ho
    have hstep : (s2.stops c).slCurrPrice = (s1.stops c).slCurrPrice ∨
        Better (s1.stops c).slCurrPrice (s2.stops c).slCurrPrice side := by
      rw [e]
      unfold funcCell at hc
      split at hc
      · cases hc
      rename_i q st1 hck
      split at hc
      · cases hc
      cases hc
      have hadj : (adjustStops inp f j c (s1.sim.position c) vp (s1.stops c)).slCurrPrice = (s1.stops c).slCurrPrice := by
        unfold adjustStops; split <;> rfl
      have := (checkStops_trails hrun.onSide hck).2.1
      rwa [hadj] at this
    rcases hstep with hstep | hstep
    · rw [hstep]; exact ih
    · rcases ih with ih | ih
      · rw [ih] at hstep; exact Or.inr hstep
      · exact Or.inr (ih.trans' hstep)

theorem arrayCell_stops {ar : SigArrays} {j : Nat} {p vp : F} {st0 st : Stops} {o : CellOrder}
    (hc : arrayCell A inp ar j c p vp st0 = .ok (st, o)) : ∃ q, checkStops A inp j c p st0 = .ok (q, st) := by
  unfold arrayCell at hc
  split at hc
  · cases hc
  rename_i q st1 hck
  split at hc
  · cases hc
  cases hc
  exact ⟨q, hck⟩

/-- **C30** (arrays).  The stop keeps its width and kind, and if it trails, its reference price is the best of the price
it started from and the best prices of the bars since. -/
theorem C30_extreme {ar : SigArrays} (hseq : sharing = true → ∀ i, SigSeqOk inp i fc len) (h1 : fc ≤ c)
    (h2 : c < fc + len) (hu : inp.useStops = true) (hn : (s0.stops c).slCurrStop ≠ nan)
    (ht : (s0.stops c).slCurrTrail = true)
    (h : HeldRun A inp (arrayCell A inp ar) sharing g fc len c side a s0 i s) :
    ((s.stops c).slCurrStop = (s0.stops c).slCurrStop ∧ (s.stops c).slCurrTrail = true) ∧
    ((s.stops c).slCurrPrice = (s0.stops c).slCurrPrice ∨
      ∃ j, a ≤ j ∧ j < i ∧ (s.stops c).slCurrPrice = (currentBar inp j c).best side) ∧
    ¬ Better (s.stops c).slCurrPrice (s0.stops c).slCurrPrice side ∧
    (∀ j, a ≤ j → j < i → ¬ Better (s.stops c).slCurrPrice ((currentBar inp j c).best side) side) := by
  have hirr : ∀ x, ¬ Better x x side := by
    intro x hx; cases side <;> (unfold Better at hx; rw [lt_irrefl'] at hx; cases hx)
  induction h with
  | start => exact ⟨⟨rfl, ht⟩, Or.inl rfl, hirr _, fun j h1 h2 => absurd h1 (by omega)⟩
  | @row j s1 s2 hrun hr hp ho ih =>
    obtain ⟨⟨i1, i2⟩, i3, i4, i5⟩ := ih
    obtain ⟨vp, st, o, hc, hcs⟩ := sigRow_column hr (fun hs => hseq hs j) h1 h2
    obtain ⟨e1, e2, e3⟩ := hcs.keeps hrun.onSide hp ho
    obtain ⟨q, hck⟩ := arrayCell_stops hc
    obtain ⟨⟨k1, k2⟩, -, k3, -⟩ := checkStops_trails hrun.onSide hck
    have ha : a ≤ j := by
      clear * - hrun
      induction hrun with
      | start => exact le_refl _
      | row _ _ _ _ ih => omega
    rw [e1, e2, e3, k1, k2]
    refine ⟨⟨i1, i2⟩, ?_⟩
    rcases k3 hu (by rw [i1]; exact hn) with ⟨t1, t2⟩ | ⟨t1, t2⟩
    · have hbt : ∀ x, ¬ Better (s1.stops c).slCurrPrice x side → ¬ Better st.slCurrPrice x side :=
        fun x hx hb => hx (t2.trans' hb)
      refine ⟨Or.inr ⟨j, ha, by omega, t1⟩, hbt _ i4, fun k hk1 hk2 => ?_⟩
      by_cases hkj : k = j
      · rw [hkj, ← t1]; exact hirr _
      · exact hbt _ (i5 k hk1 (by omega))
    · rw [t1]
      refine ⟨?_, i4, fun k hk1 hk2 => ?_⟩
      · rcases i3 with i3 | ⟨k, hk1, hk2, hk3⟩
        · exact Or.inl i3
        · exact Or.inr ⟨k, hk1, by omega, hk3⟩
      · by_cases hkj : k = j
        · rw [hkj]
          exact t2 (by rw [k1, i1]; exact hn) (by rw [k2]; exact i2)
        · exact i5 k hk1 (by omega)

/-- **C30** (no trailing).  A stop that does not trail stays where it is. -/
theorem C30_fixed {ar : SigArrays} (hseq : sharing = true → ∀ i, SigSeqOk inp i fc len) (h1 : fc ≤ c)
    (h2 : c < fc + len) (ht : (s0.stops c).slCurrTrail = false)
    (h : HeldRun A inp (arrayCell A inp ar) sharing g fc len c side a s0 i s) :
    (s.stops c).slCurrStop = (s0.stops c).slCurrStop ∧ (s.stops c).slCurrTrail = false ∧
      (s.stops c).slCurrPrice = (s0.stops c).slCurrPrice := by
  induction h with
  | start => exact ⟨rfl, ht, rfl⟩
  | @row j s1 s2 hrun hr hp ho ih =>
    obtain ⟨i1, i2, i3⟩ := ih
    obtain ⟨vp, st, o, hc, hcs⟩ := sigRow_column hr (fun hs => hseq hs j) h1 h2
    obtain ⟨e1, e2, e3⟩ := hcs.keeps hrun.onSide hp ho
    obtain ⟨q, hck⟩ := arrayCell_stops hc
    obtain ⟨⟨k1, k2⟩, -, -, k4⟩ := checkStops_trails hrun.onSide hck
    rw [e1, e2, e3, k1, k2, k4 (Or.inr i2)]
    exact ⟨i1, i2, i3⟩

/-- **C30** (opened).  A position that is opened or turned by a filled order starts with the configured stops, at a
reference price of the configured kind. -/
theorem C30_opened {o : Order} {res : OrderResult} {p p' vp : F} {st : Stops} (hu : inp.useStops = true)
    (hf : res.status = OrderStatus.Filled) (hs : OnSide p' side) (hp : ¬ OnSide p side) (hn : p ≠ nan) :
    let st' := updateStops inp i c o res p p' vp st
    (st'.slCurrStop = inp.slStop i c ∧ st'.slCurrTrail = inp.slTrail i c ∧ st'.tpCurrStop = inp.tpStop i c) ∧
    st'.slCurrPrice = st'.tpInitPrice ∧ st'.slInitPrice = st'.tpInitPrice ∧
    (inp.stopEntryPrice i c = StopEntryPrice.ValPrice → st'.slCurrPrice = vp) ∧
    (inp.stopEntryPrice i c = StopEntryPrice.Price → st'.slCurrPrice = o.price) ∧
    (inp.stopEntryPrice i c = StopEntryPrice.FillPrice → st'.slCurrPrice = res.price) ∧
    (inp.stopEntryPrice i c = StopEntryPrice.Close → st'.slCurrPrice = inp.close i c) := by
  have hsg : (eqb p zero || !eqb p'.sign p.sign) = true := by
    have e' := hs.sign
    rcases sign_cases hn with h0 | h0 | h0
    · rw [h0]; rfl
    · have : side = .short := by cases side with
        | long => exact absurd h0.1 hp
        | short => rfl
      rw [e', this, h0.2, Bool.or_eq_true]; right; decide +kernel
    · have : side = .long := by cases side with
        | long => rfl
        | short => exact absurd h0.1 hp
      rw [e', this, h0.2, Bool.or_eq_true]; right; decide +kernel
  dsimp only
  unfold updateStops
  rw [if_pos (by simp [hu, hf]), if_neg (by simp [hs.tests.2.2])]
  dsimp only
  rw [if_pos hsg]
  refine ⟨⟨rfl, rfl, rfl⟩, rfl, rfl, ?_, ?_, ?_, ?_⟩ <;> intro he <;> rw [he] <;> rfl

/-- **C30** (closed).  A closed position has no stops. -/
theorem C30_closed {o : Order} {res : OrderResult} {p vp : F} {st : Stops} (hu : inp.useStops = true)
    (hf : res.status = OrderStatus.Filled) : updateStops inp i c o res p (fin 0) vp st = Stops.none := by
  unfold updateStops
  rw [if_pos (by simp [hu, hf]), if_pos (by decide)]

end

/-- The level of the stop loss of a side. -/
def stopLevel (side : Side) (ref stop : ℚ) : ℚ :=
  match side with
  | .long => ref * (1 - stop)
  | .short => ref * (1 + stop)

/-- **C30** (level).  A better reference price gives a level at least as tight (stops of at most 100 % for long
positions). -/
theorem C30_level {side : Side} {ref ref' stop : ℚ} (hs : 0 ≤ stop) (h1 : side = .long → stop ≤ 1)
    (h : ref' = ref ∨ Better (fin ref) (fin ref') side) :
    match side with
    | .long => stopLevel side ref stop ≤ stopLevel side ref' stop
    | .short => stopLevel side ref' stop ≤ stopLevel side ref stop := by
  rcases h with rfl | h
  · cases side <;> exact le_refl _
  · cases side
    · simp only [Better, lt, decide_eq_true_eq] at h
      have := h1 rfl
      simp only [stopLevel]
      nlinarith
    · simp only [Better, lt, decide_eq_true_eq] at h
      simp only [stopLevel]
      nlinarith

/-- **C30** (still hit).  A bar that hits the stop also hits it after the reference price has moved. -/
theorem C30_still_hit {r t : ℚ} {side : Side} {p : F} (hp : Holds p (match side with | .long => .long | .short => .short))
    {ref ref' stop o l h : ℚ} (hs : 0 ≤ stop) (h1 : side = .long → stop ≤ 1) (hl : l ≤ o) (hh : o ≤ h)
    (hb : ref' = ref ∨ Better (fin ref) (fin ref') side) {x : ℚ}
    (hx : getStopPrice (Arith.exact r t) p (fin ref) (fin stop) (fin o) (fin l) (fin h) true = .ok (fin x)) :
    ∃ x', getStopPrice (Arith.exact r t) p (fin ref') (fin stop) (fin o) (fin l) (fin h) true = .ok (fin x') ∧
      (match side with | .long => x ≤ x' | .short => x' ≤ x) := by
  have hlev := C30_level hs h1 hb
  cases side
  · simp only [stopLevel] at hlev
    rw [C29_down (Or.inl ⟨hp, rfl⟩) hs hl hh] at hx ⊢
    split at hx
    · cases hx
      rename_i hc
      rw [if_pos (hc.trans hlev)]
      exact ⟨_, rfl, min_le_min (le_refl _) hlev⟩
    · cases hx
  · simp only [stopLevel] at hlev
    rw [C29_up (Or.inl ⟨hp, rfl⟩) hs hl hh] at hx ⊢
    split at hx
    · cases hx
      rename_i hc
      rw [if_pos (hlev.trans hc)]
      exact ⟨_, rfl, max_le_max (le_refl _) hlev⟩
    · cases hx

/-! Non-vacuity: the run of C28 holds a long position from row 0; row 1 raises the reference price from 10 to 12. -/

example : ∃ s0 s, HeldRun Arith.std wSig (arrayCell Arith.std wSig wArr) false 0 0 1 0 .long 1 s0 2 s ∧
    (s0.stops 0).slCurrStop ≠ nan ∧ (s0.stops 0).slCurrTrail = true ∧ (s0.stops 0).slCurrPrice = fin 10 ∧
    (s.stops 0).slCurrPrice = fin 12 := by
  let st : SigState := { sim := { initState (initRecords 4 1 none 0) with cash := fin 100, free := fin 100 },
                         stops := fun _ => Stops.none }
  let row := sigRow Arith.std wSig (arrayCell Arith.std wSig wArr) false 0 0 1
  obtain ⟨s0, h0, f0⟩ := okAnd_iff (x := row st 0) (f := fun s0 =>
    decide ((s0.stops 0).slCurrStop ≠ nan ∧ (s0.stops 0).slCurrTrail = true ∧ (s0.stops 0).slCurrPrice = fin 10 ∧
      gt (s0.sim.position 0) zero = true) &&
    (match row s0 1 with
      | .ok s => decide ((s.stops 0).slCurrPrice = fin 12 ∧ gt (s.sim.position 0) zero = true ∧
          lt (s0.sim.position 0).abs (s.sim.position 0).abs = false)
      | .error _ => false)) (by decide +kernel)
  rw [Bool.and_eq_true, decide_eq_true_eq] at f0
  obtain ⟨⟨a1, a2, a3, a4⟩, f1⟩ := f0
  split at f1
  · rename_i s hs
    rw [decide_eq_true_eq] at f1
    obtain ⟨b1, b2, b3⟩ := f1
    exact ⟨s0, s, .row (.start a4) hs b2 (fun h => absurd h.1 (by rw [b3]; decide)), a1, a2, a3, b1⟩
  · cases f1

example : (updateStops wSig 0 0 ⟨fin 2, pinf, 0, 0, fin 0, fin 0, fin 0, fin 0, pinf, nan, fin 0, false, true, false, false⟩
    { size := fin 2, price := fin 10, fees := fin 0, side := 0, status := OrderStatus.Filled, statusInfo := -1 }
    (fin (-1)) (fin 1) (fin 10) Stops.none).slCurrPrice = fin 10 := by decide +kernel

end Vbt
