import Verif.Lemmas.RustSignalRanges
import Verif.Lemmas.Double
import Verif.Lemmas.Witness
import Verif.Spec.RustGeneric
import Verif.Props.C33

/-!
# C92  The Rust engine generates, cleans, ranks and locates signals like the Numba engine
-/

namespace Vbt
open F RsSig

/-! ## Cleaning -/

/-- The arrays returned by `clean_enex_1d` and `clean_enex_2d` are those of the Numba engine, whatever the arrays of
`np.empty` held. -/
theorem C92_clean (n cols : Nat) (en ex : Nat → Nat → Bool) (entryFirst : Bool)
    (junk : (Nat → Nat → Bool) × (Nat → Nat → Bool)) :
    (∀ c, RsSig.cleanEnex1d n (getCol en c) (getCol ex c) entryFirst = cleanEnex n (getCol en c) (getCol ex c) entryFirst) ∧
    SameCells n cols (RsSig.cleanEnex2d n cols en ex entryFirst).1 (cleanEnex2d n cols en ex entryFirst junk).1 ∧
    SameCells n cols (RsSig.cleanEnex2d n cols en ex entryFirst).2 (cleanEnex2d n cols en ex entryFirst junk).2 := by
  have hn : ∀ j : (Nat → Nat → Bool) × (Nat → Nat → Bool), cleanEnex2d n cols en ex entryFirst j =
      ((fun i c => if c < cols then (cleanEnex n (getCol en c) (getCol ex c) entryFirst).1 i else j.1 i c),
       fun i c => if c < cols then (cleanEnex n (getCol en c) (getCol ex c) entryFirst).2 i else j.2 i c) := by
    intro j
    unfold cleanEnex2d
    have h1 := fold_putCol (fun c => (cleanEnex n (getCol en c) (getCol ex c) entryFirst).1) j.1 cols
    have h2 := fold_putCol (fun c => (cleanEnex n (getCol en c) (getCol ex c) entryFirst).2) j.2 cols
    rw [← h1, ← h2]
    generalize List.range cols = l
    clear h1 h2
    induction l generalizing j with
    | nil => rfl
    | cons c l ih =>
      rw [List.foldl_cons, ih]
      rfl
  have hr : RsSig.cleanEnex2d n cols en ex entryFirst =
      cleanEnex2d n cols en ex entryFirst (fun _ _ => false, fun _ _ => false) := by
    unfold RsSig.cleanEnex2d cleanEnex2d
    refine cols_fold (Fresh := fun s c => getCol s.1 c = (fun _ => false) ∧ getCol s.2 c = fun _ => false) ?_ ?_ ?_ cols
    · intro s c h
      exact cleanCol_eq n en ex entryFirst s c h.1 h.2
    · intro s c d hd h
      exact ⟨by rw [← h.1]; exact getCol_putCol_ne _ _ hd, by rw [← h.2]; exact getCol_putCol_ne _ _ hd⟩
    · intro c
      exact ⟨rfl, rfl⟩
  refine ⟨fun c => cleanEnex1d_eq _ _ _ _, ?_, ?_⟩ <;>
  · intro i _ c hc
    rw [hr, hn, hn]
    simp only [hc, if_true]

/-- Two entries in a row and an exit on the same row as an entry. -/
example : (RsSig.cleanEnex2d 4 2 (fun i _ => decide (i ≤ 2)) (fun i c => decide (i = 2 + c)) true).2 3 1 = true ∧
    (cleanEnex2d 4 2 (fun i _ => decide (i ≤ 2)) (fun i c => decide (i = 2 + c)) true (fun _ _ => true, fun _ _ => true)).2 3 1
      = true ∧
    (RsSig.cleanEnex2d 4 2 (fun i _ => decide (i ≤ 2)) (fun i c => decide (i = 2 + c)) true).2 2 0 = false := by
  decide +kernel

/-! ## Stops -/

/-- `generate_stop_ex`: same array or same error. -/
theorem C92_stop_exits (A : Arith) (n cols : Nat) (x : StopArrays) (wait : Nat) (untilNext skip pickFirst : Bool) :
    RsSig.generateStopEx A n cols x wait untilNext skip pickFirst = generateStopEx A n cols x wait untilNext skip pickFirst := by
  unfold RsSig.generateStopEx generateStopEx
  refine cols_loop (Fresh := fun s c => getCol s c = fun _ => false) ?_ ?_ (fun _ => rfl) cols
  · intro s c h
    rw [exWhile_eq _ 0 _ rfl, rowsFrom_zero]
    have := stopEx_list (A := A) (n := n) (x := x) (wait := wait) (untilNext := untilNext) (skip := skip)
      (pickFirst := pickFirst) (col := c) s (flatnonzero n (getCol x.entries c)) ⟨fun _ => false, -1⟩
    rw [← h, putCol_getCol, h] at this
    rw [this]
    unfold generateEx
    cases exLoop n wait untilNext skip pickFirst (stopChoiceFn A x c wait pickFirst)
      (flatnonzero n (getCol x.entries c)) ⟨fun _ => false, -1⟩ <;> rfl
  · intro s s' c d hd h h0
    split at h
    · cases h
    · cases h
      rw [← h0]
      exact getCol_putCol_ne _ _ hd

/-- A trailing stop of -10 % in the first column, a stop of +50 % in the second. -/
def wStopArrays : StopArrays where
  entries := fun i _ => decide (i = 0)
  ts := fun i _ => [fin 10, fin 12, fin 11, fin 10, fin 15].getD i nan
  stop := fun _ c => if c = 0 then fin (-1/10) else fin (1/2)
  trailing := fun _ c => decide (c = 0)

example : okAnd (RsSig.generateStopEx .std 5 2 wStopArrays 1 true false true) (fun out =>
    !out 2 0 && out 3 0 && !out 4 0 && !out 3 1 && out 4 1) = true := by
  rw [C92_stop_exits]
  decide +kernel

/-- `generate_stop_enex`: same arrays, same error, and the loops take the same number of turns. -/
theorem C92_stop_turns (A : Arith) (n cols : Nat) (x : StopArrays) (entryWait exitWait : Nat) (pickFirst : Bool) (fuel : Nat) :
    RsSig.generateStopEnex A n cols x entryWait exitWait pickFirst fuel =
      generateStopEnex A n cols x entryWait exitWait pickFirst fuel := by
  unfold RsSig.generateStopEnex generateStopEnex
  split
  · rfl
  refine cols_loopO (Fresh := fun s c => getCol s.1 c = (fun _ => false) ∧ getCol s.2 c = fun _ => false) ?_ ?_
    (fun _ => ⟨rfl, rfl⟩) cols
  · intro s c h
    have := stopTurns_eq (A := A) (n := n) (x := x) (entryWait := entryWait) (exitWait := exitWait)
      (pickFirst := pickFirst) (col := c) s.1 s.2 fuel ⟨fun _ => false, fun _ => false, -2, -1, 0⟩
    have ht : turnOf s.1 s.2 c ⟨fun _ => false, fun _ => false, -2, -1, 0⟩ = ⟨s.1, s.2, -2, -1, 0⟩ := by
      unfold turnOf
      dsimp only
      rw [← h.1, putCol_getCol, h.1, ← h.2, putCol_getCol]
    rw [ht] at this
    rw [this]
    cases enexLoop (stopEnexInputs A n x c entryWait exitWait pickFirst) fuel
      ⟨fun _ => false, fun _ => false, -2, -1, 0⟩ with
    | none => rfl
    | some r => cases r <;> rfl
  · intro s s' c d hd h h0
    split at h
    · cases h
    · cases h
    · cases h
      exact ⟨by rw [← h0.1]; exact getCol_putCol_ne _ _ hd, by rw [← h0.2]; exact getCol_putCol_ne _ _ hd⟩

/-- Entries at all rows; a stop of +10 %. -/
def wStopRising : StopArrays where
  entries := fun _ _ => true
  ts := fun i _ => [fin 10, fin 12, fin 11, fin 14, fin 13].getD i nan
  stop := fun _ _ => fin (1/10)
  trailing := fun _ _ => false

example : (match RsSig.generateStopEnex .std 5 1 wStopRising 1 1 true 15 with
    | some (.ok out) => decide ((List.range 5).map (out.1 · 0) = [true, false, true, false, true] ∧
        (List.range 5).map (out.2 · 0) = [false, true, false, true, false])
    | _ => false) = true := by decide +kernel

/-- A loop over columns whose turns all come to an end comes to an end. -/
theorem loopOE_end {σ : Type} {f : σ → Nat → Option (Except Err σ)} (h : ∀ s c, f s c ≠ none) :
    ∀ (l : List Nat) (s : σ), loopOE f s l ≠ none := by
  intro l
  induction l with
  | nil => intro s; simp [loopOE]
  | cons c l ih =>
    intro s
    unfold loopOE
    cases hc : f s c with
    | none => exact absurd hc (h s c)
    | some r =>
      cases r with
      | error e => simp
      | ok s' => exact ih s'

theorem firstChoice_mem {a : Nat → Bool} {fromI toI i : Nat} (h : i ∈ firstChoice a fromI toI) : fromI ≤ i ∧ i < toI := by
  unfold firstChoice at h
  split at h
  · rename_i j hj
    have := List.mem_of_find?_eq_some hj
    rw [List.mem_range'_1] at this
    rw [List.mem_singleton] at h
    omega
  · cases h

theorem stopEnex_inRange (A : Arith) (n : Nat) (x : StopArrays) (c entryWait exitWait : Nat) (pickFirst : Bool) :
    (stopEnexInputs A n x c entryWait exitWait pickFirst).InRange := by
  intro k f hf r hr
  unfold EnexInputs.answer at hr
  have hn : (stopEnexInputs A n x c entryWait exitWait pickFirst).n = n := rfl
  rw [hn] at hf hr ⊢
  split at hr
  · have hr : r ∈ (firstChoice (getCol x.entries c) f.toNat (n : Int).toNat).map Int.ofNat := hr
    obtain ⟨i, hi, rfl⟩ := List.mem_map.mp hr
    have := firstChoice_mem hi
    rw [Int.toNat_natCast] at this
    constructor
    · have := this.1
      simp only [Int.ofNat_eq_natCast]
      omega
    · have := this.2
      simp only [Int.ofNat_eq_natCast]
      omega
  · have hr : r ∈ (stopChoice A (getCol x.ts c) (getCol x.stop c) (getCol x.trailing c) exitWait pickFirst f.toNat
        (n : Int).toNat).map Int.ofNat := hr
    obtain ⟨i, hi, rfl⟩ := List.mem_map.mp hr
    rw [stopChoice_eq] at hi
    have hm : i ∈ stopChoiceAll A x f.toNat (n : Int).toNat c exitWait := by
      split at hi
      · rw [stopChoiceFirst_head, Option.mem_toList] at hi
        exact List.mem_of_head? hi
      · exact hi
    have := stopChoiceAll_mem hm
    rw [Int.toNat_natCast] at this
    constructor
    · have := this.1
      simp only [Int.ofNat_eq_natCast]
      omega
    · have := this.2
      simp only [Int.ofNat_eq_natCast]
      omega

/-- `generate_stop_enex` comes to an end, for each column within `2 n + 5` turns. -/
theorem C92_stop_turns_end (A : Arith) (n cols : Nat) (x : StopArrays) (entryWait exitWait : Nat) (pickFirst : Bool) {fuel : Nat}
    (hf : 2 * n + 5 ≤ fuel) : RsSig.generateStopEnex A n cols x entryWait exitWait pickFirst fuel ≠ none := by
  rw [C92_stop_turns]
  unfold generateStopEnex
  split
  · simp
  rename_i hw
  refine loopOE_end ?_ _ _
  intro s c
  have := enexLoop_terminates (x := stopEnexInputs A n x c entryWait exitWait pickFirst)
    (forward_of (Or.inr (stopEnex_inRange A n x c entryWait exitWait pickFirst))) (by
      rcases Nat.eq_zero_or_pos entryWait with h | h
      · exact Or.inr fun h' => hw ⟨h, h'⟩
      · exact Or.inl (Nat.ne_of_gt h)) fuel ⟨fun _ => false, fun _ => false, -2, -1, 0⟩
      (fun _ => rfl) (by simp only; omega) (by
        unfold enexMeasure
        have hn : (stopEnexInputs A n x c entryWait exitWait pickFirst).n = n := rfl
        simp only [if_true, hn]
        split <;> omega)
  split
  · rename_i h; exact absurd h this
  · simp
  · simp

example : RsSig.generateStopEnex .double 5 1 wStopRising 1 1 true 15 ≠ none :=
  C92_stop_turns_end _ _ _ _ _ _ _ (by omega)

/-! ## OHLC stops -/

/-- `generate_ohlc_stop_ex`: exits, stop prices and stop types are the same arrays, and so is the error. -/
theorem C92_ohlc_exits (A : Arith) (n cols : Nat) (x : OhlcArrays) (price : Nat → Nat → F) (type : Nat → Nat → Int) (wait : Nat)
    (untilNext skip pickFirst : Bool) :
    RsSig.generateOhlcStopEx A n cols x price type wait untilNext skip pickFirst =
      generateOhlcStopEx A n cols x price type wait untilNext skip pickFirst := by
  unfold RsSig.generateOhlcStopEx generateOhlcStopEx
  refine cols_loop (Fresh := fun s c => getCol s.exits c = fun _ => false) ?_ ?_ (fun _ => rfl) cols
  · intro s c h
    rw [exWhile_eq _ 0 _ rfl, rowsFrom_zero]
    have := ohlcEx_list (A := A) (n := n) (x := x) (wait := wait) (untilNext := untilNext) (skip := skip)
      (pickFirst := pickFirst) (col := c) s (flatnonzero n (getCol x.entries c))
      ⟨fun _ => false, -1, getCol s.price c, getCol s.type c⟩
    dsimp only at this
    rw [putCol_getCol, putCol_getCol, ← h, putCol_getCol, h] at this
    rw [this]
    cases exLoopE n wait untilNext skip pickFirst (ohlcChoiceFn A x c wait pickFirst)
      (flatnonzero n (getCol x.entries c)) ⟨fun _ => false, -1, getCol s.price c, getCol s.type c⟩ <;> rfl
  · intro s s' c d hd h h0
    split at h
    · cases h
    · cases h
      rw [← h0]
      exact getCol_putCol_ne _ _ hd

/-- A stop loss of 10 % that the second bar reaches. -/
def wOhlcArrays : OhlcArrays where
  entries := fun i _ => decide (i = 0)
  open_ := fun _ _ => fin 10
  high := fun _ _ => fin 11
  low := fun i _ => if i = 0 then fin 10 else fin 8
  close := fun _ _ => fin 10
  slStop := fun _ _ => fin (1/10)
  slTrail := fun _ _ => false
  tpStop := fun _ _ => nan
  reverse := fun _ _ => false
  isOpenSafe := true

example : okAnd (RsSig.generateOhlcStopEx .std 3 1 wOhlcArrays (fun _ _ => nan) (fun _ _ => -1) 0 true false true)
    (fun o => !o.exits 0 0 && o.exits 1 0 && !o.exits 2 0 && decide (o.price 1 0 = fin 9) && decide (o.type 2 0 = -1)) = true := by
  rw [C92_ohlc_exits]
  decide +kernel

/-- A negative stop raises in both engines. -/
example : raised (RsSig.generateOhlcStopEx .std 3 1 { wOhlcArrays with slStop := fun _ _ => fin (-1/10) } (fun _ _ => nan)
    (fun _ _ => -1) 0 true false true) (.valueError "Stop value must be 0 or greater") = true := by
  rw [C92_ohlc_exits]
  decide +kernel

/-- `generate_ohlc_stop_enex`: the same four arrays, the same error, the same number of turns. -/
theorem C92_ohlc_turns (A : Arith) (n cols : Nat) (x : OhlcArrays) (price : Nat → Nat → F) (type : Nat → Nat → Int)
    (entryWait exitWait : Nat) (pickFirst : Bool) (fuel : Nat) :
    RsSig.generateOhlcStopEnex A n cols x price type entryWait exitWait pickFirst fuel =
      generateOhlcStopEnex A n cols x price type entryWait exitWait pickFirst fuel := by
  unfold RsSig.generateOhlcStopEnex generateOhlcStopEnex
  split
  · rfl
  refine cols_loopO (Fresh := fun s c => getCol s.entries c = (fun _ => false) ∧ getCol s.exits c = fun _ => false) ?_ ?_
    (fun _ => ⟨rfl, rfl⟩) cols
  · intro s c h
    have := ohlcTurns_eq (A := A) (n := n) (x := x) (entryWait := entryWait) (exitWait := exitWait)
      (pickFirst := pickFirst) (col := c) s fuel
      ⟨fun _ => false, fun _ => false, -2, -1, 0, getCol s.price c, getCol s.type c⟩
    have ht : ohlcTurnOf s c ⟨fun _ => false, fun _ => false, -2, -1, 0, getCol s.price c, getCol s.type c⟩ =
        ⟨s, -2, -1, 0⟩ := by
      unfold ohlcTurnOf
      dsimp only
      rw [putCol_getCol, putCol_getCol, ← h.1, putCol_getCol, h.1, ← h.2, putCol_getCol]
    rw [ht] at this
    rw [this]
    cases enexLoopE (ohlcEnexInputs A n x c entryWait exitWait pickFirst) fuel
      ⟨fun _ => false, fun _ => false, -2, -1, 0, getCol s.price c, getCol s.type c⟩ with
    | none => rfl
    | some r => cases r <;> rfl
  · intro s s' c d hd h h0
    split at h
    · cases h
    · cases h
    · cases h
      exact ⟨by rw [← h0.1]; exact getCol_putCol_ne _ _ hd, by rw [← h0.2]; exact getCol_putCol_ne _ _ hd⟩

example : (match RsSig.generateOhlcStopEnex .std 3 1 { wOhlcArrays with entries := fun _ _ => true } (fun _ _ => nan)
      (fun _ _ => -1) 1 0 true 11 with
    | some (.ok o) => decide ((List.range 3).map (o.entries · 0) = [true, false, true] ∧
        (List.range 3).map (o.exits · 0) = [false, true, true] ∧ o.price 1 0 = fin 9)
    | _ => false) = true := by decide +kernel

/-- Twice the rows that are left, one more if the next turn may choose the row of the last one again. -/
def turnsLeft {σ : Type} (x : EnexInputsE σ) (s : EnexStateE σ) : Int :=
  2 * (x.n - s.prev) + if s.i ≠ 0 ∧ (if s.i % 2 = 0 then x.entryWait else x.exitWait) = 0 then 1 else 0

/-- Choice functions that return rows of the range given to them. -/
def ChoiceE.InRange {σ : Type} (c : ChoiceE σ) : Prop :=
  ∀ f t s l s', c f t s = .ok (l, s') → ∀ r ∈ l, f ≤ r ∧ r < t

/-- A turn that goes on leaves fewer turns. -/
theorem enexStepE_less {σ : Type} {x : EnexInputsE σ} (h1 : x.entryChoice.InRange) (h2 : x.exitChoice.InRange)
    (hw : x.entryWait ≠ 0 ∨ x.exitWait ≠ 0) {s s' : EnexStateE σ} (hi : s.i = 0 → s.prev = -1)
    (h : enexStepE x s = .ok (s', true)) :
    turnsLeft x s' < turnsLeft x s ∧ s'.prev < x.n ∧ s'.i = s.i + 1 := by
  unfold enexStepE at h
  dsimp only at h
  generalize hfrom : (if s.i % 2 = 0 then (if s.i = 0 then 0 else s.prev + (x.entryWait : Int))
    else s.prev + (x.exitWait : Int)) = fromI at h
  split at h
  · cases h
  have key : ∀ (r : Int) (s'' : EnexStateE σ), fromI ≤ r → r < x.n → s''.prev = r → s''.i = s.i + 1 →
      turnsLeft x s'' < turnsLeft x s ∧ s''.prev < x.n ∧ s''.i = s.i + 1 := by
    intro r s'' hr hrn hp hi'
    refine ⟨?_, by rw [hp]; exact hrn, hi'⟩
    unfold turnsLeft
    rw [hp, hi']
    by_cases h0 : s.i = 0
    · have := hi h0
      rw [h0] at hfrom ⊢
      simp only [Nat.zero_mod, if_true] at hfrom
      rw [this]
      split <;> simp <;> omega
    · by_cases he : s.i % 2 = 0
      · have ho : (s.i + 1) % 2 ≠ 0 := by omega
        rw [if_pos he, if_neg h0] at hfrom
        simp only [he, ho, if_true, if_false]
        by_cases hwe : x.entryWait = 0
        · have hwx : x.exitWait ≠ 0 := by tauto
          simp [hwe, hwx] at hfrom ⊢
          omega
        · simp only [hwe, and_false, if_false]
          split <;> omega
      · have ho : (s.i + 1) % 2 = 0 := by omega
        rw [if_neg he] at hfrom
        simp only [he, ho, if_true, if_false]
        by_cases hwx : x.exitWait = 0
        · have hwe : x.entryWait ≠ 0 := by tauto
          simp [hwe, hwx, h0] at hfrom ⊢
          omega
        · simp only [hwx, and_false, if_false]
          split <;> omega
  have hrange : ∀ l arrs, (if decide (s.i % 2 = 0) = true then x.entryChoice fromI x.n s.arrs
      else x.exitChoice fromI x.n s.arrs) = .ok (l, arrs) → ∀ r ∈ l, fromI ≤ r ∧ r < x.n := by
    intro l arrs hl
    split at hl
    · exact h1 _ _ _ _ _ hl
    · exact h2 _ _ _ _ _ hl
  revert h hrange
  generalize (if decide (s.i % 2 = 0) = true then x.entryChoice fromI x.n s.arrs
      else x.exitChoice fromI x.n s.arrs) = res
  intro h hrange
  cases res with
  | error e => cases h
  | ok p =>
    obtain ⟨l, arrs⟩ := p
    have hl := hrange l arrs rfl
    cases l with
    | nil => cases h
    | cons first more =>
      dsimp only at h
      generalize (if decide (s.i % 2 = 0) = true then x.entryPickFirst else x.exitPickFirst) = pf at h
      by_cases c1 : first = s.prev ∧ s.prev = s.prevPrev
      · rw [if_pos c1] at h; cases h
      rw [if_neg c1] at h
      by_cases c2 : first < fromI
      · rw [if_pos c2] at h; cases h
      rw [if_neg c2] at h
      cases pf
      · simp only [Bool.false_eq_true, if_false] at h
        have hlast := hl _ (List.getLast_mem (List.cons_ne_nil first more))
        rw [if_neg (by omega)] at h
        cases h
        exact key _ _ hlast.1 hlast.2 rfl rfl
      · simp only [if_true] at h
        have hfirst := hl first List.mem_cons_self
        rw [if_neg (by omega)] at h
        cases h
        exact key _ _ hfirst.1 hfirst.2 rfl rfl

theorem enexLoopE_end {σ : Type} {x : EnexInputsE σ} (h1 : x.entryChoice.InRange) (h2 : x.exitChoice.InRange)
    (hw : x.entryWait ≠ 0 ∨ x.exitWait ≠ 0) : ∀ (fuel : Nat) (s : EnexStateE σ), (s.i = 0 → s.prev = -1) → s.prev ≤ x.n →
    turnsLeft x s < fuel → enexLoopE x fuel s ≠ none := by
  intro fuel
  induction fuel with
  | zero =>
    intro s _ hp hm
    exfalso
    unfold turnsLeft at hm
    split at hm <;> omega
  | succ fuel ih =>
    intro s hi hp hm
    unfold enexLoopE
    cases hs : enexStepE x s with
    | error e => simp
    | ok p =>
      obtain ⟨s', b⟩ := p
      cases b
      · simp
      · obtain ⟨k1, k2, k3⟩ := enexStepE_less h1 h2 hw hi hs
        exact ih s' (by intro h; omega) (by omega) (by omega)

theorem ohlcChoice_inRange (A : Arith) (x : OhlcArrays) (c wait : Nat) (pickFirst : Bool) :
    (ohlcChoiceFn A x c wait pickFirst).InRange := by
  intro f t s l s' h r hr
  unfold ohlcChoiceFn at h
  split at h
  · cases h
  · rename_i l' p ty hl
    cases h
    obtain ⟨i, hi, rfl⟩ := List.mem_map.mp hr
    have := ohlcStopChoice_mem hl hi
    constructor
    · have := this.1
      simp only [Int.ofNat_eq_natCast]
      omega
    · have := this.2
      simp only [Int.ofNat_eq_natCast]
      omega

/-- `generate_ohlc_stop_enex` comes to an end, for each column within `2 n + 5` turns. -/
theorem C92_ohlc_turns_end (A : Arith) (n cols : Nat) (x : OhlcArrays) (price : Nat → Nat → F) (type : Nat → Nat → Int)
    (entryWait exitWait : Nat) (pickFirst : Bool) {fuel : Nat} (hf : 2 * n + 5 ≤ fuel) :
    RsSig.generateOhlcStopEnex A n cols x price type entryWait exitWait pickFirst fuel ≠ none := by
  rw [C92_ohlc_turns]
  unfold generateOhlcStopEnex
  split
  · simp
  rename_i hw
  refine loopOE_end ?_ _ _
  intro s c
  have := enexLoopE_end (x := ohlcEnexInputs A n x c entryWait exitWait pickFirst) (by
      intro f t s l s' h r hr
      have h : Except.ok ((firstChoice (getCol x.entries c) f.toNat t.toNat).map Int.ofNat, s) = Except.ok (l, s') := h
      cases h
      obtain ⟨i, hi, rfl⟩ := List.mem_map.mp hr
      have := firstChoice_mem hi
      constructor
      · have := this.1
        simp only [Int.ofNat_eq_natCast]
        omega
      · have := this.2
        simp only [Int.ofNat_eq_natCast]
        omega) (ohlcChoice_inRange A x c exitWait pickFirst) (by
      rcases Nat.eq_zero_or_pos entryWait with h | h
      · exact Or.inr fun h' => hw ⟨h, h'⟩
      · exact Or.inl (Nat.ne_of_gt h)) fuel
    ⟨fun _ => false, fun _ => false, -2, -1, 0, getCol s.price c, getCol s.type c⟩ (fun _ => rfl) (by simp only; omega) (by
      unfold turnsLeft
      have hn : (ohlcEnexInputs A n x c entryWait exitWait pickFirst).n = n := rfl
      simp only [hn]
      simp
      omega)
  split
  · rename_i h; exact absurd h this
  · simp
  · simp

example : RsSig.generateOhlcStopEnex .double 3 1 wOhlcArrays (fun _ _ => nan) (fun _ _ => -1) 1 0 true 11 ≠ none :=
  C92_ohlc_turns_end _ _ _ _ _ _ _ _ _ (by omega)

/-! ## Ranges -/

/-- The four kinds of ranges: the same records in the same order. -/
theorem C92_ranges (n cols : Nat) (a b : Nat → Nat → Bool) (fromOther : Bool) :
    RsSig.betweenRanges n cols a = betweenRanges n cols a ∧
    RsSig.betweenTwoRanges n cols a b fromOther = betweenTwoRanges n cols a b fromOther ∧
    RsSig.partitionRanges n cols a = partitionRanges n cols a ∧
    RsSig.betweenPartitionRanges n cols a = betweenPartitionRanges n cols a :=
  ⟨ranges_cols (fun o c => betweenCol_eq n a c o) cols,
   ranges_cols (fun o c => betweenTwoCol_eq n a b fromOther o c) cols,
   ranges_cols (fun o c => partitionScan_eq n a c o) cols,
   ranges_cols (fun o c => betweenPartitionScan_eq n a c o) cols⟩

/-- Signals at rows 0, 1 and 3 of the first column, at rows 1 and 2 of the second. -/
def wSignalGrid : Nat → Nat → Bool := fun i c => if c = 0 then decide (i = 0 ∨ i = 1 ∨ i = 3) else decide (i = 1 ∨ i = 2)

example : (RsSig.betweenRanges 4 2 wSignalGrid).map (fun r => (r.id, r.col, r.start, r.stop)) =
      [(0, 0, 0, 1), (1, 0, 1, 3), (2, 1, 1, 2)] ∧
    (RsSig.partitionRanges 4 2 wSignalGrid).map (fun r => (r.id, r.col, r.start, r.stop)) =
      [(0, 0, 0, 2), (1, 0, 3, 3), (2, 1, 1, 3)] ∧
    (RsSig.betweenPartitionRanges 4 2 wSignalGrid).map (fun r => (r.id, r.col, r.start, r.stop)) = [(0, 0, 1, 3)] := by
  decide +kernel

example : (RsSig.betweenTwoRanges 4 2 wSignalGrid (fun i _ => decide (i = 2)) false).map
      (fun r => (r.id, r.col, r.start, r.stop)) = [(0, 0, 0, 2), (1, 0, 1, 2), (2, 1, 1, 2), (3, 1, 2, 2)] := by
  rw [(C92_ranges 4 2 wSignalGrid (fun i _ => decide (i = 2)) false).2.1]
  decide +kernel

/-! ## Ranks -/

/-- Ranks of signals and of partitions: the same arrays. -/
theorem C92_ranks (n cols : Nat) (a : Nat → Nat → Bool) (resetBy : Option (Nat → Nat → Bool)) (afterFalse allowGaps : Bool) :
    RsSig.sigPosRank n cols a resetBy afterFalse allowGaps = rank2d n cols a resetBy afterFalse (sigPosRank allowGaps) ∧
    RsSig.partPosRank n cols a resetBy afterFalse = rank2d n cols a resetBy afterFalse partPosRank := by
  constructor
  · unfold RsSig.sigPosRank rank2d
    refine cols_fold (Fresh := fun (s : Nat → Nat → Int) c => getCol s c = fun _ => -1) ?_ ?_ (fun _ => rfl) cols
    · intro s c h
      exact sigScan_eq n a resetBy afterFalse allowGaps c s h
    · intro s c d hd h
      rw [← h]
      exact getCol_putCol_ne _ _ hd
  · unfold RsSig.partPosRank rank2d
    refine cols_fold (Fresh := fun (s : Nat → Nat → Int) c => getCol s c = fun _ => -1) ?_ ?_ (fun _ => rfl) cols
    · intro s c h
      exact partScan_eq n a resetBy afterFalse c s h
    · intro s c d hd h
      rw [← h]
      exact getCol_putCol_ne _ _ hd

example : (List.range 4).map (RsSig.sigPosRank 4 2 wSignalGrid none false false · 0) = [0, 1, -1, 0] ∧
    (List.range 4).map (RsSig.sigPosRank 4 2 wSignalGrid none false true · 0) = [0, 1, -1, 2] ∧
    (List.range 4).map (RsSig.sigPosRank 4 2 wSignalGrid none true true · 0) = [-1, -1, -1, 0] ∧
    (List.range 4).map (RsSig.partPosRank 4 2 wSignalGrid none false · 0) = [0, 0, -1, 1] ∧
    (List.range 4).map (RsSig.partPosRank 4 2 wSignalGrid (some fun i _ => decide (i = 2)) false · 0) = [0, 0, -1, 0] := by
  decide +kernel

/-! ## Indices -/

/-- `nth_index_1d` and `nth_index`, in both engines: the `n`-th signal counted from 0, or from the end for negative `n`, and -1
if there is none. -/
theorem C92_nth_index (len cols : Nat) (a : Nat → Nat → Bool) (n : Int) (junk : Nat → Int) {c : Nat} (hc : c < cols) :
    let idxs := (List.range len).filter (getCol a c)
    let found := if 0 ≤ n then idxs[n.toNat]? else idxs.reverse[(-n - 1).toNat]?
    let answer : Int := match found with | some i => (i : Int) | none => -1
    RsSig.nthIndex len cols a n c = answer ∧ RsSig.nthIndex1d len (getCol a c) n = answer ∧
      nthIndex len cols a n junk c = answer ∧ nthIndex1d len (getCol a c) n = answer := by
  intro idxs found answer
  have h1 : nthIndex1d len (getCol a c) n = answer := by
    unfold nthIndex1d
    dsimp only [answer, found, idxs]
    by_cases h : n ≥ 0
    · rw [if_pos h, if_pos h, nthScan_up _ _ _ _ (by omega), show n - -1 - 1 = n by omega]
      rfl
    · rw [if_neg h, if_neg h, nthScan_down _ _ _ _ (by omega), show 0 - n - 1 = -n - 1 by omega, List.filter_reverse]
      rfl
  have h2 : nthIndex len cols a n junk c = answer := by
    unfold nthIndex
    rw [fold_setAt (fun c => nthIndex1d len (getCol a c) n)]
    dsimp only
    rw [if_pos hc, h1]
  have h3 : RsSig.nthIndex1d len (getCol a c) n = answer := by rw [nthIndex1d_eq, h1]
  refine ⟨?_, h3, h2, h1⟩
  have hf : RsSig.nthIndex len cols a n = (List.range cols).foldl (fun out c => setAt out c (nthIndex1d len (getCol a c) n))
      (fun _ => -1) := by
    unfold RsSig.nthIndex
    refine cols_fold (Fresh := fun (s : Nat → Int) c => s c = -1) ?_ ?_ (fun _ => rfl) cols
    · intro s d hd
      rw [← nthIndex1d_eq]
      unfold RsSig.nthIndex1d
      have hg : getCol a d = fun row => a row d := rfl
      rw [hg]
      generalize (if n ≥ 0 then nthForward (fun row => a row d) n (List.range len) (-1)
        else nthBackward (fun row => a row d) n (List.range len).reverse 0) = o
      cases o with
      | some i => rfl
      | none =>
        funext j
        unfold setAt
        by_cases hj : j = d
        · rw [if_pos hj, hj]; exact hd
        · rw [if_neg hj]
    · intro s d e he hs
      unfold setAt
      rw [if_neg he]
      exact hs
  rw [hf, fold_setAt (fun c => nthIndex1d len (getCol a c) n)]
  dsimp only
  rw [if_pos hc, h1]

example : RsSig.nthIndex 4 2 wSignalGrid 2 0 = 3 ∧ RsSig.nthIndex 4 2 wSignalGrid 2 1 = -1 ∧
    RsSig.nthIndex 4 2 wSignalGrid (-2) 0 = 1 ∧ RsSig.nthIndex 4 2 wSignalGrid (-4) 0 = -1 := by decide +kernel

/-- `norm_avg_index_1d` and `norm_avg_index`, for both layouts: the number of the Numba engine to the last bit, if the number of
rows and the sum of the rows are integers that doubles represent. -/
theorem C92_norm_avg_index {A : Arith} (hA : A.Sound) (n cols : Nat) (a : Nat → Nat → Bool) (standard : Bool) (junk : Nat → F)
    (hn : n ≤ 2 ^ 53) {c : Nat} (hc : c < cols) (hs : ((List.range n).filter (getCol a c)).sum ≤ 2 ^ 53) :
    RsSig.normAvgIndex A n cols a standard c = normAvgIndex A n cols a junk c ∧
    RsSig.normAvgIndex1d A n (getCol a c) = normAvgIndex A n cols a junk c := by
  have hnb : normAvgIndex A n cols a junk c = normAvgIndex1d A n (getCol a c) := by
    unfold normAvgIndex
    rw [fold_setAt (fun c => normAvgIndex1d A n (getCol a c))]
    dsimp only
    rw [if_pos hc]
  have hs' : (flatnonzero n (getCol a c)).sum ≤ 2 ^ 53 := hs
  have hempty : ¬ (flatnonzero n (getCol a c)).length > 0 → normAvgIndex1d A n (getCol a c) = nan := by
    intro h
    unfold normAvgIndex1d
    rw [any_flatnonzero, if_pos]
    right
    have : flatnonzero n (getCol a c) = [] := List.length_eq_zero_iff.mp (by omega)
    rw [this]
    rfl
  have hwrite : ∀ (s : Nat → F × Nat) (l : List Nat), l.Nodup → c ∈ l → ∀ out : Nat → F, out c = nan →
      l.foldl (fun out col => if (s col).2 > 0 then setAt out col (normIndex A (s col) n) else out) out c =
        if (s c).2 > 0 then normIndex A (s c) n else nan := by
    intro s l
    have hskip : ∀ (l : List Nat), c ∉ l → ∀ out : Nat → F,
        l.foldl (fun out col => if (s col).2 > 0 then setAt out col (normIndex A (s col) n) else out) out c = out c := by
      intro l
      induction l with
      | nil => intro _ out; rfl
      | cons d l ih =>
        intro hm out
        rw [List.foldl_cons, ih (fun h => hm (List.mem_cons_of_mem _ h))]
        split
        · unfold setAt
          rw [if_neg (fun h => hm (by rw [h]; exact List.mem_cons_self))]
        · rfl
    induction l with
    | nil => intro _ hm; cases hm
    | cons d l ih =>
      intro hd hm out ho
      rw [List.nodup_cons] at hd
      rw [List.foldl_cons]
      by_cases hcd : c = d
      · subst hcd
        rw [hskip l hd.1]
        split
        · unfold setAt; rw [if_pos rfl]
        · exact ho
      · refine ih hd.2 ((List.mem_cons.mp hm).resolve_left hcd) _ ?_
        split
        · unfold setAt; rw [if_neg hcd]; exact ho
        · exact ho
  refine ⟨?_, by rw [hnb]; exact normAvgIndex1d_eq hA _ hn hs'⟩
  rw [hnb]
  have hgoal : ∀ s : Nat → F × Nat, s c = (List.range n).foldl (sumStep A fun row => a row c) (zero, 0) →
      (List.range cols).foldl (fun out col => if (s col).2 > 0 then setAt out col (normIndex A (s col) n) else out)
        (fun _ => nan) c = normAvgIndex1d A n (getCol a c) := by
    intro s hsc
    rw [hwrite s (List.range cols) List.nodup_range (List.mem_range.mpr hc) _ rfl]
    have : s c = (fin ((flatnonzero n (getCol a c)).sum : Nat), (flatnonzero n (getCol a c)).length) := by
      rw [hsc]
      exact sums_eq hA (getCol a c) n hs'
    rw [this]
    dsimp only
    split
    · exact normIndex_eq hA _ hn hs'
    · next h => rw [hempty h]
  unfold RsSig.normAvgIndex
  cases standard
  · simp only [Bool.false_eq_true, if_false]
    exact hgoal (fun col => (List.range n).foldl (sumStep A fun row => a row col) (zero, 0)) rfl
  · simp only [if_true]
    have := sums_rows A cols a (List.range n) ((fun _ => zero), fun _ => 0) c hc
    dsimp only at this
    revert this
    generalize (List.range n).foldl (fun (s : (Nat → F) × (Nat → Nat)) row =>
      (List.range cols).foldl (fun (s : (Nat → F) × (Nat → Nat)) col =>
        if a ((row * cols + col) / cols) ((row * cols + col) % cols) then
          (setAt s.1 col (F.add A (s.1 col) (A.rnd (row : ℚ))), setAt s.2 col (s.2 col + 1))
        else s) s) ((fun _ => zero), fun _ => 0) = r
    intro this
    exact hgoal (fun col => (r.1 col, r.2 col)) this

/-- What that number is: -1 for a signal on the first row only, 1 for one on the last row only, else in between, in double
precision too. -/
theorem C92_norm_avg_bounds {A : Arith} (hA : A.Sound) (n : Nat) (a : Nat → Bool) (h1 : 1 < n) (hn : n ≤ 2 ^ 52)
    (hs : ((List.range n).filter a).sum ≤ 2 ^ 53) (ha : ∃ i < n, a i = true) :
    le (fin (-1)) (normAvgIndex1d A n a) = true ∧ le (normAvgIndex1d A n a) (fin 1) = true := by
  have hs' : (flatnonzero n a).sum ≤ 2 ^ 53 := hs
  rw [← normIndex_eq hA a (by omega) hs']
  have hlen := flatnonzero_len n a
  have hpos : 0 < (flatnonzero n a).length := by
    obtain ⟨i, hi, hai⟩ := ha
    exact List.length_pos_of_mem (mem_flatnonzero.mpr ⟨hi, hai⟩)
  have hbound : (flatnonzero n a).sum ≤ (flatnonzero n a).length * (n - 1) := by
    have hm : ∀ i ∈ flatnonzero n a, i ≤ n - 1 := by
      intro i hi
      have := (mem_flatnonzero.mp hi).1
      omega
    revert hm
    generalize flatnonzero n a = l
    intro hm
    induction l with
    | nil => simp
    | cons i l ih =>
      rw [List.sum_cons, List.length_cons, Nat.add_mul, Nat.one_mul]
      have h1 := ih fun j hj => hm j (List.mem_cons_of_mem _ hj)
      have h2 := hm i List.mem_cons_self
      omega
  generalize flatnonzero n a = l at hs' hlen hpos hbound
  unfold normIndex
  dsimp only
  have hk : (0 : ℚ) < (l.length : ℚ) := by exact_mod_cast hpos
  have hm1 : sub A (A.rnd (n : ℚ)) one = fin ((n - 1 : Nat) : ℚ) := by
    rw [hA.nat' n (by omega)]
    simp only [F.sub, F.neg, F.add]
    rw [← hA.nat' (n - 1) (by omega), Nat.cast_sub (by omega), Nat.cast_one, sub_eq_add_neg]
  rw [hA.nat' l.length (by omega), hm1]
  -- the mean lies between the first and the last row
  have hdiv : div A (fin (l.sum : ℚ)) (fin (l.length : ℚ)) = A.rnd ((l.sum : ℚ) / (l.length : ℚ)) := by
    simp only [F.div]
    rw [if_neg (ne_of_gt hk)]
  rw [hdiv]
  have hlow := hA.mono 0 ((l.sum : ℚ) / (l.length : ℚ)) (by positivity)
  have hup := hA.mono ((l.sum : ℚ) / (l.length : ℚ)) ((n - 1 : Nat) : ℚ) (by
    rw [div_le_iff₀ hk, mul_comm]
    exact_mod_cast hbound)
  rw [hA.zero'] at hlow
  rw [hA.nat' (n - 1) (by omega)] at hup
  generalize A.rnd ((l.sum : ℚ) / (l.length : ℚ)) = m at hlow hup
  have hn1 : (0 : ℚ) < ((n - 1 : Nat) : ℚ) := by exact_mod_cast (by omega : 0 < n - 1)
  cases m with
  | nan => cases hlow
  | ninf => cases hlow
  | pinf => cases hup
  | fin m =>
    rw [le_fin, decide_eq_true_eq] at hlow hup
    have hmul : mul A (fin 2) (fin m) = A.rnd (2 * m) := rfl
    rw [hmul]
    have l1 := hA.mono 0 (2 * m) (by linarith)
    have u1 := hA.mono (2 * m) ((2 * (n - 1) : Nat) : ℚ) (by push_cast; linarith)
    rw [hA.zero'] at l1
    rw [hA.nat' (2 * (n - 1)) (by omega)] at u1
    generalize A.rnd (2 * m) = d at l1 u1
    cases d with
    | nan => cases l1
    | ninf => cases l1
    | pinf => cases u1
    | fin d =>
      rw [le_fin, decide_eq_true_eq] at l1 u1
      have hd : div A (fin d) (fin ((n - 1 : Nat) : ℚ)) = A.rnd (d / ((n - 1 : Nat) : ℚ)) := by
        simp only [F.div]
        rw [if_neg (ne_of_gt hn1)]
      rw [hd]
      have l2 := hA.mono 0 (d / ((n - 1 : Nat) : ℚ)) (div_nonneg l1 (le_of_lt hn1))
      have u2 := hA.mono (d / ((n - 1 : Nat) : ℚ)) ((2 : Nat) : ℚ) (by
        rw [div_le_iff₀ hn1]
        push_cast at u1 ⊢
        exact u1)
      rw [hA.zero'] at l2
      rw [hA.nat' 2 (by norm_num)] at u2
      generalize A.rnd (d / ((n - 1 : Nat) : ℚ)) = q at l2 u2
      cases q with
      | nan => cases l2
      | ninf => cases l2
      | pinf => cases u2
      | fin q =>
        rw [le_fin, decide_eq_true_eq] at l2 u2
        have hq : sub A (fin q) one = A.rnd (q + -1) := rfl
        rw [hq]
        have l3 := hA.mono (((-1 : ℤ) : ℚ)) (q + -1) (by push_cast; linarith)
        have u3 := hA.mono (q + -1) ((1 : ℕ) : ℚ) (by push_cast at u2 ⊢; linarith)
        rw [hA.int (-1) (by norm_num)] at l3
        rw [hA.nat' 1 (by norm_num)] at u3
        push_cast at l3 u3
        exact ⟨l3, u3⟩

example : RsSig.normAvgIndex .std 4 2 wSignalGrid true 0 = fin (-1/9) ∧
    RsSig.normAvgIndex .std 4 2 wSignalGrid false 1 = fin 0 := by decide +kernel

example : RsSig.normAvgIndex .double 4 2 wSignalGrid true 0 = normAvgIndex .double 4 2 wSignalGrid (fun _ => zero) 0 :=
  (C92_norm_avg_index double_sound 4 2 wSignalGrid true _ (by norm_num) (by omega) (by decide +kernel)).1

example : le (fin (-1)) (normAvgIndex1d .double 4 (getCol wSignalGrid 0)) = true :=
  (C92_norm_avg_bounds double_sound 4 _ (by omega) (by norm_num) (by decide +kernel) ⟨0, by omega, by decide⟩).1

end Vbt
