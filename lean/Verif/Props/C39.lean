import Verif.Lemmas.Scan
import Verif.Lemmas.Witness
import Mathlib.Tactic.IntervalCases

/-!
# C39  Rolling functions do not look ahead

Every theorem compares two arrays, possibly of different lengths, that agree up to row `i`.
-/

namespace Vbt
open F

/-- The arrays agree up to row `i`. -/
def AgreeTo {α : Type} (i : Nat) (a b : Nat → α) : Prop := ∀ k ≤ i, a k = b k

theorem foldl_congr_mem {α β : Type} {f g : β → α → β} {l : List α} {b : β} (h : ∀ x ∈ l, ∀ s, f s x = g s x) :
    l.foldl f b = l.foldl g b := by
  induction l generalizing b with
  | nil => rfl
  | cons x l ih =>
    rw [List.foldl_cons, List.foldl_cons, h x List.mem_cons_self, ih fun y hy => h y (List.mem_cons_of_mem _ hy)]

theorem slice_agree {a b : Nat → F} {i window k : Nat} (h : AgreeTo i a b) (hk : k ≤ i) :
    slice a (k + 1 - window) (k + 1 - (k + 1 - window)) = slice b (k + 1 - window) (k + 1 - (k + 1 - window)) := by
  unfold slice
  refine List.map_congr_left fun j hj => ?_
  rw [List.mem_range] at hj
  exact h _ (by omega)

section
variable {a b : Nat → F} {i n n' : Nat} {junk junk' : Nat → F}

/-- **C39** (forward shift). -/
theorem C39_fshift {α : Type} {a b junk junk' : Nat → α} (m : Nat) (fill : α) (h : AgreeTo i a b) (hn : i < n) (hn' : i < n') :
    fshift a m fill junk n i = fshift b m fill junk' n' i := by
  unfold fshift
  refine scanRows_congr (fun k hk s => ?_) hn hn'
  rw [h (k - m) (by omega)]

/-- **C39** (difference and percentage change). -/
theorem C39_diff (A : Arith) (m : Nat) (h : AgreeTo i a b) :
    diff A a m i = diff A b m i ∧ pctChange A a m i = pctChange A b m i := by
  unfold diff pctChange
  rw [h i (le_refl _), h (i - m) (by omega)]
  exact ⟨rfl, rfl⟩

/-- **C39** (forward fill). -/
theorem C39_ffill (h : AgreeTo i a b) (hn : i < n) (hn' : i < n') : ffill a junk n i = ffill b junk' n' i := by
  unfold ffill
  rw [h 0 (by omega)]
  refine scanRows_congr (fun k hk s => ?_) hn hn'
  rw [h k hk]

theorem rollRow_congr {step : (Nat → F) → F × Nat → Nat → F × Nat}
    (hstep : ∀ a b k s, a k = b k → step a s k = step b s k) {window m : Nat} (h : AgreeTo i a b) {k : Nat} (hk : k ≤ i) :
    rollRow step a window m k = rollRow step b window m k := by
  unfold rollRow
  rw [h k hk, foldl_congr_mem (g := step b) fun j hj s => ?_]
  rw [List.mem_range'_1] at hj
  exact hstep a b j s (h j (by omega))

/-- **C39** (rolling minimum). -/
theorem C39_rollingMin (window : Nat) (minp : Option Nat) (h : AgreeTo i a b) (hn : i < n) (hn' : i < n') {r r' : Nat → F}
    (h1 : rollingMin a window minp junk n = .ok r) (h2 : rollingMin b window minp junk' n' = .ok r') : r i = r' i := by
  unfold rollingMin at h1 h2
  cases hm : resolveMinp window minp "window" with
  | error e => rw [hm] at h1; cases h1
  | ok m =>
    rw [hm] at h1 h2
    cases h1; cases h2
    refine scanRows_congr (fun k hk s => ?_) hn hn'
    rw [rollRow_congr (fun a b k s h => by unfold minStep; rw [h]) h hk]

/-- **C39** (rolling maximum). -/
theorem C39_rollingMax (window : Nat) (minp : Option Nat) (h : AgreeTo i a b) (hn : i < n) (hn' : i < n') {r r' : Nat → F}
    (h1 : rollingMax a window minp junk n = .ok r) (h2 : rollingMax b window minp junk' n' = .ok r') : r i = r' i := by
  unfold rollingMax at h1 h2
  cases hm : resolveMinp window minp "window" with
  | error e => rw [hm] at h1; cases h1
  | ok m =>
    rw [hm] at h1 h2
    cases h1; cases h2
    refine scanRows_congr (fun k hk s => ?_) hn hn'
    rw [rollRow_congr (fun a b k s h => by unfold maxStep; rw [h]) h hk]

theorem meanStep_congr (A : Arith) {window window' m : Nat} {k : Nat} (hk : a k = b k)
    (hw : window = window' ∨ k < window ∧ k < window') (s : MeanState) :
    meanStep A a window m s k = meanStep A b window' m s k := by
  unfold meanStep
  rw [hk]
  rcases hw with rfl | ⟨h1, h2⟩
  · rfl
  · dsimp only
    simp only [if_pos h1, if_pos h2]

/-- **C39** (rolling mean). -/
theorem C39_rollingMean (A : Arith) (window : Nat) (minp : Option Nat) (h : AgreeTo i a b) (hn : i < n) (hn' : i < n')
    {r r' : Nat → F} (h1 : rollingMean A a window minp junk n = .ok r)
    (h2 : rollingMean A b window minp junk' n' = .ok r') : r i = r' i := by
  unfold rollingMean at h1 h2
  cases hm : resolveMinp window minp "window" with
  | error e => rw [hm] at h1; cases h1
  | ok m =>
    rw [hm] at h1 h2
    dsimp only at h1 h2
    cases hs1 : scanRowsE (meanStep A a window m) ⟨zero, 0, fun _ => zero, fun _ => 0⟩ junk n with
    | error e => rw [hs1] at h1; cases h1
    | ok s1 =>
      cases hs2 : scanRowsE (meanStep A b window m) ⟨zero, 0, fun _ => zero, fun _ => 0⟩ junk' n' with
      | error e => rw [hs2] at h2; cases h2
      | ok s2 =>
        rw [hs1] at h1; rw [hs2] at h2
        cases h1; cases h2
        exact scanRowsE_congr (fun k hk s => meanStep_congr A (h k hk) (Or.inl rfl) s) hn hn' hs1 hs2

theorem stdStep_congr (A : Arith) (sqrt : F → F) {window window' m ddof k : Nat} (h : ∀ j ≤ k, a j = b j)
    (hw : window = window' ∨ k < window ∧ k < window') (s : StdState) :
    stdStep A sqrt a window m ddof s k = stdStep A sqrt b window' m ddof s k := by
  have hrange : List.range' (k + 1 - window) (k + 1 - (k + 1 - window)) =
      List.range' (k + 1 - window') (k + 1 - (k + 1 - window')) := by
    rcases hw with rfl | ⟨h1, h2⟩
    · rfl
    · rw [show k + 1 - window = 0 by omega, show k + 1 - window' = 0 by omega]
  have hfold : ∀ s0 : StdState,
      (List.range' (k + 1 - window) (k + 1 - (k + 1 - window))).foldl (fun s j => s.add A (a j)) s0 =
      (List.range' (k + 1 - window') (k + 1 - (k + 1 - window'))).foldl (fun s j => s.add A (b j)) s0 := by
    intro s0
    rw [hrange]
    refine foldl_congr_mem fun j hj s => ?_
    rw [List.mem_range'_1] at hj
    rw [h j (by omega)]
  unfold stdStep
  dsimp only
  rw [hfold, h k (le_refl _), h (k - window) (by omega)]
  rcases hw with rfl | ⟨h1, h2⟩
  · rfl
  · have e1 : decide (window = 0) = false := by simp; omega
    have e2 : decide (window' = 0) = false := by simp; omega
    have e3 : ¬ window ≤ k := by omega
    have e4 : ¬ window' ≤ k := by omega
    simp only [e1, e2, if_neg e3, if_neg e4]

/-- **C39** (rolling standard deviation). -/
theorem C39_rollingStd (A : Arith) (sqrt : F → F) (window : Nat) (minp : Option Nat) (ddof : Nat) (h : AgreeTo i a b)
    (hn : i < n) (hn' : i < n') {r r' : Nat → F} (h1 : rollingStd A sqrt a window minp ddof junk n = .ok r)
    (h2 : rollingStd A sqrt b window minp ddof junk' n' = .ok r') : r i = r' i := by
  unfold rollingStd at h1 h2
  cases hm : resolveMinp window minp "window" with
  | error e => rw [hm] at h1; cases h1
  | ok m =>
    rw [hm] at h1 h2
    cases h1; cases h2
    exact scanRows_congr (fun k hk s => stdStep_congr A sqrt (fun j hj => h j (by omega)) (Or.inl rfl) s) hn hn'

/-- **C39** (exponential mean). -/
theorem C39_ewmMean (A : Arith) (span : Nat) (minp : Option Nat) (adjust : Bool) (h : AgreeTo i a b) (hn : i < n)
    (hn' : i < n') {r r' : Nat → F} (h1 : ewmMean A a span minp adjust junk n = .ok r)
    (h2 : ewmMean A b span minp adjust junk' n' = .ok r') : r i = r' i := by
  unfold ewmMean at h1 h2
  cases hm : resolveMinp span minp "span" with
  | error e => rw [hm] at h1; cases h1
  | ok m =>
    rw [hm] at h1 h2
    dsimp only at h1 h2
    rw [if_neg (by omega)] at h1 h2
    cases hw : ewmWeights A span adjust with
    | error e => rw [hw] at h1; cases h1
    | ok w =>
      rw [hw] at h1 h2
      dsimp only at h1 h2
      split at h1
      · cases h1
      · rename_i s1 hs1
        split at h2
        · cases h2
        · rename_i s2 hs2
          cases h1; cases h2
          refine scanRowsE_congr (fun k hk s => ?_) hn hn' hs1 hs2
          by_cases hk0 : k = 0
          · rw [if_pos hk0, if_pos hk0, h 0 (by omega)]
          · rw [if_neg hk0, if_neg hk0]
            unfold ewmStep
            rw [h k hk]

/-- **C39** (exponential standard deviation). -/
theorem C39_ewmStd (A : Arith) (sqrt : F → F) (span : Nat) (minp : Option Nat) (adjust : Bool) (h : AgreeTo i a b)
    (hn : i < n) (hn' : i < n') {r r' : Nat → F} (h1 : ewmStd A sqrt a span minp adjust junk n = .ok r)
    (h2 : ewmStd A sqrt b span minp adjust junk' n' = .ok r') : r i = r' i := by
  unfold ewmStd at h1 h2
  cases hm : resolveMinp span minp "span" with
  | error e => rw [hm] at h1; cases h1
  | ok m =>
    rw [hm] at h1 h2
    dsimp only at h1 h2
    rw [if_neg (by omega)] at h1 h2
    cases hw : ewmWeights A span adjust with
    | error e => rw [hw] at h1; cases h1
    | ok w =>
      rw [hw] at h1 h2
      dsimp only at h1 h2
      split at h1
      · cases h1
      · rename_i s1 hs1
        split at h2
        · cases h2
        · rename_i s2 hs2
          cases h1; cases h2
          refine scanRowsE_congr (fun k hk s => ?_) hn hn' hs1 hs2
          by_cases hk0 : k = 0
          · rw [if_pos hk0, if_pos hk0, h 0 (by omega)]
          · rw [if_neg hk0, if_neg hk0]
            unfold ewmStdStep
            rw [h k hk]

/-- **C39** (expanding minimum and maximum). -/
theorem C39_expandingMin (minp : Nat) (h : AgreeTo i a b) (hn : i < n) (hn' : i < n') :
    expandingMin a minp junk n i = expandingMin b minp junk' n' i := by
  unfold expandingMin
  rw [h 0 (by omega)]
  refine scanRows_congr (fun k hk s => ?_) hn hn'
  unfold expandMinStep
  rw [h k hk]

theorem C39_expandingMax (minp : Nat) (h : AgreeTo i a b) (hn : i < n) (hn' : i < n') :
    expandingMax a minp junk n i = expandingMax b minp junk' n' i := by
  unfold expandingMax
  rw [h 0 (by omega)]
  refine scanRows_congr (fun k hk s => ?_) hn hn'
  unfold expandMaxStep
  rw [h k hk]

theorem resolveMinp_ok {window : Nat} {minp : Option Nat} {what : String} {m : Nat}
    (h : resolveMinp window minp what = .ok m) : m = minp.getD window ∧ m ≤ window := by
  unfold resolveMinp at h
  dsimp only at h
  split at h
  · cases h
  · cases h; exact ⟨rfl, by omega⟩

/-- **C39** (expanding mean).  The window is the length of the array, so both lengths have to admit `minp`. -/
theorem C39_expandingMean (A : Arith) (minp : Nat) (h : AgreeTo i a b) (hn : i < n) (hn' : i < n') {r r' : Nat → F}
    (h1 : expandingMean A a minp junk n = .ok r) (h2 : expandingMean A b minp junk' n' = .ok r') : r i = r' i := by
  unfold expandingMean rollingMean at h1 h2
  cases hm : resolveMinp n (some minp) "window" with
  | error e => rw [hm] at h1; cases h1
  | ok m =>
    cases hm' : resolveMinp n' (some minp) "window" with
    | error e => rw [hm'] at h2; cases h2
    | ok m' =>
      have e1 := (resolveMinp_ok hm).1
      have e2 := (resolveMinp_ok hm').1
      rw [hm] at h1; rw [hm'] at h2
      simp only [Option.getD_some] at e1 e2
      subst e1; subst e2
      dsimp only at h1 h2
      split at h1
      · cases h1
      · rename_i s1 hs1
        split at h2
        · cases h2
        · rename_i s2 hs2
          cases h1; cases h2
          exact scanRowsE_congr (fun k hk s => meanStep_congr A (h k hk) (Or.inr ⟨by omega, by omega⟩) s) hn hn' hs1 hs2

/-- **C39** (expanding standard deviation). -/
theorem C39_expandingStd (A : Arith) (sqrt : F → F) (minp ddof : Nat) (h : AgreeTo i a b) (hn : i < n) (hn' : i < n')
    {r r' : Nat → F} (h1 : expandingStd A sqrt a minp ddof junk n = .ok r)
    (h2 : expandingStd A sqrt b minp ddof junk' n' = .ok r') : r i = r' i := by
  unfold expandingStd rollingStd at h1 h2
  cases hm : resolveMinp n (some minp) "window" with
  | error e => rw [hm] at h1; cases h1
  | ok m =>
    cases hm' : resolveMinp n' (some minp) "window" with
    | error e => rw [hm'] at h2; cases h2
    | ok m' =>
      have e1 := (resolveMinp_ok hm).1
      have e2 := (resolveMinp_ok hm').1
      rw [hm] at h1; rw [hm'] at h2
      simp only [Option.getD_some] at e1 e2
      subst e1; subst e2
      cases h1; cases h2
      exact scanRows_congr (fun k hk s => stdStep_congr A sqrt (fun j hj => h j (by omega))
        (Or.inr ⟨by omega, by omega⟩) s) hn hn'

/-- The state of `rolling_apply_nb`: `nancnt_arr` is only read at rows already written. -/
structure SameCounts (i : Nat) (s t : Nat × (Nat → Nat)) : Prop where
  cnt : s.1 = t.1
  arr : ∀ k < i, s.2 k = t.2 k

theorem applyStep_same {window window' m k : Nat} {f : Nat → List F → F} (h : AgreeTo k a b)
    (hw : window = window' ∧ 0 < window ∨ k < window ∧ k < window') {s t : Nat × (Nat → Nat)} (hs : SameCounts k s t) :
    SameCounts (k + 1) (applyStep a window m f s k).1 (applyStep b window' m f t k).1 ∧
    (applyStep a window m f s k).2 = (applyStep b window' m f t k).2 := by
  have hsl : slice a (k + 1 - window) (k + 1 - (k + 1 - window)) = slice b (k + 1 - window') (k + 1 - (k + 1 - window')) := by
    rcases hw with ⟨rfl, -⟩ | ⟨h1, h2⟩
    · exact slice_agree h (le_refl _)
    · rw [slice_agree h (le_refl _), show k + 1 - window = 0 by omega, show k + 1 - window' = 0 by omega]
  unfold applyStep
  rw [hsl, h k (le_refl _), hs.cnt]
  dsimp only
  refine ⟨⟨rfl, fun j hj => ?_⟩, ?_⟩
  · unfold setAt
    dsimp only
    by_cases hjk : j = k
    · rw [if_pos hjk, if_pos hjk]
    · rw [if_neg hjk, if_neg hjk, hs.arr j (by omega)]
  · rcases hw with ⟨rfl, hpos⟩ | ⟨h1, h2⟩
    · by_cases hk : k < window
      · simp only [if_pos hk]
      · simp only [if_neg hk]
        have : setAt s.2 k (if (b k).isnan = true then t.1 + 1 else t.1) (k - window) =
            setAt t.2 k (if (b k).isnan = true then t.1 + 1 else t.1) (k - window) := by
          unfold setAt
          rw [if_neg (by omega), if_neg (by omega), hs.arr _ (by omega)]
        rw [this]
    · simp only [if_pos h1, if_pos h2]

theorem scanApply_same {window window' m : Nat} {f : Nat → List F → F} {c c' : Nat → Nat} :
    ∀ k, AgreeTo k a b → (window = window' ∧ 0 < window ∨ k ≤ window ∧ k ≤ window') →
    SameCounts k (scanState (applyStep a window m f) (0, c) k) (scanState (applyStep b window' m f) (0, c') k) := by
  intro k
  induction k with
  | zero => intro _ _; exact ⟨rfl, fun k hk => by omega⟩
  | succ k ih =>
    intro h hw
    rw [scanState_succ, scanState_succ]
    refine (applyStep_same (fun j hj => h j (by omega)) ?_ (ih (fun j hj => h j (by omega)) ?_)).1
    · rcases hw with hw | ⟨h1, h2⟩
      · exact Or.inl hw
      · exact Or.inr ⟨by omega, by omega⟩
    · rcases hw with hw | ⟨h1, h2⟩
      · exact Or.inl hw
      · exact Or.inr ⟨by omega, by omega⟩

/-- **C39** (applying a function to windows). -/
theorem C39_rollingApply (window : Nat) (hpos : 0 < window) (minp : Option Nat) (f : Nat → List F → F) (c c' : Nat → Nat)
    (h : AgreeTo i a b) (hn : i < n) (hn' : i < n') :
    rollingApply a window minp f c junk n i = rollingApply b window minp f c' junk' n' i := by
  unfold rollingApply
  rw [scanRows_out _ _ _ hn, scanRows_out _ _ _ hn']
  exact (applyStep_same h (Or.inl ⟨rfl, hpos⟩) (scanApply_same i h (Or.inl ⟨rfl, hpos⟩))).2

/-- **C39** (applying a function to expanding windows). -/
theorem C39_expandingApply (minp : Nat) (f : Nat → List F → F) (c c' : Nat → Nat)
    (h : AgreeTo i a b) (hn : i < n) (hn' : i < n') :
    expandingApply a (some minp) f c junk n i = expandingApply b (some minp) f c' junk' n' i := by
  unfold expandingApply rollingApply
  rw [scanRows_out _ _ _ hn, scanRows_out _ _ _ hn']
  exact (applyStep_same h (Or.inr ⟨hn, hn'⟩) (scanApply_same i h (Or.inr ⟨by omega, by omega⟩))).2

/-- **C39** (crossover). -/
theorem C39_crossedAbove {a' b' : Nat → F} (wait : Int) {junk junk' : Nat → Bool} (h : AgreeTo i a a') (h' : AgreeTo i b b')
    (hn : i < n) (hn' : i < n') : crossedAbove a b wait junk n i = crossedAbove a' b' wait junk' n' i := by
  unfold crossedAbove
  refine scanRows_congr (fun k hk s => ?_) hn hn'
  unfold crossStep
  rw [h k hk, h' k hk]

/-- **C39** (returns). -/
theorem C39_returns (A : Arith) (init : F) (h : AgreeTo i a b) (hn : i < n) (hn' : i < n') {r r' : Nat → F}
    (h1 : returns A a init junk n = .ok r) (h2 : returns A b init junk' n' = .ok r') : r i = r' i := by
  unfold returns at h1 h2
  split at h1
  · cases h1
  · rename_i s1 hs1
    split at h2
    · cases h2
    · rename_i s2 hs2
      cases h1; cases h2
      refine scanRowsE_congr (fun k hk s => ?_) hn hn' hs1 hs2
      unfold returnsStep; rw [h k hk]

/-- **C39** (cumulative returns). -/
theorem C39_cumReturns (A : Arith) (start : F) (h : AgreeTo i a b) (hn : i < n) (hn' : i < n') :
    cumReturns A a start junk n i = cumReturns A b start junk' n' i := by
  have hp : cumProds A a junk n i = cumProds A b junk' n' i := by
    unfold cumProds
    refine scanRows_congr (fun k hk s => ?_) hn hn'
    rw [h k hk]
  unfold cumReturns
  split <;> dsimp only <;> rw [hp]

/-- **C39** (drawdown of returns). -/
theorem C39_drawdown (A : Arith) {j j' : Nat → F} (h : AgreeTo i a b) (hn : i < n) (hn' : i < n') :
    drawdown A a junk j n i = drawdown A b junk' j' n' i := by
  unfold drawdown
  have h1 : AgreeTo i (cumReturns A a (fin 100) junk n) (cumReturns A b (fin 100) junk' n') := fun k hk =>
    C39_cumReturns A (fin 100) (fun m hm => h m (by omega)) (by omega) (by omega)
  have h2 := C39_expandingMax (junk := j) (junk' := j') 1 h1 hn hn'
  rw [h1 i (le_refl _), h2]

end

/-- Non-vacuity: two arrays that agree up to row 1 and differ afterwards, also in the result. -/
example : AgreeTo 1 (fun i => [fin 1, fin 2, fin 3].getD i nan) (fun i => [fin 1, fin 2, fin 5].getD i nan) ∧
    (∃ r, rollingMean Arith.std (fun i => [fin 1, fin 2, fin 3].getD i nan) 2 none (fun _ => nan) 3 = .ok r ∧
      r 1 = fin (3 / 2) ∧ r 2 = fin (5 / 2)) ∧
    (∃ r, rollingMean Arith.std (fun i => [fin 1, fin 2, fin 5].getD i nan) 2 none (fun _ => nan) 3 = .ok r ∧
      r 1 = fin (3 / 2) ∧ r 2 = fin (7 / 2)) := by
  refine ⟨fun k hk => ?_, ?_, ?_⟩
  · interval_cases k <;> rfl
  · obtain ⟨r, h1, h2⟩ := okAnd_iff (x := rollingMean Arith.std (fun i => [fin 1, fin 2, fin 3].getD i nan) 2 none
      (fun _ => nan) 3) (f := fun r => decide (r 1 = fin (3 / 2) ∧ r 2 = fin (5 / 2))) (by decide +kernel)
    exact ⟨r, h1, of_decide_eq_true h2⟩
  · obtain ⟨r, h1, h2⟩ := okAnd_iff (x := rollingMean Arith.std (fun i => [fin 1, fin 2, fin 5].getD i nan) 2 none
      (fun _ => nan) 3) (f := fun r => decide (r 1 = fin (3 / 2) ∧ r 2 = fin (7 / 2))) (by decide +kernel)
    exact ⟨r, h1, of_decide_eq_true h2⟩

end Vbt
