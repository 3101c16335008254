import Verif.Lemmas.Scan
import Verif.Lemmas.Float
import Verif.Lemmas.Witness
import Mathlib.Tactic.Ring
import Mathlib.Tactic.FieldSimp
import Mathlib.Tactic.Positivity
import Mathlib.Tactic.Linarith

/-!
# C43  Returns compound back to value
-/

namespace Vbt
open F

/-- A return from a positive value. -/
theorem getReturn_pos {r t x : ℚ} (hx : 0 < x) (y : ℚ) :
    getReturn (Arith.exact r t) (fin x) (fin y) = .ok (fin ((y - x) / x)) := by
  have h0 : ¬ x = 0 := by intro h; rw [h] at hx; exact absurd hx (by norm_num)
  have h1 : ¬ x < 0 := by intro h; linarith
  unfold getReturn
  simp [eqb, h0, divE_exact, lt_fin, h1]

/-- A return never fails. -/
theorem getReturn_ok (A : Arith) (x y : F) : ∃ v, getReturn A x y = .ok v := by
  unfold getReturn
  by_cases h : eqb x zero = true
  · rw [if_pos h]
    by_cases h2 : eqb y zero = true
    · exact ⟨_, by rw [if_pos h2]⟩
    · exact ⟨_, by rw [if_neg h2]⟩
  · rw [if_neg h]
    unfold divE
    rw [if_neg h]
    exact ⟨_, rfl⟩

/-- The returns of a series. -/
theorem returns_rows (A : Arith) (value : Nat → F) (init : F) (junk : Nat → F) (len : Nat) :
    ∃ out, returns A value init junk len = .ok out ∧
      ∀ i < len, getReturn A (if i = 0 then init else value (i - 1)) (value i) = .ok (out i) := by
  obtain ⟨⟨s, out⟩, hr, -⟩ := scanRowsE_succeeds (junk := junk) (n := len) (step := returnsStep A value) (s0 := init) (P := fun _ _ => True) trivial (fun i s _ _ => by
        obtain ⟨v, hv⟩ := getReturn_ok A s (value i)
        exact ⟨(value i, v), by unfold returnsStep; rw [hv], trivial⟩)
  refine ⟨out, by unfold returns; rw [hr], fun i hi => ?_⟩
  obtain ⟨si, si', b1, b2⟩ := (scanRowsE_ok hr).2 i hi
  have hs : si = if i = 0 then init else value (i - 1) := scanStateE_inv
    (P := fun i s => s = if i = 0 then init else value (i - 1)) rfl (fun k s q _ hk => by
      unfold returnsStep at hk
      cases hg : getReturn A s (value k) with
      | error e => rw [hg] at hk; cases hk
      | ok v =>
        rw [hg] at hk
        cases hk
        rw [if_neg (by omega), show k + 1 - 1 = k by omega]) b1
  unfold returnsStep at b2
  cases hg : getReturn A si (value i) with
  | error e => rw [hg] at b2; cases b2
  | ok v =>
    rw [hg] at b2
    simp only [Except.ok.injEq, Prod.mk.injEq] at b2
    rw [← hs, hg, b2.2]

/-- **C43** (returns).  Every return relates a value to the one before it, the first one to the initial value. -/
theorem C43_returns (r t : ℚ) (v : Nat → ℚ) (init : ℚ) (junk : Nat → F) (len : Nat) :
    ∃ out, returns (Arith.exact r t) (fun i => fin (v i)) (fin init) junk len = .ok out ∧ ∀ i < len,
      let prev := if i = 0 then init else v (i - 1)
      (0 < prev → out i = fin (v i / prev - 1)) ∧
      (prev < 0 → out i = fin (1 - v i / prev)) ∧
      (prev = 0 → v i = 0 → out i = fin 0) ∧
      (prev = 0 → 0 < v i → out i = pinf) ∧
      (prev = 0 → v i < 0 → out i = ninf) := by
  obtain ⟨out, h1, h2⟩ := returns_rows (Arith.exact r t) (fun i => fin (v i)) (fin init) junk len
  refine ⟨out, h1, fun i hi => ?_⟩
  have h := h2 i hi
  have hprev : (if i = 0 then fin init else fin (v (i - 1))) = fin (if i = 0 then init else v (i - 1)) := by
    split <;> rfl
  rw [hprev] at h
  dsimp only
  generalize (if i = 0 then init else v (i - 1)) = prev at h
  refine ⟨fun hp => ?_, fun hp => ?_, fun hp hv => ?_, fun hp hv => ?_, fun hp hv => ?_⟩
  · rw [getReturn_pos hp] at h
    rw [Except.ok.injEq] at h
    rw [← h]
    have : prev ≠ 0 := ne_of_gt hp
    congr 1
    field_simp
  · have h0 : ¬ prev = 0 := ne_of_lt hp
    unfold getReturn at h
    simp [eqb, h0, divE_exact, lt_fin, hp] at h
    rw [← h]
    congr 1
    field_simp
    ring
  · unfold getReturn at h
    simp [eqb, hp, hv] at h
    exact h.symm
  · have h0 : ¬ v i = 0 := ne_of_gt hv
    unfold getReturn at h
    simp [eqb, hp, h0] at h
    rw [← h]
    have hn : ¬ v i < 0 := by linarith
    simp [sign, hn, hv, mul]
  · have h0 : ¬ v i = 0 := ne_of_lt hv
    unfold getReturn at h
    simp [eqb, hp, h0] at h
    rw [← h]
    simp [sign, hv, mul]

/-- The running product of the returns. -/
theorem cumProd_value {r t init : ℚ} (hinit : 0 < init) {v : Nat → ℚ} {rets : Nat → F} {i : Nat}
    (hrets : ∀ j ≤ i, rets j = fin (v j / (if j = 0 then init else v (j - 1)) - 1)) (hpos : ∀ j < i, 0 < v j) :
    scanState (fun c i =>
      let c' := if !(rets i).isnan then mul (Arith.exact r t) c (add (Arith.exact r t) (rets i) one) else c
      (c', c')) one (i + 1) = fin (v i / init) := by
  induction i with
  | zero =>
    rw [scanState_succ]
    have h0 := hrets 0 (le_refl _)
    dsimp only
    rw [h0]
    simp [scanState, isnan]
  | succ i ih =>
    rw [scanState_succ, ih (fun j hj => hrets j (by omega)) (fun j hj => hpos j (by omega))]
    have h0 := hrets (i + 1) (le_refl _)
    rw [if_neg (by omega), show i + 1 - 1 = i by omega] at h0
    dsimp only
    rw [h0]
    have hv : v i ≠ 0 := ne_of_gt (hpos i (by omega))
    have hi : init ≠ 0 := ne_of_gt hinit
    simp only [isnan, Bool.not_false, if_true, one_def, add_exact, mul_exact]
    congr 1
    field_simp
    ring

/-- **C43** (round trip, partial).  Cumulating the returns of a series from its positive initial value gives back every value
up to and including the first one that is not positive (exact arithmetic).  Missing: values after a zero or negative one; a
return from a negative value has its sign reversed, and then the claim fails (`C43_counterexample_negative`). -/
theorem C43_roundtrip_partial (r t : ℚ) (v : Nat → ℚ) {init : ℚ} (hinit : 0 < init) (junk junk' : Nat → F) (len : Nat) :
    ∃ rets, returns (Arith.exact r t) (fun i => fin (v i)) (fin init) junk len = .ok rets ∧
      ∀ i < len, (∀ j < i, 0 < v j) → cumReturns (Arith.exact r t) rets (fin init) junk' len i = fin (v i) := by
  obtain ⟨out, h1, h2⟩ := C43_returns r t v init junk len
  refine ⟨out, h1, fun i hi hpos => ?_⟩
  have h := cumProd_value (r := r) (t := t) hinit (v := v) (rets := out) (i := i) (fun j hj => (h2 j (by omega)).1 (by
    by_cases hj0 : j = 0
    · rw [if_pos hj0]; exact hinit
    · rw [if_neg hj0]; exact hpos _ (by omega))) hpos
  have hi0 : init ≠ 0 := ne_of_gt hinit
  unfold cumReturns cumProds
  rw [if_neg (by simp [eqb, hi0])]
  rw [scanRows_out _ _ _ hi]
  rw [scanState_succ] at h
  dsimp only at h ⊢
  rw [h, mul_exact]
  congr 1
  field_simp

/-- The product over all rows is the last running product. -/
theorem nanprod_eq {r t : ℚ} {rets : Nat → F} {len : Nat} (hfin : ∀ j < len, ∃ q, rets j = fin q) :
    nanprod (Arith.exact r t) ((List.range len).map fun i => add (Arith.exact r t) (rets i) one) =
      scanState (fun c i =>
        let c' := if !(rets i).isnan then mul (Arith.exact r t) c (add (Arith.exact r t) (rets i) one) else c
        (c', c')) one len := by
  induction len with
  | zero => rfl
  | succ n ih =>
    have h := ih fun j hj => hfin j (by omega)
    unfold nanprod at h ⊢
    rw [List.range_succ, List.map_append, List.foldl_append, h, scanState_succ]
    obtain ⟨q, hq⟩ := hfin n (by omega)
    simp [hq, isnan]

/-- **C43** (total return, partial).  The total return is final value divided by initial value less one. -/
theorem C43_total_partial (r t : ℚ) (v : Nat → ℚ) {init : ℚ} (hinit : 0 < init) (junk : Nat → F) (len : Nat)
    (hpos : ∀ j < len, 0 < v j) :
    ∃ rets, returns (Arith.exact r t) (fun i => fin (v i)) (fin init) junk (len + 1) = .ok rets ∧
      cumReturnsFinal (Arith.exact r t) rets (fin 0) (len + 1) = fin (v len / init - 1) := by
  obtain ⟨out, h1, h2⟩ := C43_returns r t v init junk (len + 1)
  have hr : ∀ j ≤ len, out j = fin (v j / (if j = 0 then init else v (j - 1)) - 1) := fun j hj => (h2 j (by omega)).1 (by
    by_cases hj0 : j = 0
    · rw [if_pos hj0]; exact hinit
    · rw [if_neg hj0]; exact hpos _ (by omega))
  refine ⟨out, h1, ?_⟩
  unfold cumReturnsFinal
  rw [nanprod_eq fun j hj => ⟨_, hr j (by omega)⟩, cumProd_value hinit hr hpos]
  simp [eqb]

/-- The values -1, -2 from 1: the returns -2 and -1 cumulate to -1, 0. -/
theorem C43_counterexample_negative :
    ∃ (v rets : Nat → F), returns (Arith.exact 0 0) v (fin 1) (fun _ => zero) 2 = .ok rets ∧ v 1 = fin (-2) ∧
      cumReturns (Arith.exact 0 0) rets (fin 1) (fun _ => zero) 2 1 = fin 0 := by
  obtain ⟨rets, h1, h2⟩ := okAnd_iff
    (x := returns (Arith.exact 0 0) (fun i => [fin (-1), fin (-2)].getD i nan) (fin 1) (fun _ => zero) 2)
    (f := fun rets => decide (cumReturns (Arith.exact 0 0) rets (fin 1) (fun _ => zero) 2 1 = fin 0)) (by decide +kernel)
  exact ⟨_, rets, h1, by decide +kernel, of_decide_eq_true h2⟩

/-- Non-vacuity: 110, 99 from 100. -/
example : (returns Arith.std (fun i => [fin 110, fin 99].getD i nan) (fin 100) (fun _ => zero) 2).toOption.map
    (fun o => ((List.range 2).map o, (List.range 2).map (cumReturns Arith.std o (fin 100) (fun _ => zero) 2),
      cumReturnsFinal Arith.std o (fin 0) 2)) =
    some ([fin (1 / 10), fin (-1 / 10)], [fin 110, fin 99], fin (-1 / 100)) := by decide +kernel

end Vbt
