import Verif.Props.C38

/-!
# C66  Rolling standard deviation equals its window definition
-/

namespace Vbt
open F

/-- The sum of squares. -/
def sqOf (l : List ℚ) : ℚ := (l.map fun x => x * x).sum

theorem dev_expand (l : List ℚ) (m : ℚ) : (l.map fun x => (x - m) * (x - m)).sum = sqOf l - 2 * m * l.sum + l.length * m * m := by
  unfold sqOf
  induction l with
  | nil => simp
  | cons x l ih =>
    simp only [List.map_cons, List.sum_cons, List.length_cons, ih]
    push_cast
    ring

theorem dev_eq {l : List ℚ} (h : l ≠ []) : devOf l = sqOf l - l.sum * l.sum / l.length := by
  unfold devOf
  rw [dev_expand]
  have : (l.length : ℚ) ≠ 0 := by
    have := List.length_pos_iff.mpr h
    positivity
  unfold meanOf
  field_simp
  ring

theorem sqOf_append (l m : List ℚ) : sqOf (l ++ m) = sqOf l + sqOf m := by
  unfold sqOf; rw [List.map_append, List.sum_append]

/-- The state describes the values `l`. -/
structure VarInv (l : List ℚ) (s : StdState) : Prop where
  nobs : s.nobs = l.length
  mean : s.mean = fin (meanOf l)
  m2 : s.m2 = fin (devOf l)
  compAdd : s.compAdd = fin 0
  compRemove : s.compRemove = fin 0

theorem varInv_nil (b : Bool) : VarInv [] ⟨0, zero, zero, zero, zero, b⟩ :=
  ⟨rfl, by simp [meanOf, zero], by simp [devOf, zero], rfl, rfl⟩

theorem var_perm {l l' : List ℚ} (h1 : l.length = l'.length) (h2 : l.sum = l'.sum) (h3 : sqOf l = sqOf l') :
    meanOf l = meanOf l' ∧ devOf l = devOf l' := by
  refine ⟨by unfold meanOf; rw [h1, h2], ?_⟩
  by_cases h : l = []
  · subst h
    have : l' = [] := List.length_eq_zero_iff.mp h1.symm
    rw [this]
  · have h' : l' ≠ [] := fun he => h (List.length_eq_zero_iff.mp (by rw [h1, he]; rfl))
    rw [dev_eq h, dev_eq h', h1, h2, h3]

theorem mean_snoc (l : List ℚ) (x : ℚ) : meanOf (l ++ [x]) = meanOf l + (x - meanOf l) / (l.length + 1) := by
  by_cases h : l = []
  · subst h; simp [meanOf]
  · have : (l.length : ℚ) ≠ 0 := by
      have := List.length_pos_iff.mpr h
      positivity
    have h1 : (l.length : ℚ) + 1 ≠ 0 := by positivity
    unfold meanOf
    rw [List.sum_append, List.length_append]
    simp only [List.sum_cons, List.sum_nil, List.length_cons, List.length_nil]
    push_cast
    field_simp
    ring

theorem dev_snoc (l : List ℚ) (x : ℚ) : devOf (l ++ [x]) = devOf l + (x - meanOf l) * (x - meanOf (l ++ [x])) := by
  rw [mean_snoc, dev_eq (by simp)]
  by_cases h : l = []
  · subst h; simp [meanOf, devOf, sqOf]
  · have : (l.length : ℚ) ≠ 0 := by
      have := List.length_pos_iff.mpr h
      positivity
    have h1 : (l.length : ℚ) + 1 ≠ 0 := by positivity
    rw [dev_eq h, sqOf_append, List.sum_append, List.length_append]
    unfold meanOf sqOf
    simp only [List.map_cons, List.map_nil, List.sum_cons, List.sum_nil, List.length_cons, List.length_nil]
    push_cast
    field_simp
    ring

/-- Adding a value. -/
theorem var_add {r t : ℚ} {l : List ℚ} {s : StdState} (hs : VarInv l s) {x : F} (hx : x.isinf = false) :
    VarInv (if x.isnan then l else l ++ [x.val]) (s.add (Arith.exact r t) x) := by
  obtain ⟨h1, h2, h3, h4, h5⟩ := hs
  cases x with
  | nan => exact ⟨h1, h2, h3, h4, h5⟩
  | ninf => cases hx
  | pinf => cases hx
  | fin q =>
    simp only [isnan, Bool.false_eq_true, if_false, F.val]
    unfold StdState.add addVar
    dsimp only
    rw [if_neg (by simp [isnan])]
    have hn : ((s.nobs + 1 : Int) : ℚ) ≠ 0 := by rw [h1]; push_cast; positivity
    simp only [h2, h3, h4, sub_exact, add_exact, mul_exact, div_exact r t _ _ hn, sub_zero]
    refine ⟨by rw [h1]; simp, ?_, ?_, ?_, h5⟩
    · rw [mean_snoc, h1]; push_cast; rfl
    · rw [dev_snoc, mean_snoc, h1]; push_cast; rfl
    · congr 1; ring

theorem mean_cons (l : List ℚ) (x : ℚ) (h : l ≠ []) : meanOf l = meanOf (x :: l) - (x - meanOf (x :: l)) / l.length := by
  have h0 : (l.length : ℚ) ≠ 0 := by
    have := List.length_pos_iff.mpr h
    positivity
  have h1 : (l.length : ℚ) + 1 ≠ 0 := by positivity
  unfold meanOf
  simp only [List.sum_cons, List.length_cons]
  push_cast
  field_simp
  ring

theorem dev_cons (l : List ℚ) (x : ℚ) (h : l ≠ []) :
    devOf l = devOf (x :: l) - (x - meanOf (x :: l)) * (x - meanOf l) := by
  have h0 : (l.length : ℚ) ≠ 0 := by
    have := List.length_pos_iff.mpr h
    positivity
  have h1 : (l.length : ℚ) + 1 ≠ 0 := by positivity
  rw [dev_eq h, dev_eq (by simp)]
  unfold meanOf sqOf
  simp only [List.map_cons, List.sum_cons, List.length_cons]
  push_cast
  field_simp
  ring

/-- Removing the oldest value. -/
theorem var_remove {r t : ℚ} {l : List ℚ} {x : F} {s : StdState} (hs : VarInv (if x.isnan then l else x.val :: l) s)
    (hx : x.isinf = false) : VarInv l (s.remove (Arith.exact r t) x) := by
  obtain ⟨h1, h2, h3, h4, h5⟩ := hs
  cases x with
  | nan => exact ⟨h1, h2, h3, h4, h5⟩
  | ninf => cases hx
  | pinf => cases hx
  | fin q =>
    simp only [isnan, Bool.false_eq_true, if_false, F.val] at h1 h2 h3
    unfold StdState.remove removeVar
    dsimp only
    rw [if_neg (by simp [isnan])]
    by_cases hl : l = []
    · subst hl
      rw [if_neg (by rw [h1]; simp)]
      exact ⟨by rw [h1]; simp, by simp [meanOf, zero], by simp [devOf, zero], h4, h5⟩
    · have hpos := List.length_pos_iff.mpr hl
      have hnobs : s.nobs - 1 = l.length := by rw [h1]; simp
      rw [if_pos (by omega)]
      have hn : ((s.nobs - 1 : Int) : ℚ) ≠ 0 := by rw [hnobs]; push_cast; positivity
      simp only [h2, h3, h5, sub_exact, add_exact, mul_exact, div_exact r t _ _ hn, sub_zero]
      refine ⟨hnobs, ?_, ?_, h4, ?_⟩
      · rw [hnobs, mean_cons l q hl]; push_cast; rfl
      · rw [hnobs, dev_cons l q hl, mean_cons l q hl]; push_cast; rfl
      · congr 1; ring

theorem VarInv.unstable {l : List ℚ} {s : StdState} (h : VarInv l s) (b : Bool) : VarInv l { s with unstable := b } :=
  ⟨h.1, h.2, h.3, h.4, h.5⟩

theorem var_fold {r t : ℚ} {a : Nat → F} (rows : List Nat) (hinf : ∀ j ∈ rows, (a j).isinf = false) {l : List ℚ} {s : StdState}
    (hs : VarInv l s) :
    VarInv (l ++ (((rows.map a).filter fun x => !x.isnan).map F.val)) (rows.foldl (fun s j => s.add (Arith.exact r t) (a j)) s) := by
  induction rows generalizing l s with
  | nil => simpa using hs
  | cons j rows ih =>
    rw [List.foldl_cons, List.map_cons, List.filter_cons]
    have h := ih (fun k hk => hinf k (List.mem_cons_of_mem _ hk)) (var_add (r := r) (t := t) hs (hinf j List.mem_cons_self))
    rcases Bool.eq_false_or_eq_true (a j).isnan with hj | hj
    · rw [if_pos hj] at h
      rw [if_neg (by simp [hj])]
      exact h
    · rw [if_neg (by simp [hj])] at h
      rw [if_pos (by simp [hj]), List.map_cons, List.append_cons]
      exact h

/-- The next window. -/
theorem winObs_next (a : Nat → F) {w i : Nat} (hw : 0 < w) :
    ∃ l, ((winObs a w i).map F.val = if w ≤ i + 1 then (if (a (i + 1 - w)).isnan then l else (a (i + 1 - w)).val :: l) else l) ∧
      (winObs a w (i + 1)).map F.val = if (a (i + 1)).isnan then l else l ++ [(a (i + 1)).val] := by
  refine ⟨(((List.range' (i + 2 - w) (i + 1 - (i + 2 - w))).map a).filter fun x => !x.isnan).map F.val, ?_, ?_⟩
  · unfold winObs
    rw [← winRows_eq]
    by_cases h : w ≤ i + 1
    · rw [if_pos h]
      have e : i + 1 - (i + 1 - w) = (i + 1 - (i + 2 - w)) + 1 := by omega
      rw [e, List.range'_succ, show i + 1 - w + 1 = i + 2 - w by omega, List.map_cons, List.filter_cons]
      rcases Bool.eq_false_or_eq_true (a (i + 1 - w)).isnan with hj | hj
      · rw [if_neg (by simp [hj]), if_pos hj]
      · rw [if_pos (by simp [hj]), if_neg (by simp [hj]), List.map_cons]
    · rw [if_neg h, show i + 1 - w = 0 by omega, show i + 2 - w = 0 by omega]
  · unfold winObs
    rw [← winRows_eq]
    have e : i + 1 + 1 - (i + 1 + 1 - w) = (i + 1 - (i + 2 - w)) + 1 := by omega
    rw [e, List.range'_concat, List.map_append, List.filter_append, List.map_append, Nat.one_mul,
      show i + 1 + 1 - w + (i + 1 - (i + 2 - w)) = i + 1 by omega, show i + 1 + 1 - w = i + 2 - w by omega]
    rcases Bool.eq_false_or_eq_true (a (i + 1)).isnan with hj | hj
    · rw [if_pos hj]; simp [hj]
    · rw [if_neg (by simp [hj])]; simp [hj]

/-- The state after row `i`. -/
theorem std_state {r t : ℚ} {sqrt : F → F} {a : Nat → F} {window m ddof : Nat} {s0 : StdState} (i : Nat)
    (hinf : ∀ j ≤ i, (a j).isinf = false) :
    VarInv ((winObs a window i).map F.val) (stdStep (Arith.exact r t) sqrt a window m ddof
      (scanState (stdStep (Arith.exact r t) sqrt a window m ddof) s0 i) i).1 := by
  have hfull : ∀ i b, (∀ j ≤ i, (a j).isinf = false) → VarInv ((winObs a window i).map F.val)
      { (List.range' (i + 1 - window) (i + 1 - (i + 1 - window))).foldl (fun s j => s.add (Arith.exact r t) (a j))
          (⟨0, zero, zero, zero, zero, b⟩ : StdState) with unstable := false } := by
    intro i b hinf
    refine VarInv.unstable ?_ false
    have h := var_fold (r := r) (t := t) (a := a) (List.range' (i + 1 - window) (i + 1 - (i + 1 - window)))
      (fun j hj => hinf j (by rw [List.mem_range'_1] at hj; omega)) (varInv_nil b)
    rw [List.nil_append] at h
    unfold winObs
    rw [← winRows_eq]
    exact h
  induction i with
  | zero =>
    unfold stdStep
    dsimp only
    have e : (decide (0 = 0) || decide (window = 0)) = true := rfl
    rw [e]
    simp only [Bool.not_true, Bool.false_eq_true, if_false, Bool.true_or, if_true]
    exact hfull 0 _ hinf
  | succ i ih =>
    rw [scanState_succ]
    have hs := ih fun j hj => hinf j (by omega)
    generalize (stdStep (Arith.exact r t) sqrt a window m ddof
      (scanState (stdStep (Arith.exact r t) sqrt a window m ddof) s0 i) i).1 = s at hs
    unfold stdStep
    dsimp only
    by_cases hw : window = 0
    · have e : (decide (i + 1 = 0) || decide (window = 0)) = true := by simp [hw]
      rw [e]
      simp only [Bool.not_true, Bool.false_eq_true, if_false, Bool.true_or, if_true]
      exact hfull (i + 1) _ hinf
    · have e : (decide (i + 1 = 0) || decide (window = 0)) = false := by simp [hw]
      rw [e]
      simp only [Bool.not_false, if_true, Bool.false_or]
      obtain ⟨l, l1, l2⟩ := winObs_next a (w := window) (i := i) (by omega)
      have h1 : VarInv l (if window ≤ i + 1 then s.remove (Arith.exact r t) (a (i + 1 - window)) else s) := by
        rw [l1] at hs
        by_cases hwi : window ≤ i + 1
        · rw [if_pos hwi] at hs ⊢
          exact var_remove hs (hinf _ (by omega))
        · rw [if_neg hwi] at hs ⊢
          exact hs
      have h2 := var_add (r := r) (t := t) h1 (hinf (i + 1) (le_refl _))
      rw [← l2] at h2
      generalize (if window ≤ i + 1 then s.remove (Arith.exact r t) (a (i + 1 - window)) else s).add (Arith.exact r t)
        (a (i + 1)) = s1 at h2
      by_cases hu : s1.unstable = true
      · rw [if_pos hu]
        exact hfull (i + 1) _ hinf
      · rw [if_neg hu]
        exact h2

/-- **C66**.  In exact arithmetic and without infinite values every row of the rolling standard deviation is the square root
of the sum of squared deviations from the mean of the values present in its window, divided by their number less `ddof`;
NaN if there are fewer than `minp` (at least one) or not more than `ddof` of them.  In particular neither the compensation
nor the recomputation of unstable windows changes the result. -/
theorem C66_std (r t : ℚ) (sqrt : F → F) (a : Nat → F) {window : Nat} {minp : Option Nat} (hm : minp.getD window ≤ window)
    (ddof : Nat) (junk : Nat → F) (len : Nat) (hinf : ∀ i < len, (a i).isinf = false) :
    ∃ out, rollingStd (Arith.exact r t) sqrt a window minp ddof junk len = .ok out ∧ ∀ i < len,
      out i = if max (minp.getD window) 1 ≤ (winObs a window i).length ∧ ddof < (winObs a window i).length then
        sqrt (fin (devOf ((winObs a window i).map F.val) / ((winObs a window i).length - ddof)))
      else nan := by
  unfold rollingStd
  rw [resolveMinp_le hm]
  refine ⟨_, rfl, fun i hi => ?_⟩
  rw [scanRows_out _ _ _ hi]
  have hs := std_state (r := r) (t := t) (sqrt := sqrt) (a := a) (window := window) (m := max (minp.getD window) 1)
    (ddof := ddof) (s0 := ⟨0, zero, zero, zero, zero, false⟩) i (fun j hj => hinf j (by omega))
  have hout : ∀ s, (stdStep (Arith.exact r t) sqrt a window (max (minp.getD window) 1) ddof s i).2 =
      (let s2 := (stdStep (Arith.exact r t) sqrt a window (max (minp.getD window) 1) ddof s i).1
       if s2.nobs ≥ ((max (minp.getD window) 1 : Nat) : Int) ∧ s2.nobs > ddof then
        sqrt (div (Arith.exact r t) s2.m2 (fin (s2.nobs - ddof))) else nan) := fun s => rfl
  rw [hout]
  dsimp only
  obtain ⟨h1, -, h3, -, -⟩ := hs
  rw [h1, h3, List.length_map]
  by_cases hc : max (minp.getD window) 1 ≤ (winObs a window i).length ∧ ddof < (winObs a window i).length
  · rw [if_pos hc, if_pos ⟨by exact_mod_cast hc.1, by exact_mod_cast hc.2⟩, div_exact]
    · push_cast; rfl
    · have : (ddof : ℚ) < ((winObs a window i).length : ℚ) := by exact_mod_cast hc.2
      push_cast
      intro h0
      linarith
  · rw [if_neg hc, if_neg]
    rintro ⟨k1, k2⟩
    exact hc ⟨by exact_mod_cast k1, by exact_mod_cast k2⟩

/-- **C66** (expanding).  The expanding standard deviation is that of all rows so far. -/
theorem C66_expanding (r t : ℚ) (sqrt : F → F) (a : Nat → F) {minp len : Nat} (hm : minp ≤ len) (ddof : Nat) (junk : Nat → F)
    (hinf : ∀ i < len, (a i).isinf = false) :
    ∃ out, expandingStd (Arith.exact r t) sqrt a minp ddof junk len = .ok out ∧ ∀ i < len,
      let obs := ((List.range (i + 1)).map a).filter fun x => !x.isnan
      out i = if max minp 1 ≤ obs.length ∧ ddof < obs.length then
        sqrt (fin (devOf (obs.map F.val) / (obs.length - ddof))) else nan := by
  obtain ⟨out, h1, h2⟩ := C66_std r t sqrt a (window := len) (minp := some minp) hm ddof junk len hinf
  refine ⟨out, h1, fun i hi => ?_⟩
  have := h2 i hi
  rw [winObs_all a hi] at this
  exact this

/-- Non-vacuity: with `sqrt` the identity, the variance of 1 and 3 in the last window of 5, NaN, 1, 3. -/
example :
    (rollingStd Arith.std id (fun i => [fin 5, nan, fin 1, fin 3].getD i nan) 3 (some 1) 0 (fun _ => zero) 4).toOption.map
      (fun o => (List.range 4).map o) = some [fin 0, fin 0, fin 4, fin 1] := by decide +kernel

end Vbt
