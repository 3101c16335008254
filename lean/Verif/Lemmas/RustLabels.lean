import Verif.Model.RustLabels
import Verif.Props.C88Ewm
import Verif.Props.C88Std
import Verif.Props.C38
import Verif.Props.C66

/-!
# Lemmas about the labels of the Rust engine
-/

namespace Vbt
open F RsGen RsLab

/-! ## Loops over rows from the last to the first -/

section
variable {σ β : Type}

/-- What a loop over rows in reverse writes, given its state before each row. -/
theorem fillRows_down {step : σ → Nat → σ × Option β} {s0 : σ} {d : β} {len : Nat} (St : Nat → σ) (h0 : St len = s0)
    (hst : ∀ r < len, (step (St (r + 1)) r).1 = St r) {r : Nat} (hr : r < len) :
    (fillRows step s0 (fun _ => d) (List.range len).reverse).2 r = ((step (St (r + 1)) r).2).getD d := by
  have key : ∀ k ≤ len, (fillRows step s0 (fun _ => d) (List.range' (len - k) k).reverse).1 = St (len - k) ∧
      ∀ i, (fillRows step s0 (fun _ => d) (List.range' (len - k) k).reverse).2 i =
        if len - k ≤ i ∧ i < len then ((step (St (i + 1)) i).2).getD d else d := by
    intro k
    induction k with
    | zero =>
      intro _
      refine ⟨h0.symm, fun i => ?_⟩
      rw [if_neg (by omega)]
      rfl
    | succ k ih =>
      intro hk
      obtain ⟨i1, i2⟩ := ih (by omega)
      have e : List.range' (len - (k + 1)) (k + 1) = (len - (k + 1)) :: List.range' (len - k) k := by
        rw [List.range'_succ, show len - (k + 1) + 1 = len - k by omega]
      rw [e, List.reverse_cons, fillRows_append]
      generalize fillRows step s0 (fun _ => d) (List.range' (len - k) k).reverse = x at i1 i2
      rw [fillRows_cons, i1]
      have hs := hst (len - (k + 1)) (by omega)
      rw [show len - (k + 1) + 1 = len - k by omega] at hs
      refine ⟨hs, fun i => ?_⟩
      unfold fillRows
      dsimp only [List.foldl_nil]
      by_cases hi : i = len - (k + 1)
      · subst hi
        rw [if_pos ⟨le_refl _, by omega⟩, show len - (k + 1) + 1 = len - k by omega]
        cases (step (St (len - k)) (len - (k + 1))).2 with
        | none => exact (i2 _).trans (if_neg (by omega))
        | some v => exact if_pos rfl
      · have : (match (step (St (len - k)) (len - (k + 1))).2 with
            | none => x.2
            | some v => setAt x.2 (len - (k + 1)) v) i = x.2 i := by
          cases (step (St (len - k)) (len - (k + 1))).2 with
          | none => rfl
          | some v => exact if_neg hi
        refine this.trans ?_
        rw [i2]
        by_cases h : len - k ≤ i ∧ i < len
        · rw [if_pos h, if_pos (by omega)]
        · rw [if_neg h, if_neg (by omega)]
  have e : List.range len = List.range' (len - len) len := by rw [Nat.sub_self, List.range_eq_range']
  rw [e, (key len (le_refl _)).2 r, if_pos (by omega)]

/-- The loops of the standard layout that go over the rows in reverse. -/
theorem fillCells_down {step : Nat → σ → Nat → σ × Option β} {s0 : σ} {d : β} {nrows ncols c : Nat} (hc : c < ncols)
    (St : Nat → σ) (h0 : St nrows = s0) (hst : ∀ r < nrows, (step c (St (r + 1)) r).1 = St r) {r : Nat} (hr : r < nrows) :
    cells ncols (fillCells step (fun _ => s0) (fun _ => d) ncols (List.range nrows).reverse).2 r c =
      ((step c (St (r + 1)) r).2).getD d := by
  unfold cells
  rw [(fillCells_col _ _ _ _ _ hc).2 r]
  exact fillRows_down St h0 hst hr

end

/-! ## The shift -/

/-- Row `i` of a result computed on the reversed column, put back and shifted. -/
def laterRow (out : Nat → F) (wait len i : Nat) : F := if i + wait < len then out (len - 1 - (i + wait)) else nan

theorem futureShift_get (out : Nat → F) (wait : Nat) (junk : Nat → F) {len i : Nat} (hi : i < len) :
    futureShift out wait junk len i = laterRow out wait len i := by
  unfold futureShift laterRow
  by_cases h : 0 < wait
  · rw [if_pos h, bshift_get _ _ _ _ hi]
    rfl
  · have : wait = 0 := by omega
    subst this
    rw [if_neg h, Nat.add_zero, if_pos hi]
    rfl

theorem shifted_get (a : View2) (kernel : (Nat → F) → Nat → (Nat → F)) (wait : Nat) {r c : Nat} (hr : r < a.nrows)
    (hc : c < a.ncols) :
    shifted (byColRev a kernel) a.nrows a.ncols wait r c =
      laterRow (kernel (reversed (a.column c) a.nrows) a.nrows) wait a.nrows r := by
  have hb : ∀ i < a.nrows, byColRev a kernel i c = kernel (reversed (a.column c) a.nrows) a.nrows (a.nrows - 1 - i) := by
    intro i hi
    unfold byColRev
    rw [byCol_get a _ hi hc]
    rfl
  unfold shifted laterRow
  by_cases h : wait > 0
  · rw [if_pos h, byCol_get ⟨a.nrows, a.ncols, byColRev a kernel, true⟩ _ hr hc, bshiftInto_get _ _ _ _ hr]
    by_cases h2 : r + wait < a.nrows
    · rw [if_pos h2, if_pos h2]
      exact hb _ h2
    · rw [if_neg h2, if_neg h2]
  · have : wait = 0 := by omega
    subst this
    rw [if_neg h, Nat.add_zero, if_pos hr, hb r hr]

theorem laterRow_congr {u v : Nat → F} {wait len : Nat} (h : ∀ i < len, u i = v i) (i : Nat) :
    laterRow u wait len i = laterRow v wait len i := by
  unfold laterRow
  by_cases hi : i + wait < len
  · rw [if_pos hi, if_pos hi, h _ (by omega)]
  · rw [if_neg hi, if_neg hi]

/-! ## Mean -/

/-- The sums kept by the rolling mean after `k` rows. -/
def meanSt (A : Arith) (b : Nat → F) (window : Nat) (k : Nat) : F × Nat :=
  scanState (fun s i => ((meanTurn A b window window s i).1, (meanTurn A b window window s i).2.getD nan)) (zero, 0) k

theorem meanSums_rev (A : Arith) (a : Nat → F) (window wait len r : Nat) :
    meanSums A a len window wait (meanSt A (reversed a len) window (len - (r + 1 + wait))) r =
      meanSt A (reversed a len) window (len - (r + wait)) := by
  by_cases h : r + wait < len
  · obtain ⟨k, hk⟩ : ∃ k, len - (r + wait) = k + 1 := ⟨len - (r + wait) - 1, by omega⟩
    rw [hk, show len - (r + 1 + wait) = k by omega]
    unfold meanSt
    rw [scanState_succ]
    dsimp only
    generalize scanState _ _ k = s
    unfold meanSums meanTurn
    dsimp only
    have e1 : reversed a len k = a (r + wait) := by unfold reversed; congr 1; omega
    rw [if_pos h, e1]
    by_cases h2 : r + wait + window < len
    · have e2 : reversed a len (k - window) = a (r + wait + window) := by unfold reversed; congr 1; omega
      rw [if_pos h2, if_pos (show k ≥ window by omega), e2]
    · rw [if_neg h2, if_neg (show ¬ k ≥ window by omega)]
  · rw [show len - (r + 1 + wait) = 0 by omega, show len - (r + wait) = 0 by omega]
    unfold meanSums
    dsimp only
    rw [if_neg h, if_neg (by omega)]

theorem rollingMean1_get (A : Arith) (b : Nat → F) (window : Nat) {len j : Nat} (hj : j < len) (hw : 1 ≤ window) :
    rollingMean1 A b window window len j =
      if (meanSt A b window (j + 1)).2 ≥ window then
        div A (meanSt A b window (j + 1)).1 (fin (meanSt A b window (j + 1)).2) else nan := by
  unfold rollingMean1
  rw [fillRows_scan, scanRows_out _ _ _ hj]
  unfold meanSt
  rw [scanState_succ]
  generalize scanState _ _ j = s
  dsimp only
  have h : (meanTurn A b window window s j).2 = if (meanTurn A b window window s j).1.2 ≥ window ∧
      (meanTurn A b window window s j).1.2 > 0 then
        some (div A (meanTurn A b window window s j).1.1 (fin (meanTurn A b window window s j).1.2)) else none := rfl
  rw [h]
  by_cases hc : (meanTurn A b window window s j).1.2 ≥ window
  · rw [if_pos ⟨hc, by omega⟩, if_pos hc]
    rfl
  · rw [if_neg (by tauto), if_neg hc]
    rfl

/-- With the standard layout the sums are kept in place; they are those of the reversed column. -/
theorem futureMeanC_get (A : Arith) (a : View2) {window : Nat} (wait : Nat) (hw : 1 ≤ window) {r c : Nat} (hr : r < a.nrows)
    (hc : c < a.ncols) :
    cells a.ncols (futureMeanC A a window wait) r c =
      laterRow (rollingMean1 A (reversed (a.column c) a.nrows) window window a.nrows) wait a.nrows r := by
  unfold futureMeanC
  rw [fillCells_down hc (fun r => meanSt A (reversed (a.column c) a.nrows) window (a.nrows - (r + wait)))
    (by rw [show a.nrows - (a.nrows + wait) = 0 by omega]; rfl)
    (fun r _ => by
      rw [sliceCol_eq a hc]
      exact meanSums_rev A (a.column c) window wait a.nrows r) hr, sliceCol_eq a hc]
  have hm := meanSums_rev A (a.column c) window wait a.nrows r
  have hout : ∀ s, (futMeanTurn A (a.column c) a.nrows window wait s r).2 =
      if (meanSums A (a.column c) a.nrows window wait s r).2 ≥ window then
        some (div A (meanSums A (a.column c) a.nrows window wait s r).1
          (fin (meanSums A (a.column c) a.nrows window wait s r).2)) else none := fun s => rfl
  rw [hout, hm]
  unfold laterRow
  by_cases h : r + wait < a.nrows
  · rw [if_pos h, rollingMean1_get A _ window (by omega) hw, show a.nrows - 1 - (r + wait) + 1 = a.nrows - (r + wait) by omega]
    split <;> rfl
  · rw [if_neg h, show a.nrows - (r + wait) = 0 by omega]
    have e : (meanSt A (reversed (a.column c) a.nrows) window 0).2 = 0 := rfl
    rw [if_neg (by omega)]
    rfl

theorem meanLabelsC_get (A : Arith) (a : View2) {window : Nat} (wait : Nat) (hw : 1 ≤ window) {r c : Nat} (hr : r < a.nrows)
    (hc : c < a.ncols) :
    cells a.ncols (meanLabelsC A a window wait) r c =
      div A (sub A (laterRow (rollingMean1 A (reversed (a.column c) a.nrows) window window a.nrows) wait a.nrows r)
        (a.get r c)) (a.get r c) := by
  rw [← futureMeanC_get A a wait hw hr hc]
  unfold meanLabelsC futureMeanC
  have h0 : meanSt A (reversed (a.column c) a.nrows) window (a.nrows - (a.nrows + wait)) = (zero, 0) := by
    rw [show a.nrows - (a.nrows + wait) = 0 by omega]; rfl
  rw [fillCells_down hc (fun r => meanSt A (reversed (a.column c) a.nrows) window (a.nrows - (r + wait))) h0
    (fun r _ => by
      rw [sliceCol_eq a hc]
      exact meanSums_rev A (a.column c) window wait a.nrows r) hr,
    fillCells_down hc (fun r => meanSt A (reversed (a.column c) a.nrows) window (a.nrows - (r + wait))) h0
    (fun r _ => by
      rw [sliceCol_eq a hc]
      exact meanSums_rev A (a.column c) window wait a.nrows r) hr, sliceCol_eq a hc]
  generalize meanSt A (reversed (a.column c) a.nrows) window (a.nrows - (r + 1 + wait)) = s
  unfold meanLabelTurn futMeanTurn
  dsimp only
  by_cases h : (meanSums A (a.column c) a.nrows window wait s r).2 ≥ window
  · rw [if_pos h, if_pos h]
    rfl
  · rw [if_neg h, if_neg h]
    show nan = div A (sub A nan (a.get r c)) (a.get r c)
    cases a.get r c <;> rfl

/-- Every layout: the mean of the next period is the rolling mean of the reversed column. -/
theorem rsFutureMean_get (A : Arith) (a : View2) {window : Nat} (ewm : Bool) (wait : Nat) (adjust : Bool) (hw : 1 ≤ window)
    {r c : Nat} (hr : r < a.nrows) (hc : c < a.ncols) :
    RsLab.futureMean A a window ewm wait adjust r c =
      laterRow (if ewm then ewmMean1 A (reversed (a.column c) a.nrows) window window adjust a.nrows
        else rollingMean1 A (reversed (a.column c) a.nrows) window window a.nrows) wait a.nrows r := by
  unfold RsLab.futureMean
  by_cases h : (!ewm && a.standard) = true
  · rw [if_pos h, futureMeanC_get A a wait hw hr hc]
    have : ewm = false := by cases ewm <;> simp at h ⊢
    rw [this, if_neg Bool.false_ne_true]
  · rw [if_neg h, shifted_get a _ wait hr hc]

/-- Every layout: the mean label is the change from the price to the mean of the next period. -/
theorem rsMeanLabels_get (A : Arith) (a : View2) {window : Nat} (ewm : Bool) (wait : Nat) (adjust : Bool) (hw : 1 ≤ window)
    {r c : Nat} (hr : r < a.nrows) (hc : c < a.ncols) :
    RsLab.meanLabels A a window ewm wait adjust r c =
      div A (sub A (RsLab.futureMean A a window ewm wait adjust r c) (a.get r c)) (a.get r c) := by
  unfold RsLab.meanLabels
  by_cases h : (!ewm && a.standard) = true
  · rw [if_pos h, meanLabelsC_get A a wait hw hr hc, rsFutureMean_get A a ewm wait adjust hw hr hc]
    have : ewm = false := by cases ewm <;> simp at h ⊢
    rw [this, if_neg Bool.false_ne_true]
  · rw [if_neg h]
    by_cases hs : a.standard = true
    · rw [if_pos hs]
      unfold cells
      have hlt : r * a.ncols + c < a.nrows * a.ncols := by
        have := Nat.mul_le_mul_right a.ncols (show r + 1 ≤ a.nrows from hr)
        rw [Nat.add_mul, Nat.one_mul] at this
        omega
      rw [fillRows_scan, scanRows_out _ _ _ hlt]
      have hd : (r * a.ncols + c) / a.ncols = r := by
        rw [Nat.mul_comm, Nat.mul_add_div (by omega), Nat.div_eq_of_lt hc, Nat.add_zero]
      have hm : (r * a.ncols + c) % a.ncols = c := by
        rw [Nat.mul_comm, Nat.mul_add_mod, Nat.mod_eq_of_lt hc]
      dsimp only [Option.getD]
      unfold View2.slice
      rw [hd, hm]
    · rw [if_neg hs, byCol_get ⟨a.nrows, a.ncols, _, true⟩ _ hr hc]
      rfl

/-! ## Deviation -/

/-- The values of the last `window` of the first `k` rows. -/
def lastVals (b : Nat → F) (window : Nat) : Nat → List ℚ
  | 0 => []
  | j + 1 => (winObs b window j).map F.val

/-- The sums of a list of values. -/
def sumsOf (l : List ℚ) : SumSq := ⟨F.fin l.sum, F.fin (sqOf l), l.length⟩

theorem sumsOf_enter {r t : ℚ} {l : List ℚ} {x : F} (hx : x.isinf = false) :
    (if !x.isnan then (⟨add (Arith.exact r t) (sumsOf l).sum x, add (Arith.exact r t) (sumsOf l).sumSq
      (mul (Arith.exact r t) x x), (sumsOf l).cnt + 1⟩ : SumSq) else sumsOf l) =
      sumsOf (if x.isnan then l else l ++ [x.val]) := by
  cases x with
  | nan => rfl
  | ninf => cases hx
  | pinf => cases hx
  | fin q =>
    simp only [isnan, Bool.not_false, if_true, Bool.false_eq_true, if_false, F.val]
    unfold sumsOf
    rw [sqOf_append]
    simp [add, mul, sqOf]

theorem sumsOf_leave {r t : ℚ} {l m : List ℚ} {x : F} (hx : x.isinf = false) :
    (if !x.isnan then (⟨sub (Arith.exact r t) (sumsOf ((if x.isnan then l else x.val :: l) ++ m)).sum x,
        sub (Arith.exact r t) (sumsOf ((if x.isnan then l else x.val :: l) ++ m)).sumSq (mul (Arith.exact r t) x x),
        (sumsOf ((if x.isnan then l else x.val :: l) ++ m)).cnt - 1⟩ : SumSq)
      else sumsOf ((if x.isnan then l else x.val :: l) ++ m)) = sumsOf (l ++ m) := by
  cases x with
  | nan => rfl
  | ninf => cases hx
  | pinf => cases hx
  | fin q =>
    simp only [isnan, Bool.not_false, if_true, Bool.false_eq_true, if_false, F.val]
    unfold sumsOf
    simp [sub, add, neg, mul, sqOf]

theorem stdSums_rev {r t : ℚ} {a : Nat → F} {window : Nat} (hw : 1 ≤ window) (wait : Nat) {len i : Nat}
    (hinf : ∀ k < len, (a k).isinf = false) :
    stdSums (Arith.exact r t) a len window wait (sumsOf (lastVals (reversed a len) window (len - (i + 1 + wait)))) i =
      sumsOf (lastVals (reversed a len) window (len - (i + wait))) := by
  by_cases h : i + wait < len
  · obtain ⟨k, hk⟩ : ∃ k, len - (i + wait) = k + 1 := ⟨len - (i + wait) - 1, by omega⟩
    rw [hk, show len - (i + 1 + wait) = k by omega]
    have e1 : reversed a len k = a (i + wait) := by unfold reversed; congr 1; omega
    unfold stdSums
    dsimp only
    rw [if_pos h, sumsOf_enter (hinf _ h)]
    cases k with
    | zero =>
      rw [if_neg (by omega)]
      congr 1
      have hf : (List.range (0 + 1)).filter (fun j => decide (0 < j + window)) = [0] := by
        simp [List.range_succ]; omega
      show _ = (winObs (reversed a len) window 0).map F.val
      unfold winObs
      rw [hf, List.map_cons, List.map_nil, e1]
      cases hn : (a (i + wait)).isnan <;> simp [lastVals, hn]
    | succ j =>
      obtain ⟨l, l1, l2⟩ := winObs_next (reversed a len) (w := window) (i := j) (by omega)
      rw [show lastVals (reversed a len) window (j + 1) = (winObs (reversed a len) window j).map F.val from rfl,
        show lastVals (reversed a len) window (j + 1 + 1) = (winObs (reversed a len) window (j + 1)).map F.val from rfl,
        l1, l2, e1]
      by_cases h2 : i + wait + window < len
      · have e2 : reversed a len (j + 1 - window) = a (i + wait + window) := by unfold reversed; congr 1; omega
        rw [if_pos h2, if_pos (show window ≤ j + 1 by omega), e2]
        have := sumsOf_leave (r := r) (t := t) (l := l) (m := if (a (i + wait)).isnan then [] else [(a (i + wait)).val])
          (hinf _ h2)
        cases hn : (a (i + wait)).isnan with
        | true => simpa [hn] using this
        | false => simpa [hn] using this
      · rw [if_neg h2, if_neg (show ¬ window ≤ j + 1 by omega)]
  · rw [show len - (i + 1 + wait) = 0 by omega, show len - (i + wait) = 0 by omega]
    unfold stdSums
    dsimp only
    rw [if_neg h, if_neg (by omega)]

/-- What the standard layout writes, in exact arithmetic. -/
theorem futureStdC_get (r t : ℚ) (sqrt : F → F) (a : View2) {window : Nat} (wait ddof : Nat) (hw : 1 ≤ window) {i c : Nat}
    (hi : i < a.nrows) (hc : c < a.ncols) (hinf : ∀ k < a.nrows, (a.get k c).isinf = false) :
    cells a.ncols (futureStdC (Arith.exact r t) sqrt a window wait ddof) i c =
      laterRow (fun j => if max window 1 ≤ (winObs (reversed (a.column c) a.nrows) window j).length ∧
          ddof < (winObs (reversed (a.column c) a.nrows) window j).length then
        sqrt (F.fin (devOf ((winObs (reversed (a.column c) a.nrows) window j).map F.val) /
          ((winObs (reversed (a.column c) a.nrows) window j).length - ddof))) else nan) wait a.nrows i := by
  have hst := fun i => stdSums_rev (r := r) (t := t) (a := a.column c) hw wait (len := a.nrows) (i := i) hinf
  unfold futureStdC
  rw [fillCells_down hc (fun i => sumsOf (lastVals (reversed (a.column c) a.nrows) window (a.nrows - (i + wait))))
    (by rw [show a.nrows - (a.nrows + wait) = 0 by omega]; rfl)
    (fun i _ => by
      rw [sliceCol_eq a hc]
      exact hst i) hi, sliceCol_eq a hc]
  have hout : ∀ s, (futStdTurn (Arith.exact r t) sqrt (a.column c) a.nrows window wait ddof s i).2 =
      (expStdTurn (Arith.exact r t) sqrt (fun _ => nan) window ddof
        (stdSums (Arith.exact r t) (a.column c) a.nrows window wait s i) 0).2 := fun s => rfl
  rw [hout, hst i]
  have hl : (expStdTurn (Arith.exact r t) sqrt (fun _ => nan) window ddof
      (sumsOf (lastVals (reversed (a.column c) a.nrows) window (a.nrows - (i + wait)))) 0).1 =
      ⟨F.fin (lastVals (reversed (a.column c) a.nrows) window (a.nrows - (i + wait))).sum,
        F.fin (sqOf (lastVals (reversed (a.column c) a.nrows) window (a.nrows - (i + wait)))),
        (lastVals (reversed (a.column c) a.nrows) window (a.nrows - (i + wait))).length⟩ := rfl
  rw [expStd_out hl]
  unfold laterRow
  by_cases h : i + wait < a.nrows
  · rw [if_pos h]
    obtain ⟨j, hj⟩ : ∃ j, a.nrows - (i + wait) = j + 1 := ⟨a.nrows - (i + wait) - 1, by omega⟩
    rw [hj, show a.nrows - 1 - (i + wait) = j by omega]
    simp only [lastVals, List.length_map]
  · rw [if_neg h, show a.nrows - (i + wait) = 0 by omega]
    rw [if_neg]
    simp [lastVals]

theorem rollingStd1_get (A : Arith) (sqrt : F → F) (b : Nat → F) (window ddof : Nat) (junk : Nat → F) {len j : Nat} (hj : j < len) :
    rollingStd1 A sqrt b window window ddof len j =
      (scanRows (stdStep A sqrt b window (max window 1) ddof) ⟨0, zero, zero, zero, zero, false⟩ junk len).2 j := by
  unfold rollingStd1
  rw [fillRows_scan]
  refine scanRows_rel (R := fun i (s : RollingVar) (t : StdState) => t = nbVar s ∧ s.count = present b window i)
    ⟨rfl, by simp [present, RollingVar.default]⟩ ?_ hj
  rintro i s t - ⟨rfl, h2⟩
  obtain ⟨e1, e2⟩ := std_row A sqrt b window (max window 1) ddof i s h2
  rw [e2]
  exact ⟨⟨rfl, e1⟩, rfl⟩

/-! ## Extremes -/

theorem rollExtreme_get (turn : (Nat → F) → F × Nat → Nat → F × Nat) (b : Nat → F) (window m : Nat) {len j : Nat} (hj : j < len) :
    rollExtreme turn b window m len j = rollRow turn b window m j := by
  unfold rollExtreme
  rw [fillRows_scan, scanRows_out _ _ _ hj]
  dsimp only
  have hstart : (if j + 1 ≥ window then j + 1 - window else 0) = j + 1 - window := by
    by_cases h : j + 1 ≥ window
    · rw [if_pos h]
    · rw [if_neg h]; omega
  rw [hstart]
  unfold rollRow
  dsimp only
  by_cases h : ((List.range' (j + 1 - window) (j + 1 - (j + 1 - window))).foldl (turn b) (b j, 0)).2 < m
  · rw [if_neg (by omega)]
    exact (if_pos h).symm
  · rw [if_pos (by omega)]
    exact (if_neg h).symm

theorem extremeScan_nan (isMin : Bool) (a : Nat → F) {l : List Nat} {i : Nat} (hi : i ∈ l) (hn : (a i).isnan = true) (v : F) :
    extremeScan isMin a l v = none := by
  induction l generalizing v with
  | nil => simp at hi
  | cons k l ih =>
    unfold extremeScan
    by_cases hk : (a k).isnan = true
    · rw [if_pos hk]
    · rw [if_neg hk]
      have : i ∈ l := by
        rcases List.mem_cons.mp hi with rfl | h
        · exact absurd hn hk
        · exact h
      cases isMin
      · exact ih this _
      · exact ih this _

/-- A scan without missing values finds the smallest or largest. -/
theorem extremeScan_some (isMin : Bool) (a : Nat → F) {l : List Nat} (hn : ∀ i ∈ l, (a i).isnan = false) {v : F}
    (hv : v.isnan = false) :
    ∃ w, extremeScan isMin a l v = some w ∧ w.isnan = false ∧ (w = v ∨ w ∈ l.map a) ∧
      (if isMin then le w v = true ∧ ∀ x ∈ l.map a, le w x = true else le v w = true ∧ ∀ x ∈ l.map a, le x w = true) := by
  induction l generalizing v with
  | nil =>
    refine ⟨v, rfl, hv, .inl rfl, ?_⟩
    cases isMin <;> simp [le_rfl' hv]
  | cons k l ih =>
    have hk := hn k (by simp)
    have hl : ∀ i ∈ l, (a i).isnan = false := fun i hi => hn i (by simp [hi])
    unfold extremeScan
    rw [if_neg (by simp [hk])]
    cases isMin with
    | true =>
      rw [if_pos rfl]
      by_cases hlt : lt (a k) v = true
      · rw [if_pos hlt]
        obtain ⟨w, h1, h2, h3, h4⟩ := ih hl hk
        rw [if_pos rfl] at h4
        refine ⟨w, h1, h2, .inr ?_, ?_⟩
        · rcases h3 with h3 | h3 <;> simp [h3]
        · rw [if_pos rfl]
          refine ⟨le_trans' h4.1 (lt_le hlt), fun x hx => ?_⟩
          rcases List.mem_cons.mp hx with rfl | hx
          · exact h4.1
          · exact h4.2 x hx
      · rw [if_neg hlt]
        obtain ⟨w, h1, h2, h3, h4⟩ := ih hl hv
        rw [if_pos rfl] at h4
        refine ⟨w, h1, h2, ?_, ?_⟩
        · rcases h3 with h3 | h3
          · exact .inl h3
          · exact .inr (List.mem_cons_of_mem _ h3)
        · rw [if_pos rfl]
          refine ⟨h4.1, fun x hx => ?_⟩
          rcases List.mem_cons.mp hx with rfl | hx
          · exact le_trans' h4.1 ((not_lt_iff hk hv).mp (by simpa using hlt))
          · exact h4.2 x hx
    | false =>
      rw [if_neg Bool.false_ne_true]
      by_cases hlt : gt (a k) v = true
      · rw [if_pos hlt]
        obtain ⟨w, h1, h2, h3, h4⟩ := ih hl hk
        rw [if_neg Bool.false_ne_true] at h4
        refine ⟨w, h1, h2, .inr ?_, ?_⟩
        · rcases h3 with h3 | h3 <;> simp [h3]
        · rw [if_neg Bool.false_ne_true]
          refine ⟨le_trans' (lt_le hlt) h4.1, fun x hx => ?_⟩
          rcases List.mem_cons.mp hx with rfl | hx
          · exact h4.1
          · exact h4.2 x hx
      · rw [if_neg hlt]
        obtain ⟨w, h1, h2, h3, h4⟩ := ih hl hv
        rw [if_neg Bool.false_ne_true] at h4
        refine ⟨w, h1, h2, ?_, ?_⟩
        · rcases h3 with h3 | h3
          · exact .inl h3
          · exact .inr (List.mem_cons_of_mem _ h3)
        · rw [if_neg Bool.false_ne_true]
          refine ⟨h4.1, fun x hx => ?_⟩
          rcases List.mem_cons.mp hx with rfl | hx
          · exact le_trans' ((not_lt_iff hv hk).mp (by simpa [gt] using hlt)) h4.1
          · exact h4.2 x hx

/-- The window of a row of the reversed column is the period after the row. -/
theorem winObs_rev (a : Nat → F) {window len s : Nat} (hs : s < len) :
    (winObs (reversed a len) window (len - 1 - s)).length ≤ min window (len - s) ∧
    (s + window ≤ len → (∀ i, s ≤ i → i < s + window → (a i).isnan = false) →
      (winObs (reversed a len) window (len - 1 - s)).length = window ∧
      ∀ x, x ∈ winObs (reversed a len) window (len - 1 - s) ↔ x ∈ (List.range' s window).map a) ∧
    (s + window ≤ len → (∃ i, s ≤ i ∧ i < s + window ∧ (a i).isnan = true) →
      (winObs (reversed a len) window (len - 1 - s)).length < window) := by
  unfold winObs
  rw [← winRows_eq]
  have hlen : ((List.range' (len - 1 - s + 1 - window) (len - 1 - s + 1 - (len - 1 - s + 1 - window))).map (reversed a len)).length =
      min window (len - s) := by
    rw [List.length_map, List.length_range']; omega
  refine ⟨hlen ▸ List.length_filter_le _ _, fun h1 h2 => ?_, fun h1 h2 => ?_⟩
  · have hall : ∀ x ∈ (List.range' (len - 1 - s + 1 - window) (len - 1 - s + 1 - (len - 1 - s + 1 - window))).map (reversed a len),
        (!x.isnan) = true := by
      intro x hx
      obtain ⟨j, hj, rfl⟩ := List.mem_map.mp hx
      rw [List.mem_range'_1] at hj
      unfold reversed
      rw [h2 _ (by omega) (by omega)]
      rfl
    rw [List.filter_eq_self.mpr hall]
    refine ⟨by rw [hlen]; omega, fun x => ?_⟩
    simp only [List.mem_map, List.mem_range'_1]
    constructor
    · rintro ⟨j, hj, rfl⟩
      exact ⟨len - 1 - j, by omega, rfl⟩
    · rintro ⟨i, hi, rfl⟩
      refine ⟨len - 1 - i, by omega, ?_⟩
      unfold reversed
      congr 1
      omega
  · obtain ⟨i, i1, i2, i3⟩ := h2
    have : (List.filter (fun x => !x.isnan) ((List.range' (len - 1 - s + 1 - window)
        (len - 1 - s + 1 - (len - 1 - s + 1 - window))).map (reversed a len))).length <
        ((List.range' (len - 1 - s + 1 - window) (len - 1 - s + 1 - (len - 1 - s + 1 - window))).map (reversed a len)).length := by
      rw [List.length_filter_lt_length_iff_exists]
      refine ⟨a i, List.mem_map.mpr ⟨len - 1 - i, by rw [List.mem_range'_1]; omega, ?_⟩, by simp [i3]⟩
      unfold reversed
      congr 1
      omega
    omega

/-- What the standard layout writes is what the reversed column gives. -/
theorem futureExtremeC_get (isMin : Bool) (a : View2) {window : Nat} (wait : Nat) (hw : 1 ≤ window) {out : Nat → F} {r c : Nat}
    (hr : r < a.nrows) (hc : c < a.ncols)
    (hnan : ∀ i < a.nrows, (winObs (reversed (a.column c) a.nrows) window i).length < window → out i = nan)
    (hval : ∀ i < a.nrows, window ≤ (winObs (reversed (a.column c) a.nrows) window i).length →
      out i ∈ winObs (reversed (a.column c) a.nrows) window i ∧
      ∀ x ∈ winObs (reversed (a.column c) a.nrows) window i, if isMin then le (out i) x = true else le x (out i) = true) :
    cells a.ncols (futureExtremeC isMin a window wait) r c = laterRow out wait a.nrows r := by
  unfold cells futureExtremeC
  rw [(fillCells_col _ _ _ _ _ hc).2 r, fillRows_scan, scanRows_out _ _ _ hr, sliceCol_eq a hc]
  dsimp only
  unfold laterRow
  by_cases h : r + wait + window > a.nrows
  · rw [if_pos h]
    by_cases h1 : r + wait < a.nrows
    · rw [if_pos h1, hnan _ (by omega)]
      · rfl
      · have := (winObs_rev (a.column c) (window := window) h1).1
        omega
    · rw [if_neg h1]
      rfl
  · have h1 : r + wait < a.nrows := by omega
    rw [if_neg h, if_pos h1, show r + wait + window - (r + wait) = window by omega]
    obtain ⟨-, w2, w3⟩ := winObs_rev (a.column c) (window := window) h1
    by_cases hn : ∃ i, r + wait ≤ i ∧ i < r + wait + window ∧ (a.column c i).isnan = true
    · rw [hnan _ (by omega) (w3 (by omega) hn)]
      obtain ⟨i, i1, i2, i3⟩ := hn
      rw [extremeScan_nan isMin (a.column c) (i := i) (by rw [List.mem_range'_1]; omega) i3]
      rfl
    · have hnn : ∀ i, r + wait ≤ i → i < r + wait + window → (a.column c i).isnan = false := by
        intro i i1 i2
        by_contra hcon
        exact hn ⟨i, i1, i2, by simpa using hcon⟩
      obtain ⟨l1, l2⟩ := w2 (by omega) hnn
      obtain ⟨v1, v2⟩ := hval (a.nrows - 1 - (r + wait)) (by omega) (by omega)
      obtain ⟨w, e1, e2, e3, e4⟩ := extremeScan_some isMin (a.column c) (l := List.range' (r + wait) window)
        (fun i hi => by rw [List.mem_range'_1] at hi; exact hnn i hi.1 hi.2)
        (v := if isMin then pinf else ninf) (by cases isMin <;> rfl)
      rw [e1]
      show w = _
      have hmem : w ∈ (List.range' (r + wait) window).map (a.column c) := by
        rcases e3 with e3 | e3
        · -- the scan left the initial value: all values are that infinity
          have hx : a.column c (r + wait) ∈ (List.range' (r + wait) window).map (a.column c) :=
            List.mem_map.mpr ⟨r + wait, by rw [List.mem_range'_1]; omega, rfl⟩
          have hxn := hnn (r + wait) (le_refl _) (by omega)
          cases isMin with
          | true =>
            rw [if_pos rfl] at e3 e4
            have := e4.2 _ hx
            rw [e3] at this ⊢
            cases hax : a.column c (r + wait) <;> rw [hax] at this hxn <;> simp_all [le, isnan]
          | false =>
            rw [if_neg Bool.false_ne_true] at e3 e4
            have := e4.2 _ hx
            rw [e3] at this ⊢
            cases hax : a.column c (r + wait) <;> rw [hax] at this hxn <;> simp_all [le, isnan]
        · exact e3
      have g1 := v2 w ((l2 w).mpr hmem)
      have g2 := (l2 _).mp v1
      cases isMin with
      | true =>
        rw [if_pos rfl] at e4 g1
        exact le_antisymm' (e4.2 _ g2) g1
      | false =>
        rw [if_neg Bool.false_ne_true] at e4 g1
        exact le_antisymm' g1 (e4.2 _ g2)

end Vbt
