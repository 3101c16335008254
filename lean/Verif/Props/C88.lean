import Verif.Lemmas.RustGeneric
import Verif.Lemmas.Window
import Verif.Lemmas.Float
import Verif.Model.Double
import Verif.Lemmas.Witness
import Verif.Props.C66

/-!
# C88: the two engines of the time series functions

The Rust engine (`Model/RustGeneric`) against the Numba engine (`Model/Generic`), for arrays of any shape and both memory
layouts.
-/

namespace Vbt
open F RsGen

/-! ## Shifting and filling -/

theorem bshiftInto_get (a out : Nat → F) (n : Nat) (fill : F) {len i : Nat} (hi : i < len) :
    bshiftInto a out n fill len i = if i + n < len then a (i + n) else fill := by
  unfold bshiftInto
  have : (fun (out : Nat → F) i => if i + n < len then setAt out i (a (i + n)) else setAt out i fill) =
      fun out k => setAt out k ((fun i => if i + n < len then a (i + n) else fill) k) := by
    funext out k
    by_cases h : k + n < len
    · simp only [if_pos h]
    · simp only [if_neg h]
  rw [this, foldl_setAt, if_pos (List.mem_range.mpr hi)]

theorem two_ranges {β : Type} (f g : Nat → β) (out : Nat → β) {n len i : Nat} (hi : i < len) :
    (List.range' n (len - n)).foldl (fun out k => setAt out k (g k))
      ((List.range (min n len)).foldl (fun out k => setAt out k (f k)) out) i = if i < n then f i else g i := by
  rw [foldl_setAt, foldl_setAt]
  by_cases h : i < n
  · rw [if_neg (by rw [List.mem_range'_1]; omega), if_pos (by rw [List.mem_range]; omega), if_pos h]
  · rw [if_pos (by rw [List.mem_range'_1]; omega), if_neg h]

theorem fshiftInto_get (a out : Nat → F) (n : Nat) (fill : F) {len i : Nat} (hi : i < len) :
    fshiftInto a out n fill len i = if i < n then fill else a (i - n) :=
  two_ranges (fun _ => fill) (fun i => a (i - n)) out hi

theorem diffInto_get (A : Arith) (a out : Nat → F) (n : Nat) {len i : Nat} (hi : i < len) :
    diffInto A a out n len i = diff A a n i :=
  two_ranges (fun _ => nan) (fun i => sub A (a i) (a (i - n))) out hi

theorem pctChangeInto_get (A : Arith) (a out : Nat → F) (n : Nat) {len i : Nat} (hi : i < len) :
    pctChangeInto A a out n len i = pctChange A a n i :=
  two_ranges (fun _ => nan) (fun i => sub A (div A (a i) (a (i - n))) one) out hi

theorem bshift_get (a junk : Nat → F) (n : Nat) (fill : F) {len i : Nat} (hi : i < len) :
    bshift a n fill junk len i = if i + n < len then a (i + n) else fill := by
  unfold bshift
  rw [scanRows_out _ _ _ hi]
  dsimp only
  by_cases h : i + n < len
  · rw [if_pos h, if_pos (by omega)]
  · rw [if_neg h, if_neg (by omega)]

theorem fshift_get (a junk : Nat → F) (n : Nat) (fill : F) {len i : Nat} (hi : i < len) :
    fshift a n fill junk len i = if i < n then fill else a (i - n) := by
  unfold fshift
  rw [scanRows_out _ _ _ hi]
  dsimp only
  by_cases h : i < n
  · rw [if_pos h, if_neg (by omega)]
  · rw [if_neg h, if_pos (by omega)]

/-- The single column of a view in standard layout. -/
theorem slice_one (a : View2) (h : a.ncols = 1) : a.slice = a.column 0 := by
  rw [← sliceCol_eq a (by omega)]
  funext r
  unfold View2.sliceCol
  rw [h, Nat.mul_one, Nat.add_zero]

/-- **C88** (shifts).  Both engines shift forward and backward alike. -/
theorem C88_shift (a : View2) (n : Nat) (fill : F) (junk : Nat → F) (junk2 : Nat → Nat → F) :
    SameResult a.nrows a.ncols (.ok (bshiftPy a n fill)) (nb2d (fun col => .ok (bshift col n fill junk a.nrows)) a.get junk2 a.ncols) ∧
    SameResult a.nrows a.ncols (.ok (fshiftPy a n fill)) (nb2d (fun col => .ok (fshift col n fill junk a.nrows)) a.get junk2 a.ncols) := by
  constructor
  · refine sameResult_total (g := fun col => bshift col n fill junk a.nrows) fun c hc r hr => ?_
    rw [bshift_get _ _ _ _ hr]
    unfold bshiftPy
    cases a.standard with
    | false =>
      rw [if_neg Bool.false_ne_true]
      exact byColInplace_get a _ (fun col i => if i + n < a.nrows then col (i + n) else fill)
        (fun col buf r hr => bshiftInto_get _ _ _ _ hr) hr hc
    | true =>
      rw [if_pos rfl]
      unfold cells bshiftC
      by_cases h1 : a.ncols = 1
      · rw [if_pos h1, h1, Nat.mul_one, show c = 0 by omega, Nat.add_zero]
        unfold bshift1
        rw [bshiftInto_get _ _ _ _ hr, slice_one a h1]
        rfl
      · rw [if_neg h1]
        have : (fun (dst : Nat → F) row => if row + n < a.nrows
            then setRange dst (row * a.ncols) a.ncols fun k => a.slice ((row + n) * a.ncols + k)
            else setRange dst (row * a.ncols) a.ncols fun _ => fill) =
            fun dst row => setRange dst (row * a.ncols) a.ncols
              ((fun row k => if row + n < a.nrows then a.sliceCol k (row + n) else fill) row) := by
          funext dst row
          by_cases h : row + n < a.nrows
          · simp only [if_pos h]; rfl
          · simp only [if_neg h]
        rw [this, foldl_setRange _ _ _ _ hr hc, sliceCol_eq a hc]
        rfl
  · refine sameResult_total (g := fun col => fshift col n fill junk a.nrows) fun c hc r hr => ?_
    rw [fshift_get _ _ _ _ hr]
    unfold fshiftPy
    cases a.standard with
    | false =>
      rw [if_neg Bool.false_ne_true]
      exact byColInplace_get a _ (fun col i => if i < n then fill else col (i - n))
        (fun col buf r hr => fshiftInto_get _ _ _ _ hr) hr hc
    | true =>
      rw [if_pos rfl]
      unfold cells fshiftC
      by_cases h1 : a.ncols = 1
      · rw [if_pos h1, h1, Nat.mul_one, show c = 0 by omega, Nat.add_zero]
        unfold fshift1
        rw [fshiftInto_get _ _ _ _ hr, slice_one a h1]
        rfl
      · rw [if_neg h1]
        have : (fun (dst : Nat → F) row => if row < n then setRange dst (row * a.ncols) a.ncols fun _ => fill
            else setRange dst (row * a.ncols) a.ncols fun k => a.slice ((row - n) * a.ncols + k)) =
            fun dst row => setRange dst (row * a.ncols) a.ncols
              ((fun row k => if row < n then fill else a.sliceCol k (row - n)) row) := by
          funext dst row
          by_cases h : row < n
          · simp only [if_pos h]
          · simp only [if_neg h]; rfl
        rw [this, foldl_setRange _ _ _ _ hr hc, sliceCol_eq a hc]
        rfl

/-- A row-major loop without state that writes every row. -/
theorem fillCells_pure (g : Nat → Nat → F) (d : F) (ncols : Nat) (rows : List Nat) {r c : Nat} (hc : c < ncols) :
    (fillCells (fun col (_ : Unit) row => ((), some (g col row))) (fun _ => ()) (fun _ => d) ncols rows).2 (r * ncols + c) =
      if r ∈ rows then g c r else d := by
  rw [(fillCells_col _ _ _ _ _ hc).2 r]
  have : ∀ (rows : List Nat) (out : Nat → F), (fillRows (fun (_ : Unit) row => ((), some (g c row))) () out rows).2 =
      rows.foldl (fun out k => setAt out k (g c k)) out := by
    intro rows
    induction rows with
    | nil => intro out; rfl
    | cons x xs ih => intro out; rw [fillRows_cons, List.foldl_cons]; exact ih _
  rw [this, foldl_setAt]

/-- **C88** (differences).  Both engines compute differences and percentage changes alike, whatever the arithmetic
(for shifts of at least one row: with `n = 0` the Numba functions subtract an empty slice, which `Model/Generic` leaves out). -/
theorem C88_diff (A : Arith) (a : View2) (n : Nat) (junk2 : Nat → Nat → F) :
    SameResult a.nrows a.ncols (.ok (diffPy A a n)) (nb2d (fun col => .ok (diff A col n)) a.get junk2 a.ncols) ∧
    SameResult a.nrows a.ncols (.ok (pctChangePy A a n)) (nb2d (fun col => .ok (pctChange A col n)) a.get junk2 a.ncols) := by
  constructor
  · refine sameResult_total (g := fun col => diff A col n) fun c hc r hr => ?_
    unfold diffPy
    cases a.standard with
    | false =>
      rw [if_neg Bool.false_ne_true]
      exact byColInplace_get a _ (fun col => diff A col n) (fun col buf r hr => diffInto_get _ _ _ _ hr) hr hc
    | true =>
      rw [if_pos rfl]
      unfold cells diffC
      by_cases h1 : a.ncols = 1
      · rw [if_pos h1, h1, Nat.mul_one, show c = 0 by omega, Nat.add_zero]
        unfold diff1
        rw [diffInto_get _ _ _ _ hr, slice_one a h1]
        rfl
      · rw [if_neg h1, fillCells_pure (fun col row => sub A (a.sliceCol col row) (a.sliceCol col (row - n))) _ _ _ hc,
          sliceCol_eq a hc]
        unfold diff
        by_cases h : r < n
        · rw [if_pos h, if_neg (by rw [List.mem_range'_1]; omega)]
        · rw [if_neg h, if_pos (by rw [List.mem_range'_1]; omega)]
          rfl
  · refine sameResult_total (g := fun col => pctChange A col n) fun c hc r hr => ?_
    unfold pctChangePy
    cases a.standard with
    | false =>
      rw [if_neg Bool.false_ne_true]
      exact byColInplace_get a _ (fun col => pctChange A col n) (fun col buf r hr => pctChangeInto_get _ _ _ _ hr) hr hc
    | true =>
      rw [if_pos rfl]
      unfold cells pctChangeC
      by_cases h1 : a.ncols = 1
      · rw [if_pos h1, h1, Nat.mul_one, show c = 0 by omega, Nat.add_zero]
        unfold pctChange1
        rw [pctChangeInto_get _ _ _ _ hr, slice_one a h1]
        rfl
      · rw [if_neg h1, fillCells_pure (fun col row => sub A (div A (a.sliceCol col row) (a.sliceCol col (row - n))) one) _ _ _ hc,
          sliceCol_eq a hc]
        unfold pctChange
        by_cases h : r < n
        · rw [if_pos h, if_neg (by rw [List.mem_range'_1]; omega)]
        · rw [if_neg h, if_pos (by rw [List.mem_range'_1]; omega)]
          rfl

theorem fillStep_some (a : Nat → F) (s : F) (i : Nat) : (fillStep a s i).2.isSome := by
  unfold fillStep
  cases (a i).isnan <;> rfl

/-- Filling does not depend on what the buffer held, nor on whether the first value met or NaN is carried first. -/
theorem fill_first (a out out' : Nat → F) {last last' : F} {x : Nat} {xs : List Nat} (hl : last = a x ∨ last = nan)
    (hl' : last' = a x ∨ last' = nan) {i : Nat} (hi : i ∈ x :: xs) :
    (fillRows (fillStep a) last out (x :: xs)).2 i = (fillRows (fillStep a) last' out' (x :: xs)).2 i := by
  have h : ∀ l, (l = a x ∨ l = nan) → fillStep a l x = (a x, some (a x)) := by
    intro l hl
    unfold fillStep
    cases hn : (a x).isnan with
    | false => rfl
    | true =>
      rw [isnan_iff.mp hn] at hl ⊢
      rw [or_self] at hl
      rw [hl, if_pos rfl]
  rw [fillRows_cons, fillRows_cons, h last hl, h last' hl']
  refine fillRows_buf (fillStep_some a) _ _ _ _ ?_
  by_cases hx : i = x
  · right; simp [setAt, hx]
  · left; simpa [hx] using hi

theorem ffill_eq (a junk : Nat → F) (len : Nat) :
    ffill a junk len = (fillRows (fillStep a) (a 0) junk (List.range len)).2 := by
  unfold ffill scanRows fillRows
  congr 2
  funext s i
  unfold fillStep
  dsimp only
  cases (a i).isnan <;> rfl

theorem bfill_eq (a junk : Nat → F) (len : Nat) :
    bfill a junk len = (fillRows (fillStep a) (a (len - 1)) junk (List.range len).reverse).2 := by
  unfold bfill fillRows
  congr 2
  funext s i
  unfold fillStep
  cases (a i).isnan <;> rfl

/-- **C88** (filling).  Both engines fill forward and backward alike. -/
theorem C88_fill (a : View2) (junk : Nat → F) (junk2 : Nat → Nat → F) :
    SameResult a.nrows a.ncols (.ok (ffillPy a)) (nb2d (fun col => .ok (ffill col junk a.nrows)) a.get junk2 a.ncols) ∧
    SameResult a.nrows a.ncols (.ok (bfillPy a)) (nb2d (fun col => .ok (bfill col junk a.nrows)) a.get junk2 a.ncols) := by
  constructor
  · refine sameResult_total (g := fun col => ffill col junk a.nrows) fun c hc r hr => ?_
    obtain ⟨m, hm⟩ : ∃ m, a.nrows = m + 1 := ⟨a.nrows - 1, by omega⟩
    have hrange : List.range a.nrows = 0 :: (List.range m).map Nat.succ := by rw [hm, List.range_succ_eq_map]
    have hmem : r ∈ 0 :: (List.range m).map Nat.succ := by rw [← hrange]; exact List.mem_range.mpr hr
    unfold ffillPy
    rw [ffill_eq, hrange]
    cases a.standard with
    | false =>
      rw [if_neg Bool.false_ne_true]
      refine byColInplace_get a _ (fun col r => (fillRows (fillStep col) (col 0) junk (List.range a.nrows)).2 r)
        (fun col buf r hr => ?_) hr hc |>.trans (by rw [hrange]; rfl)
      unfold ffillInto
      rw [if_neg (by omega), hrange]
      exact fill_first _ _ _ (Or.inl rfl) (Or.inl rfl) (by rw [← hrange]; exact List.mem_range.mpr hr)
    | true =>
      rw [if_pos rfl]
      unfold cells ffillC
      rw [if_neg (by omega), (fillCells_col _ _ _ _ _ hc).2 r, sliceCol_eq a hc, hrange]
      exact fill_first _ _ _ (Or.inr rfl) (Or.inl rfl) hmem
  · refine sameResult_total (g := fun col => bfill col junk a.nrows) fun c hc r hr => ?_
    obtain ⟨m, hm⟩ : ∃ m, a.nrows = m + 1 := ⟨a.nrows - 1, by omega⟩
    have hrange : (List.range a.nrows).reverse = m :: (List.range m).reverse := by
      rw [hm, List.range_succ, List.reverse_append]; rfl
    have hmem : ∀ r < a.nrows, r ∈ m :: (List.range m).reverse := by
      intro r hr; rw [← hrange, List.mem_reverse]; exact List.mem_range.mpr hr
    have hlast : a.nrows - 1 = m := by omega
    unfold bfillPy
    rw [bfill_eq, hrange, hlast]
    cases a.standard with
    | false =>
      rw [if_neg Bool.false_ne_true]
      refine byColInplace_get a _ (fun col r => (fillRows (fillStep col) (col m) junk (m :: (List.range m).reverse)).2 r)
        (fun col buf r hr => ?_) hr hc
      unfold bfillInto
      rw [if_neg (by omega), hrange, hlast]
      exact fill_first _ _ _ (Or.inl rfl) (Or.inl rfl) (hmem r hr)
    | true =>
      rw [if_pos rfl]
      unfold cells bfillC
      rw [if_neg (by omega), (fillCells_col _ _ _ _ _ hc).2 r, sliceCol_eq a hc, hrange]
      exact fill_first _ _ _ (Or.inr rfl) (Or.inl rfl) (hmem r hr)

/-! ## Rolling extremes -/

/-- **C88** (rolling minimum and maximum).  Both engines raise the same error or return the same cells. -/
theorem C88_rolling_extremes (a : View2) (hn : 0 < a.ncols) (window : Nat) (minp : Option Nat) (junk : Nat → F)
    (junk2 : Nat → Nat → F) :
    SameResult a.nrows a.ncols (rollingMinPy a window minp)
      (nb2d (fun col => rollingMin col window minp junk a.nrows) a.get junk2 a.ncols) ∧
    SameResult a.nrows a.ncols (rollingMaxPy a window minp)
      (nb2d (fun col => rollingMax col window minp junk a.nrows) a.get junk2 a.ncols) := by
  have key : ∀ (turn : (Nat → F) → F × Nat → Nat → F × Nat) (m c r : Nat), r < a.nrows → c < a.ncols →
      byCol a (fun col => rollExtreme turn col window m) r c =
      (scanRows (fun (_ : Unit) i => ((), rollRow turn (fun i => a.get i c) window m i)) () junk a.nrows).2 r := by
    intro turn m c r hr hc
    rw [byCol_get a _ hr hc]
    unfold rollExtreme
    rw [fillRows_scan, scanRows_out _ _ _ hr, scanRows_out _ _ _ hr]
    dsimp only
    have hstart : (if r + 1 ≥ window then r + 1 - window else 0) = r + 1 - window := by
      by_cases h : r + 1 ≥ window
      · rw [if_pos h]
      · rw [if_neg h]; omega
    rw [hstart]
    unfold rollRow
    dsimp only
    by_cases h : ((List.range' (r + 1 - window) (r + 1 - (r + 1 - window))).foldl (turn (a.column c)) (a.column c r, 0)).2 < m
    · rw [if_neg (by omega)]
      exact (if_pos h).symm
    · rw [if_pos (by omega)]
      exact (if_neg h).symm
  constructor
  · refine sameResult_minp hn (what := "window") (g := fun m col =>
        (scanRows (fun (_ : Unit) i => ((), rollRow minStep col window m i)) () junk a.nrows).2)
        (u := fun m => byCol a fun col => rollingMin1 col window m) rfl (fun col => rfl) fun m _ c hc r hr => ?_
    exact key minTurn m c r hr hc
  · refine sameResult_minp hn (what := "window") (g := fun m col =>
        (scanRows (fun (_ : Unit) i => ((), rollRow maxStep col window m i)) () junk a.nrows).2)
        (u := fun m => byCol a fun col => rollingMax1 col window m) rfl (fun col => rfl) fun m _ c hc r hr => ?_
    exact key maxTurn m c r hr hc

/-! ## Rolling mean -/

/-- The running sum of the first `k` rows, in the order the Numba engine adds them. -/
def cumF (A : Arith) (a : Nat → F) : Nat → F
  | 0 => zero
  | k + 1 => if (a k).isnan then cumF A a k else add A (cumF A a k) (a k)

/-- What the Numba engine keeps after `i` rows, whatever the arithmetic. -/
structure CumInv (A : Arith) (a : Nat → F) (i : Nat) (s : MeanState) : Prop where
  cumsum : s.cumsum = cumF A a i
  nancnt : s.nancnt = nanCount a i
  cumsumArr : ∀ k < i, s.cumsumArr k = cumF A a (k + 1)
  nancntArr : ∀ k < i, s.nancntArr k = nanCount a (k + 1)

/-- The number of values present in the last `window` of the first `i` rows. -/
def present (a : Nat → F) (window i : Nat) : Nat := i - (i - window) - (nanCount a i - nanCount a (i - window))

theorem nanCount_le (a : Nat → F) (k m : Nat) : nanCount a k ≤ nanCount a (k + m) ∧ nanCount a (k + m) ≤ nanCount a k + m := by
  induction m with
  | zero => exact ⟨le_refl _, le_refl _⟩
  | succ m ih =>
    rw [← Nat.add_assoc, nanCount_succ]
    by_cases h : (a (k + m)).isnan = true
    · rw [if_pos h]; omega
    · rw [if_neg h]; omega

theorem nanCount_win (a : Nat → F) (window i : Nat) :
    nanCount a (i - window) ≤ nanCount a i ∧ nanCount a i ≤ nanCount a (i - window) + (i - (i - window)) := by
  have := nanCount_le a (i - window) (i - (i - window))
  rwa [show i - window + (i - (i - window)) = i by omega] at this

/-- One more row. -/
theorem present_succ (a : Nat → F) (window i : Nat) :
    present a window (i + 1) + (if window ≤ i ∧ (a (i - window)).isnan = false then 1 else 0) =
      present a window i + (if (a i).isnan = false then 1 else 0) := by
  have h1 := nanCount_win a window i
  have h2 := nanCount_win a window (i + 1)
  unfold present
  by_cases hw : window ≤ i
  · have e : i + 1 - window = i - window + 1 := by omega
    rw [e] at h2 ⊢
    rw [nanCount_succ, nanCount_succ] at h2 ⊢
    rcases Bool.eq_false_or_eq_true (a i).isnan with hi | hi <;>
      rcases Bool.eq_false_or_eq_true (a (i - window)).isnan with ho | ho <;>
      simp only [hi, ho, hw, true_and, if_true, if_false, Bool.true_eq_false, Bool.false_eq_true] at h2 ⊢ <;> omega
  · have e : i + 1 - window = i - window := by omega
    rw [e] at h2 ⊢
    rw [nanCount_succ] at h2 ⊢
    rcases Bool.eq_false_or_eq_true (a i).isnan with hi | hi <;>
      simp only [hi, hw, false_and, if_true, if_false, Bool.true_eq_false, Bool.false_eq_true] at h2 ⊢ <;> omega

/-- Row `i` of the Numba mean. -/
theorem cum_row {A : Arith} {a : Nat → F} {window m i : Nat} {s : MeanState} (hs : CumInv A a i s) :
    meanStep A a window m s i =
      (let s' : MeanState := ⟨cumF A a (i + 1), nanCount a (i + 1), setAt s.cumsumArr i (cumF A a (i + 1)),
        setAt s.nancntArr i (nanCount a (i + 1))⟩
       if present a window (i + 1) < m then .ok (s', nan)
       else match divE A (if i < window then cumF A a (i + 1) else sub A (cumF A a (i + 1)) (cumF A a (i + 1 - window)))
          (fin (present a window (i + 1))) with
        | .error e => .error e
        | .ok v => .ok (s', v)) ∧
    CumInv A a (i + 1) ⟨cumF A a (i + 1), nanCount a (i + 1), setAt s.cumsumArr i (cumF A a (i + 1)),
        setAt s.nancntArr i (nanCount a (i + 1))⟩ := by
  obtain ⟨h1, h2, h3, h4⟩ := hs
  have e3 : ∀ k < i + 1, setAt s.cumsumArr i (cumF A a (i + 1)) k = cumF A a (k + 1) := by
    intro k hk
    unfold setAt
    by_cases hki : k = i
    · rw [if_pos hki, hki]
    · rw [if_neg hki, h3 k (by omega)]
  have e4 : ∀ k < i + 1, setAt s.nancntArr i (nanCount a (i + 1)) k = nanCount a (k + 1) := by
    intro k hk
    unfold setAt
    by_cases hki : k = i
    · rw [if_pos hki, hki]
    · rw [if_neg hki, h4 k (by omega)]
  refine ⟨?_, ⟨rfl, rfl, e3, e4⟩⟩
  have e1 : (if (a i).isnan then s.cumsum else add A s.cumsum (a i)) = cumF A a (i + 1) := by rw [h1]; rfl
  have e2 : (if (a i).isnan then s.nancnt + 1 else s.nancnt) = nanCount a (i + 1) := by rw [nanCount_succ, h2]
  have hw := nanCount_win a window (i + 1)
  have e5 : (if i < window then (i : Int) + 1 - (nanCount a (i + 1) : Nat) else
      (window : Int) - ((nanCount a (i + 1) : Nat) - (setAt s.nancntArr i (nanCount a (i + 1)) (i - window) : Nat))) =
      (present a window (i + 1) : Nat) := by
    unfold present
    by_cases h : i < window
    · rw [if_pos h]
      have h0 : nanCount a (i + 1 - window) = 0 := by rw [show i + 1 - window = 0 by omega]; rfl
      rw [h0] at hw ⊢
      omega
    · rw [if_neg h, e4 _ (by omega), show i - window + 1 = i + 1 - window by omega]
      omega
  have e6 : (if i < window then cumF A a (i + 1) else
      sub A (cumF A a (i + 1)) (setAt s.cumsumArr i (cumF A a (i + 1)) (i - window))) =
      if i < window then cumF A a (i + 1) else sub A (cumF A a (i + 1)) (cumF A a (i + 1 - window)) := by
    by_cases h : i < window
    · rw [if_pos h, if_pos h]
    · rw [if_neg h, if_neg h, e3 _ (by omega), show i - window + 1 = i + 1 - window by omega]
  unfold meanStep
  dsimp only
  rw [e1, e2, e5, e6]
  simp only [Int.cast_natCast, Nat.cast_lt]
  by_cases h : present a window (i + 1) < m
  · rw [if_pos h, if_pos h]
  · rw [if_neg h, if_neg h]
    generalize divE A _ _ = x
    cases x <;> rfl

/-! In exact arithmetic addition is associative and commutative, also with infinities and NaN. -/

theorem add_assoc_ex {r t : ℚ} (a b c : F) :
    add (Arith.exact r t) (add (Arith.exact r t) a b) c = add (Arith.exact r t) a (add (Arith.exact r t) b c) := by
  cases a <;> cases b <;> cases c <;> simp [add, add_assoc]

theorem add_comm_ex {r t : ℚ} (a b : F) : add (Arith.exact r t) a b = add (Arith.exact r t) b a := by
  cases a <;> cases b <;> simp [add, add_comm]

theorem neg_add_ex {r t : ℚ} (a b : F) : neg (add (Arith.exact r t) a b) = add (Arith.exact r t) (neg a) (neg b) := by
  cases a <;> cases b <;> simp [add, neg, add_comm]

theorem sub_zero_ex {r t : ℚ} (a : F) : sub (Arith.exact r t) a zero = a := by
  cases a <;> simp [sub, add, neg]

/-- `sum += x` -/
theorem sub_add_ex {r t : ℚ} (p q x : F) :
    add (Arith.exact r t) (sub (Arith.exact r t) p q) x = sub (Arith.exact r t) (add (Arith.exact r t) p x) q := by
  unfold sub
  rw [add_assoc_ex, add_comm_ex (neg q) x, add_assoc_ex]

/-- `sum -= y` -/
theorem sub_sub_ex {r t : ℚ} (p q y : F) :
    sub (Arith.exact r t) (sub (Arith.exact r t) p q) y = sub (Arith.exact r t) p (add (Arith.exact r t) q y) := by
  unfold sub
  rw [neg_add_ex, add_assoc_ex]

/-- What the Rust engine keeps after `i` rows: the count always, the sum in exact arithmetic. -/
theorem meanTurn_cnt {A : Arith} {a : Nat → F} {window m i : Nat} {s : F × Nat} (hs : s.2 = present a window i) :
    (meanTurn A a window m s i).1.2 = present a window (i + 1) := by
  have h := present_succ a window i
  unfold meanTurn
  dsimp only
  rcases Bool.eq_false_or_eq_true (a i).isnan with hi | hi <;>
    rcases Bool.eq_false_or_eq_true (a (i - window)).isnan with ho | ho <;>
    by_cases hw : window ≤ i <;>
    simp only [hi, ho, hw, ge_iff_le, true_and, false_and, and_true, and_false, if_true, if_false, Bool.not_true, Bool.not_false,
      Bool.true_eq_false, Bool.false_eq_true] at h ⊢ <;> omega

theorem meanTurn_sum {r t : ℚ} {a : Nat → F} {window m i : Nat} {s : F × Nat}
    (hs : s.1 = sub (Arith.exact r t) (cumF (Arith.exact r t) a i) (cumF (Arith.exact r t) a (i - window))) :
    (meanTurn (Arith.exact r t) a window m s i).1.1 =
      sub (Arith.exact r t) (cumF (Arith.exact r t) a (i + 1)) (cumF (Arith.exact r t) a (i + 1 - window)) := by
  have e1 : (if !(a i).isnan then (add (Arith.exact r t) s.1 (a i), s.2 + 1) else s : F × Nat).1 =
      sub (Arith.exact r t) (cumF (Arith.exact r t) a (i + 1)) (cumF (Arith.exact r t) a (i - window)) := by
    rw [cumF]
    cases (a i).isnan with
    | true => simpa using hs
    | false =>
      simp only [Bool.not_false, if_true, Bool.false_eq_true, if_false]
      rw [hs, sub_add_ex]
  unfold meanTurn
  dsimp only
  by_cases hw : window ≤ i
  · rw [if_pos hw, show i + 1 - window = (i - window) + 1 by omega, cumF.eq_2 _ _ (i - window)]
    cases (a (i - window)).isnan with
    | true => simpa using e1
    | false =>
      simp only [Bool.not_false, if_true, Bool.false_eq_true, if_false]
      rw [e1, sub_sub_ex]
  · rw [if_neg hw, show i + 1 - window = i - window by omega]
    exact e1

theorem cumInv_zero (A : Arith) (a : Nat → F) : CumInv A a 0 ⟨zero, 0, fun _ => zero, fun _ => 0⟩ :=
  ⟨rfl, rfl, fun k hk => by omega, fun k hk => by omega⟩

theorem divE_returned {A : Arith} {x y v : F} (h : divE A x y = .ok v) : v = div A x y ∧ eqb y zero = false := by
  unfold divE at h
  by_cases hy : eqb y zero = true
  · rw [if_pos hy] at h; cases h
  · rw [if_neg hy] at h
    cases h
    exact ⟨rfl, by simpa using hy⟩

/-- One column of the rolling mean. -/
theorem mean_col {r t : ℚ} {a : Nat → F} {window m len : Nat} {junk junk' : Nat → F} {q : MeanState × (Nat → F)}
    (hq : scanRowsE (meanStep (Arith.exact r t) a window m) ⟨zero, 0, fun _ => zero, fun _ => 0⟩ junk' len = .ok q)
    {i : Nat} (hi : i < len) :
    (scanRows (fun s i => ((meanTurn (Arith.exact r t) a window m s i).1, (meanTurn (Arith.exact r t) a window m s i).2.getD nan))
      (zero, 0) junk len).2 i = q.2 i := by
  refine scanRowsE_rel (R := fun i (s : F × Nat) (t' : MeanState) => CumInv (Arith.exact r t) a i t' ∧ s.2 = present a window i ∧
    s.1 = sub (Arith.exact r t) (cumF (Arith.exact r t) a i) (cumF (Arith.exact r t) a (i - window)))
    ⟨cumInv_zero _ _, by simp [present], ?_⟩ ?_ hq hi
  · rw [Nat.zero_sub, cumF, sub_zero_ex]
  · rintro i s t' p hi ⟨h1, h2, h3⟩ hp
    obtain ⟨c1, c2⟩ := cum_row (window := window) (m := m) h1
    have hc := meanTurn_cnt (A := Arith.exact r t) (m := m) h2
    have hsum := meanTurn_sum (m := m) h3
    rw [c1] at hp
    dsimp only at hp
    have hout : (meanTurn (Arith.exact r t) a window m s i).2.getD nan =
        if (meanTurn (Arith.exact r t) a window m s i).1.2 ≥ m ∧ (meanTurn (Arith.exact r t) a window m s i).1.2 > 0 then
          div (Arith.exact r t) (meanTurn (Arith.exact r t) a window m s i).1.1
            (fin (meanTurn (Arith.exact r t) a window m s i).1.2) else nan := by
      have : (meanTurn (Arith.exact r t) a window m s i).2 =
        if (meanTurn (Arith.exact r t) a window m s i).1.2 ≥ m ∧ (meanTurn (Arith.exact r t) a window m s i).1.2 > 0 then
          some (div (Arith.exact r t) (meanTurn (Arith.exact r t) a window m s i).1.1
            (fin (meanTurn (Arith.exact r t) a window m s i).1.2)) else none := rfl
      rw [this]
      split <;> rfl
    by_cases hm : present a window (i + 1) < m
    · rw [if_pos hm] at hp
      cases hp
      refine ⟨⟨c2, hc, hsum⟩, ?_⟩
      rw [hout, hc, if_neg (by omega)]
    · rw [if_neg hm] at hp
      generalize hd : divE (Arith.exact r t) _ _ = x at hp
      cases x with
      | error e => cases hp
      | ok v =>
        cases hp
        refine ⟨⟨c2, hc, hsum⟩, ?_⟩
        obtain ⟨d1, d2⟩ := divE_returned hd
        have hpos : present a window (i + 1) ≠ 0 := by
          intro h0
          rw [h0] at d2
          simp at d2
        dsimp only
        rw [hout, hc, hsum, if_pos ⟨by omega, by omega⟩, d1]
        congr 1
        by_cases hw : i < window
        · rw [if_pos hw, show i + 1 - window = 0 by omega, cumF.eq_1, sub_zero_ex]
        · rw [if_neg hw]

/-- The Numba mean returns if at least one value is required. -/
theorem mean_returns (A : Arith) (a : Nat → F) {window m : Nat} (hm : 1 ≤ m) (junk : Nat → F) (len : Nat) :
    ∃ q, scanRowsE (meanStep A a window m) ⟨zero, 0, fun _ => zero, fun _ => 0⟩ junk len = .ok q := by
  obtain ⟨q, hq, -⟩ := scanRowsE_succeeds (step := meanStep A a window m) (s0 := ⟨zero, 0, fun _ => zero, fun _ => 0⟩)
    (junk := junk) (n := len) (P := fun i s => CumInv A a i s) (cumInv_zero A a) (fun i s hi hs => by
      obtain ⟨c1, c2⟩ := cum_row (window := window) (m := m) hs
      rw [c1]
      dsimp only
      by_cases h : present a window (i + 1) < m
      · rw [if_pos h]; exact ⟨_, rfl, c2⟩
      · rw [if_neg h]
        unfold divE
        rw [if_neg]
        · exact ⟨_, rfl, c2⟩
        · have : present a window (i + 1) ≠ 0 := by omega
          simpa using this)
  exact ⟨q, hq⟩

/-- The cells of the Rust mean, in both layouts, are those of its columns. -/
theorem meanPy_cells (A : Arith) (a : View2) (window m : Nat) {r c : Nat} (hr : r < a.nrows) (hc : c < a.ncols) :
    (if a.standard then cells a.ncols (rollingMeanC A a window m) else byCol a fun col => rollingMean1 A col window m) r c =
      (scanRows (fun s i => ((meanTurn A (a.column c) window m s i).1, (meanTurn A (a.column c) window m s i).2.getD nan))
        (zero, 0) (fun _ => nan) a.nrows).2 r := by
  cases a.standard with
  | false =>
    rw [if_neg Bool.false_ne_true, byCol_get a _ hr hc]
    unfold rollingMean1
    rw [fillRows_scan]
  | true =>
    rw [if_pos rfl]
    unfold cells rollingMeanC
    rw [(fillCells_col _ _ _ _ _ hc).2 r, sliceCol_eq a hc, fillRows_scan]

/-- **C88** (rolling mean).  In exact arithmetic — infinite values included — the Rust engine returns whenever the Numba
engine does, and the same cells. -/
theorem C88_rolling_mean_partial (r t : ℚ) (a : View2) (window : Nat) (minp : Option Nat) (hn : 0 < a.ncols) (junk : Nat → F)
    (junk2 : Nat → Nat → F) :
    ReturnsSame a.nrows a.ncols (rollingMeanPy (Arith.exact r t) a window minp)
      (nb2d (fun col => rollingMean (Arith.exact r t) col window minp junk a.nrows) a.get junk2 a.ncols) := by
  intro v hv
  have hm : ¬ window < minp.getD window := by
    intro hw
    rw [nb2d_raises hn (e := .valueError s!"minp must be <= {"window"}")] at hv
    · cases hv
    · unfold rollingMean resolveMinp; dsimp only; rw [if_pos hw]
  unfold rollingMeanPy validMinp
  dsimp only
  rw [if_neg hm]
  refine ⟨_, rfl, sameCells_of_cols (fun c hc x hx i hi => ?_) hv⟩
  rw [meanPy_cells _ _ _ _ hi hc]
  unfold rollingMean resolveMinp at hx
  dsimp only at hx
  rw [if_neg hm] at hx
  dsimp only at hx
  generalize hq : scanRowsE (meanStep (Arith.exact r t) (fun i => a.get i c) window (minp.getD window)) _ junk a.nrows = y at hx
  cases y with
  | error e => cases hx
  | ok q =>
    cases hx
    exact mean_col hq hi

/-- **C88** (rolling mean, at least one value required).  Then neither engine divides by zero: both raise the same error or
return the same cells. -/
theorem C88_rolling_mean_minp (r t : ℚ) (a : View2) (window : Nat) (minp : Option Nat) (hn : 0 < a.ncols)
    (h1 : 1 ≤ minp.getD window) (junk : Nat → F) (junk2 : Nat → Nat → F) :
    SameResult a.nrows a.ncols (rollingMeanPy (Arith.exact r t) a window minp)
      (nb2d (fun col => rollingMean (Arith.exact r t) col window minp junk a.nrows) a.get junk2 a.ncols) := by
  by_cases hm : window < minp.getD window
  · rw [nb2d_raises hn (e := .valueError s!"minp must be <= {"window"}")]
    · unfold rollingMeanPy validMinp
      dsimp only
      rw [if_pos hm]
      exact .raises _
    · unfold rollingMean resolveMinp; dsimp only; rw [if_pos hm]
  · obtain ⟨v, hv⟩ := nb2d_returns (f := fun col => rollingMean (Arith.exact r t) col window minp junk a.nrows) (a := a.get)
      (junk := junk2) (n := a.ncols) (fun c _ => by
        obtain ⟨q, hq⟩ := mean_returns (Arith.exact r t) (fun i => a.get i c) (window := window) h1 junk a.nrows
        refine ⟨q.2, ?_⟩
        unfold rollingMean resolveMinp
        dsimp only
        rw [if_neg hm]
        dsimp only
        rw [hq])
    obtain ⟨u, hu, hc⟩ := C88_rolling_mean_partial r t a window minp hn junk junk2 v hv
    rw [hu, hv]
    exact .returns hc

end Vbt
