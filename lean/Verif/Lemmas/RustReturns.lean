import Verif.Model.RustReturns
import Verif.Lemmas.RustGeneric
import Verif.Lemmas.RustOrder
import Verif.Lemmas.Ratios
import Verif.Lemmas.Apply
import Verif.Props.C82

/-!
# The returns functions of the Rust engine against those of the Numba engine
-/

namespace Vbt.RsRet
open F RsGen

variable {A : Arith} {r t : ℚ}

/-! ## Loops over columns -/

/-- The cells of a column. -/
def colList (a : View2) (c : Nat) : List F := (List.range a.nrows).map fun i => a.get i c

theorem slice_column (a : View2) (c : Nat) : slice (a.column c) 0 a.nrows = colList a c := by
  unfold slice colList View2.column
  simp

theorem reduceCols_get (a : View2) (k : List F → F) {c : Nat} (hc : c < a.ncols) : reduceCols a k c = k (colList a c) := by
  unfold reduceCols
  rw [Vbt.foldl_setAt (fun col => k (slice (a.column col) 0 a.nrows)), if_pos hc, slice_column]

theorem reducePair_get (a b : View2) (k : List F → List F → F) (hr : b.nrows = a.nrows) {c : Nat} (hc : c < a.ncols) :
    reducePair a b k c = k (colList a c) (colList b c) := by
  unfold reducePair
  rw [Vbt.foldl_setAt (fun col => k (slice (a.column col) 0 a.nrows) (slice (b.column col) 0 a.nrows)), if_pos hc, slice_column]
  rw [← slice_column b c, hr]

theorem inner_get {σ : Type} (f : Nat → σ → σ) (n : Nat) (s : Nat → σ) (c : Nat) :
    (List.range n).foldl (fun s col => setAt s col (f col (s col))) s c = if c < n then f c (s c) else s c := by
  induction n with
  | zero => simp
  | succ n ih =>
    rw [List.range_succ, List.foldl_append, List.foldl_cons, List.foldl_nil]
    unfold setAt at ih ⊢
    by_cases hcn : c = n
    · subst hcn
      rw [if_pos rfl, if_pos (by omega), ih, if_neg (by omega)]
    · rw [if_neg hcn, ih]
      by_cases hlt : c < n
      · rw [if_pos hlt, if_pos (by omega)]
      · rw [if_neg hlt, if_neg (by omega)]

theorem rowMajor_get {σ : Type} (step : Nat → σ → Nat → σ) (s0 : Nat → σ) (rows : List Nat) {ncols c : Nat} (hc : c < ncols) :
    rows.foldl (fun s row => (List.range ncols).foldl (fun s col => setAt s col (step col (s col) row)) s) s0 c =
      rows.foldl (step c) (s0 c) := by
  induction rows generalizing s0 with
  | nil => rfl
  | cons row rows ih =>
    rw [List.foldl_cons, List.foldl_cons, ih]
    rw [inner_get (fun col s => step col s row), if_pos hc]

theorem chunkFold_ok {σ : Type} (step : Nat → σ → Nat → σ) (s0 : Nat → σ) (nrows : Nat) {ncols : Nat} (hn : 0 < ncols) :
    ∃ s, chunkFold step s0 nrows ncols = .ok s ∧ ∀ c < ncols, s c = (List.range nrows).foldl (step c) (s0 c) := by
  unfold chunkFold
  rw [if_neg (by omega)]
  exact ⟨_, rfl, fun c hc => rowMajor_get step s0 _ hc⟩

/-- A fold over the rows of a column is a fold over its cells. -/
theorem foldl_colList {σ : Type} (f : σ → F → σ) (a : View2) {c : Nat} (hc : c < a.ncols) (s : σ) :
    (List.range a.nrows).foldl (fun s row => f s (a.sliceCol c row)) s = (colList a c).foldl f s := by
  rw [sliceCol_eq a hc]
  unfold colList View2.column
  rw [List.foldl_map]

theorem zip_colList (a b : View2) (hr : b.nrows = a.nrows) (c : Nat) :
    (colList a c).zip (colList b c) = (List.range a.nrows).map fun i => (a.get i c, b.get i c) := by
  unfold colList
  rw [hr, List.zip_map']

theorem foldl_zipCols {σ : Type} (f : σ → F → F → σ) (a b : View2) (hr : b.nrows = a.nrows) {c : Nat} (hc : c < a.ncols)
    (hb : b.ncols = a.ncols) (s : σ) :
    (List.range a.nrows).foldl (fun s row => f s (a.sliceCol c row) (b.sliceCol c row)) s =
      ((colList a c).zip (colList b c)).foldl (fun s p => f s p.1 p.2) s := by
  rw [sliceCol_eq a hc, sliceCol_eq b (by omega), zip_colList a b hr, List.foldl_map]
  rfl

/-! ## Windows -/

theorem rollTurn_row {a : Nat → F} {window m i : Nat} {f : Nat → Nat → F} {s : Nat × (Nat → Nat)} (hs : ApplyInv a i s) :
    (rollTurn a window m f s i).2 = (if (winObs a window i).length < m then none else some (f (i + 1 - window) (i + 1))) ∧
    ApplyInv a (i + 1) (rollTurn a window m f s i).1 := by
  obtain ⟨h2, h4⟩ := hs
  have e2 : (if (a i).isnan then s.1 + 1 else s.1) = nanCount a (i + 1) := by rw [nanCount_succ, h2]
  obtain ⟨-, w2⟩ := winObs_sums a window i
  have e4 : ∀ k < i + 1, setAt s.2 i (nanCount a (i + 1)) k = nanCount a (k + 1) := by
    intro k hk
    unfold setAt
    by_cases hki : k = i
    · rw [if_pos hki, hki]
    · rw [if_neg hki, h4 k (by omega)]
  have e5 : (if i < window then i + 1 - nanCount a (i + 1) else
      window - (nanCount a (i + 1) - setAt s.2 i (nanCount a (i + 1)) (i - window))) = (winObs a window i).length := by
    by_cases hw : i < window
    · rw [if_pos hw]
      have h0 : nanCount a (i + 1 - window) = 0 := by rw [show i + 1 - window = 0 by omega]; rfl
      omega
    · rw [if_neg hw, e4 _ (by omega), show i - window + 1 = i + 1 - window by omega]
      have hmono : nanCount a (i + 1 - window) ≤ nanCount a (i + 1) := by
        unfold nanCount
        exact List.Sublist.countP_le (List.range_sublist.2 (by omega))
      omega
  unfold rollTurn
  dsimp only
  rw [e2, e5]
  refine ⟨?_, rfl, e4⟩
  by_cases hl : (winObs a window i).length < m
  · rw [if_pos hl, if_neg (by omega)]
  · rw [if_neg hl, if_pos (by omega)]

/-- Rows of a loop that writes at most one row per turn. -/
theorem fillRows_at {σ β : Type} (step : σ → Nat → σ × Option β) (s0 : σ) (out : Nat → β) (n : Nat) :
    (fillRows step s0 out (List.range n)).1 = (List.range n).foldl (fun s i => (step s i).1) s0 ∧
    ∀ i < n, (fillRows step s0 out (List.range n)).2 i =
      ((step ((List.range i).foldl (fun s i => (step s i).1) s0) i).2).getD (out i) := by
  have key : (fillRows step s0 out (List.range n)).1 = (List.range n).foldl (fun s i => (step s i).1) s0 ∧
    ∀ i, (fillRows step s0 out (List.range n)).2 i = if i < n then
      ((step ((List.range i).foldl (fun s i => (step s i).1) s0) i).2).getD (out i) else out i := by
    induction n with
    | zero => exact ⟨rfl, fun i => rfl⟩
    | succ n ih =>
      obtain ⟨i1, i2⟩ := ih
      rw [List.range_succ, fillRows_append, fillRows_cons]
      unfold fillRows at *
      rw [List.foldl_append]
      dsimp only [List.foldl_nil, List.foldl_cons]
      rw [i1]
      refine ⟨rfl, fun i => ?_⟩
      by_cases hin : i = n
      · subst hin
        rw [if_pos (by omega)]
        cases h : (step ((List.range i).foldl (fun s i => (step s i).1) s0) i).2 with
        | none => dsimp only; rw [i2, if_neg (by omega)]; rfl
        | some v => simp [setAt]
      · have e : ∀ (o : Option β) (g : Nat → β), (match o with | none => g | some v => setAt g n v) i = g i := by
          intro o g
          cases o with
          | none => rfl
          | some v => simp [setAt, hin]
        refine (e _ _).trans ?_
        rw [i2]
        by_cases hlt : i < n
        · rw [if_pos hlt, if_pos (by omega)]
        · rw [if_neg hlt, if_neg (by omega)]
  exact ⟨key.1, fun i hi => by rw [key.2, if_pos hi]⟩

theorem rollCols_get (a : View2) (window m : Nat) (f : Nat → Nat → Nat → F) {i c : Nat} (hi : i < a.nrows) (hc : c < a.ncols) :
    rollCols a window m f i c = if (winObs (a.column c) window i).length < m then nan else f c (i + 1 - window) (i + 1) := by
  unfold rollCols
  have key : ∀ n, ∃ arr out, (List.range n).foldl (fun (s : (Nat → Nat) × (Nat → Nat → F)) col =>
      let r := fillRows (rollTurn (a.column col) window m (f col)) (0, s.1) (fun i => s.2 i col) (List.range a.nrows)
      (r.1.2, fun i c => if c = col then r.2 i else s.2 i c)) (fun _ => 0, fun _ _ => nan) = (arr, out) ∧
      ∀ i < a.nrows, ∀ c, out i c = if c < n then
        if (winObs (a.column c) window i).length < m then nan else f c (i + 1 - window) (i + 1) else nan := by
    intro n
    induction n with
    | zero => exact ⟨_, _, rfl, fun i hi c => by rw [if_neg (by omega)]⟩
    | succ n ih =>
      obtain ⟨arr, out, h, ho⟩ := ih
      rw [List.range_succ, List.foldl_append, h]
      refine ⟨_, _, rfl, fun i hi c => ?_⟩
      dsimp only
      by_cases hcn : c = n
      · subst hcn
        rw [if_pos rfl, if_pos (by omega)]
        rw [(fillRows_at _ _ _ _).2 i hi]
        have hst : ApplyInv (a.column c) i ((List.range i).foldl (fun s i => (rollTurn (a.column c) window m (f c) s i).1) (0, arr)) := by
          clear hi
          induction i with
          | zero => exact ⟨rfl, fun k hk => absurd hk (Nat.not_lt_zero k)⟩
          | succ i ih2 =>
            rw [List.range_succ, List.foldl_append]
            exact (rollTurn_row ih2).2
        rw [(rollTurn_row hst).1]
        by_cases hl : (winObs (a.column c) window i).length < m
        · rw [if_pos hl, if_pos hl, ho i hi, if_neg (by omega)]; rfl
        · rw [if_neg hl, if_neg hl]; rfl
      · rw [if_neg hcn, ho i hi]
        by_cases hlt : c < n
        · rw [if_pos hlt, if_pos (show c < n + 1 by omega)]
        · rw [if_neg hlt, if_neg (show ¬ c < n + 1 by omega)]
  obtain ⟨arr, out, h, ho⟩ := key a.ncols
  rw [h]
  show out i c = _
  rw [ho i hi, if_pos hc]

theorem rollingCols_get (a : View2) (window m : Nat) (k : List F → F) {i c : Nat} (hi : i < a.nrows) (hc : c < a.ncols) :
    rollingCols a window m k i c = if (winObs (a.column c) window i).length < m then nan else k (winVals (a.column c) window i) := by
  unfold rollingCols
  rw [rollCols_get a window m _ hi hc, winVals_eq]

theorem rollingPair_get (a b : View2) (window m : Nat) (k : List F → List F → F) {i c : Nat} (hi : i < a.nrows) (hc : c < a.ncols) :
    rollingPair a b window m k i c = if (winObs (a.column c) window i).length < m then nan
      else k (winVals (a.column c) window i) (winVals (b.column c) window i) := by
  unfold rollingPair
  rw [rollCols_get a window m _ hi hc, winVals_eq, winVals_eq]

/-! ## Returns -/

theorem getReturn_eq (A : Arith) (input output : F) : Vbt.getReturn A input output = .ok (getReturn A input output) := by
  unfold Vbt.getReturn getReturn
  by_cases h : eqb input zero = true
  · rw [if_pos h, if_pos h]
    by_cases h2 : eqb output zero = true
    · rw [if_pos h2, if_pos h2]
    · rw [if_neg h2, if_neg h2]
      cases output with
      | nan => rfl
      | ninf => simp [F.isnan, F.lt, F.sign, F.mul, F.infMul]
      | pinf => simp [F.isnan, F.lt, F.sign, F.mul, F.infMul]
      | fin q =>
        have hq : q ≠ 0 := by simpa [F.eqb] using h2
        rcases lt_or_gt_of_ne hq with hq | hq
        · simp [F.isnan, F.lt, F.sign, F.mul, F.infMul, hq]
        · simp [F.isnan, F.lt, F.sign, F.mul, F.infMul, hq, not_lt.2 hq.le]
  · rw [if_neg h, if_neg h]
    unfold divE
    rw [if_neg h]

theorem returns_eq (A : Arith) (value : Nat → F) (init : F) (junk out0 : Nat → F) (n : Nat) :
    ∃ u, Vbt.returns A value init junk n = .ok u ∧
      ∀ i < n, u i = (fillRows (returnsTurn A value) init out0 (List.range n)).2 i := by
  unfold Vbt.returns
  have hstep : ∀ s i, returnsStep A value s i = .ok (value i, getReturn A s (value i)) := by
    intro s i
    unfold returnsStep
    rw [getReturn_eq]
  have key : ∃ o, scanRowsE (returnsStep A value) init junk n = .ok ((fillRows (returnsTurn A value) init out0 (List.range n)).1, o) ∧
      ∀ i < n, o i = (fillRows (returnsTurn A value) init out0 (List.range n)).2 i := by
    induction n with
    | zero => exact ⟨junk, rfl, fun i hi => absurd hi (Nat.not_lt_zero i)⟩
    | succ n ih =>
      obtain ⟨o, h1, h2⟩ := ih
      rw [scanRowsE_succ, h1, List.range_succ, fillRows_append]
      dsimp only
      rw [hstep, fillRows_cons]
      refine ⟨_, rfl, fun i hi => ?_⟩
      unfold fillRows
      dsimp only [returnsTurn, List.foldl_nil]
      unfold setAt
      by_cases hin : i = n
      · rw [if_pos hin, if_pos hin]
      · rw [if_neg hin, if_neg hin]
        exact h2 i (by omega)
  obtain ⟨o, h1, h2⟩ := key
  exact ⟨o, by rw [h1], h2⟩

theorem colFill_get {σ : Type} (step : Nat → σ → Nat → σ × Option F) (s0 : Nat → σ) (n m : Nat)
    (hsome : ∀ c s i, (step c s i).2.isSome) (out0 : Nat → Nat → F) {i c : Nat} (hi : i < n) (hc : c < m) (d : Nat → F) :
    (List.range m).foldl (fun out col => fun i c =>
      if c = col then (fillRows (step col) (s0 col) (fun i => out i col) (List.range n)).2 i else out i c) out0 i c =
    (fillRows (step c) (s0 c) d (List.range n)).2 i := by
  have h : ∀ m, ∀ out : Nat → Nat → F, (List.range m).foldl (fun out col => fun i c =>
      if c = col then (fillRows (step col) (s0 col) (fun i => out i col) (List.range n)).2 i else out i c) out i c =
      if c < m then (fillRows (step c) (s0 c) d (List.range n)).2 i else out i c := by
    intro m
    induction m with
    | zero => intro out; simp
    | succ m ih =>
      intro out
      rw [List.range_succ, List.foldl_append, List.foldl_cons, List.foldl_nil]
      by_cases hcm : c = m
      · rw [if_pos hcm, if_pos (by omega), hcm]
        rw [(fillRows_at _ _ _ _).2 i hi, (fillRows_at _ _ d _).2 i hi]
        obtain ⟨v, hv⟩ := Option.isSome_iff_exists.1 (hsome m ((List.range i).foldl (fun s i => (step m s i).1) (s0 m)) i)
        rw [hv]; rfl
      · rw [if_neg hcm, ih]
        by_cases hlt : c < m
        · rw [if_pos hlt, if_pos (by omega)]
        · rw [if_neg hlt, if_neg (by omega)]
  rw [h, if_pos hc]

theorem returns2_get (A : Arith) (value : View2) (init : Nat → F) {i c : Nat} (hi : i < value.nrows) (hc : c < value.ncols)
    (d : Nat → F) :
    returns2 A value init i c = (fillRows (returnsTurn A (value.column c)) (init c) d (List.range value.nrows)).2 i := by
  unfold returns2
  by_cases hs : value.standard = true
  · rw [if_pos hs]
    unfold cells
    rw [(fillCells_col (fun col => returnsTurn A (value.sliceCol col)) value.ncols (List.range value.nrows) init (fun _ => zero) hc).2]
    rw [sliceCol_eq value hc]
    rw [(fillRows_at _ _ _ _).2 i hi, (fillRows_at _ _ d _).2 i hi]
    rfl
  · rw [if_neg hs]
    exact colFill_get (fun col => returnsTurn A (value.column col)) init value.nrows value.ncols (fun _ _ _ => rfl) _ hi hc d

/-! ## Cumulative returns -/

theorem cumReturns_eq (A : Arith) (rets : Nat → F) (start : F) (junk d : Nat → F) (n : Nat) {i : Nat} (hi : i < n) :
    Vbt.cumReturns A rets start junk n i = (fillRows (cumTurn A rets start) one d (List.range n)).2 i := by
  have hst : ∀ k, scanState (fun (c : F) i =>
      let c' := if !(rets i).isnan then mul A c (add A (rets i) one) else c
      (c', c')) one k = (List.range k).foldl (fun s i => (cumTurn A rets start s i).1) one := by
    intro k
    induction k with
    | zero => rfl
    | succ k ih =>
      rw [scanState_succ, ih, List.range_succ, List.foldl_append]
      rfl
  rw [(fillRows_at _ _ _ _).2 i hi]
  unfold Vbt.cumReturns cumProds
  have ho : (scanRows (fun (c : F) i =>
      let c' := if !(rets i).isnan then mul A c (add A (rets i) one) else c
      (c', c')) one junk n).2 i = grow A ((List.range i).foldl (fun s i => (cumTurn A rets start s i).1) one) (rets i) := by
    rw [scanRows_out _ _ _ hi, hst]; rfl
  show (if eqb start zero then fun i => sub A _ one else fun i => mul A _ start) i = scaled A start _
  unfold scaled
  by_cases hz : eqb start zero = true
  · rw [if_pos hz, if_pos hz, ← ho]
  · rw [if_neg hz, if_neg hz, ← ho]

theorem cumReturns2_get (A : Arith) (rets : View2) (start : F) {i c : Nat} (hi : i < rets.nrows) (hc : c < rets.ncols)
    (d : Nat → F) :
    cumReturns2 A rets start i c = (fillRows (cumTurn A (rets.column c) start) one d (List.range rets.nrows)).2 i := by
  unfold cumReturns2
  by_cases hs : rets.standard = true
  · rw [if_pos hs]
    unfold cells
    rw [(fillCells_col (fun col => cumTurn A (rets.sliceCol col) start) rets.ncols (List.range rets.nrows) (fun _ => one)
      (fun _ => zero) hc).2]
    rw [sliceCol_eq rets hc]
    rw [(fillRows_at _ _ _ _).2 i hi, (fillRows_at _ _ d _).2 i hi]
    rfl
  · rw [if_neg hs, byCol_get rets _ hi hc]
    unfold cumReturns1
    rw [(fillRows_at _ _ _ _).2 i hi, (fillRows_at _ _ d _).2 i hi]
    rfl

/-! ## The value at the end -/

theorem add_one_isnan (hA : A.Sound) (x : F) : (add A x one).isnan = x.isnan := by
  cases x <;> simp [F.add, F.isnan]
  exact Rs.rnd_isnan hA _

theorem nanprod_eq (hA : A.Sound) (l : List F) (s : F) :
    (l.map fun x => add A x one).foldl (fun c v => if v.isnan then c else mul A c v) s = l.foldl (grow A) s := by
  induction l generalizing s with
  | nil => rfl
  | cons x l ih =>
    rw [List.map_cons, List.foldl_cons, List.foldl_cons, ih]
    congr 1
    unfold grow
    rw [add_one_isnan hA]
    cases h : x.isnan <;> simp

theorem map_getD (l : List F) : ((List.range l.length).map fun i => l.getD i nan) = l := by
  apply List.ext_getElem
  · simp
  · intro i h1 h2
    simp [List.getD_eq_getElem?_getD, h2]

theorem final_eq (hA : A.Sound) (l : List F) (start : F) :
    cumReturnsFinal A (fun i => l.getD i nan) start l.length = finalReturn A start l := by
  unfold cumReturnsFinal finalReturn scaled nanprod
  have h : ((List.range l.length).map fun i => add A (l.getD i nan) one) = l.map fun x => add A x one := by
    conv_rhs => rw [← map_getD l]
    rw [List.map_map]; rfl
  rw [h, nanprod_eq hA]

theorem annReturn_eq (hA : A.Sound) (pow : F → F → F) (l : List F) (ann : F) :
    annualizedReturn A pow l ann = annReturn A pow ann l := by
  unfold annualizedReturn annReturn endValue
  rw [final_eq hA]
  cases l <;> simp

theorem rep_mulA (hA : A.Sound) (x y : F) : F.Rep A (mul A x y) := Rs.rep_mul hA x y

theorem rep_grow (hA : A.Sound) {p : F} (hp : F.Rep A p) (x : F) : F.Rep A (grow A p x) := by
  unfold grow
  cases x.isnan
  · exact rep_mulA hA _ _
  · exact hp

theorem rep_prod (hA : A.Sound) (l : List F) {s : F} (hs : F.Rep A s) : F.Rep A (l.foldl (grow A) s) := by
  induction l generalizing s with
  | nil => exact hs
  | cons x l ih => rw [List.foldl_cons]; exact ih (rep_grow hA hs x)

theorem mul_one_rep {x : F} (h : F.Rep A x) : mul A x one = x := by
  cases x with
  | fin q => show A.rnd (q * 1) = fin q; rw [mul_one]; exact h q rfl
  | nan => rfl
  | pinf => simp [F.mul, F.infMul]
  | ninf => simp [F.mul, F.infMul]

theorem final_one (hA : A.Sound) (l : List F) : finalReturn A one l = l.foldl (grow A) one := by
  unfold finalReturn scaled
  rw [if_neg (by simp [F.eqb])]
  exact mul_one_rep (rep_prod hA l (rep_one hA))

theorem annFromProduct_eq (hA : A.Sound) (pow : F → F → F) (l : List F) (ann : F) :
    annFromProduct A pow (l.foldl (grow A) one) l.length ann = annReturn A pow ann l := by
  unfold annFromProduct annReturn
  rw [final_one hA]
  cases l <;> simp

theorem products_get (A : Arith) (rets : View2) (hn : 0 < rets.ncols) :
    ∃ p, products A rets = .ok p ∧ ∀ c < rets.ncols, p c = (colList rets c).foldl (grow A) one := by
  obtain ⟨p, h1, h2⟩ := chunkFold_ok (fun col p row => grow A p (rets.sliceCol col row)) (fun _ => one) rets.nrows hn
  refine ⟨p, h1, fun c hc => ?_⟩
  rw [h2 c hc, ← foldl_colList (grow A) rets hc]

theorem finalReturn2_get (A : Arith) (rets : View2) (start : F) (hn : 0 < rets.ncols) :
    ∃ v, finalReturn2 A rets start = .ok v ∧ ∀ c < rets.ncols, v c = finalReturn A start (colList rets c) := by
  unfold finalReturn2
  by_cases hs : rets.standard = true
  · rw [if_pos hs]
    obtain ⟨p, h1, h2⟩ := products_get A rets hn
    rw [h1]
    refine ⟨_, rfl, fun c hc => ?_⟩
    rw [h2 c hc]; rfl
  · rw [if_neg hs]
    exact ⟨_, rfl, fun c hc => reduceCols_get rets _ hc⟩

theorem colList_length (a : View2) (c : Nat) : (colList a c).length = a.nrows := by simp [colList]

theorem annReturn2_get (hA : A.Sound) (pow : F → F → F) (rets : View2) (ann : F) (hn : 0 < rets.ncols) :
    ∃ v, annReturn2 A pow rets ann = .ok v ∧ ∀ c < rets.ncols, v c = annReturn A pow ann (colList rets c) := by
  unfold annReturn2
  by_cases hs : rets.standard = true
  · rw [if_pos hs]
    obtain ⟨p, h1, h2⟩ := products_get A rets hn
    rw [h1]
    refine ⟨_, rfl, fun c hc => ?_⟩
    rw [h2 c hc, ← annFromProduct_eq hA, colList_length]
  · rw [if_neg hs]
    exact ⟨_, rfl, fun c hc => reduceCols_get rets _ hc⟩

end Vbt.RsRet
