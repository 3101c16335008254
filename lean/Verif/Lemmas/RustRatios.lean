import Verif.Lemmas.RustReturns

/-!
# The risk ratios of the Rust engine against those of the Numba engine
-/

namespace Vbt.RsRet
open F RsGen

variable {A : Arith} {r t : ℚ}

/-! ## Means and deviations -/

theorem sums_fold {α : Type} (A : Arith) (value : α → F) (l : List α) (s : F) (n : Nat) :
    l.foldl (fun (s : F × Nat) x => if !(value x).isnan then (add A s.1 (value x), s.2 + 1) else s) (s, n) =
      ((l.map value).foldl (fun s x => if x.isnan then s else add A s x) s, n + countReduce (l.map value)) := by
  induction l generalizing s n with
  | nil => rfl
  | cons x l ih =>
    rw [List.foldl_cons, List.map_cons, List.foldl_cons]
    cases h : (value x).isnan
    · rw [if_pos (by rfl), ih, if_neg (by simp)]
      unfold countReduce
      rw [List.filter_cons_of_pos (by simp [h]), List.length_cons]
      congr 1
      omega
    · rw [if_neg (by simp), ih, if_pos rfl]
      unfold countReduce
      rw [List.filter_cons_of_neg (by simp [h])]

theorem nansum_none {l : List F} (h : countReduce l = 0) (A : Arith) (s : F) :
    l.foldl (fun s x => if x.isnan then s else add A s x) s = s := by
  induction l generalizing s with
  | nil => rfl
  | cons x l ih =>
    unfold countReduce at h ih
    cases hx : x.isnan
    · rw [List.filter_cons_of_pos (by simp [hx]), List.length_cons] at h
      omega
    · rw [List.filter_cons_of_neg (by simp [hx])] at h
      rw [List.foldl_cons, if_pos hx]
      exact ih h s

/-- `if count == 0 { NAN } else { sum / count }` is numpy's division. -/
theorem mean_count {l : List F} (A : Arith) :
    (if countReduce l = 0 then nan
      else div A (l.foldl (fun s x => if x.isnan then s else add A s x) zero) (fin (countReduce l))) = nanmean A l := by
  unfold nanmean nansum
  by_cases h : countReduce l = 0
  · rw [if_pos h, nansum_none h, h]
    simp [F.div, F.infMul]
  · rw [if_neg h]

theorem meanOfSome_eq {α : Type} (A : Arith) (value : α → F) (l : List α) : meanOfSome A value l = nanmean A (l.map value) := by
  unfold meanOfSome
  rw [sums_fold]
  dsimp only
  rw [Nat.zero_add, mean_count]

/-- The sum of the squared distances from `m`. -/
def sqFrom (A : Arith) (m : F) (l : List F) (s : F) : F :=
  l.foldl (fun s v => if v.isnan then s else add A s (mul A (sub A v m) (sub A v m))) s

theorem squares_fold {α : Type} (A : Arith) (value : α → F) (m : F) (l : List α) (n : Nat) (s : F) :
    l.foldl (fun (s : Nat × F) x =>
      if !(value x).isnan then
        let diff := sub A (value x) m
        (s.1 + 1, add A s.2 (mul A diff diff))
      else s) (n, s) = (n + countReduce (l.map value), sqFrom A m (l.map value) s) := by
  unfold sqFrom
  induction l generalizing s n with
  | nil => rfl
  | cons x l ih =>
    rw [List.foldl_cons, List.map_cons, List.foldl_cons]
    cases h : (value x).isnan
    · rw [if_pos (by rfl), ih, if_neg (by simp)]
      unfold countReduce
      rw [List.filter_cons_of_pos (by simp [h]), List.length_cons]
      congr 1
      omega
    · rw [if_neg (by simp), ih, if_pos rfl]
      unfold countReduce
      rw [List.filter_cons_of_neg (by simp [h])]

theorem isnan_eq {x : F} (h : x.isnan = true) : x = nan := by cases x <;> simp_all [F.isnan]

theorem sqFrom_nan (A : Arith) (m : F) (l : List F) : sqFrom A m l nan = nan := by
  unfold sqFrom
  induction l with
  | nil => rfl
  | cons x l ih =>
    rw [List.foldl_cons]
    cases x.isnan
    · rw [if_neg (by simp)]; exact ih
    · rw [if_pos rfl]; exact ih

theorem sub_nan' (A : Arith) (x : F) : sub A x nan = nan := by cases x <;> rfl

theorem div_nan' (A : Arith) (x : F) : div A x nan = nan := by cases x <;> rfl

theorem mul_nan' (A : Arith) (x : F) : mul A x nan = nan := by cases x <;> rfl

theorem add_nan' (A : Arith) (x : F) : add A x nan = nan := by cases x <;> rfl

/-- Around a missing mean there are no distances. -/
theorem sqFrom_mean {l : List F} (h : 0 < countReduce l) (A : Arith) (s : F) : sqFrom A nan l s = nan := by
  induction l generalizing s with
  | nil => simp [countReduce] at h
  | cons x l ih =>
    cases hx : x.isnan
    · have : sqFrom A nan (x :: l) s = sqFrom A nan l nan := by
        unfold sqFrom
        rw [List.foldl_cons, if_neg (by simp [hx]), sub_nan', mul_nan', add_nan']
      rw [this]
      exact sqFrom_nan A nan l
    · have : sqFrom A nan (x :: l) s = sqFrom A nan l s := by
        unfold sqFrom
        rw [List.foldl_cons, if_pos hx]
      rw [this]
      refine ih ?_ s
      unfold countReduce at h ⊢
      rwa [List.filter_cons_of_neg (by simp [hx])] at h

theorem stdOfSome_eq {α : Type} {sqrt : F → F} (hs : sqrt nan = nan) (A : Arith) (value : α → F) (l : List α) (ddof : Nat) :
    stdOfSome A sqrt value l ddof = if countReduce (l.map value) ≤ ddof then nan
      else sqrt (div A (sqFrom A (nanmean A (l.map value)) (l.map value) zero) (fin (countReduce (l.map value) - ddof : Nat))) := by
  unfold stdOfSome
  rw [meanOfSome_eq]
  dsimp only
  rw [squares_fold]
  dsimp only
  rw [Nat.zero_add]
  cases hm : (nanmean A (l.map value)).isnan
  · rw [if_neg (by simp)]
  · rw [if_pos rfl, isnan_eq hm]
    by_cases hc : countReduce (l.map value) ≤ ddof
    · rw [if_pos hc]
    · rw [if_neg hc, sqFrom_mean (by omega)]
      exact hs.symm

theorem rescale_exact (s : F) {n m : Nat} (hn : 0 < n) :
    div (Arith.exact r t) (mul (Arith.exact r t) (div (Arith.exact r t) s (fin n)) (fin n)) (fin m) =
      div (Arith.exact r t) s (fin m) := by
  have hn' : (0 : ℚ) < n := by exact_mod_cast hn
  have hne : (n : ℚ) ≠ 0 := hn'.ne'
  cases s with
  | nan => rfl
  | fin q =>
    rw [div_exact r t q n hne, mul_exact, div_mul_cancel₀ _ hne]
  | pinf => simp [F.div, F.mul, F.infMul, not_lt.2 hn'.le, hn']
  | ninf => simp [F.div, F.mul, F.infMul, not_lt.2 hn'.le, hn']

/-- In exact arithmetic the engines agree on the deviation. -/
theorem std_exact {α : Type} {sqrt : F → F} (hs : sqrt nan = nan) (value : α → F) (l : List α) (ddof : Nat) :
    stdOfSome (Arith.exact r t) sqrt value l ddof = nanstd (Arith.exact r t) sqrt (l.map value) ddof := by
  rw [stdOfSome_eq hs]
  unfold nanstd nanvar
  dsimp only
  by_cases hc : countReduce (l.map value) ≤ ddof
  · rw [if_pos hc, if_pos (by omega)]
  · rw [if_neg hc, if_neg (by omega), rescale_exact _ (by omega)]
    rfl

theorem twoPass_get {sqrt : F → F} (hs : sqrt nan = nan) (A : Arith) (value : Nat → Nat → F) (nrows ddof : Nat) {ncols : Nat}
    (hn : 0 < ncols) (last : F → F → F) :
    ∃ v, twoPass A sqrt value nrows ncols ddof last = .ok v ∧ ∀ c < ncols, v c =
      if 2 ≤ nrows ∧ ddof < countReduce ((List.range nrows).map (value c)) then
        last (meanOfSome A (value c) (List.range nrows)) (stdOfSome A sqrt (value c) (List.range nrows) ddof)
      else nan := by
  unfold twoPass
  obtain ⟨s, h1, h2⟩ := chunkFold_ok (fun col (s : F × Nat) row =>
    if !(value col row).isnan then (add A s.1 (value col row), s.2 + 1) else s) (fun _ => ((zero, 0) : F × Nat)) nrows hn
  have hs1 : sumsOf A value nrows ncols = .ok s := h1
  rw [hs1]
  dsimp only
  obtain ⟨q, h3, h4⟩ := chunkFold_ok (fun col sq row => if !(value col row).isnan then
      let diff := sub A (value col row) (div A (s col).1 (fin (s col).2))
      add A sq (mul A diff diff)
    else sq) (fun _ => zero) nrows hn
  have hq1 : squaresOf A value s nrows ncols = .ok q := h3
  rw [hq1]
  refine ⟨_, rfl, fun c hc => ?_⟩
  have hsc : s c = (((List.range nrows).map (value c)).foldl (fun s x => if x.isnan then s else add A s x) zero,
      countReduce ((List.range nrows).map (value c))) := by
    rw [h2 c hc, sums_fold, Nat.zero_add]
  have hqc : q c = sqFrom A (div A (s c).1 (fin (s c).2)) ((List.range nrows).map (value c)) zero := by
    rw [h4 c hc]
    unfold sqFrom
    rw [List.foldl_map]
    congr 1
    funext x i
    cases (value c i).isnan <;> rfl
  have hfold : ∀ m, ∀ out : Nat → F, (List.range m).foldl (fun out col =>
      if 2 ≤ nrows ∧ ddof < (s col).2 then
        setAt out col (last (div A (s col).1 (fin (s col).2)) (sqrt (div A (q col) (fin ((s col).2 - ddof : Nat)))))
      else out) out c = if c < m ∧ 2 ≤ nrows ∧ ddof < (s c).2 then
        last (div A (s c).1 (fin (s c).2)) (sqrt (div A (q c) (fin ((s c).2 - ddof : Nat)))) else out c := by
    intro m
    induction m with
    | zero => intro out; simp
    | succ m ih =>
      intro out
      rw [List.range_succ, List.foldl_append, List.foldl_cons, List.foldl_nil]
      by_cases hcm : c = m
      · subst hcm
        by_cases hp : 2 ≤ nrows ∧ ddof < (s c).2
        · rw [if_pos hp, if_pos ⟨by omega, hp⟩]; simp [setAt]
        · rw [if_neg hp, ih, if_neg (by tauto), if_neg (by tauto)]
      · have e : ∀ out' : Nat → F, (if 2 ≤ nrows ∧ ddof < (s m).2 then
            setAt out' m (last (div A (s m).1 (fin (s m).2)) (sqrt (div A (q m) (fin ((s m).2 - ddof : Nat)))))
          else out') c = out' c := by
          intro out'
          by_cases hp : 2 ≤ nrows ∧ ddof < (s m).2
          · rw [if_pos hp]; simp [setAt, hcm]
          · rw [if_neg hp]
        rw [e, ih]
        by_cases hlt : c < m
        · simp [hlt, Nat.lt_succ_of_lt hlt]
        · rw [if_neg (by tauto), if_neg (by rintro ⟨h, -⟩; omega)]
  rw [hfold ncols]
  by_cases hp : 2 ≤ nrows ∧ ddof < countReduce ((List.range nrows).map (value c))
  · rw [if_pos ⟨hc, hp.1, by rw [hsc]; exact hp.2⟩, if_pos hp]
    have hmean : div A (s c).1 (fin (s c).2) = nanmean A ((List.range nrows).map (value c)) := by rw [hsc]; rfl
    rw [hqc, hmean, meanOfSome_eq, stdOfSome_eq hs, if_neg (by omega)]
    rw [hsc]
  · rw [if_neg (by rw [hsc]; tauto), if_neg hp]

theorem range_colList {α : Type} (f : F → α) (a : View2) {c : Nat} (hc : c < a.ncols) :
    (List.range a.nrows).map (fun row => f (a.sliceCol c row)) = (colList a c).map f := by
  rw [sliceCol_eq a hc]
  unfold colList View2.column
  rw [List.map_map]; rfl

theorem meanOfSome_map {α β : Type} (A : Arith) (value : β → F) (f : α → β) (l : List α) :
    meanOfSome A (fun x => value (f x)) l = meanOfSome A value (l.map f) := by
  rw [meanOfSome_eq, meanOfSome_eq, List.map_map]; rfl

theorem stdOfSome_map {α β : Type} {sqrt : F → F} (hs : sqrt nan = nan) (A : Arith) (value : β → F) (f : α → β) (l : List α) (ddof : Nat) :
    stdOfSome A sqrt (fun x => value (f x)) l ddof = stdOfSome A sqrt value (l.map f) ddof := by
  rw [stdOfSome_eq hs, stdOfSome_eq hs, List.map_map]; rfl

/-! ## Volatility, Sharpe ratio and information ratio by layout -/

theorem volatility2_get {sqrt : F → F} (hs : sqrt nan = nan) (A : Arith) (pow : F → F → F) (rets : View2) (ann levy : F) (ddof : Nat)
    (hn : 0 < rets.ncols) :
    ∃ v, volatility2 A sqrt pow rets ann levy ddof = .ok v ∧
      ∀ c < rets.ncols, v c = volatility A sqrt pow ann levy ddof (colList rets c) := by
  unfold volatility2
  by_cases hst : rets.standard = true
  · rw [if_pos hst]
    obtain ⟨v, h1, h2⟩ := twoPass_get hs A rets.sliceCol rets.nrows ddof hn fun _ std => mul A std (pow ann (div A one levy))
    refine ⟨v, h1, fun c hc => ?_⟩
    rw [h2 c hc]
    unfold volatility
    have e1 : (List.range rets.nrows).map (rets.sliceCol c) = colList rets c := by
      rw [sliceCol_eq rets hc]; rfl
    have e2 : stdOfSome A sqrt (rets.sliceCol c) (List.range rets.nrows) ddof = stdOfSome A sqrt id (colList rets c) ddof := by
      rw [← e1, ← stdOfSome_map hs]; rfl
    rw [e1, e2, colList_length]
    by_cases hr : 2 ≤ rets.nrows
    · rw [if_neg (show ¬ rets.nrows < 2 by omega)]
      by_cases hd : ddof < countReduce (colList rets c)
      · rw [if_pos ⟨hr, hd⟩]
      · rw [if_neg (by tauto), stdOfSome_eq hs, List.map_id, if_pos (by omega)]
        rfl
    · rw [if_neg (by tauto), if_pos (show rets.nrows < 2 by omega)]
  · rw [if_neg hst]
    exact ⟨_, rfl, fun c hc => reduceCols_get rets _ hc⟩

theorem sharpe2_get {sqrt : F → F} (hs : sqrt nan = nan) (A : Arith) (rets : View2) (ann riskFree : F) (ddof : Nat)
    (hn : 0 < rets.ncols) :
    ∃ v, sharpe2 A sqrt rets ann riskFree ddof = .ok v ∧
      ∀ c < rets.ncols, v c = sharpe A sqrt ann riskFree ddof (colList rets c) := by
  unfold sharpe2
  by_cases hst : rets.standard = true
  · rw [if_pos hst]
    obtain ⟨v, h1, h2⟩ := twoPass_get hs A (fun col row => sub A (rets.sliceCol col row) riskFree) rets.nrows ddof hn
      fun mean std => if eqb std zero then pinf else mul A (div A mean std) (sqrt ann)
    refine ⟨v, h1, fun c hc => ?_⟩
    rw [h2 c hc]
    unfold sharpe
    have e1 : (List.range rets.nrows).map (fun row => sub A (rets.sliceCol c row) riskFree) =
        (colList rets c).map fun x => sub A x riskFree := range_colList (fun x => sub A x riskFree) rets hc
    have e0 : (List.range rets.nrows).map (rets.sliceCol c) = colList rets c := by
      rw [sliceCol_eq rets hc]; rfl
    have e2 : stdOfSome A sqrt (fun row => sub A (rets.sliceCol c row) riskFree) (List.range rets.nrows) ddof =
        stdOfSome A sqrt (fun x => sub A x riskFree) (colList rets c) ddof := by
      rw [← e0, ← stdOfSome_map hs]
    have e3 : meanOfSome A (fun row => sub A (rets.sliceCol c row) riskFree) (List.range rets.nrows) =
        meanOfSome A (fun x => sub A x riskFree) (colList rets c) := by
      rw [← e0, ← meanOfSome_map]
    rw [e1, e2, e3, colList_length]
    by_cases hr : 2 ≤ rets.nrows
    · rw [if_neg (show ¬ rets.nrows < 2 by omega)]
      by_cases hd : ddof < countReduce ((colList rets c).map fun x => sub A x riskFree)
      · rw [if_pos ⟨hr, hd⟩]
      · have e4 : stdOfSome A sqrt (fun x => sub A x riskFree) (colList rets c) ddof = nan := by
          rw [stdOfSome_eq hs, if_pos (by omega)]
        rw [if_neg (by tauto), e4]
        simp [F.eqb, div_nan', F.mul]
    · rw [if_neg (by tauto), if_pos (show rets.nrows < 2 by omega)]
  · rw [if_neg hst]
    exact ⟨_, rfl, fun c hc => reduceCols_get rets _ hc⟩

theorem information2_get {sqrt : F → F} (hs : sqrt nan = nan) (A : Arith) (rets bench : View2) (ddof : Nat)
    (hn : 0 < rets.ncols) (hr : bench.nrows = rets.nrows) (hb : bench.ncols = rets.ncols) :
    ∃ v, information2 A sqrt rets bench ddof = .ok v ∧
      ∀ c < rets.ncols, v c = information A sqrt ddof (colList rets c) (colList bench c) := by
  unfold information2
  by_cases hst : (rets.standard && bench.standard) = true
  · rw [if_pos hst]
    obtain ⟨v, h1, h2⟩ := twoPass_get hs A (fun col row => sub A (rets.sliceCol col row) (bench.sliceCol col row)) rets.nrows ddof hn
      fun mean std => if eqb std zero then pinf else div A mean std
    refine ⟨v, h1, fun c hc => ?_⟩
    rw [h2 c hc]
    unfold information
    have e0 : (List.range rets.nrows).map (fun row => (rets.sliceCol c row, bench.sliceCol c row)) =
        (colList rets c).zip (colList bench c) := by
      rw [zip_colList rets bench hr, sliceCol_eq rets hc, sliceCol_eq bench (by omega)]; rfl
    have e1 : (List.range rets.nrows).map (fun row => sub A (rets.sliceCol c row) (bench.sliceCol c row)) =
        ((colList rets c).zip (colList bench c)).map fun p => sub A p.1 p.2 := by
      rw [← e0, List.map_map]; rfl
    have e2 : stdOfSome A sqrt (fun row => sub A (rets.sliceCol c row) (bench.sliceCol c row)) (List.range rets.nrows) ddof =
        stdOfSome A sqrt (fun p : F × F => sub A p.1 p.2) ((colList rets c).zip (colList bench c)) ddof := by
      rw [← e0, ← stdOfSome_map hs]
    have e3 : meanOfSome A (fun row => sub A (rets.sliceCol c row) (bench.sliceCol c row)) (List.range rets.nrows) =
        meanOfSome A (fun p : F × F => sub A p.1 p.2) ((colList rets c).zip (colList bench c)) := by
      rw [← e0, ← meanOfSome_map]
    rw [e1, e2, e3, colList_length]
    by_cases hrow : 2 ≤ rets.nrows
    · rw [if_neg (show ¬ rets.nrows < 2 by omega)]
      by_cases hd : ddof < countReduce (((colList rets c).zip (colList bench c)).map fun p => sub A p.1 p.2)
      · rw [if_pos ⟨hrow, hd⟩]
      · have e4 : stdOfSome A sqrt (fun p : F × F => sub A p.1 p.2) ((colList rets c).zip (colList bench c)) ddof = nan := by
          rw [stdOfSome_eq hs, if_pos (by omega)]
        rw [if_neg (by tauto), e4]
        simp [F.eqb, div_nan']
    · rw [if_neg (by tauto), if_pos (show rets.nrows < 2 by omega)]
  · rw [if_neg hst]
    exact ⟨_, rfl, fun c hc => reducePair_get rets bench _ hr hc⟩

/-! ## The same numbers as Numba -/

theorem volatility_exact {sqrt : F → F} (hs : sqrt nan = nan) (pow : F → F → F) (l : List F) (ann levy : F) (ddof : Nat)
    (hl : eqb levy zero = false) :
    annualizedVolatility (Arith.exact r t) sqrt pow l ann levy ddof = .ok (volatility (Arith.exact r t) sqrt pow ann levy ddof l) := by
  unfold annualizedVolatility volatility
  by_cases h : l.length < 2
  · rw [if_pos h, if_pos h]
  · rw [if_neg h, if_neg h]
    unfold divE
    rw [if_neg (by simp [hl]), std_exact hs, List.map_id]

theorem sharpe_exact {sqrt : F → F} (hs : sqrt nan = nan) (l : List F) (ann riskFree : F) (ddof : Nat) :
    sharpeRatio (Arith.exact r t) sqrt l ann riskFree ddof = sharpe (Arith.exact r t) sqrt ann riskFree ddof l := by
  unfold sharpeRatio sharpe
  rw [std_exact hs, meanOfSome_eq]

theorem zip_map_zipWith (f : F → F → F) (l b : List F) : ((l.zip b).map fun p => f p.1 p.2) = l.zipWith f b := by
  rw [List.zip, List.map_zipWith]

theorem information_exact {sqrt : F → F} (hs : sqrt nan = nan) (l b : List F) (ddof : Nat) :
    informationRatio (Arith.exact r t) sqrt l b ddof = information (Arith.exact r t) sqrt ddof l b := by
  unfold informationRatio information
  rw [std_exact hs, meanOfSome_eq, zip_map_zipWith]

theorem mul_self_isnan (hA : A.Sound) (x : F) : (mul A x x).isnan = x.isnan := by
  cases x <;> simp [F.mul, F.isnan]
  exact Rs.rnd_isnan hA _

theorem downside_eq (hA : A.Sound) {sqrt : F → F} (hs : sqrt nan = nan) (l : List F) (ann required : F) :
    downsideRisk A sqrt l ann required = downside A sqrt ann required l := by
  unfold downsideRisk downside
  have hfold : ∀ (s : F) (n : Nat), l.foldl (fun (s : F × Nat) ret =>
      let adj := sub A ret required
      let adj := if gt adj zero then zero else adj
      if !adj.isnan then (add A s.1 (mul A adj adj), s.2 + 1) else s) (s, n) =
      l.foldl (fun (s : F × Nat) x => if !(mul A (if gt (sub A x required) zero then zero else sub A x required)
          (if gt (sub A x required) zero then zero else sub A x required)).isnan then
        (add A s.1 (mul A (if gt (sub A x required) zero then zero else sub A x required)
          (if gt (sub A x required) zero then zero else sub A x required)), s.2 + 1) else s) (s, n) := by
    intro s n
    congr 1
    funext s x
    rw [mul_self_isnan hA]
  dsimp only
  rw [hfold, sums_fold A (fun x => mul A (if gt (sub A x required) zero then zero else sub A x required)
          (if gt (sub A x required) zero then zero else sub A x required)), Nat.zero_add]
  dsimp only
  rw [List.map_map, List.map_map]
  show mul A (sqrt (nanmean A (l.map fun x => mul A (if gt (sub A x required) zero then zero else sub A x required)
          (if gt (sub A x required) zero then zero else sub A x required)))) (sqrt ann) = _
  rw [← mean_count]
  by_cases h : countReduce (l.map fun x => mul A (if gt (sub A x required) zero then zero else sub A x required)
          (if gt (sub A x required) zero then zero else sub A x required)) = 0
  · rw [if_pos h, if_pos h, hs]; rfl
  · rw [if_neg h, if_neg h]

theorem sortino_eq (hA : A.Sound) {sqrt : F → F} (hs : sqrt nan = nan) (l : List F) (ann required : F) :
    sortinoRatio A sqrt l ann required = sortino A sqrt ann required l := by
  unfold sortinoRatio sortino
  rw [downside_eq hA hs, meanOfSome_eq]

/-! ## Omega -/

theorem add_neg_neg (hA : A.Sound) (x y : F) : add A (neg x) (neg y) = neg (add A x y) := by
  cases x <;> cases y <;> try rfl
  rename_i a b
  show A.rnd (-a + -b) = neg (A.rnd (a + b))
  rw [← hA.neg]
  congr 1
  ring

theorem neg_one_mul_rep (hA : A.Sound) {x : F} (hx : F.Rep A x) : mul A (fin (-1)) x = neg x := by
  cases x with
  | nan => rfl
  | pinf => simp [F.mul, F.neg, F.infMul]
  | ninf => simp [F.mul, F.neg, F.infMul]
  | fin q =>
    show A.rnd (-1 * q) = fin (-q)
    rw [neg_one_mul, hA.neg, hx q rfl]; rfl

theorem omega_fold (hA : A.Sound) (riskFree thr : F) (l : List F) (n d : F) :
    l.foldl (fun (s : F × F) ret =>
      let adj := sub A (sub A ret riskFree) thr
      if gt adj zero then (add A s.1 adj, s.2)
      else if lt adj zero then (s.1, sub A s.2 adj)
      else s) (n, neg d) =
    (((l.map fun x => sub A (sub A x riskFree) thr).filter fun x => gt x zero).foldl (add A) n,
      neg (((l.map fun x => sub A (sub A x riskFree) thr).filter fun x => lt x zero).foldl (add A) d)) := by
  induction l generalizing n d with
  | nil => rfl
  | cons x l ih =>
    rw [List.foldl_cons, List.map_cons]
    dsimp only
    generalize sub A (sub A x riskFree) thr = y
    by_cases h1 : gt y zero = true
    · have h2 : lt y zero = false := by
        cases y <;> simp_all [F.gt, F.lt]
        exact h1.le
      rw [if_pos h1, ih, List.filter_cons_of_pos (p := fun x => gt x zero) h1,
        List.filter_cons_of_neg (p := fun x => lt x zero) (by simp [h2]), List.foldl_cons]
    · rw [if_neg h1, List.filter_cons_of_neg (p := fun x => gt x zero) h1]
      by_cases h2 : lt y zero = true
      · rw [if_pos h2, List.filter_cons_of_pos (p := fun x => lt x zero) h2, List.foldl_cons]
        have : sub A (neg d) y = neg (add A d y) := add_neg_neg hA d y
        rw [this, ih]
      · rw [if_neg h2, List.filter_cons_of_neg (p := fun x => lt x zero) h2, ih]

theorem rep_sum (hA : A.Sound) (l : List F) {s : F} (hs : F.Rep A s) : F.Rep A (l.foldl (add A) s) := by
  induction l generalizing s with
  | nil => exact hs
  | cons x l ih => rw [List.foldl_cons]; exact ih (rep_add hA s x)

theorem omegaFrom_eq (hA : A.Sound) (l : List F) (riskFree thr : F) : omegaAt A l riskFree thr = omegaFrom A riskFree thr l := by
  unfold omegaAt omegaFrom npSum
  have h0 : ((zero, zero) : F × F) = (zero, neg zero) := by simp [F.neg]
  rw [h0, omega_fold hA]
  dsimp only
  rw [neg_one_mul_rep hA (rep_sum hA _ (rep_zero hA))]

theorem omega_eq (hA : A.Sound) (pow : F → F → F) (l : List F) (ann riskFree required : F) (ha : eqb ann zero = false) :
    omegaRatio A pow l ann riskFree required = .ok (omega A pow ann riskFree required l) := by
  unfold omegaRatio omega omegaThreshold
  by_cases h1 : eqb ann one = true
  · rw [if_pos h1, if_pos h1]
    dsimp only
    rw [omegaFrom_eq hA]
  · rw [if_neg h1, if_neg h1]
    by_cases h2 : le ann (fin (-1)) = true
    · rw [if_pos h2, if_pos h2]
    · rw [if_neg h2, if_neg h2]
      unfold divE
      rw [if_neg (by simp [ha])]
      dsimp only
      rw [omegaFrom_eq hA]

/-! ## Beta and alpha -/

theorem nanmean_fold {α : Type} (A : Arith) (value : α → F) (l : List α) :
    (if (l.foldl (fun (s : F × Nat) x => if !(value x).isnan then (add A s.1 (value x), s.2 + 1) else s) (zero, 0)).2 = 0 then nan
      else div A (l.foldl (fun (s : F × Nat) x => if !(value x).isnan then (add A s.1 (value x), s.2 + 1) else s) (zero, 0)).1
        (fin (l.foldl (fun (s : F × Nat) x => if !(value x).isnan then (add A s.1 (value x), s.2 + 1) else s) (zero, 0)).2)) =
      nanmean A (l.map value) := meanOfSome_eq A value l

theorem betaTurn_fold (A : Arith) (m : F) (l : List (F × F)) (s : (F × Nat) × (F × Nat)) :
    l.foldl (betaTurn A m) s =
      (l.foldl (fun (s : F × Nat) p => if !(mul A (sub A (if p.1.isnan then nan else p.2) m) p.1).isnan then
          (add A s.1 (mul A (sub A (if p.1.isnan then nan else p.2) m) p.1), s.2 + 1) else s) s.1,
       l.foldl (fun (s : F × Nat) p => if !(mul A (sub A (if p.1.isnan then nan else p.2) m)
            (sub A (if p.1.isnan then nan else p.2) m)).isnan then
          (add A s.1 (mul A (sub A (if p.1.isnan then nan else p.2) m) (sub A (if p.1.isnan then nan else p.2) m)), s.2 + 1)
          else s) s.2) := by
  induction l generalizing s with
  | nil => rfl
  | cons x l ih => rw [List.foldl_cons, ih]; rfl

theorem zipWith_map_left' (f : F → F → F) (g : F → F → F) : ∀ (l b : List F),
    (l.zipWith g b).zipWith f l = l.zipWith (fun x y => f (g x y) x) b
  | [], _ => by simp
  | _ :: _, [] => by simp
  | x :: l, y :: b => by
    rw [List.zipWith_cons_cons, List.zipWith_cons_cons, List.zipWith_cons_cons, zipWith_map_left' f g l b]

theorem beta_eq (A : Arith) (l b : List F) : betaRatio A l b = beta A l b := by
  unfold betaRatio beta
  by_cases h : b.length < 2
  · rw [if_pos h, if_pos h]
  · rw [if_neg h, if_neg h]
    dsimp only
    have hmean : (l.zip b).foldl (fun (s : F × Nat) p => if !p.1.isnan && !p.2.isnan then (add A s.1 p.2, s.2 + 1) else s) (zero, 0) =
        (l.zip b).foldl (fun (s : F × Nat) p => if !(if p.1.isnan then nan else p.2).isnan then
          (add A s.1 (if p.1.isnan then nan else p.2), s.2 + 1) else s) (zero, 0) := by
      congr 1
      funext s p
      cases hp : p.1.isnan
      · simp
      · simp [F.isnan]
    have e1 : (if ((l.zip b).foldl (fun (s : F × Nat) p =>
          if !p.1.isnan && !p.2.isnan then (add A s.1 p.2, s.2 + 1) else s) (zero, 0)).2 = 0 then nan
        else div A ((l.zip b).foldl (fun (s : F × Nat) p =>
          if !p.1.isnan && !p.2.isnan then (add A s.1 p.2, s.2 + 1) else s) (zero, 0)).1
          (fin ((l.zip b).foldl (fun (s : F × Nat) p =>
          if !p.1.isnan && !p.2.isnan then (add A s.1 p.2, s.2 + 1) else s) (zero, 0)).2)) =
        nanmean A (l.zipWith (fun x y => if x.isnan then nan else y) b) := by
      rw [hmean, nanmean_fold A (fun p : F × F => if p.1.isnan then nan else p.2),
        zip_map_zipWith (fun x y => if x.isnan then nan else y)]
    rw [e1, betaTurn_fold]
    generalize nanmean A (l.zipWith (fun x y => if x.isnan then nan else y) b) = m
    dsimp only
    rw [nanmean_fold A (fun p : F × F => mul A (sub A (if p.1.isnan then nan else p.2) m) p.1),
      nanmean_fold A (fun p : F × F => mul A (sub A (if p.1.isnan then nan else p.2) m) (sub A (if p.1.isnan then nan else p.2) m)),
      zip_map_zipWith (fun x y => mul A (sub A (if x.isnan then nan else y) m) x),
      zip_map_zipWith (fun x y => mul A (sub A (if x.isnan then nan else y) m) (sub A (if x.isnan then nan else y) m)),
      List.map_zipWith, zipWith_map_left', List.map_zipWith]

theorem alpha_eq (A : Arith) (pow : F → F → F) (l b : List F) (ann riskFree : F) :
    alphaRatio A pow l b ann riskFree = alpha A pow ann riskFree l b := by
  unfold alphaRatio alpha
  by_cases h : l.length < 2
  · rw [if_pos h, if_pos h]
  · rw [if_neg h, if_neg h]
    dsimp only
    rw [meanOfSome_eq, beta_eq, zip_map_zipWith (fun x y => sub A (sub A x riskFree) (mul A (beta A l b) (sub A y riskFree))),
      List.zipWith_map]

/-! ## Drawdowns -/

/-- Where the loop of the drawdowns is after `k` rows. -/
def drawState (A : Arith) (rets : Nat → F) (k : Nat) : F × F :=
  (List.range k).foldl (fun s i => (drawTurn A s (rets i)).1) (fin 100, nan)

theorem drawState_succ (A : Arith) (rets : Nat → F) (k : Nat) :
    drawState A rets (k + 1) = (drawTurn A (drawState A rets k) (rets k)).1 := by
  unfold drawState
  rw [List.range_succ, List.foldl_append]; rfl

theorem drawdown1_get (A : Arith) (rets : Nat → F) {n i : Nat} (hi : i < n) :
    drawdown1 A rets n i = (drawTurn A (drawState A rets i) (rets i)).2 := by
  unfold drawdown1
  rw [(fillRows_at _ _ _ _).2 i hi]; rfl

theorem hundred_mul (c x : F) : mul (Arith.exact r t) (mul (Arith.exact r t) c (fin 100)) x =
    mul (Arith.exact r t) (mul (Arith.exact r t) c x) (fin 100) := by
  have h100 : (0 : ℚ) < 100 := by norm_num
  cases c with
  | nan => cases x <;> rfl
  | fin p =>
    cases x with
    | nan => rfl
    | fin q =>
      rw [mul_exact, mul_exact, mul_exact, mul_exact]
      congr 1; ring
    | pinf =>
      rw [mul_exact]
      rcases lt_trichotomy p 0 with h | h | h
      · have h' : p * 100 < 0 := by linarith
        simp [F.mul, F.infMul, h, h', h.ne, not_lt.2 h.le, not_lt.2 h'.le]
      · subst h; simp [F.mul, F.infMul]
      · have h' : 0 < p * 100 := by linarith
        simp [F.mul, F.infMul, h, h', h.ne', not_lt.2 h.le, not_lt.2 h'.le]
    | ninf =>
      rw [mul_exact]
      rcases lt_trichotomy p 0 with h | h | h
      · have h' : p * 100 < 0 := by linarith
        simp [F.mul, F.infMul, h, h', h.ne, not_lt.2 h.le, not_lt.2 h'.le]
      · subst h; simp [F.mul, F.infMul]
      · have h' : 0 < p * 100 := by linarith
        simp [F.mul, F.infMul, h, h', h.ne', not_lt.2 h.le, not_lt.2 h'.le]
  | pinf =>
    have e : mul (Arith.exact r t) pinf (fin 100) = pinf := by simp [F.mul, F.infMul]
    have e' : mul (Arith.exact r t) ninf (fin 100) = ninf := by simp [F.mul, F.infMul]
    rw [e]
    cases x with
    | fin q =>
      rcases lt_trichotomy q 0 with h | h | h
      · simp [F.mul, F.infMul, h, h.ne, not_lt.2 h.le]
      · subst h; simp [F.mul, F.infMul]
      · simp [F.mul, F.infMul, h, h.ne', not_lt.2 h.le]
    | nan => rfl
    | pinf => exact e.symm
    | ninf => exact e'.symm
  | ninf =>
    have e : mul (Arith.exact r t) pinf (fin 100) = pinf := by simp [F.mul, F.infMul]
    have e' : mul (Arith.exact r t) ninf (fin 100) = ninf := by simp [F.mul, F.infMul]
    rw [e']
    cases x with
    | fin q =>
      rcases lt_trichotomy q 0 with h | h | h
      · simp [F.mul, F.infMul, h, h.ne, not_lt.2 h.le]
      · subst h; simp [F.mul, F.infMul]
      · simp [F.mul, F.infMul, h, h.ne', not_lt.2 h.le]
    | nan => rfl
    | pinf => exact e'.symm
    | ninf => exact e.symm

theorem grow_hundred (c x : F) : grow (Arith.exact r t) (mul (Arith.exact r t) c (fin 100)) x =
    mul (Arith.exact r t) (grow (Arith.exact r t) c x) (fin 100) := by
  unfold grow
  cases x.isnan
  · exact hundred_mul _ _
  · rfl

theorem drawState_fst (rets : Nat → F) (k : Nat) : (drawState (Arith.exact r t) rets k).1 =
    mul (Arith.exact r t) ((List.range k).foldl (fun s i => grow (Arith.exact r t) s (rets i)) one) (fin 100) := by
  induction k with
  | zero => show fin 100 = mul _ (fin 1) (fin 100); rw [mul_exact]; norm_num
  | succ k ih =>
    rw [drawState_succ, List.range_succ, List.foldl_append]
    show grow _ (drawState (Arith.exact r t) rets k).1 (rets k) = _
    rw [ih, grow_hundred]; rfl

theorem cum_hundred (rets : Nat → F) (junk : Nat → F) {n i : Nat} (hi : i < n) :
    Vbt.cumReturns (Arith.exact r t) rets (fin 100) junk n i = (drawState (Arith.exact r t) rets (i + 1)).1 := by
  rw [cumReturns_eq _ _ _ _ (fun _ => nan) _ hi, (fillRows_at _ _ _ _).2 i hi, drawState_fst]
  show scaled _ _ _ = _
  unfold scaled
  rw [if_neg (by simp [F.eqb]), List.range_succ, List.foldl_append]; rfl

theorem drawdown_exact (rets : Nat → F) (junk junk' : Nat → F) {n i : Nat} (hi : i < n) :
    Vbt.drawdown (Arith.exact r t) rets junk junk' n i = drawdown1 (Arith.exact r t) rets n i := by
  rw [drawdown1_get _ _ hi]
  unfold Vbt.drawdown
  generalize hc : Vbt.cumReturns (Arith.exact r t) rets (fin 100) junk n = cum
  have hcum : ∀ j < n, cum j = (drawState (Arith.exact r t) rets (j + 1)).1 := fun j hj => by rw [← hc]; exact cum_hundred rets junk hj
  have hgrow : ∀ j < n, grow (Arith.exact r t) (drawState (Arith.exact r t) rets j).1 (rets j) = cum j := fun j hj => by
    rw [hcum j hj, drawState_succ]; rfl
  have hmx : ∀ k, k < n → (expandMaxStep cum 1 (scanState (expandMaxStep cum 1) (cum 0, 0) k) k).1.1 =
      (drawState (Arith.exact r t) rets (k + 1)).2 := by
    intro k
    induction k with
    | zero =>
      intro hk
      rw [drawState_succ]
      show (if (cum 0).isnan || gt (cum 0) (cum 0) then cum 0 else cum 0) = _
      rw [ite_self]
      exact (hgrow 0 hk).symm
    | succ k ih =>
      intro hk
      rw [scanState_succ, drawState_succ]
      have := ih (by omega)
      show (if (expandMaxStep cum 1 (scanState (expandMaxStep cum 1) (cum 0, 0) k) k).1.1.isnan ||
          gt (cum (k + 1)) (expandMaxStep cum 1 (scanState (expandMaxStep cum 1) (cum 0, 0) k) k).1.1 then cum (k + 1)
          else (expandMaxStep cum 1 (scanState (expandMaxStep cum 1) (cum 0, 0) k) k).1.1) =
        if (drawState (Arith.exact r t) rets (k + 1)).2.isnan ||
          gt (grow (Arith.exact r t) (drawState (Arith.exact r t) rets (k + 1)).1 (rets (k + 1))) (drawState (Arith.exact r t) rets (k + 1)).2
        then grow (Arith.exact r t) (drawState (Arith.exact r t) rets (k + 1)).1 (rets (k + 1))
        else (drawState (Arith.exact r t) rets (k + 1)).2
      rw [this, hgrow _ hk]
  unfold Vbt.expandingMax
  rw [scanRows_out _ _ _ hi]
  show _ = sub _ (div _ (grow _ (drawState (Arith.exact r t) rets i).1 (rets i)) (drawTurn _ (drawState (Arith.exact r t) rets i) (rets i)).1.2) one
  rw [← drawState_succ, hgrow i hi, ← hmx i hi]
  generalize scanState (expandMaxStep cum 1) (cum 0, 0) i = s
  cases hn : (cum i).isnan
  · congr 2
    show (if (if !(cum i).isnan then s.2 + 1 else s.2) < 1 then nan else _) = _
    rw [if_neg (by rw [hn]; simp)]
    rfl
  · rw [isnan_eq hn]; rfl

/-- The drawdowns, one by one. -/
def drawList (A : Arith) (rets : Nat → F) (n : Nat) : List F :=
  (List.range n).map fun i => (drawTurn A (drawState A rets i) (rets i)).2

/-- The least number of a list, `none` once there is NaN. -/
def leastStep (s : Option F) (d : F) : Option F :=
  match s with
  | none => none
  | some out => if d.isnan then none else some (if lt d out then d else out)

theorem maxDrawdown1_eq (A : Arith) (l : List F) :
    maxDrawdown1 A l = match (drawList A (fun i => l.getD i nan) l.length).foldl leastStep (some pinf) with
      | none => nan
      | some out => out := by
  have key : ∀ n, (List.range n).foldl (fun (s : (F × F) × Option F) i =>
      ((drawTurn A s.1 (l.getD i nan)).1, leastStep s.2 (drawTurn A s.1 (l.getD i nan)).2)) ((fin 100, nan), some pinf) =
      (drawState A (fun i => l.getD i nan) n, (drawList A (fun i => l.getD i nan) n).foldl leastStep (some pinf)) := by
    intro n
    induction n with
    | zero => rfl
    | succ n ih =>
      rw [List.range_succ, List.foldl_append, ih, drawState_succ]
      unfold drawList
      rw [List.range_succ, List.map_append, List.foldl_append]; rfl
  have hm : maxDrawdown1 A l = match (l.foldl (fun (s : (F × F) × Option F) ret =>
      ((drawTurn A s.1 ret).1, leastStep s.2 (drawTurn A s.1 ret).2)) ((fin 100, nan), some pinf)).2 with
      | none => nan
      | some out => out := rfl
  have hl : l.foldl (fun (s : (F × F) × Option F) ret =>
      ((drawTurn A s.1 ret).1, leastStep s.2 (drawTurn A s.1 ret).2)) ((fin 100, nan), some pinf) =
      (List.range l.length).foldl (fun (s : (F × F) × Option F) i =>
      ((drawTurn A s.1 (l.getD i nan)).1, leastStep s.2 (drawTurn A s.1 (l.getD i nan)).2)) ((fin 100, nan), some pinf) := by
    conv_lhs => rw [← map_getD l]
    rw [List.foldl_map]
  rw [hm, hl, key]

theorem least_fold (l : List F) (m : F) :
    l.foldl (fun m v => if m.isnan then m else if v.isnan then v else if lt v m then v else m) m =
      match l.foldl leastStep (if m.isnan then none else some m) with
      | none => nan
      | some out => out := by
  induction l generalizing m with
  | nil =>
    cases h : m.isnan
    · simp [h]
    · simp [h, isnan_eq h]
  | cons x l ih =>
    rw [List.foldl_cons, List.foldl_cons, ih]
    congr 2
    cases h : m.isnan
    · simp only [Bool.false_eq_true, if_false]
      cases hx : x.isnan
      · simp only [Bool.false_eq_true, if_false]
        by_cases hlt : lt x m = true
        · simp [leastStep, hx, hlt]
        · simp [leastStep, hx, hlt, h]
      · simp [leastStep, hx]
    · simp [h, leastStep]

theorem npMin_eq {l : List F} (h : l ≠ []) : npMin l = .ok (match l.foldl leastStep (some pinf) with
    | none => nan
    | some out => out) := by
  cases l with
  | nil => exact absurd rfl h
  | cons x l =>
    show Except.ok (l.foldl _ x) = _
    rw [least_fold, List.foldl_cons]
    have e : (if x.isnan = true then none else some x) = leastStep (some pinf) x := by
      unfold leastStep
      cases x <;> simp [F.isnan, F.lt]
    rw [e]

theorem maxDrawdown_exact {l : List F} (h : l ≠ []) (junk junk' : Nat → F) :
    maxDrawdown (Arith.exact r t) (fun i => l.getD i nan) junk junk' l.length = .ok (maxDrawdown1 (Arith.exact r t) l) := by
  have hpos : 0 < l.length := List.length_pos_iff.mpr h
  unfold maxDrawdown
  have : (List.range l.length).map (Vbt.drawdown (Arith.exact r t) (fun i => l.getD i nan) junk junk' l.length) =
      drawList (Arith.exact r t) (fun i => l.getD i nan) l.length := by
    unfold drawList
    refine List.map_congr_left fun i hi => ?_
    have hi := List.mem_range.mp hi
    rw [drawdown_exact _ _ _ hi, drawdown1_get _ _ hi]
  rw [this, npMin_eq, maxDrawdown1_eq]
  intro e
  have := congrArg List.length e
  unfold drawList at this
  simp at this
  exact h this

theorem calmar_exact (pow : F → F → F) {l : List F} (h : l ≠ []) (ann : F) (junk junk' : Nat → F) :
    calmarRatio (Arith.exact r t) pow l ann junk junk' = .ok (calmar (Arith.exact r t) pow ann l) := by
  unfold calmarRatio calmar
  rw [maxDrawdown_exact h]
  dsimp only
  by_cases hz : eqb (maxDrawdown1 (Arith.exact r t) l) zero = true
  · rw [if_pos hz, if_pos hz]
  · rw [if_neg hz, if_neg hz, if_neg hz, annReturn_eq (exact_sound r t)]

/-! ## Captures -/

theorem pair_fold (A : Arith) : ∀ (l b : List F), l.length = b.length → ∀ s : F × F,
    (l.zip b).foldl (fun (s : F × F) p => (grow A s.1 p.1, grow A s.2 p.2)) s = (l.foldl (grow A) s.1, b.foldl (grow A) s.2)
  | [], [], _, s => rfl
  | x :: l, y :: b, h, s => by
    rw [List.zip_cons_cons, List.foldl_cons, List.foldl_cons, List.foldl_cons]
    exact pair_fold A l b (by simpa using h) _

theorem capture_eq (hA : A.Sound) (pow : F → F → F) (ann : F) {l b : List F} (h : l.length = b.length) :
    captureRatio A pow l b ann = capture A pow ann l b := by
  unfold captureRatio capture
  dsimp only
  rw [pair_fold A l b h]
  dsimp only
  rw [annFromProduct_eq hA, annFromProduct_eq hA, annReturn_eq hA, annReturn_eq hA]

theorem capture2_get (pow : F → F → F) (rets bench : View2) (ann : F) (hr : bench.nrows = rets.nrows)
    (hb : bench.ncols = rets.ncols) {c : Nat} (hc : c < rets.ncols) :
    capture2 A pow rets bench ann c = capture A pow ann (colList rets c) (colList bench c) := by
  unfold capture2
  by_cases hs : (rets.standard && bench.standard) = true
  · rw [if_pos hs]
    dsimp only
    rw [Vbt.foldl_setAt, if_pos hc]
    rw [rowMajor_get (fun col (s : F × F) row => (grow A s.1 (rets.sliceCol col row), grow A s.2 (bench.sliceCol col row)))
      (fun _ => (one, one)) _ hc,
      foldl_zipCols (fun (s : F × F) x y => (grow A s.1 x, grow A s.2 y)) rets bench hr hc hb]
    unfold capture
    rw [colList_length, colList_length, hr]
  · rw [if_neg hs]
    exact reducePair_get rets bench _ hr hc

theorem captureTurn_fold (A : Arith) {test : F → Bool} (ht : ∀ y, test y = true → y.isnan = false) : ∀ (l b : List F), l.length = b.length →
    ∀ s : F × F × Nat, (l.zip b).foldl (fun s p => captureTurn A test s p.1 p.2) s =
      ((whereTrue l (b.map test)).foldl (grow A) s.1, (whereTrue b (b.map test)).foldl (grow A) s.2.1,
        s.2.2 + (whereTrue l (b.map test)).length)
  | [], [], _, s => rfl
  | x :: l, y :: b, h, s => by
    rw [List.zip_cons_cons, List.foldl_cons, captureTurn_fold A ht l b (by simpa using h)]
    unfold whereTrue captureTurn
    rw [List.map_cons, List.zip_cons_cons, List.zip_cons_cons]
    cases hy : test y
    · rw [List.filter_cons_of_neg (by simp), List.filter_cons_of_neg (by simp), if_neg (by simp)]
    · rw [List.filter_cons_of_pos (by simp), List.filter_cons_of_pos (by simp), if_pos rfl]
      have : mul A s.2.1 (add A y one) = grow A s.2.1 y := by unfold grow; rw [if_pos (by rw [ht y hy]; rfl)]
      rw [this]
      simp only [List.map_cons, List.foldl_cons, List.length_cons]
      congr 2
      omega

theorem whereTrue_length : ∀ (l b : List F) (m : List Bool), l.length = b.length → (whereTrue l m).length = (whereTrue b m).length
  | [], [], _, _ => rfl
  | x :: l, y :: b, [], _ => rfl
  | x :: l, y :: b, v :: m, h => by
    have := whereTrue_length l b m (by simpa using h)
    unfold whereTrue at this ⊢
    rw [List.zip_cons_cons, List.zip_cons_cons]
    cases v
    · rw [List.filter_cons_of_neg (by simp), List.filter_cons_of_neg (by simp)]; exact this
    · rw [List.filter_cons_of_pos (by simp), List.filter_cons_of_pos (by simp)]; simpa using this

theorem captureEnd_eq (hA : A.Sound) (pow : F → F → F) (ann : F) {test : F → Bool} (ht : ∀ y, test y = true → y.isnan = false)
    {l b : List F} (h : l.length = b.length) :
    captureEnd A pow ann ((l.zip b).foldl (fun s p => captureTurn A test s p.1 p.2) (one, one, 0)) =
      if (whereTrue l (b.map test)).length < 1 then nan
      else if eqb (annualizedReturn A pow (whereTrue b (b.map test)) ann) zero then pinf
      else div A (annualizedReturn A pow (whereTrue l (b.map test)) ann) (annualizedReturn A pow (whereTrue b (b.map test)) ann) := by
  rw [captureTurn_fold A ht l b h]
  unfold captureEnd
  dsimp only
  rw [Nat.zero_add]
  by_cases h0 : (whereTrue l (b.map test)).length = 0
  · rw [if_pos h0, if_pos (by omega)]
  · rw [if_neg h0, if_neg (show ¬ (whereTrue l (b.map test)).length < 1 by omega), annFromProduct_eq hA, whereTrue_length l b _ h, annFromProduct_eq hA, annReturn_eq hA,
      annReturn_eq hA]

theorem upCapture_eq (hA : A.Sound) (pow : F → F → F) (ann : F) {l b : List F} (h : l.length = b.length) :
    upCapture A pow l b ann = upCapture1 A pow ann l b := by
  unfold upCapture upCapture1
  rw [captureEnd_eq hA pow ann (fun y hy => by cases y <;> simp_all [F.gt, F.lt, F.isnan]) h]

theorem downCapture_eq (hA : A.Sound) (pow : F → F → F) (ann : F) {l b : List F} (h : l.length = b.length) :
    downCapture A pow l b ann = downCapture1 A pow ann l b := by
  unfold downCapture downCapture1
  rw [captureEnd_eq hA pow ann (fun y hy => by cases y <;> simp_all [F.gt, F.lt, F.isnan]) h]

theorem guarded_get (P : Nat → Prop) [DecidablePred P] (f d : Nat → F) (n c : Nat) :
    (List.range n).foldl (fun out col => if P col then setAt out col (f col) else out) d c =
      if c < n ∧ P c then f c else d c := by
  induction n with
  | zero => simp
  | succ n ih =>
    rw [List.range_succ, List.foldl_append, List.foldl_cons, List.foldl_nil]
    by_cases hcn : c = n
    · subst hcn
      by_cases hp : P c
      · rw [if_pos hp, if_pos ⟨by omega, hp⟩]; simp [setAt]
      · rw [if_neg hp, ih, if_neg (by tauto), if_neg (by tauto)]
    · have e : ∀ o : Nat → F, (if P n then setAt o n (f n) else o) c = o c := by
        intro o
        by_cases hp : P n
        · rw [if_pos hp]; simp [setAt, hcn]
        · rw [if_neg hp]
      rw [e, ih]
      by_cases hlt : c < n
      · simp [hlt, Nat.lt_succ_of_lt hlt]
      · rw [if_neg (by tauto), if_neg (by rintro ⟨h, -⟩; omega)]

theorem filteredCapture2_get (A : Arith) (pow : F → F → F) (rets bench : View2) (ann : F) (up : Bool) (hn : 0 < rets.ncols)
    (hr : bench.nrows = rets.nrows) (hb : bench.ncols = rets.ncols) :
    ∃ v, filteredCapture2 A pow rets bench ann up = .ok v ∧ ∀ c < rets.ncols, v c =
      (if up then upCapture1 A pow ann else downCapture1 A pow ann) (colList rets c) (colList bench c) := by
  unfold filteredCapture2
  by_cases hs : (rets.standard && bench.standard) = true
  · rw [if_pos hs]
    obtain ⟨s, h1, h2⟩ := chunkFold_ok (fun col s row => captureTurn A (fun y => (up && gt y zero) || (!up && lt y zero)) s
        (rets.sliceCol col row) (bench.sliceCol col row)) (fun _ => (one, one, 0)) rets.nrows hn
    rw [h1]
    refine ⟨_, rfl, fun c hc => ?_⟩
    rw [guarded_get (fun col => 0 < (s col).2.2) (fun col => captureEnd A pow ann (s col))]
    have e : (if c < rets.ncols ∧ 0 < (s c).2.2 then captureEnd A pow ann (s c) else nan) = captureEnd A pow ann (s c) := by
      by_cases h0 : 0 < (s c).2.2
      · rw [if_pos ⟨hc, h0⟩]
      · rw [if_neg (by tauto)]
        unfold captureEnd
        rw [if_pos (by omega)]
    rw [e, h2 c hc, foldl_zipCols (fun s x y => captureTurn A (fun y => (up && gt y zero) || (!up && lt y zero)) s x y)
      rets bench hr hc hb]
    cases up
    · simp only [Bool.false_and, Bool.not_false, Bool.true_and, Bool.false_or]; rfl
    · simp only [Bool.true_and, Bool.not_true, Bool.false_and, Bool.or_false]; rfl
  · rw [if_neg hs]
    cases up
    · exact ⟨_, rfl, fun c hc => reducePair_get rets bench _ hr hc⟩
    · exact ⟨_, rfl, fun c hc => reducePair_get rets bench _ hr hc⟩

/-! ## Quantiles -/

theorem percentileOf_fins {xs s : List ℚ} (hne : xs ≠ []) (hs : SortedOf xs s) {c : ℚ} (h0 : 0 ≤ c) (h1 : c ≤ 1) :
    percentileOf (Arith.exact r t) (xs.map fin) c = .ok (fin (lineAt s ((xs.length - 1) * c))) := by
  have hlen : s.length = xs.length := hs.length
  have hpos : 0 < xs.length := List.length_pos_iff.mpr hne
  have hsort : (xs.map fin).insertionSort (fun x y => sortLe x y = true) = s.map fin := by
    have := sorted_nums (noInf_fins xs) (s := s) (by rw [nums_fins]; exact hs)
    rw [this, List.length_map, hlen, Nat.sub_self]; simp
  have hget : ∀ i, i < xs.length → (s.map fin).getD i nan = fin (s.getD i 0) := fun i hi => by
    rw [List.getD_eq_getElem _ nan (by rw [List.length_map]; omega), List.getD_eq_getElem s 0 (by omega), List.getElem_map]
  have hn1 : (1 : ℚ) ≤ (xs.length : ℚ) := by exact_mod_cast hpos
  unfold percentileOf
  rw [if_neg (by simp [hne])]
  simp only []
  rw [hsort, List.length_map]
  by_cases e1 : xs.length = 1
  · rw [if_pos e1]
    match xs, hne, e1 with
    | [x], _, _ =>
      have : s = [x] := hs.unique ⟨List.Perm.refl _, List.pairwise_singleton _ _⟩
      rw [this]
      simp [lineAt]
  · rw [if_neg e1]
    have hcast1 : ((xs.length - 1 : Nat) : ℚ) = (xs.length : ℚ) - 1 := by rw [Nat.cast_sub hpos]; simp
    rw [hcast1, mul_comm c]
    generalize hp : ((xs.length : ℚ) - 1) * c = p
    have hp0 : 0 ≤ p := by rw [← hp]; exact mul_nonneg (by linarith) h0
    have hp1 : p ≤ (xs.length : ℚ) - 1 := by
      rw [← hp]
      calc ((xs.length : ℚ) - 1) * c ≤ ((xs.length : ℚ) - 1) * 1 := mul_le_mul_of_nonneg_left h1 (by linarith)
        _ = _ := mul_one _
    have hf0 : 0 ≤ ⌊p⌋ := Int.floor_nonneg.mpr hp0
    have hc0 : 0 ≤ ⌈p⌉ := Int.ceil_nonneg hp0
    have hcle : ⌈p⌉ ≤ (xs.length : Int) - 1 := Int.ceil_le.mpr (by push_cast; exact hp1)
    have hflo : ((⌊p⌋.toNat : Nat) : Int) = ⌊p⌋ := Int.toNat_of_nonneg hf0
    have hcei : ((⌈p⌉.toNat : Nat) : Int) = ⌈p⌉ := Int.toNat_of_nonneg hc0
    have hfc : ⌊p⌋ ≤ ⌈p⌉ := Int.floor_le_ceil p
    have hcf : ⌈p⌉ ≤ ⌊p⌋ + 1 := Int.ceil_le_floor_add_one p
    rw [if_neg (by omega)]
    by_cases heq : ⌊p⌋.toNat = ⌈p⌉.toNat
    · rw [if_pos heq, ← heq, hget _ (by omega)]
      have hint : p = ⌊p⌋ := by
        have h3 : ⌊p⌋ = ⌈p⌉ := by omega
        have h4 := Int.floor_le p
        have h5 := Int.le_ceil p
        rw [← h3] at h5
        exact le_antisymm h5 h4
      unfold lineAt
      have : p - ⌊p⌋ = 0 := by linarith
      rw [this, zero_mul, add_zero]
    · rw [if_neg heq, hget _ (by omega), hget _ (by omega), mul_exact, mul_exact, add_exact]
      have hhi : ⌈p⌉.toNat = ⌊p⌋.toNat + 1 := by omega
      have hcq : ((⌊p⌋.toNat : Nat) : ℚ) = (⌊p⌋ : ℚ) := by exact_mod_cast hflo
      unfold lineAt
      rw [hhi]
      push_cast
      rw [hcq]
      congr 2
      ring

theorem percentile_exact {xs : List ℚ} (hne : xs ≠ []) {c : ℚ} (h0 : 0 ≤ c) (h1 : c ≤ 1) :
    percentile (Arith.exact r t) (xs.map fin) c = percentileOf (Arith.exact r t) (xs.map fin) c := by
  rw [percentile_fins hne (ascending_sort xs) h0 h1, percentileOf_fins hne (ascending_sort xs) h0 h1]

theorem valueAtRisk_exact {l : List F} (hl : NoInf l) {c : ℚ} (h0 : 0 ≤ c) (h1 : c ≤ 1) :
    valueAtRisk (Arith.exact r t) l c = valueAtRisk1 (Arith.exact r t) c l := by
  unfold valueAtRisk valueAtRisk1
  dsimp only
  rw [filter_eq_nums hl]
  cases hn : nums l with
  | nil => rfl
  | cons x xs =>
    rw [if_neg (by simp), if_neg (by simp), percentile_exact (by simp) h0 h1]

theorem tailRatio_exact {l : List F} (hl : NoInf l) : tailRatio (Arith.exact r t) l = tailRatio1 (Arith.exact r t) l := by
  unfold tailRatio tailRatio1
  dsimp only
  rw [filter_eq_nums hl]
  cases hn : nums l with
  | nil => rfl
  | cons x xs =>
    rw [if_neg (by simp), if_neg (by simp), percentile_exact (by simp) (by norm_num) (by norm_num),
      percentile_exact (by simp) (by norm_num) (by norm_num)]
    rfl

theorem strict_fold (A : Arith) (l : List F) (s : F) :
    l.foldl (add A) s = match l.foldl (fun (s : Option F) x => match s with
      | none => none
      | some s => if x.isnan then none else some (add A s x)) (some s) with
      | none => nan
      | some s => s := by
  induction l generalizing s with
  | nil => rfl
  | cons x l ih =>
    rw [List.foldl_cons, List.foldl_cons]
    cases hx : x.isnan
    · rw [ih]; simp [hx]
    · have h1 : ∀ l : List F, l.foldl (add A) nan = nan := by
        intro l; induction l with
        | nil => rfl
        | cons y l ih => exact ih
      have h2 : ∀ l : List F, l.foldl (fun (s : Option F) x => match s with
          | none => none
          | some s => if x.isnan then none else some (add A s x)) none = none := by
        intro l; induction l with
        | nil => rfl
        | cons y l ih => exact ih
      have e : add A s x = nan := by rw [isnan_eq hx, add_nan']
      rw [e, h1]
      simp only [hx, if_true]
      rw [h2]

theorem meanStrict_eq (A : Arith) {l : List F} (h : l ≠ []) : meanStrict A l = npMean A l := by
  unfold meanStrict npMean npSum
  rw [if_neg (by simp [h]), strict_fold]
  generalize l.foldl _ (some zero) = o
  cases o <;> rfl

theorem add_right_comm_exact (s x y : F) : add (Arith.exact r t) (add (Arith.exact r t) s x) y =
    add (Arith.exact r t) (add (Arith.exact r t) s y) x := by
  cases s <;> cases x <;> cases y <;> try rfl
  rw [add_exact, add_exact, add_exact, add_exact, add_right_comm]

theorem npMean_perm {l w : List F} (h : l.Perm w) : npMean (Arith.exact r t) l = npMean (Arith.exact r t) w := by
  unfold npMean npSum
  rw [h.length_eq, h.foldl_eq' fun x _ y _ s => add_right_comm_exact s x y]

theorem condValueAtRisk_exact {order : List F → List F} (ho : ∀ w, (order w).Perm w) (l : List F) (c : ℚ) :
    condValueAtRisk (Arith.exact r t) l c = condValueAtRisk1 (Arith.exact r t) order c l := by
  unfold condValueAtRisk condValueAtRisk1
  cases l with
  | nil => rfl
  | cons x l =>
    rw [if_neg (by simp), if_neg (by simp)]
    dsimp only
    rw [meanStrict_eq, npMean_perm (ho _)]
    intro e
    have h1 := (ho ((List.insertionSort (fun x y => sortLe x y = true) (x :: l)).take
      (⌊(((x :: l).length - 1 : Nat) : ℚ) * c⌋.toNat + 1))).length_eq
    rw [e, List.length_take, List.length_insertionSort] at h1
    simp at h1

end Vbt.RsRet
