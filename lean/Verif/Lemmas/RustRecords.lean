import Verif.Model.RustRecords
import Verif.Lemmas.RustGeneric
import Verif.Props.C41

/-! # Lemmas on the records of the Rust engine -/

namespace Vbt.RsGen
open Vbt F

/-! ## Ranges -/

/-- The records of a column pushed one by one. -/
def RangeOut.pushAll (o : RangeOut) (col : Nat) (l : List (Nat × Nat × Int)) : RangeOut :=
  l.foldl (fun o r => o.push col r.1 r.2.1 r.2.2) o

theorem pushAll_append (o : RangeOut) (col : Nat) (l : List (Nat × Nat × Int)) (s e t : Int) :
    o.pushAll col (l ++ [(s.toNat, e.toNat, t)]) = (o.pushAll col l).push col s e t := by
  unfold RangeOut.pushAll
  rw [List.foldl_append]
  simp only [List.foldl_cons, List.foldl_nil]
  unfold RangeOut.push
  simp only [Int.toNat_natCast]

theorem isGapStd_eq (gap x : F) : isGapStd gap x = isGap gap x := by
  unfold isGapStd isGap
  cases gap <;> cases x <;> simp [F.isnan, F.eqb]

/-- The state of the standard layout that corresponds to a state of the Numba loop. -/
def StdRel (o : RangeOut) (col : Nat) (s : FindStd) (t : FindState) : Prop :=
  s.started = t.started ∧ s.start = t.start ∧ t.store = false ∧ s.recs = o.pushAll col t.out

theorem findStd_step {n : Nat} {ts : Nat → F} {gap : F} {o : RangeOut} {col : Nat} {s : FindStd} {t : FindState} {i : Nat}
    (hi : i ≠ n - 1) (h : StdRel o col s t) :
    StdRel o col (findStdStep ts gap col s i) (findStep n ts gap t i) := by
  obtain ⟨sst, ss, sr⟩ := s
  obtain ⟨tst, tss, tsp, tsto, tstat, tout⟩ := t
  obtain ⟨h1, h2, h3, h4⟩ := h
  simp only at h1 h2 h3 h4
  subst h1 h2 h3 h4
  unfold findStdStep findStep
  simp only [isGapStd_eq, hi, false_and, if_false]
  cases isGap gap (ts i) <;> cases sst <;>
    simp [StdRel, pushAll_append, -Int.toNat_natCast]

theorem findStd_last {m : Nat} {ts : Nat → F} {gap : F} {o : RangeOut} {col : Nat} {s : FindStd} {t : FindState}
    (h : StdRel o col s t) :
    (if (findStdStep ts gap col s m).started then
      (findStdStep ts gap col s m).recs.push col (findStdStep ts gap col s m).start (m : Int) RangeStatus.Open
     else (findStdStep ts gap col s m).recs) = o.pushAll col (findStep (m + 1) ts gap t m).out := by
  obtain ⟨sst, ss, sr⟩ := s
  obtain ⟨tst, tss, tsp, tsto, tstat, tout⟩ := t
  obtain ⟨h1, h2, h3, h4⟩ := h
  simp only at h1 h2 h3 h4
  subst h1 h2 h3 h4
  unfold findStdStep findStep
  simp only [isGapStd_eq, Nat.add_sub_cancel, true_and]
  have hm : ((m + 1 : Nat) : Int) - 1 = m := by omega
  rw [hm]
  cases isGap gap (ts m) <;> cases sst <;>
    simp [pushAll_append, -Int.toNat_natCast]

theorem foldl_rel {σ τ α : Type} {R : σ → τ → Prop} {f : σ → α → σ} {g : τ → α → τ} :
    ∀ (l : List α) (s : σ) (t : τ), (∀ s t, ∀ x ∈ l, R s t → R (f s x) (g t x)) → R s t → R (l.foldl f s) (l.foldl g t) := by
  intro l
  induction l with
  | nil => intro s t _ h; exact h
  | cons x l ih =>
    intro s t hs h
    exact ih _ _ (fun s t y hy => hs s t y (List.mem_cons_of_mem _ hy)) (hs s t x List.mem_cons_self h)

theorem findStdCol_eq (n : Nat) (ts : Nat → F) (gap : F) (o : RangeOut) (col : Nat) :
    findStdCol n ts gap o col = o.pushAll col (findCol n ts gap) := by
  cases n with
  | zero => rfl
  | succ m =>
    unfold findStdCol findCol
    rw [List.range_succ, List.foldl_append, List.foldl_append]
    simp only [List.foldl_cons, List.foldl_nil, Nat.add_sub_cancel]
    apply findStd_last
    apply foldl_rel (R := StdRel o col)
    · intro s t i hi h
      rw [List.mem_range] at hi
      exact findStd_step (by omega) h
    · exact ⟨rfl, rfl, rfl, rfl⟩

/-- The state of the other layouts that corresponds to a state of the Numba loop. -/
def ViewRel (o : RangeOut) (col : Nat) (s : FindView) (t : FindState) : Prop :=
  s = ⟨t.started, t.start, t.stop, t.store, t.status, o.pushAll col t.out⟩

theorem findView_step {n : Nat} {ts : Nat → F} {gap : F} {o : RangeOut} {col : Nat} {s : FindView} {t : FindState} {i : Nat}
    (hi : i < n) (h : ViewRel o col s t) :
    ViewRel o col (findViewStep n ts gap col s i) (findStep n ts gap t i) := by
  obtain ⟨tst, tss, tsp, tsto, tstat, tout⟩ := t
  unfold ViewRel at h ⊢
  subst h
  unfold findViewStep findStep
  have hn : ((n - 1 : Nat) : Int) = (n : Int) - 1 := by omega
  rw [hn]
  have hg : (eqb (ts i) gap || ((ts i).isnan && gap.isnan)) = isGap gap (ts i) := rfl
  rw [hg]
  generalize (n : Int) - 1 = z
  by_cases hl : i = n - 1 <;> cases isGap gap (ts i) <;> cases tst <;> cases tsto <;>
    simp [hl, pushAll_append, -Int.toNat_natCast]

theorem findViewCol_eq (n : Nat) (ts : Nat → F) (gap : F) (o : RangeOut) (col : Nat) :
    findViewCol n ts gap o col = o.pushAll col (findCol n ts gap) := by
  unfold findViewCol findCol
  have := foldl_rel (R := ViewRel o col) (f := findViewStep n ts gap col) (g := findStep n ts gap) (List.range n)
    ⟨false, -1, -1, false, -1, o⟩ ⟨false, -1, -1, false, -1, []⟩
    (fun s t i hi h => findView_step (List.mem_range.mp hi) h) rfl
  unfold ViewRel at this
  rw [this]

theorem pushAll_out (col : Nat) : ∀ (l : List (Nat × Nat × Int)) (o : RangeOut), o.ridx = o.out.length →
    (o.pushAll col l).ridx = (o.pushAll col l).out.length ∧
    (o.pushAll col l).out = l.foldl (fun out r => out ++ [(⟨out.length, col, r.1, r.2.1, r.2.2⟩ : RangeRec)]) o.out := by
  intro l
  induction l with
  | nil => intro o h; exact ⟨h, rfl⟩
  | cons r l ih =>
    intro o h
    have h' : (o.push col r.1 r.2.1 r.2.2).ridx = (o.push col r.1 r.2.1 r.2.2).out.length := by
      unfold RangeOut.push
      simp [h]
    obtain ⟨h1, h2⟩ := ih _ h'
    refine ⟨h1, ?_⟩
    have : (o.push col r.1 r.2.1 r.2.2).out = o.out ++ [(⟨o.out.length, col, r.1, r.2.1, r.2.2⟩ : RangeRec)] := by
      unfold RangeOut.push
      simp only [Int.toNat_natCast, h]
    rw [this] at h2
    exact h2

theorem pushCols (f : Nat → List (Nat × Nat × Int)) (n : Nat) :
    let o := (List.range n).foldl (fun (o : RangeOut) c => o.pushAll c (f c)) ⟨0, []⟩
    o.ridx = o.out.length ∧ o.out = rangesOf n f := by
  unfold rangesOf
  induction n with
  | zero => exact ⟨rfl, rfl⟩
  | succ m ih =>
    rw [List.range_succ, List.foldl_append, List.foldl_append]
    simp only [List.foldl_cons, List.foldl_nil]
    obtain ⟨h1, h2⟩ := pushAll_out m (f m) _ ih.1
    refine ⟨h1, ?_⟩
    rw [h2, ih.2]

theorem foldl_congr {σ α : Type} {f g : σ → α → σ} : ∀ (l : List α) (s : σ), (∀ s, ∀ x ∈ l, f s x = g s x) →
    l.foldl f s = l.foldl g s := by
  intro l
  induction l with
  | nil => intro s _; rfl
  | cons x l ih =>
    intro s h
    simp only [List.foldl_cons]
    rw [h s x List.mem_cons_self]
    exact ih _ fun s y hy => h s y (List.mem_cons_of_mem _ hy)

/-! ## Coverage and mask -/

theorem rangeEnd_eq (r : RangeRec) : rangeEnd r = rangeSliceEnd r := rfl

theorem countLoop_ok (len : Nat) : ∀ (n a : Nat) (t : Nat → Nat), (n = 0 ∨ a + n ≤ len) →
    loopE (fun t k => if k < len then .ok (setAt t k (t k + 1)) else .error panicked) t (List.range' a n) =
      .ok fun i => if a ≤ i ∧ i < a + n then t i + 1 else t i := by
  intro n
  induction n with
  | zero =>
    intro a t _
    rw [List.range'_zero, loopE_nil]
    congr 1
    funext i
    rw [if_neg (by omega)]
  | succ n ih =>
    intro a t h
    rw [List.range'_succ]
    unfold loopE
    rw [if_pos (by omega)]
    dsimp only
    rw [ih (a + 1) _ (by omega)]
    congr 1
    funext i
    unfold setAt
    by_cases hi : i = a
    · subst hi
      rw [if_neg (by omega), if_pos rfl, if_pos (by omega)]
    · by_cases h2 : a + 1 ≤ i ∧ i < a + 1 + n
      · rw [if_pos h2, if_neg hi, if_pos (by omega)]
      · rw [if_neg h2, if_neg hi, if_neg (by omega)]

theorem countRange_ok {len : Nat} {r : RangeRec} (h : rangeEnd r ≤ r.start ∨ rangeEnd r ≤ len) (t : Nat → Nat) :
    countRange len t r = .ok fun i => if r.start ≤ i ∧ i < rangeSliceEnd r then t i + 1 else t i := by
  unfold countRange
  rw [countLoop_ok len _ _ _ (by omega)]
  congr 1
  funext i
  rw [rangeEnd_eq]
  by_cases hi : r.start ≤ i ∧ i < rangeSliceEnd r
  · rw [if_pos hi, if_pos (by omega)]
  · rw [if_neg hi, if_neg (by omega)]

theorem markLoop_ok (len col : Nat) : ∀ (n a : Nat) (o : Nat → Nat → Bool), (n = 0 ∨ a + n ≤ len) →
    loopE (fun (o : Nat → Nat → Bool) k =>
      if k < len then .ok (fun i c => if i = k ∧ c = col then true else o i c) else .error panicked) o (List.range' a n) =
      .ok fun i c => if c = col ∧ a ≤ i ∧ i < a + n then true else o i c := by
  intro n
  induction n with
  | zero =>
    intro a o _
    rw [List.range'_zero, loopE_nil]
    congr 1
    funext i c
    rw [if_neg (by omega)]
  | succ n ih =>
    intro a o h
    rw [List.range'_succ]
    unfold loopE
    rw [if_pos (by omega)]
    dsimp only
    rw [ih (a + 1) _ (by omega)]
    congr 1
    funext i c
    by_cases h2 : c = col ∧ a + 1 ≤ i ∧ i < a + 1 + n
    · rw [if_pos h2, if_pos (by omega)]
    · rw [if_neg h2]
      by_cases h3 : i = a ∧ c = col
      · rw [if_pos h3, if_pos (by omega)]
      · rw [if_neg h3, if_neg (by omega)]

theorem markRange_ok {len col : Nat} {r : RangeRec} (h : rangeEnd r ≤ r.start ∨ rangeEnd r ≤ len) (o : Nat → Nat → Bool) :
    markRange len col o r = .ok fun i c => if c = col ∧ r.start ≤ i ∧ i < rangeSliceEnd r then true else o i c := by
  unfold markRange
  rw [markLoop_ok len col _ _ _ (by omega)]
  congr 1
  funext i c
  rw [rangeEnd_eq]
  by_cases hi : c = col ∧ r.start ≤ i ∧ i < rangeSliceEnd r
  · rw [if_pos hi, if_pos (by omega)]
  · rw [if_neg hi, if_neg (by omega)]

/-- A loop over a part of `col_idxs` is a loop over the records there. -/
theorem recordLoop {σ : Type} (records : List RangeRec) (idxs : Nat → Nat) (nIdxs : Nat)
    (f : σ → RangeRec → Except Err σ) (g : σ → RangeRec → σ) : ∀ (len start : Nat) (s : σ),
    (∀ k < len, start + k < nIdxs ∧ ∃ r, records[idxs (start + k)]? = some r ∧ ∀ s, f s r = .ok (g s r)) →
    overRecords records idxs nIdxs f start len s = .ok ((takeIdxs records (slice idxs start len)).foldl g s) := by
  intro len
  induction len with
  | zero => intro start s _; rfl
  | succ n ih =>
    intro start s h
    obtain ⟨h1, r, h2, h3⟩ := h 0 (by omega)
    rw [Nat.add_zero] at h1 h2
    have hs : slice idxs start (n + 1) = idxs start :: slice idxs (start + 1) n := by
      unfold slice
      rw [List.range_succ_eq_map, List.map_cons, List.map_map, Nat.add_zero]
      congr 1
      refine List.map_congr_left fun k _ => ?_
      simp only [Function.comp]
      congr 1
      omega
    rw [hs]
    unfold overRecords at ih ⊢
    rw [List.range'_succ]
    unfold loopE takeIdxs
    rw [if_pos h1, h2]
    dsimp only
    rw [h3]
    dsimp only
    rw [List.filterMap_cons, h2]
    dsimp only
    rw [List.foldl_cons]
    refine ih (start + 1) _ fun k hk => ?_
    have := h (k + 1) (by omega)
    rw [show start + (k + 1) = start + 1 + k by omega] at this
    exact this

/-! ## Drawdowns -/

/-- The drawdowns of a column pushed one by one. -/
def DdOut.pushAll (o : DdOut) (col : Nat) (l : List Drawdown) : DdOut :=
  l.foldl (fun o d => ⟨o.ddidx + 1, o.out ++ [⟨o.ddidx, col, d⟩]⟩) o

theorem ddPushAll_append (o : DdOut) (col : Nat) (l : List Drawdown) (p v : Int) (i : Nat) (pv vv ev : F) (t : Int) :
    o.pushAll col (l ++ [⟨p, p + 1, v, i, pv, vv, ev, t⟩]) = (o.pushAll col l).push col p v i pv vv ev t := by
  unfold DdOut.pushAll
  rw [List.foldl_append]
  rfl

/-- The state of the standard layout that corresponds to a state of the Numba loop before the last row. -/
def DdRel (o : DdOut) (col : Nat) (s : DdStd) (t : DdState) : Prop :=
  s = ⟨t.started, t.peakIdx, t.valleyIdx, t.peakVal, t.valleyVal, o.pushAll col t.out⟩ ∧ t.store = false ∧
    (t.started = true → t.peakVal.isnan = false)

theorem ge_not_nan {x y : F} (h : ge x y = true) : y.isnan = false := by
  cases x <;> cases y <;> simp_all [F.ge, F.le, F.isnan]

theorem ddStd_step {n : Nat} {ts : Nat → F} {o : DdOut} {col : Nat} {s : DdStd} {t : DdState} {i : Nat}
    (hi : i ≠ n - 1) (h : DdRel o col s t) : DdRel o col (ddStdStep n ts col s i) (ddStep n ts t i) := by
  obtain ⟨tst, tpi, tvi, tpv, tvv, tsto, tstat, tout⟩ := t
  obtain ⟨h1, h2, h3⟩ := h
  simp only at h1 h2 h3
  subst h1 h2
  unfold ddStdStep ddStep
  dsimp only
  cases hc : (ts i).isnan with
  | true => exact ⟨rfl, rfl, h3⟩
  | false =>
    generalize ts i = cur at hc ⊢
    cases hn : tpv.isnan <;> cases hg : ge cur tpv <;> cases hl : lt cur tvv <;> cases tst <;>
      simp_all [DdRel, ddPushAll_append]

theorem ddStd_last {m : Nat} {ts : Nat → F} {o : DdOut} {col : Nat} {s : DdStd} {t : DdState} (h : DdRel o col s t) :
    (ddStdStep (m + 1) ts col s m).recs = o.pushAll col (ddStep (m + 1) ts t m).out := by
  obtain ⟨tst, tpi, tvi, tpv, tvv, tsto, tstat, tout⟩ := t
  obtain ⟨h1, h2, h3⟩ := h
  simp only at h1 h2 h3
  subst h1 h2
  unfold ddStdStep ddStep
  dsimp only
  cases hc : (ts m).isnan with
  | true => rfl
  | false =>
    generalize ts m = cur at hc ⊢
    cases hn : tpv.isnan <;> cases hg : ge cur tpv <;> cases hl : lt cur tvv <;> cases tst <;>
      simp_all [ddPushAll_append]

theorem ddStdCol_eq (n : Nat) (ts : Nat → F) (o : DdOut) (col : Nat) :
    ddStdCol n ts o col = o.pushAll col (drawdownsCol n ts) := by
  cases n with
  | zero => rfl
  | succ m =>
    unfold ddStdCol drawdownsCol
    rw [List.range_succ, List.foldl_append, List.foldl_append]
    simp only [List.foldl_cons, List.foldl_nil]
    apply ddStd_last
    apply foldl_rel (R := DdRel o col)
    · intro s t i hi h
      rw [List.mem_range] at hi
      exact ddStd_step (by omega) h
    · exact ⟨rfl, rfl, fun h => by cases h⟩

theorem ddView_step {n : Nat} {ts : Nat → F} {o : DdOut} {col : Nat} {t : DdState} {i : Nat} :
    ddViewStep n ts col ⟨t.started, t.peakIdx, t.valleyIdx, t.peakVal, t.valleyVal, t.store, t.status, o.pushAll col t.out⟩ i =
      ⟨(ddStep n ts t i).started, (ddStep n ts t i).peakIdx, (ddStep n ts t i).valleyIdx, (ddStep n ts t i).peakVal,
        (ddStep n ts t i).valleyVal, (ddStep n ts t i).store, (ddStep n ts t i).status,
        o.pushAll col (ddStep n ts t i).out⟩ := by
  obtain ⟨tst, tpi, tvi, tpv, tvv, tsto, tstat, tout⟩ := t
  unfold ddViewStep ddStep
  dsimp only
  cases hc : (ts i).isnan with
  | true => rfl
  | false =>
    generalize ts i = cur
    by_cases hi : i = n - 1 <;> cases hn : tpv.isnan <;> cases hg : ge cur tpv <;> cases hl : lt cur tvv <;> cases tst <;>
      cases tsto <;> simp [hi, ddPushAll_append]

theorem ddViewCol_eq (n : Nat) (ts : Nat → F) (o : DdOut) (col : Nat) :
    ddViewCol n ts o col = o.pushAll col (drawdownsCol n ts) := by
  unfold ddViewCol drawdownsCol
  have := foldl_rel (f := ddViewStep n ts col) (g := ddStep n ts)
    (R := fun s t => s = ⟨t.started, t.peakIdx, t.valleyIdx, t.peakVal, t.valleyVal, t.store, t.status, o.pushAll col t.out⟩)
    (List.range n) ⟨false, -1, -1, ts 0, ts 0, false, -1, o⟩ ⟨false, -1, -1, ts 0, ts 0, false, -1, []⟩
    (fun s t i _ h => by rw [h]; exact ddView_step) rfl
  rw [this]

theorem ddPushAll_out (col : Nat) : ∀ (l : List Drawdown) (o : DdOut), o.ddidx = o.out.length →
    (o.pushAll col l).ddidx = (o.pushAll col l).out.length ∧
    (o.pushAll col l).out = l.foldl (fun out d => out ++ [(⟨out.length, col, d⟩ : DrawdownRec)]) o.out := by
  intro l
  induction l with
  | nil => intro o h; exact ⟨h, rfl⟩
  | cons d l ih =>
    intro o h
    obtain ⟨h1, h2⟩ := ih ⟨o.ddidx + 1, o.out ++ [⟨o.ddidx, col, d⟩]⟩ (by simp [h])
    refine ⟨h1, ?_⟩
    simp only [List.foldl_cons]
    rw [← h]
    exact h2

theorem ddPushCols (f : Nat → List Drawdown) (n : Nat) :
    let o := (List.range n).foldl (fun (o : DdOut) c => o.pushAll c (f c)) ⟨0, []⟩
    o.ddidx = o.out.length ∧ o.out = (List.range n).foldl (fun out c =>
      (f c).foldl (fun out d => out ++ [(⟨out.length, c, d⟩ : DrawdownRec)]) out) [] := by
  induction n with
  | zero => exact ⟨rfl, rfl⟩
  | succ m ih =>
    rw [List.range_succ, List.foldl_append, List.foldl_append]
    simp only [List.foldl_cons, List.foldl_nil]
    obtain ⟨h1, h2⟩ := ddPushAll_out m (f m) _ ih.1
    refine ⟨h1, ?_⟩
    rw [h2, ih.2]

end Vbt.RsGen
