import Verif.Lemmas.RustReductions
import Verif.Props.C88Ewm

/-!
# Deviations in one pass and in two, and summaries
-/

namespace Vbt.RsRed
open F RsGen RsRet

variable {r t : ℚ}

/-! ## Infinite values -/

/-- Neither a number nor missing in the sums: NaN or an infinity. -/
def Spoilt (x : F) : Prop := x = nan ∨ x = pinf ∨ x = ninf

theorem spoilt_add {x : F} (h : Spoilt x) (y : F) : Spoilt (add (Arith.exact r t) x y) := by
  unfold Spoilt at *
  rcases h with rfl | rfl | rfl <;> cases y <;> simp [add]

theorem spoilt_add_right (x : F) {y : F} (h : Spoilt y) : Spoilt (add (Arith.exact r t) x y) := by
  unfold Spoilt at *
  rcases h with rfl | rfl | rfl <;> cases x <;> simp [add]

theorem spoilt_of_inf {x : F} (h : x.isinf = true) : Spoilt x := by
  cases x <;> simp_all [isinf, Spoilt]

/-- The state of the one-pass loop once an infinity has been seen. -/
theorem onePass_spoilt (l : List F) (s : SumSq) (h : Spoilt s.sum ∧ s.sumSq = pinf) :
    Spoilt (l.foldl (stdTurn (Arith.exact r t)) s).sum ∧ (l.foldl (stdTurn (Arith.exact r t)) s).sumSq = pinf := by
  induction l generalizing s with
  | nil => exact h
  | cons x l ih =>
    rw [List.foldl_cons]
    refine ih _ ?_
    unfold stdTurn
    cases hx : x.isnan with
    | true => exact h
    | false =>
      refine ⟨spoilt_add h.1 _, ?_⟩
      show add _ s.sumSq _ = _
      rw [h.2]
      cases x with
      | nan => cases hx
      | fin q => simp [mul, add]
      | pinf => simp [mul, add]
      | ninf => simp [mul, add]

theorem onePass_inf (l : List F) (s : SumSq) (hq : s.sumSq = pinf ∨ ∃ q, s.sumSq = fin q) (h : ∃ x ∈ l, x.isinf = true) :
    Spoilt (l.foldl (stdTurn (Arith.exact r t)) s).sum ∧ (l.foldl (stdTurn (Arith.exact r t)) s).sumSq = pinf := by
  induction l generalizing s with
  | nil => obtain ⟨x, hx, -⟩ := h; cases hx
  | cons x l ih =>
    rw [List.foldl_cons]
    by_cases hx : x.isinf = true
    · refine onePass_spoilt l _ ?_
      have hn : x.isnan = false := by cases x <;> simp_all [isinf, isnan]
      unfold stdTurn
      rw [hn, Bool.not_false, if_pos rfl]
      refine ⟨spoilt_add_right _ (spoilt_of_inf hx), ?_⟩
      show add _ s.sumSq _ = _
      rcases hq with hq | ⟨q, hq⟩ <;> rw [hq] <;> cases x <;> simp_all [isinf, mul, add]
    · refine ih _ ?_ ?_
      · unfold stdTurn
        cases hn : x.isnan with
        | true => exact hq
        | false =>
          show (add _ s.sumSq _ = _) ∨ ∃ q, add _ s.sumSq _ = _
          cases x with
          | nan => cases hn
          | pinf => exact absurd rfl hx
          | ninf => exact absurd rfl hx
          | fin p =>
            rcases hq with hq | ⟨q, hq⟩
            · left; rw [hq]; simp [mul, add]
            · right; rw [hq]; exact ⟨_, by rw [mul_exact, add_exact]⟩
      · obtain ⟨y, hy, hyi⟩ := h
        rcases List.mem_cons.mp hy with rfl | hy
        · exact absurd hyi hx
        · exact ⟨y, hy, hyi⟩

theorem onePass_count (A : Arith) (l : List F) (s : SumSq) : (l.foldl (stdTurn A) s).cnt = s.cnt + countReduce l := by
  induction l generalizing s with
  | nil => rfl
  | cons x l ih =>
    rw [List.foldl_cons, ih]
    unfold stdTurn countReduce
    cases hx : x.isnan
    · simp [hx]; omega
    · simp [hx]

theorem onePass_sum (A : Arith) (l : List F) (s : SumSq) :
    (l.foldl (stdTurn A) s).sum = l.foldl (fun s x => if x.isnan then s else add A s x) s.sum := by
  induction l generalizing s with
  | nil => rfl
  | cons x l ih =>
    rw [List.foldl_cons, List.foldl_cons, ih]
    unfold stdTurn
    cases hx : x.isnan <;> simp

theorem stdLast_inf {sqrt : F → F} (hs : sqrt nan = nan) {ddof : Nat} {s : SumSq} (h : Spoilt s.sum) (hq : s.sumSq = pinf) :
    stdLast (Arith.exact r t) sqrt ddof s = nan := by
  unfold stdLast
  by_cases hc : ddof < s.cnt
  · rw [if_pos hc]
    have hpos : (0 : ℚ) < (s.cnt : ℚ) := by exact_mod_cast (show 0 < s.cnt by omega)
    dsimp only
    rw [hq]
    rcases h with h | h | h <;> rw [h]
    · simp [div, mul, sub, add, neg, F.abs, hs]
    · have : (0 : ℚ) < 2 := by norm_num
      simp [div, mul, sub, add, neg, infMul, F.abs, hs, hpos, not_lt.2 hpos.le, this, not_lt.2 this.le]
    · have : (0 : ℚ) < 2 := by norm_num
      simp [div, mul, sub, add, neg, infMul, F.abs, hs, hpos, not_lt.2 hpos.le, this, not_lt.2 this.le]
  · rw [if_neg hc]

theorem sum_is_pinf (l : List F) (s : F) (h : l.foldl (fun s x => if x.isnan then s else add (Arith.exact r t) s x) s = pinf) :
    s = pinf ∨ pinf ∈ l := by
  induction l generalizing s with
  | nil => exact Or.inl h
  | cons x l ih =>
    rw [List.foldl_cons] at h
    rcases ih _ h with h | h
    · cases x <;> cases s <;> simp_all [isnan, add]
    · exact Or.inr (List.mem_cons_of_mem _ h)

theorem sum_is_ninf (l : List F) (s : F) (h : l.foldl (fun s x => if x.isnan then s else add (Arith.exact r t) s x) s = ninf) :
    s = ninf ∨ ninf ∈ l := by
  induction l generalizing s with
  | nil => exact Or.inl h
  | cons x l ih =>
    rw [List.foldl_cons] at h
    rcases ih _ h with h | h
    · cases x <;> cases s <;> simp_all [isnan, add]
    · exact Or.inr (List.mem_cons_of_mem _ h)

theorem sqFrom_meet (A : Arith) {m x : F} {l : List F} (hx : x ∈ l) (hn : x.isnan = false) (hm : sub A x m = nan) (s : F) :
    sqFrom A m l s = nan := by
  unfold sqFrom
  induction l generalizing s with
  | nil => cases hx
  | cons y l ih =>
    rw [List.foldl_cons]
    rcases List.mem_cons.mp hx with rfl | hx
    · rw [hn, if_neg Bool.false_ne_true, hm, mul_nan', add_nan']
      exact sqFrom_nan A m l
    · exact ih hx _

theorem nanstd_inf {sqrt : F → F} (hs : sqrt nan = nan) {ddof : Nat} {l : List F} (h : ∃ x ∈ l, x.isinf = true) :
    Vbt.nanstd (Arith.exact r t) sqrt l ddof = nan := by
  have h1 := onePass_inf (r := r) (t := t) l ⟨zero, zero, 0⟩ (Or.inr ⟨0, rfl⟩) h
  have hsum := onePass_sum (Arith.exact r t) l ⟨zero, zero, 0⟩
  have e := std_exact (r := r) (t := t) hs id l ddof
  rw [List.map_id] at e
  rw [← e, stdOfSome_eq hs, List.map_id]
  by_cases hc : countReduce l ≤ ddof
  · rw [if_pos hc]
  · rw [if_neg hc]
    have hpos : (0 : ℚ) < (countReduce l : ℚ) := by exact_mod_cast (show 0 < countReduce l by omega)
    have key : sqFrom (Arith.exact r t) (Vbt.nanmean (Arith.exact r t) l) l zero = nan := by
      have hm : Vbt.nanmean (Arith.exact r t) l = div (Arith.exact r t) (l.foldl (stdTurn (Arith.exact r t)) ⟨zero, zero, 0⟩).sum
          (fin (countReduce l)) := by
        rw [hsum]; rfl
      rcases h1.1 with h2 | h2 | h2
      · rw [hm, h2]
        exact sqFrom_mean (by omega) _ _
      · rw [hm, h2]
        rw [hsum] at h2
        rcases sum_is_pinf l _ h2 with h3 | h3
        · cases h3
        · refine sqFrom_meet _ h3 rfl ?_ _
          simp [div, hpos, not_lt.2 hpos.le, sub, neg, add, infMul]
      · rw [hm, h2]
        rw [hsum] at h2
        rcases sum_is_ninf l _ h2 with h3 | h3
        · cases h3
        · refine sqFrom_meet _ h3 rfl ?_ _
          simp [div, hpos, not_lt.2 hpos.le, sub, neg, add, infMul]
    rw [key]
    show sqrt nan = nan
    exact hs

/-! ## Deviations -/

theorem onePass_nums {l : List F} (hl : NoInf l) : ∀ s : SumSq, ∀ p q : ℚ, s.sum = fin p → s.sumSq = fin q →
    l.foldl (stdTurn (Arith.exact r t)) s = ⟨fin (p + (nums l).sum), fin (q + sqOf (nums l)), s.cnt + (nums l).length⟩ := by
  induction l with
  | nil =>
    rintro ⟨a, b, n⟩ p q rfl rfl
    simp [nums, sqOf]
  | cons x l ih =>
    rintro ⟨a, b, n⟩ p q rfl rfl
    obtain ⟨hx, hl'⟩ := hl.cons
    rw [List.foldl_cons]
    rcases noInf_cases hx with rfl | ⟨y, rfl⟩
    · show l.foldl _ _ = _
      have := ih hl' ⟨fin p, fin q, n⟩ p q rfl rfl
      exact this
    · have hstep : stdTurn (Arith.exact r t) ⟨fin p, fin q, n⟩ (fin y) = ⟨fin (p + y), fin (q + y * y), n + 1⟩ := by
        unfold stdTurn
        simp only [isnan, Bool.not_false, if_true, mul_exact, add_exact]
      rw [hstep, ih hl' _ (p + y) (q + y * y) rfl rfl]
      have hnums : nums (fin y :: l) = y :: nums l := rfl
      rw [hnums]
      simp only [List.sum_cons, List.length_cons, sqOf, List.map_cons]
      congr 1
      · congr 1; ring
      · congr 1; ring
      · omega

/-- In exact arithmetic the one-pass deviation is that of the Numba engine. -/
theorem onePass_exact {sqrt : F → F} (hs : sqrt nan = nan) (ddof : Nat) (l : List F) :
    stdLast (Arith.exact r t) sqrt ddof (l.foldl (stdTurn (Arith.exact r t)) ⟨zero, zero, 0⟩) =
      Vbt.nanstd (Arith.exact r t) sqrt l ddof := by
  by_cases hinf : ∃ x ∈ l, x.isinf = true
  · obtain ⟨h1, h2⟩ := onePass_inf (r := r) (t := t) l ⟨zero, zero, 0⟩ (Or.inr ⟨0, rfl⟩) hinf
    rw [stdLast_inf hs h1 h2, nanstd_inf hs hinf]
  · have hl : NoInf l := fun x hx => by
      cases h : x.isinf with
      | false => rfl
      | true => exact absurd ⟨x, hx, h⟩ hinf
    rw [onePass_nums hl ⟨zero, zero, 0⟩ 0 0 rfl rfl, nanstd_nums hl, zero_add, zero_add]
    show stdLast _ _ _ ⟨_, _, 0 + (nums l).length⟩ = _
    rw [Nat.zero_add]
    set xs := nums l with hxs
    unfold stdLast
    dsimp only
    by_cases hc : ddof < xs.length
    · rw [if_pos hc, if_neg (by omega)]
      have hln : (xs.length : ℚ) ≠ 0 := by
        have : 0 < xs.length := by omega
        positivity
      have hd : ((xs.length - ddof : Nat) : ℚ) ≠ 0 := by
        have : 0 < xs.length - ddof := by omega
        positivity
      have hdev' : devOf xs = sqOf xs - 2 * (xs.sum / xs.length) * xs.sum + xs.length * (xs.sum / xs.length) * (xs.sum / xs.length) :=
        dev_expand xs (xs.sum / xs.length)
      have e : sqOf xs - 2 * xs.sum * (xs.sum / xs.length) + xs.length * (xs.sum / xs.length) * (xs.sum / xs.length) = devOf xs := by
        rw [hdev']; ring
      have hnn : 0 ≤ devOf xs / ((xs.length - ddof : Nat) : ℚ) := div_nonneg (Vbt.dev_nonneg xs) (by positivity)
      rw [div_exact _ _ _ _ hln]
      simp only [mul_exact, sub_exact, add_exact]
      rw [div_exact _ _ _ _ hd]
      dsimp only [F.abs]
      congr 2
      rw [Nat.cast_sub (by omega)] at hnn ⊢
      rw [← abs_of_nonneg hnn, ← e]
    · rw [if_neg hc, if_pos (by omega)]

theorem nanstd_get {sqrt : F → F} (hs : sqrt nan = nan) (a : View2) (ddof : Nat) :
    EntriesOf a.ncols (nanstd (Arith.exact r t) sqrt a ddof) fun c => Vbt.nanstd (Arith.exact r t) sqrt (colList a c) ddof := by
  unfold nanstd
  by_cases h : a.standard = true
  · rw [if_pos h]
    obtain ⟨v, h1, h2⟩ := reduceC_get a (stdTurn (Arith.exact r t)) ⟨zero, zero, 0⟩ (stdLast (Arith.exact r t) sqrt ddof) nan
    exact ⟨v, h1, fun c hc => by rw [h2 c hc, onePass_exact hs]⟩
  · rw [if_neg h]
    refine ⟨_, rfl, fun c hc => ?_⟩
    rw [reduceCols_get _ _ hc]
    unfold nanstd1
    rw [std_exact hs, List.map_id]

/-! ## Summaries -/

theorem npMin_spec {l : List F} (hl : l ≠ []) (hn : ∀ x ∈ l, x.isnan = false) :
    ∃ m, npMin l = .ok m ∧ m ∈ l ∧ ∀ y ∈ l, le m y = true := by
  have key : ∀ (l : List F) (m : F), m.isnan = false → (∀ x ∈ l, x.isnan = false) →
      ∃ m', l.foldl (fun m v => if m.isnan then m else if v.isnan then v else if lt v m then v else m) m = m' ∧
        m' ∈ m :: l ∧ ∀ y ∈ m :: l, le m' y = true := by
    intro l
    induction l with
    | nil =>
      intro m hm _
      refine ⟨m, rfl, List.mem_cons_self, fun y hy => ?_⟩
      rw [List.mem_singleton.mp hy]
      exact le_rfl' hm
    | cons x l ih =>
      intro m hm hn
      have hx := hn x List.mem_cons_self
      have hn' : ∀ y ∈ l, y.isnan = false := fun y hy => hn y (List.mem_cons_of_mem _ hy)
      rw [List.foldl_cons, hm, hx, if_neg Bool.false_ne_true, if_neg Bool.false_ne_true]
      by_cases h : lt x m = true
      · rw [if_pos h]
        obtain ⟨m', h1, h2, h3⟩ := ih x hx hn'
        refine ⟨m', h1, List.mem_cons_of_mem _ h2, fun y hy => ?_⟩
        rcases List.mem_cons.mp hy with rfl | hy
        · exact le_trans' (h3 x List.mem_cons_self) (lt_le h)
        · exact h3 y hy
      · rw [if_neg h]
        obtain ⟨m', h1, h2, h3⟩ := ih m hm hn'
        refine ⟨m', h1, ?_, fun y hy => ?_⟩
        · rcases List.mem_cons.mp h2 with rfl | h2
          · exact List.mem_cons_self
          · exact List.mem_cons_of_mem _ (List.mem_cons_of_mem _ h2)
        · rcases List.mem_cons.mp hy with rfl | hy
          · exact h3 _ List.mem_cons_self
          · rcases List.mem_cons.mp hy with rfl | hy
            · exact le_trans' (h3 m List.mem_cons_self) ((not_lt_iff hx hm).mp (by simpa using h))
            · exact h3 y (List.mem_cons_of_mem _ hy)
  cases l with
  | nil => exact absurd rfl hl
  | cons x l =>
    obtain ⟨m, h1, h2, h3⟩ := key l x (hn x List.mem_cons_self) fun y hy => hn y (List.mem_cons_of_mem _ hy)
    exact ⟨m, by unfold npMin; rw [← h1], h2, h3⟩

theorem npMax_spec {l : List F} (hl : l ≠ []) (hn : ∀ x ∈ l, x.isnan = false) :
    ∃ m, npMax l = .ok m ∧ m ∈ l ∧ ∀ y ∈ l, le y m = true := by
  have key : ∀ (l : List F) (m : F), m.isnan = false → (∀ x ∈ l, x.isnan = false) →
      ∃ m', l.foldl (fun m v => if m.isnan then m else if v.isnan then v else if lt m v then v else m) m = m' ∧
        m' ∈ m :: l ∧ ∀ y ∈ m :: l, le y m' = true := by
    intro l
    induction l with
    | nil =>
      intro m hm _
      refine ⟨m, rfl, List.mem_cons_self, fun y hy => ?_⟩
      rw [List.mem_singleton.mp hy]
      exact le_rfl' hm
    | cons x l ih =>
      intro m hm hn
      have hx := hn x List.mem_cons_self
      have hn' : ∀ y ∈ l, y.isnan = false := fun y hy => hn y (List.mem_cons_of_mem _ hy)
      rw [List.foldl_cons, hm, hx, if_neg Bool.false_ne_true, if_neg Bool.false_ne_true]
      by_cases h : lt m x = true
      · rw [if_pos h]
        obtain ⟨m', h1, h2, h3⟩ := ih x hx hn'
        refine ⟨m', h1, List.mem_cons_of_mem _ h2, fun y hy => ?_⟩
        rcases List.mem_cons.mp hy with rfl | hy
        · exact le_trans' (lt_le h) (h3 x List.mem_cons_self)
        · exact h3 y hy
      · rw [if_neg h]
        obtain ⟨m', h1, h2, h3⟩ := ih m hm hn'
        refine ⟨m', h1, ?_, fun y hy => ?_⟩
        · rcases List.mem_cons.mp h2 with rfl | h2
          · exact List.mem_cons_self
          · exact List.mem_cons_of_mem _ (List.mem_cons_of_mem _ h2)
        · rcases List.mem_cons.mp hy with rfl | hy
          · exact h3 _ List.mem_cons_self
          · rcases List.mem_cons.mp hy with rfl | hy
            · exact le_trans' ((not_lt_iff hm hx).mp (by simpa using h)) (h3 m List.mem_cons_self)
            · exact h3 y (List.mem_cons_of_mem _ hy)
  cases l with
  | nil => exact absurd rfl hl
  | cons x l =>
    obtain ⟨m, h1, h2, h3⟩ := key l x (hn x List.mem_cons_self) fun y hy => hn y (List.mem_cons_of_mem _ hy)
    exact ⟨m, by unfold npMax; rw [← h1], h2, h3⟩

theorem sorted_le {s : List F} (hs : s.Pairwise fun x y => sortLe x y = true) (hn : ∀ x ∈ s, x.isnan = false) {i j : Nat}
    (hij : i ≤ j) (hj : j < s.length) : le (s.getD i nan) (s.getD j nan) = true := by
  rw [List.getD_eq_getElem _ nan (show i < s.length by omega), List.getD_eq_getElem _ nan hj]
  have hn' := hn _ (List.getElem_mem hj)
  by_cases he : i = j
  · subst he; exact le_rfl' hn'
  · have := List.pairwise_iff_getElem.mp hs i j (by omega) hj (by omega)
    simpa [sortLe, hn'] using this

theorem npMin_sorted {l : List F} (hl : l ≠ []) (hn : ∀ x ∈ l, x.isnan = false) :
    npMin l = .ok ((l.insertionSort fun x y => sortLe x y = true).getD 0 nan) := by
  obtain ⟨m, h1, h2, h3⟩ := npMin_spec hl hn
  set s := l.insertionSort fun x y => sortLe x y = true with hs
  have hp : s.Perm l := List.perm_insertionSort _ _
  have hpos : 0 < s.length := by rw [hp.length_eq]; exact List.length_pos_iff.mpr hl
  rw [h1]
  congr 1
  refine le_antisymm' (h3 _ (hp.mem_iff.mp ?_)) ?_
  · rw [List.getD_eq_getElem _ nan hpos]; exact List.getElem_mem _
  · obtain ⟨i, hi, rfl⟩ := List.getElem_of_mem (hp.mem_iff.mpr h2)
    have := sorted_le (List.pairwise_insertionSort _ l) (fun x hx => hn x (hp.mem_iff.mp hx)) (Nat.zero_le i) hi
    rwa [List.getD_eq_getElem _ nan (show i < _ from hi)] at this

theorem npMax_sorted {l : List F} (hl : l ≠ []) (hn : ∀ x ∈ l, x.isnan = false) :
    npMax l = .ok ((l.insertionSort fun x y => sortLe x y = true).getD (l.length - 1) nan) := by
  obtain ⟨m, h1, h2, h3⟩ := npMax_spec hl hn
  set s := l.insertionSort fun x y => sortLe x y = true with hs
  have hp : s.Perm l := List.perm_insertionSort _ _
  have hlen : s.length = l.length := hp.length_eq
  have hpos : 0 < l.length := List.length_pos_iff.mpr hl
  rw [h1]
  congr 1
  refine le_antisymm' ?_ (h3 _ (hp.mem_iff.mp ?_))
  · obtain ⟨i, hi, rfl⟩ := List.getElem_of_mem (hp.mem_iff.mpr h2)
    have := sorted_le (List.pairwise_insertionSort _ l) (fun x hx => hn x (hp.mem_iff.mp hx)) (show i ≤ l.length - 1 by omega)
      (show l.length - 1 < s.length by omega)
    rwa [List.getD_eq_getElem _ nan (show i < _ from hi)] at this
  · rw [List.getD_eq_getElem _ nan (by omega)]; exact List.getElem_mem _

theorem percentileSorted_eq (A : Arith) (l : List F) (c : ℚ) :
    percentileSorted A (l.insertionSort fun x y => sortLe x y = true) c = percentileOf A l c := by
  unfold percentileSorted percentileOf
  have hlen : (l.insertionSort fun x y => sortLe x y = true).length = l.length := List.length_insertionSort _ _
  by_cases h0 : l = []
  · subst h0; rfl
  have h0' : (l.insertionSort fun x y => sortLe x y = true) ≠ [] := fun h => h0 (by
    rw [h] at hlen
    exact List.length_eq_zero_iff.mp hlen.symm)
  rw [if_neg (show ¬ _ = true by simpa using h0'), if_neg (show ¬ l.isEmpty = true by simpa using h0), hlen]
  by_cases h1 : l.length = 1
  · rw [if_pos h1, if_pos h1]
    obtain ⟨x, rfl⟩ := List.length_eq_one_iff.mp h1
    rfl
  · rw [if_neg h1, if_neg h1]
    dsimp only
    by_cases h2 : l.length ≤ ⌈c * ((l.length - 1 : Nat) : ℚ)⌉.toNat
    · rw [if_pos h2, if_pos h2]
    · rw [if_neg h2, if_neg h2]
      by_cases h3 : ⌊c * ((l.length - 1 : Nat) : ℚ)⌋.toNat = ⌈c * ((l.length - 1 : Nat) : ℚ)⌉.toNat
      · rw [if_pos h3, if_pos h3, h3]
      · rw [if_neg h3, if_neg h3]

theorem nanstd_perm {l w : List F} (h : l.Perm w) {sqrt : F → F} (hs : sqrt nan = nan) (ddof : Nat) :
    Vbt.nanstd (Arith.exact r t) sqrt l ddof = Vbt.nanstd (Arith.exact r t) sqrt w ddof := by
  rw [← onePass_exact hs, ← onePass_exact hs]
  congr 1
  refine h.foldl_eq' (fun x _ y _ s => ?_) _
  unfold stdTurn
  cases hx : x.isnan <;> cases hy : y.isnan <;> simp [hx, hy, add_right_comm_exact]

/-- In exact arithmetic, of values without infinities and percentiles from 0 to 1, both engines give the same summary. -/
theorem describe_exact {sqrt : F → F} (hs : sqrt nan = nan) {l : List F} (hl : NoInf l) {perc : List ℚ}
    (hp : ∀ c ∈ perc, 0 ≤ c ∧ c ≤ 1) (ddof : Nat) :
    describe (Arith.exact r t) sqrt l perc ddof = Vbt.describe (Arith.exact r t) sqrt l perc ddof := by
  unfold describe Vbt.describe
  dsimp only
  have hfil := filter_eq_nums hl
  have hn : ∀ x ∈ (l.filter fun x => !x.isnan), x.isnan = false := fun x hx => by
    have := (List.mem_filter.mp hx).2
    simpa using this
  generalize hv : (l.filter fun x => !x.isnan) = vals at hfil hn
  have hper : (vals.insertionSort fun x y => sortLe x y = true).Perm vals := List.perm_insertionSort _ _
  have hlen := hper.length_eq
  by_cases h0 : vals = []
  · subst h0
    rfl
  have hpos : 0 < vals.length := List.length_pos_iff.mpr h0
  rw [if_neg (show ¬ (vals.insertionSort fun x y => sortLe x y = true).isEmpty = true by
    intro h; rw [List.isEmpty_iff.mp h] at hlen; simp only [List.length_nil] at hlen; omega), if_pos hpos,
    npMin_sorted h0 hn, npMax_sorted h0 hn]
  have hxs : nums l ≠ [] := fun h => h0 (by rw [hfil, h]; rfl)
  have hm : mapE (percentileSorted (Arith.exact r t) (vals.insertionSort fun x y => sortLe x y = true)) perc =
      mapE (percentile (Arith.exact r t) vals) perc := by
    clear hs
    induction perc with
    | nil => rfl
    | cons c perc ih =>
      obtain ⟨h1, h2⟩ := hp c List.mem_cons_self
      unfold mapE
      rw [ih fun c hc => hp c (List.mem_cons_of_mem _ hc), percentileSorted_eq, hfil, percentile_exact hxs h1 h2]
  rw [hm]
  cases mapE (percentile (Arith.exact r t) vals) perc with
  | error e => rfl
  | ok ps =>
    dsimp only
    rw [hlen, hper.foldl_eq' fun x _ y _ s => add_right_comm_exact s x y]
    unfold nanstd1
    rw [std_exact hs, List.map_id, nanstd_perm hper hs]

end Vbt.RsRed
