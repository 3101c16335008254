import Verif.Model.RustLabels
import Verif.Props.C77
import Verif.Props.C84

/-!
# Lemmas about local extrema, trend labels and breakouts of the Rust engine
-/

namespace Vbt
open F RsGen RsLab

/-! ## Columns -/

theorem nbCols_congr {β : Type} {f g : Nat → Except Err (Nat → β)} {ncols : Nat} (h : ∀ c < ncols, f c = g c) (out0 : Nat → Nat → β) :
    nbCols f out0 ncols = nbCols g out0 ncols := by
  unfold nbCols
  refine loopE_congr (fun c hc s => ?_) _
  rw [h c (by simpa using hc)]

/-- Columns that agree unless the second raises `e`. -/
theorem nbCols_unless {β : Type} {f g : Nat → Except Err (Nat → β)} {ncols : Nat} {e : Err}
    (h : ∀ c < ncols, g c = .error e ∨ f c = g c) (out0 : Nat → Nat → β) :
    nbCols g out0 ncols = .error e ∨ nbCols f out0 ncols = nbCols g out0 ncols := by
  unfold nbCols
  have key : ∀ (l : List Nat), (∀ c ∈ l, c < ncols) → ∀ out : Nat → Nat → β,
      loopE (fun out col => match g col with
        | .error e => .error e
        | .ok v => .ok fun i c => if c = col then v i else out i c) out l = (.error e : Except Err (Nat → Nat → β)) ∨
      loopE (fun out col => match f col with
        | .error e => .error e
        | .ok v => .ok fun i c => if c = col then v i else out i c) out l =
      loopE (fun out col => match g col with
        | .error e => .error e
        | .ok v => .ok fun i c => if c = col then v i else out i c) out l := by
    intro l
    induction l with
    | nil => exact fun _ _ => .inr rfl
    | cons c l ih =>
      intro hl out
      unfold loopE
      rcases h c (hl c (by simp)) with h | h
      · rw [h]; exact .inl rfl
      · rw [h]
        cases g c with
        | error e' => exact .inr rfl
        | ok v => exact ih (fun c hc => hl c (by simp [hc])) _
  exact key _ (fun c hc => by simpa using hc) _

/-! ## Thresholds -/

theorem thresholds_get (pos neg : Rs.FlexArray F) (i c : Nat) :
    (thresholds pos neg).1 i c = pos.get i c ∧ (thresholds pos neg).2 i c = neg.get i c := by
  cases pos <;> cases neg <;> exact ⟨rfl, rfl⟩

/-- Thresholds that both can be broadcast read what the Numba engine reads. -/
theorem readThresholds_ok {pos neg : NArr F} {nrows ncols : Nat} {flex2d : Bool} (hp : pos.shape.length ≤ 2)
    (hn : neg.shape.length ≤ 2) (bp : Broadcastable (pos.operand flex2d).shape [nrows, ncols])
    (bn : Broadcastable (neg.operand flex2d).shape [nrows, ncols]) :
    ∃ th, readThresholds pos neg nrows ncols flex2d = .ok th ∧ ∀ i < nrows, ∀ c < ncols,
      (thresholds th.1 th.2).1 i c = flexSelectAuto pos i c flex2d ∧
      (thresholds th.1 th.2).2 i c = flexSelectAuto neg i c flex2d := by
  obtain ⟨p, p1, p2⟩ := (C84_flex "pos_th" pos nrows ncols flex2d hp).1 bp
  obtain ⟨n, n1, n2⟩ := (C84_flex "neg_th" neg nrows ncols flex2d hn).1 bn
  refine ⟨(p, n), ?_, fun i hi c hc => ?_⟩
  · unfold readThresholds
    rw [p1]
    dsimp only
    rw [n1]
  · rw [(thresholds_get p n i c).1, (thresholds_get p n i c).2]
    exact ⟨p2 i hi c hc, n2 i hi c hc⟩

theorem readThresholds_error {pos neg : NArr F} {nrows ncols : Nat} {flex2d : Bool} (hp : pos.shape.length ≤ 2)
    (hn : neg.shape.length ≤ 2) (hb : ¬ (Broadcastable (pos.operand flex2d).shape [nrows, ncols] ∧
      Broadcastable (neg.operand flex2d).shape [nrows, ncols])) :
    ∃ m, readThresholds pos neg nrows ncols flex2d = .error (.valueError m) := by
  unfold readThresholds
  by_cases bp : Broadcastable (pos.operand flex2d).shape [nrows, ncols]
  · obtain ⟨p, p1, -⟩ := (C84_flex "pos_th" pos nrows ncols flex2d hp).1 bp
    obtain ⟨m, hm⟩ := (C84_flex "neg_th" neg nrows ncols flex2d hn).2 (fun bn => hb ⟨bp, bn⟩)
    refine ⟨m, ?_⟩
    rw [p1]
    dsimp only
    rw [hm]
  · obtain ⟨m, hm⟩ := (C84_flex "pos_th" pos nrows ncols flex2d hp).2 bp
    exact ⟨m, by rw [hm]⟩

/-! ## Local extrema -/

/-- One turn, with thresholds that agree on the row of the last extremum. -/
theorem extTurn_eq (A : Arith) (a : Nat → F) {pos neg pos' neg' : Nat → F} (nrows : Nat) (s : ExtState) (i : Nat)
    (hp : pos s.prev = pos' s.prev) (hn : neg s.prev = neg' s.prev) :
    extTurn A a pos neg nrows s i = extStep A a pos' neg' nrows s i := by
  have hb : extTurnBranch A a pos neg s i = extBranch A a pos' neg' s i := by
    unfold extTurnBranch extBranch thrUp thrDown
    simp only [hp, hn]
  unfold extTurn extStep
  rw [hp, hn]
  dsimp only
  rw [hb]
  by_cases h1 : eqb (abs (pos' s.prev)) zero = true
  · rw [if_pos h1, if_pos h1]
  · rw [if_neg h1, if_neg h1]
    by_cases h2 : eqb (abs (neg' s.prev)) zero = true
    · rw [if_pos h2, if_pos h2]
    · rw [if_neg h2, if_neg h2]
      by_cases h3 : i = nrows - 1 ∧ (extBranch A a pos' neg' s i).dir ≠ 0
      · rw [if_pos h3, if_pos h3]
      · rw [if_neg h3, if_neg h3]

theorem extStep_prev {A : Arith} {a pos neg : Nat → F} {nrows : Nat} {s s' : ExtState} {i : Nat}
    (h : extStep A a pos neg nrows s i = .ok s') : s'.prev = s.prev ∨ s'.prev = i := by
  unfold extStep at h
  by_cases h1 : eqb (abs (pos s.prev)) zero = true
  · rw [if_pos h1] at h; cases h
  · rw [if_neg h1] at h
    by_cases h2 : eqb (abs (neg s.prev)) zero = true
    · rw [if_pos h2] at h; cases h
    · rw [if_neg h2] at h
      have hb : (extBranch A a pos neg s i).prev = s.prev ∨ (extBranch A a pos neg s i).prev = i := by
        unfold extBranch
        split
        · split
          · exact .inr rfl
          · split
            · exact .inr rfl
            · exact .inl rfl
        · split
          · split
            · exact .inr rfl
            · split
              · exact .inr rfl
              · exact .inl rfl
          · split
            · exact .inr rfl
            · split
              · exact .inr rfl
              · exact .inl rfl
      dsimp only at h
      rw [← Except.ok.inj h]
      split <;> exact hb

theorem extLoop_eq (A : Arith) (a : Nat → F) {pos neg pos' neg' : Nat → F} {nrows : Nat} (hp : ∀ i < nrows, pos i = pos' i)
    (hn : ∀ i < nrows, neg i = neg' i) {l : List Nat} (hl : ∀ i ∈ l, i < nrows) (s : ExtState) (hs : l ≠ [] → s.prev < nrows) :
    loopE (extTurn A a pos neg nrows) s l = loopE (extStep A a pos' neg' nrows) s l := by
  induction l generalizing s with
  | nil => rfl
  | cons i l ih =>
    unfold loopE
    have h0 := hs (by simp)
    rw [extTurn_eq A a nrows s i (hp _ h0) (hn _ h0)]
    cases hst : extStep A a pos' neg' nrows s i with
    | error e => rfl
    | ok s' =>
      refine ih (fun j hj => hl j (by simp [hj])) s' fun _ => ?_
      rcases extStep_prev hst with h | h
      · omega
      · rw [h]; exact hl i (by simp)

/-! ## Trends -/

/-- Neighbouring elements, the first of them next to the last one seen. -/
def neighbours : Option Nat → List Nat → List (Nat × Nat)
  | none, xs => xs.zip xs.tail
  | some p, xs => (p :: xs).zip xs

theorem trendTurn_pairs (f : Nat → Nat → (Nat → F) → Except Err (Nat → F)) (ext : Nat → Int) (l : List Nat) (prev : Option Nat)
    (out : Nat → F) :
    (match loopE (trendTurn f ext) (prev, out) l with
      | .error e => .error e
      | .ok s => .ok s.2) =
      loopE (fun out (pq : Nat × Nat) => f pq.1 pq.2 out) out (neighbours prev (l.filter fun i => ext i ≠ 0)) := by
  induction l generalizing prev out with
  | nil => cases prev <;> rfl
  | cons i l ih =>
    by_cases h : ext i = 0
    · have e1 : trendTurn f ext (prev, out) i = .ok (prev, out) := by unfold trendTurn; rw [if_pos h]
      rw [List.filter_cons_of_neg (by simp [h])]
      refine Eq.trans ?_ (ih prev out)
      conv_lhs => unfold loopE
      rw [e1]
    · rw [List.filter_cons_of_pos (by simp [h])]
      cases prev with
      | none =>
        have e1 : trendTurn f ext (none, out) i = .ok (some i, out) := by unfold trendTurn; rw [if_neg h]
        refine Eq.trans ?_ (ih (some i) out)
        conv_lhs => unfold loopE
        rw [e1]
      | some p =>
        have e2 : neighbours (some p) (i :: l.filter fun i => ext i ≠ 0) = (p, i) :: neighbours (some i) (l.filter fun i => ext i ≠ 0) := rfl
        rw [e2]
        conv_rhs => unfold loopE
        conv_lhs => unfold loopE
        have e1 : trendTurn f ext (some p, out) i =
            match f p i out with
            | .error e => .error e
            | .ok out => .ok (some i, out) := by unfold trendTurn; rw [if_neg h]; rfl
        rw [e1]
        dsimp only
        cases f p i out with
        | error e => rfl
        | ok out' => exact ih (some i) out'

theorem trendLoop_pairs (f : Nat → Nat → (Nat → F) → Except Err (Nat → F)) (ext : Nat → Int) (n : Nat) :
    trendLoop f ext n =
      loopE (fun out (pq : Nat × Nat) => f pq.1 pq.2 out) (fun _ => nan) ((nonzeroRows ext n).zip (nonzeroRows ext n).tail) :=
  Eq.trans (by unfold trendLoop; cases loopE (trendTurn f ext) (none, fun _ => nan) (List.range n) <;> rfl)
    (trendTurn_pairs f ext (List.range n) none fun _ => nan)

/-- Neighbouring extrema are in order. -/
theorem zip_tail_lt {l : List Nat} (h : l.Pairwise (· < ·)) {pq : Nat × Nat} (hpq : pq ∈ l.zip l.tail) : pq.1 < pq.2 ∧ pq.2 ∈ l := by
  induction l with
  | nil => simp at hpq
  | cons x l ih =>
    cases l with
    | nil => simp at hpq
    | cons y l =>
      rw [List.tail_cons, List.zip_cons_cons, List.mem_cons] at hpq
      rw [List.pairwise_cons] at h
      rcases hpq with rfl | hpq
      · exact ⟨h.1 y (by simp), by simp⟩
      · have := ih h.2 hpq
        exact ⟨this.1, List.mem_cons_of_mem _ this.2⟩

theorem nonzeroRows_pairs (ext : Nat → Int) (n : Nat) {pq : Nat × Nat} (h : pq ∈ (nonzeroRows ext n).zip (nonzeroRows ext n).tail) :
    pq.1 < pq.2 ∧ pq.2 < n := by
  have hs : (nonzeroRows ext n).Pairwise (· < ·) := List.Pairwise.filter _ List.pairwise_lt_range
  obtain ⟨h1, h2⟩ := zip_tail_lt hs h
  refine ⟨h1, ?_⟩
  unfold nonzeroRows at h2
  exact List.mem_range.mp (List.mem_filter.mp h2).1

/-- The loop over rows does what the loop over neighbouring extrema does. -/
theorem trendLoop_unless {f : Nat → Nat → (Nat → F) → Except Err (Nat → F)} {g : Nat → Nat → Nat → Except Err F} {ext : Nat → Int}
    {n : Nat} {e : Err} (h : ∀ p q out, p < q → q < n → trendRows g out (p, q) = .error e ∨ f p q out = trendRows g out (p, q)) :
    overTrends g ext n = .error e ∨ trendLoop f ext n = overTrends g ext n := by
  unfold overTrends
  rw [trendLoop_pairs]
  have key : ∀ l : List (Nat × Nat), (∀ pq ∈ l, pq.1 < pq.2 ∧ pq.2 < n) → ∀ out,
      loopE (trendRows g) out l = .error e ∨
      loopE (fun out (pq : Nat × Nat) => f pq.1 pq.2 out) out l = loopE (trendRows g) out l := by
    intro l
    induction l with
    | nil => exact fun _ _ => .inr rfl
    | cons pq l ih =>
      intro hl out
      unfold loopE
      obtain ⟨h1, h2⟩ := hl pq (by simp)
      rcases h pq.1 pq.2 out h1 h2 with h | h
      · rw [show trendRows g out pq = _ from h]; exact .inl rfl
      · rw [show trendRows g out pq = f pq.1 pq.2 out from h.symm]
        cases f pq.1 pq.2 out with
        | error e' => exact .inr rfl
        | ok v => exact ih (fun x hx => hl x (by simp [hx])) v
  exact key _ (fun pq hpq => nonzeroRows_pairs ext n hpq) _

theorem trendLoop_eq {f : Nat → Nat → (Nat → F) → Except Err (Nat → F)} {g : Nat → Nat → Nat → Except Err F} {ext : Nat → Int}
    {n : Nat} (h : ∀ p q out, p < q → q < n → f p q out = trendRows g out (p, q)) :
    trendLoop f ext n = overTrends g ext n := by
  unfold overTrends
  rw [trendLoop_pairs]
  refine loopE_congr (fun pq hpq out => ?_) _
  obtain ⟨h1, h2⟩ := nonzeroRows_pairs ext n hpq
  exact h pq.1 pq.2 out h1 h2

/-- Rows whose label is computed without an error. -/
theorem trendRows_pure {g : Nat → Nat → Nat → Except Err F} {p q : Nat} {v : Nat → F} (h : ∀ i, p ≤ i → i < q → g p q i = .ok (v i))
    (out : Nat → F) : trendRows g out (p, q) = .ok (writeRows p q v out) := by
  unfold trendRows writeRows
  dsimp only
  have key : ∀ l : List Nat, (∀ i ∈ l, p ≤ i ∧ i < q) → ∀ out,
      loopE (fun out i => match g p q i with
        | .error e => .error e
        | .ok v => .ok (setAt out i v)) out l = (.ok (l.foldl (fun out i => setAt out i (v i)) out) : Except Err (Nat → F)) := by
    intro l
    induction l with
    | nil => exact fun _ _ => rfl
    | cons i l ih =>
      intro hl out
      unfold loopE
      rw [h i (hl i (by simp)).1 (hl i (by simp)).2]
      exact ih (fun j hj => hl j (by simp [hj])) _
  exact key _ (fun i hi => by rw [List.mem_range'_1] at hi; omega) _

/-- Rows whose label is computed without an error unless `e` is raised. -/
theorem trendRows_unless {g : Nat → Nat → Nat → Except Err F} {p q : Nat} {v : Nat → F} {e : Err}
    (h : ∀ i, p ≤ i → i < q → g p q i = .error e ∨ g p q i = .ok (v i)) (out : Nat → F) :
    trendRows g out (p, q) = .error e ∨ trendRows g out (p, q) = .ok (writeRows p q v out) := by
  unfold trendRows writeRows
  dsimp only
  have key : ∀ l : List Nat, (∀ i ∈ l, p ≤ i ∧ i < q) → ∀ out,
      loopE (fun out i => match g p q i with
        | .error e => .error e
        | .ok v => .ok (setAt out i v)) out l = (.error e : Except Err (Nat → F)) ∨
      loopE (fun out i => match g p q i with
        | .error e => .error e
        | .ok v => .ok (setAt out i v)) out l = (.ok (l.foldl (fun out i => setAt out i (v i)) out) : Except Err (Nat → F)) := by
    intro l
    induction l with
    | nil => exact fun _ _ => .inr rfl
    | cons i l ih =>
      intro hl out
      unfold loopE
      rcases h i (hl i (by simp)).1 (hl i (by simp)).2 with h | h
      · rw [h]; exact .inl rfl
      · rw [h]
        exact ih (fun j hj => hl j (by simp [hj])) _
  exact key _ (fun i hi => by rw [List.mem_range'_1] at hi; omega) _

/-- Rows whose label cannot be computed. -/
theorem trendRows_error {g : Nat → Nat → Nat → Except Err F} {p q : Nat} (hpq : p < q) {e : Err} (h : g p q p = .error e)
    (out : Nat → F) : trendRows g out (p, q) = .error e := by
  unfold trendRows
  dsimp only
  obtain ⟨k, hk⟩ : ∃ k, q - p = k + 1 := ⟨q - p - 1, by omega⟩
  rw [hk, List.range'_succ]
  unfold loopE
  rw [h]

/-! ### The range of the prices -/

theorem minMaxFrom_nan (a : Nat → F) {l : List Nat} {i : Nat} (hi : i ∈ l) (hn : (a i).isnan = true) (s : F × F) :
    minMaxFrom a l s = (nan, nan) := by
  induction l generalizing s with
  | nil => simp at hi
  | cons k l ih =>
    unfold minMaxFrom
    by_cases hk : (a k).isnan = true
    · rw [if_pos hk]
    · rw [if_neg hk]
      refine ih ?_ _
      rcases List.mem_cons.mp hi with rfl | h
      · exact absurd hn hk
      · exact h

theorem minMaxFrom_fold (a : Nat → F) {l : List Nat} (hn : ∀ i ∈ l, (a i).isnan = false) {s : F × F}
    (h1 : s.1.isnan = false) (h2 : s.2.isnan = false) :
    minMaxFrom a l s =
      ((l.map a).foldl (fun m v => if m.isnan then m else if v.isnan then v else if lt v m then v else m) s.1,
       (l.map a).foldl (fun m v => if m.isnan then m else if v.isnan then v else if lt m v then v else m) s.2) := by
  induction l generalizing s with
  | nil => rfl
  | cons k l ih =>
    have hk := hn k (by simp)
    unfold minMaxFrom
    rw [if_neg (by simp [hk]), List.map_cons, List.foldl_cons, List.foldl_cons]
    simp only [h1, h2, hk, Bool.false_eq_true, if_false]
    rw [ih (fun i hi => hn i (by simp [hi]))]
    · rfl
    · dsimp only; split <;> assumption
    · dsimp only; split <;> assumption

theorem fold_nan_left (test : F → F → Bool) (l : List F) :
    l.foldl (fun m v => if m.isnan then m else if v.isnan then v else if test v m then v else m) nan = nan := by
  induction l with
  | nil => rfl
  | cons x l ih => rw [List.foldl_cons, if_pos (by rfl)]; exact ih

theorem fold_nan_mem (test : F → F → Bool) {l : List F} {x : F} (hx : x ∈ l) (hn : x.isnan = true) (m : F) :
    l.foldl (fun m v => if m.isnan then m else if v.isnan then v else if test v m then v else m) m = nan := by
  have isnan_eq : ∀ y : F, y.isnan = true → y = nan := by intro y hy; cases y <;> simp_all [isnan]
  induction l generalizing m with
  | nil => simp at hx
  | cons y l ih =>
    rw [List.foldl_cons]
    by_cases hm : m.isnan = true
    · rw [if_pos hm, isnan_eq m hm]; exact fold_nan_left test l
    · rw [if_neg hm]
      by_cases hy : y.isnan = true
      · rw [if_pos hy, isnan_eq y hy]; exact fold_nan_left test l
      · rw [if_neg hy]
        refine ih ?_ _
        rcases List.mem_cons.mp hx with rfl | h
        · exact absurd hn hy
        · exact h

/-- The range of the prices between two extrema. -/
theorem trendRange_eq (a : Nat → F) {p q : Nat} (h : p ≤ q) : trendRange a p q = .ok (sliceMinMax a p q) := by
  obtain ⟨k, hk⟩ : ∃ k, q + 1 - p = k + 1 := ⟨q - p, by omega⟩
  unfold trendRange trendSlice sliceMinMax
  rw [hk, List.range'_succ, List.map_cons]
  show Except.ok (_, _) = _
  congr 1
  by_cases hn : ∃ i ∈ p :: List.range' (p + 1) k, (a i).isnan = true
  · obtain ⟨i, i1, i2⟩ := hn
    rw [minMaxFrom_nan a i1 i2]
    have h1 : ∀ test : F → F → Bool, ((List.range' (p + 1) k).map a).foldl
        (fun m v => if m.isnan then m else if v.isnan then v else if test v m then v else m) (a p) = nan := by
      intro test
      rcases List.mem_cons.mp i1 with rfl | i1
      · have : a i = nan := by cases hai : a i <;> rw [hai] at i2 <;> simp_all [isnan]
        rw [this]
        exact fold_nan_left test _
      · exact fold_nan_mem test (List.mem_map.mpr ⟨i, i1, rfl⟩) i2 _
    rw [Prod.mk.injEq]
    exact ⟨h1 lt, h1 fun v m => lt m v⟩
  · have hnn : ∀ i ∈ p :: List.range' (p + 1) k, (a i).isnan = false := by
      intro i hi
      by_contra hc
      exact hn ⟨i, hi, by simpa using hc⟩
    have hp := hnn p (by simp)
    rw [minMaxFrom_fold a hnn rfl rfl, List.map_cons, List.foldl_cons, List.foldl_cons]
    have e1 : (if isnan pinf = true then pinf else if (a p).isnan = true then a p else if lt (a p) pinf = true then a p else pinf) = a p := by
      cases hap : a p <;> rw [hap] at hp <;> simp_all [isnan, lt]
    have e2 : (if isnan ninf = true then ninf else if (a p).isnan = true then a p else if lt ninf (a p) = true then a p else ninf) = a p := by
      cases hap : a p <;> rw [hap] at hp <;> simp_all [isnan, lt]
    rw [e1, e2]

/-! ### Divisions -/

theorem divE_unless (A : Arith) (x y : F) : divE A x y = .error .zeroDivision ∨ divE A x y = .ok (div A x y) := by
  unfold divE
  split
  · exact .inl rfl
  · exact .inr rfl

theorem satLabel_unless (A : Arith) (a : Nat → F) (p q i : Nat) (pt nt : F) (r : F × F) :
    satLabel A a p q i pt nt r = .error .zeroDivision ∨
      satLabel A a p q i pt nt r = .ok (satValue A (gt (a q) (a p)) (a i) pt nt r) := by
  unfold satLabel satValue
  by_cases h : gt (a q) (a p) = true
  · rw [if_pos h, if_pos h]
    rcases divE_unless A r.2 (add A one pt) with h1 | h1
    · rw [h1]; exact .inl rfl
    · rw [h1]
      dsimp only
      split
      · exact .inr rfl
      · rcases divE_unless A (sub A (a i) (div A r.2 (add A one pt))) (sub A r.2 (div A r.2 (add A one pt))) with h2 | h2
        · rw [h2]; exact .inl rfl
        · rw [h2]; exact .inr rfl
  · rw [if_neg h, if_neg h]
    rcases divE_unless A r.1 (sub A one nt) with h1 | h1
    · rw [h1]; exact .inl rfl
    · rw [h1]
      dsimp only
      split
      · exact .inr rfl
      · rcases divE_unless A (sub A (a i) r.1) (sub A (div A r.1 (sub A one nt)) r.1) with h2 | h2
        · rw [h2]; exact .inl rfl
        · rw [h2]; exact .inr rfl

/-! ## Breakouts -/

theorem breakoutLoop_eq (A : Arith) (a : Nat → F) (i : Nat) (pt nt : F) (l : List Nat) :
    breakoutLoop A a i pt nt l = F.fin ((breakoutScan A a i pt nt l : Int) : ℚ) := by
  induction l with
  | nil => simp [breakoutLoop, breakoutScan, F.zero]
  | cons j l ih =>
    unfold breakoutLoop breakoutScan
    split
    · simp [F.one]
    · split
      · simp
      · exact ih

end Vbt
