import Verif.Model.RustColumns
import Verif.Spec.RustColumns
import Verif.Props.C45
import Verif.Props.C46
import Verif.Props.C47
import Verif.Props.C67

/-!
# Lemmas about the columns of records on the Rust engine
-/

namespace Vbt.RsCol
open F

theorem asUsize_nat (n : Nat) : asUsize (n : Int) = n := by
  unfold asUsize
  rw [if_pos (Int.natCast_nonneg n)]
  rfl

theorem normalizeCol_lt {c n : Nat} (h : c < n) : normalizeCol (c : Int) n = c := by
  unfold normalizeCol
  simp only [asUsize_nat]
  rw [if_pos h]

theorem put_lt {α : Type} {n i : Nat} (h : i < n) (v : Nat → α) (x : α) : put n v i x = .ok (setAt v i x) := if_pos h

theorem look_lt {α : Type} {n i : Nat} (h : i < n) (v : Nat → α) : look n v i = .ok (v i) := if_pos h

theorem at_getElem {α : Type} {l : List α} {i : Nat} (h : i < l.length) : at_ l i = .ok l[i] := by
  unfold at_
  rw [List.getElem?_eq_getElem h]

/-! ## Column range -/

/-- The ranges of Numba and the flat ranges of Rust. -/
inductive SameRange : Except Err RangeState → Except Err (Nat → Int) → Prop
  | returns {s : RangeState} {out : Nat → Int} (h : ∀ c, s.from_ c = out (c * 2) ∧ s.to_ c = out (c * 2 + 1)) :
      SameRange (.ok s) (.ok out)
  | raises (e : Err) : SameRange (.error e) (.error e)

/-- What Rust does after its loop. -/
def closeRange (nCols total : Nat) : Except Err RangeSt → Except Err (Nat → Int)
  | .error e => .error e
  | .ok s => put (nCols * 2) s.out (normalizeCol s.last nCols * 2 + 1) (total : Int)

theorem rangeStep_same {c nCols : Nat} (hc : c < nCols) (st : RangeSt) {x k : Nat} (hx : x < nCols) (hl : st.last = (c : Int))
    (h1 : ¬ x < c) :
    rangeStep nCols st ((x : Int), k) =
      .ok (if x ≠ c then ⟨setAt (setAt st.out (c * 2 + 1) (k : Int)) (x * 2) (k : Int), (x : Int)⟩ else st) := by
  unfold rangeStep
  simp only [hl, normalizeCol_lt hc, normalizeCol_lt hx]
  rw [if_neg (by omega)]
  by_cases h : x = c
  · subst h
    rw [if_neg (by omega), if_neg (by omega)]
  · rw [if_pos (by omega), put_lt (by omega)]
    simp only
    rw [put_lt (by omega), if_pos h]

theorem range_tail {nCols : Nat} (total : Nat) : ∀ (rest : List Nat) (k : Nat) (s : RangeState) (st : RangeSt) (c : Nat),
    (∀ d ∈ rest, d < nCols) → c < nCols → s.last = (c : Int) → st.last = (c : Int) →
    (∀ d, s.from_ d = st.out (d * 2) ∧ s.to_ d = st.out (d * 2 + 1)) → rest ≠ [] → k + rest.length = total →
    SameRange (loopE (colRangeStep total) s (rest.zipIdx k))
      (closeRange nCols total (loopE (rangeStep nCols) st ((ints rest).zipIdx k))) := by
  intro rest
  induction rest with
  | nil => intro k s st c _ _ _ _ _ h; exact absurd rfl h
  | cons x xs ih =>
    intro k s st c hr hc hs hst hrel _ hlen
    have hx : x < nCols := hr x (by simp)
    rw [List.length_cons] at hlen
    unfold ints
    rw [List.map_cons, List.zipIdx_cons, List.zipIdx_cons]
    unfold loopE
    by_cases h1 : x < c
    · have e1 : colRangeStep total s (x, k) = .error (.valueError "col_arr must be in ascending order") := by
        unfold colRangeStep
        rw [if_pos (by rw [hs]; simpa using h1)]
      have e2 : rangeStep nCols st ((x : Int), k) = .error (.valueError "col_arr must be in ascending order") := by
        unfold rangeStep
        rw [if_pos (by rw [hst]; simpa using h1)]
      rw [e1, e2]
      exact .raises _
    · rw [rangeStep_same hc st hx hst h1]
      simp only
      have e1 : colRangeStep total s (x, k) = .ok (
          let s1 := if x ≠ c then { from_ := setAt s.from_ x (k : Int), to_ := setAt s.to_ c (k : Int), last := (x : Int) } else s
          if k + 1 = total then { s1 with to_ := setAt s1.to_ x ((k : Int) + 1) } else s1) := by
        unfold colRangeStep
        rw [if_neg (by rw [hs]; simp only; omega)]
        simp only [hs]
        by_cases h : x = c
        · subst h; simp
        · have a1 : (x : Int) ≠ (c : Int) := by omega
          have a2 : (c : Int) ≠ -1 := by omega
          simp only [a1, a2, h, ne_eq, not_false_eq_true, if_true, Int.toNat_natCast]
      rw [e1]
      simp only
      have hrel' : ∀ d, (if x ≠ c then ({ from_ := setAt s.from_ x (k : Int), to_ := setAt s.to_ c (k : Int), last := (x : Int) } : RangeState) else s).from_ d =
          (if x ≠ c then (⟨setAt (setAt st.out (c * 2 + 1) (k : Int)) (x * 2) (k : Int), (x : Int)⟩ : RangeSt) else st).out (d * 2) ∧
          (if x ≠ c then ({ from_ := setAt s.from_ x (k : Int), to_ := setAt s.to_ c (k : Int), last := (x : Int) } : RangeState) else s).to_ d =
          (if x ≠ c then (⟨setAt (setAt st.out (c * 2 + 1) (k : Int)) (x * 2) (k : Int), (x : Int)⟩ : RangeSt) else st).out (d * 2 + 1) := by
        intro d
        by_cases h : x = c
        · rw [if_neg (by simpa using h), if_neg (by simpa using h)]; exact hrel d
        · rw [if_pos h, if_pos h]
          simp only [setAt]
          constructor
          · by_cases hd : d = x
            · rw [if_pos hd, if_pos (by omega)]
            · rw [if_neg hd, if_neg (by omega), if_neg (by omega)]; exact (hrel d).1
          · rw [if_neg (show ¬ d * 2 + 1 = x * 2 by omega)]
            by_cases hd : d = c
            · rw [if_pos hd, if_pos (by omega)]
            · rw [if_neg hd, if_neg (by omega)]; exact (hrel d).2
      generalize hA : (if x ≠ c then ({ from_ := setAt s.from_ x (k : Int), to_ := setAt s.to_ c (k : Int), last := (x : Int) } : RangeState) else s) = s1 at hrel'
      generalize hB : (if x ≠ c then (⟨setAt (setAt st.out (c * 2 + 1) (k : Int)) (x * 2) (k : Int), (x : Int)⟩ : RangeSt) else st) = st1 at hrel'
      have hl1 : s1.last = (x : Int) := by
        rw [← hA]
        by_cases h : x = c
        · rw [if_neg (by simpa using h), hs, h]
        · rw [if_pos h]
      have hl2 : st1.last = (x : Int) := by
        rw [← hB]
        by_cases h : x = c
        · rw [if_neg (by simpa using h), hst, h]
        · rw [if_pos h]
      by_cases hxs : xs = []
      · subst hxs
        rw [if_pos (by simpa using hlen)]
        simp only [List.map_nil, List.zipIdx_nil, loopE]
        unfold closeRange
        simp only [hl2, normalizeCol_lt hx]
        rw [put_lt (by omega)]
        refine .returns fun d => ?_
        simp only [setAt]
        constructor
        · rw [if_neg (by omega)]; exact (hrel' d).1
        · by_cases hd : d = x
          · rw [if_pos hd, if_pos (by omega)]
            simp at hlen
            omega
          · rw [if_neg hd, if_neg (by omega)]; exact (hrel' d).2
      · have hne : ¬ k + 1 = total := by
          have : 0 < xs.length := List.length_pos_iff.mpr hxs
          omega
        rw [if_neg hne]
        exact ih (k + 1) s1 st1 x (fun d hd => hr d (by simp [hd])) hx hl1 hl2 hrel' hxs (by omega)

/-- The ranges of both engines are the same, and both raise for the same columns. -/
theorem colRange_same {cols : List Nat} {nCols : Nat} (h : ∀ c ∈ cols, c < nCols) :
    SameRange (Vbt.colRange cols) (colRange (ints cols) nCols) := by
  cases cols with
  | nil => exact .returns fun c => ⟨rfl, rfl⟩
  | cons c rest =>
    have hc : c < nCols := h c (by simp)
    have e : colRange (ints (c :: rest)) nCols = closeRange nCols (rest.length + 1)
        (loopE (rangeStep nCols) ⟨setAt (fun _ => -1) (c * 2) 0, (c : Int)⟩ ((ints rest).zipIdx 1)) := by
      unfold colRange ints
      simp only [List.map_cons, normalizeCol_lt hc, List.length_map]
      rw [put_lt (by omega)]
      simp only
      unfold closeRange
      rfl
    unfold Vbt.colRange
    rw [List.zipIdx_cons]
    unfold loopE
    rw [e]
    have e1 : colRangeStep (c :: rest).length { from_ := fun _ => -1, to_ := fun _ => -1, last := -1 } (c, 0) = .ok (
        let s1 : RangeState := { from_ := setAt (fun _ => -1) c 0, to_ := fun _ => -1, last := (c : Int) }
        if 0 + 1 = (c :: rest).length then { s1 with to_ := setAt s1.to_ c ((0 : Int) + 1) } else s1) := by
      have h1 : ¬ ((c : Int) < -1) := by omega
      have h2 : (c : Int) ≠ -1 := by omega
      unfold colRangeStep
      simp only [h1, h2, if_false, ne_eq, not_true_eq_false, not_false_eq_true, if_true, Nat.cast_zero]
    rw [e1]
    simp only
    have hrel : ∀ d, setAt (fun _ => (-1 : Int)) c 0 d = setAt (fun _ => (-1 : Int)) (c * 2) 0 (d * 2) ∧
        (-1 : Int) = setAt (fun _ => (-1 : Int)) (c * 2) 0 (d * 2 + 1) := by
      intro d
      simp only [setAt]
      constructor
      · by_cases hd : d = c
        · rw [if_pos hd, if_pos (by omega)]
        · rw [if_neg hd, if_neg (by omega)]
      · rw [if_neg (by omega)]
    by_cases hr : rest = []
    · subst hr
      rw [if_pos (by rfl)]
      simp only [List.zipIdx_nil, loopE, ints, List.map_nil]
      unfold closeRange
      simp only [normalizeCol_lt hc]
      rw [put_lt (by omega)]
      refine .returns fun d => ?_
      have := hrel d
      simp only [setAt] at this ⊢
      constructor
      · rw [this.1, if_neg (show ¬ d * 2 = c * 2 + 1 by omega)]
      · by_cases hd : d = c
        · rw [if_pos hd, if_pos (by omega)]; rfl
        · rw [if_neg hd, if_neg (by omega)]; exact this.2
    · have : 0 < rest.length := List.length_pos_iff.mpr hr
      rw [if_neg (by rw [List.length_cons]; omega)]
      exact range_tail (rest.length + 1) rest 1 { from_ := setAt (fun _ => -1) c 0, to_ := fun _ => -1, last := (c : Int) }
        ⟨setAt (fun _ => -1) (c * 2) 0, (c : Int)⟩ c (fun d hd => h d (by simp [hd])) hc rfl rfl hrel hr (by omega)

/-! ## Writing segments -/

theorem over_nil {α : Type} (v : Nat → α) (j : Nat) : over v j [] = v := by
  funext i
  unfold over
  simp

theorem slice_over {α : Type} (v : Nat → α) (j : Nat) (seg : List α) :
    slice (over v j seg) 0 (j + seg.length) = slice v 0 j ++ seg := by
  unfold slice over
  rw [List.range_add, List.map_append]
  congr 1
  · apply List.map_congr_left
    intro i hi
    have := List.mem_range.mp hi
    simp only [Nat.zero_add]
    rw [if_neg (by omega)]
  · apply List.ext_getElem (by simp)
    intro i h1 h2
    simp at h1
    simp [h2]

theorem blit_ok {α : Type} {n j : Nat} {seg : List α} (h : j + seg.length ≤ n) (v : Nat → α) :
    blit n v j seg = .ok (over v j seg) := if_pos h

/-- A pass that writes a segment of each of two vectors per turn. -/
theorem sel_loop {step : Sel → Int × Nat → Except Err Sel} {n : Nat} (seg : Int × Nat → List Int) (cseg : Int × Nat → List Int)
    (hlen : ∀ x, (cseg x).length = (seg x).length) : ∀ (l : List (Int × Nat)),
    (∀ x ∈ l, ∀ s : Sel, s.j + (seg x).length ≤ n →
      step s x = .ok ⟨s.j + (seg x).length, over s.idxs s.j (seg x), over s.cols s.j (cseg x)⟩) →
    ∀ s : Sel, s.j + (l.flatMap seg).length ≤ n → ∃ s' : Sel, loopE step s l = .ok s' ∧ s'.j = s.j + (l.flatMap seg).length ∧
      slice s'.idxs 0 s'.j = slice s.idxs 0 s.j ++ l.flatMap seg ∧ slice s'.cols 0 s'.j = slice s.cols 0 s.j ++ l.flatMap cseg := by
  intro l
  induction l with
  | nil => intro _ s _; exact ⟨s, rfl, by simp, by simp, by simp⟩
  | cons x xs ih =>
    intro hstep s hs
    rw [List.flatMap_cons, List.length_append] at hs
    have e := hstep x (by simp) s (by omega)
    obtain ⟨s', h1, h2, h3, h4⟩ := ih (fun y hy => hstep y (by simp [hy]))
      ⟨s.j + (seg x).length, over s.idxs s.j (seg x), over s.cols s.j (cseg x)⟩ (by simp only; omega)
    refine ⟨s', ?_, ?_, ?_, ?_⟩
    · unfold loopE; rw [e]; exact h1
    · rw [h2, List.flatMap_cons, List.length_append]; simp only; omega
    · rw [h3]
      simp only
      rw [slice_over, List.flatMap_cons, List.append_assoc]
    · rw [h4]
      simp only
      rw [show s.j + (seg x).length = s.j + (cseg x).length by rw [hlen], slice_over, List.flatMap_cons, List.append_assoc]

/-- The same for one vector. -/
theorem rec_loop {α : Type} {step : Nat × (Nat → α) → Int × Nat → Except Err (Nat × (Nat → α))} (seg : Int × Nat → List α) :
    ∀ (l : List (Int × Nat)), (∀ x ∈ l, ∀ s, step s x = .ok (s.1 + (seg x).length, over s.2 s.1 (seg x))) →
    ∀ s, ∃ s', loopE step s l = .ok s' ∧ s'.1 = s.1 + (l.flatMap seg).length ∧
      slice s'.2 0 s'.1 = slice s.2 0 s.1 ++ l.flatMap seg := by
  intro l
  induction l with
  | nil => intro _ s; exact ⟨s, rfl, by simp, by simp⟩
  | cons x xs ih =>
    intro hstep s
    have e := hstep x (by simp) s
    obtain ⟨s', h1, h2, h3⟩ := ih (fun y hy => hstep y (by simp [hy])) (s.1 + (seg x).length, over s.2 s.1 (seg x))
    refine ⟨s', ?_, ?_, ?_⟩
    · unfold loopE; rw [e]; exact h1
    · rw [h2, List.flatMap_cons, List.length_append]; simp only; omega
    · rw [h3]
      simp only
      rw [slice_over, List.flatMap_cons, List.append_assoc]

theorem count_loop {step : Nat → Int → Except Err Nat} (len : Int → Nat) : ∀ (l : List Int),
    (∀ c ∈ l, ∀ n, step n c = .ok (n + len c)) → ∀ n, loopE step n l = .ok (n + (l.map len).sum) := by
  intro l
  induction l with
  | nil => intro _ n; simp [loopE]
  | cons x xs ih =>
    intro h n
    unfold loopE
    rw [h x (by simp)]
    simp only
    rw [ih (fun c hc => h c (by simp [hc])), List.map_cons, List.sum_cons, Nat.add_assoc]

theorem foldl_two {α β γ : Type} (f : α → List β) (g : α → List γ) : ∀ (l : List α) (a : List β) (b : List γ),
    l.foldl (fun out x => (out.1 ++ f x, out.2 ++ g x)) (a, b) = (a ++ l.flatMap f, b ++ l.flatMap g) := by
  intro l
  induction l with
  | nil => intro a b; simp
  | cons x xs ih => intro a b; rw [List.foldl_cons, ih]; simp [List.append_assoc]

theorem flatMap_length_zipIdx {β : Type} (len : Int → Nat) (seg : Int × Nat → List β) (h : ∀ x, (seg x).length = len x.1) :
    ∀ (l : List Int) (k : Nat), ((l.zipIdx k).flatMap seg).length = (l.map len).sum := by
  intro l
  induction l with
  | nil => intro k; rfl
  | cons x xs ih => intro k; rw [List.zipIdx_cons, List.flatMap_cons, List.length_append, ih, List.map_cons, List.sum_cons, h]

theorem ints_zipIdx (l : List Nat) (k : Nat) : (ints l).zipIdx k = (l.zipIdx k).map fun x => ((x.1 : Int), x.2) := by
  unfold ints
  induction l generalizing k with
  | nil => rfl
  | cons x xs ih => rw [List.map_cons, List.zipIdx_cons, List.zipIdx_cons, List.map_cons, ih]

end Vbt.RsCol
