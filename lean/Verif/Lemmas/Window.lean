import Verif.Lemmas.Scan
import Verif.Lemmas.Float
import Verif.Spec.Window
import Mathlib.Tactic.Ring
import Mathlib.Tactic.FieldSimp
import Mathlib.Tactic.Linarith
import Mathlib.Algebra.BigOperators.Group.List.Basic

/-! # Windows -/

namespace Vbt
open F

/-- The rows of a window. -/
theorem winRows_eq (window i : Nat) :
    List.range' (i + 1 - window) (i + 1 - (i + 1 - window)) = (List.range (i + 1)).filter fun j => decide (i < j + window) := by
  have key : ∀ m, m ≤ i + 1 → (List.range m).filter (fun j => decide (i < j + window)) =
      List.range' (i + 1 - window) (m - (i + 1 - window)) := by
    intro m
    induction m with
    | zero => intro _; simp
    | succ m ih =>
      intro hm
      rw [List.range_succ, List.filter_append, ih (by omega)]
      simp only [List.filter_cons, List.filter_nil]
      by_cases h : i < m + window
      · rw [if_pos (by simpa using h)]
        have : m + 1 - (i + 1 - window) = (m - (i + 1 - window)) + 1 := by omega
        rw [this, List.range'_concat]
        congr 2; omega
      · rw [if_neg (by simpa using h)]
        have : m + 1 - (i + 1 - window) = 0 := by omega
        have h2 : m - (i + 1 - window) = 0 := by omega
        rw [this, h2]; simp
  rw [key (i + 1) (le_refl _)]

/-- A window as long as the array contains all rows so far. -/
theorem winObs_all (a : Nat → F) {window i : Nat} (h : i < window) :
    winObs a window i = ((List.range (i + 1)).map a).filter fun x => !x.isnan := by
  unfold winObs
  congr 2
  rw [List.filter_eq_self]
  intro j _
  simp; omega

theorem winObs_ext {a : Nat → F} {w w' i : Nat} (h : i < w) (h' : i < w') : winObs a w i = winObs a w' i := by
  rw [winObs_all a h, winObs_all a h']

theorem mem_winObs {a : Nat → F} {w i : Nat} {x : F} :
    x ∈ winObs a w i ↔ ∃ j, j ≤ i ∧ i < j + w ∧ a j = x ∧ x.isnan = false := by
  unfold winObs
  simp only [List.mem_filter, List.mem_map, List.mem_range, decide_eq_true_eq, Bool.not_eq_true']
  constructor
  · rintro ⟨⟨j, ⟨h1, h2⟩, h3⟩, h4⟩; exact ⟨j, by omega, h2, h3, h4⟩
  · rintro ⟨j, h1, h2, h3, h4⟩; exact ⟨⟨j, ⟨by omega, h2⟩, h3⟩, h4⟩

/-- The selection loops of rolling min and max. -/
def selStep (cmp : F → F → Bool) (a : Nat → F) (s : F × Nat) (j : Nat) : F × Nat :=
  if (a j).isnan then s else (if s.1.isnan || cmp (a j) s.1 then a j else s.1, s.2 + 1)

/-- What the comparison has to satisfy. -/
structure SelOrder (cmp leq : F → F → Bool) : Prop where
  rfl' : ∀ x, x.isnan = false → leq x x = true
  trans' : ∀ x y z, leq x y = true → leq y z = true → leq x z = true
  yes : ∀ x y, cmp x y = true → leq x y = true
  no : ∀ x y, x.isnan = false → y.isnan = false → cmp x y = false → leq y x = true
  nan' : ∀ x y, x.isnan = true → cmp x y = false

theorem selOrder_lt : SelOrder lt le where
  rfl' x hx := le_rfl' hx
  trans' x y z := le_trans'
  yes x y := lt_le
  no x y hx hy h := by
    rcases le_or_lt hy hx with h1 | h1
    · exact h1
    · rw [h] at h1; cases h1
  nan' x y hx := by cases x <;> simp_all [isnan, lt]

theorem selOrder_gt : SelOrder gt fun x y => le y x where
  rfl' x hx := le_rfl' hx
  trans' x y z h1 h2 := le_trans' h2 h1
  yes x y h := lt_le h
  no x y hx hy h := by
    rcases le_or_lt hx hy with h1 | h1
    · exact h1
    · unfold gt at h; rw [h] at h1; cases h1
  nan' x y hx := by cases x <;> cases y <;> simp_all [isnan, lt, gt]

theorem sel_fold {cmp leq : F → F → Bool} (ho : SelOrder cmp leq) (a : Nat → F) (l : List Nat) (x : F) (c : Nat) :
    let s := l.foldl (selStep cmp a) (x, c)
    s.2 = c + ((l.map a).filter fun y => !y.isnan).length ∧
    (s.1.isnan = true → x.isnan = true ∧ (l.map a).filter (fun y => !y.isnan) = []) ∧
    (s.1.isnan = false → (s.1 = x ∨ s.1 ∈ (l.map a).filter fun y => !y.isnan) ∧ (x.isnan = false → leq s.1 x = true) ∧
      ∀ y ∈ (l.map a).filter (fun y => !y.isnan), leq s.1 y = true) := by
  induction l generalizing x c with
  | nil =>
    refine ⟨by simp, fun h => ⟨h, rfl⟩, fun h => ⟨Or.inl rfl, fun h' => ho.rfl' _ h', fun y hy => by cases hy⟩⟩
  | cons j l ih =>
    dsimp only
    rw [List.foldl_cons, List.map_cons, List.filter_cons]
    rcases Bool.eq_false_or_eq_true (a j).isnan with hj | hj
    · have : selStep cmp a (x, c) j = (x, c) := by unfold selStep; rw [if_pos hj]
      rw [if_neg (show ¬ (!(a j).isnan) = true by simp [hj]), this]
      exact ih x c
    · have hs : selStep cmp a (x, c) j = (if x.isnan || cmp (a j) x then a j else x, c + 1) := by
        unfold selStep; rw [if_neg (by simp [hj])]
      rw [if_pos (show (!(a j).isnan) = true by simp [hj]), hs]
      obtain ⟨h1, h2, h3⟩ := ih (if x.isnan || cmp (a j) x then a j else x) (c + 1)
      set x' := if x.isnan || cmp (a j) x then a j else x with hx'
      have hx'n : x'.isnan = false := by
        rw [hx']
        rcases Bool.eq_false_or_eq_true x.isnan with hx | hx
        · rw [if_pos (by simp [hx])]; exact hj
        · by_cases hc : cmp (a j) x = true
          · rw [if_pos (by simp [hc])]; exact hj
          · rw [if_neg (by simp [hc, hx])]; exact hx
      have hxj : leq x' (a j) = true := by
        rw [hx']
        rcases Bool.eq_false_or_eq_true x.isnan with hx | hx
        · rw [if_pos (by simp [hx])]; exact ho.rfl' _ hj
        · by_cases hc : cmp (a j) x = true
          · rw [if_pos (by simp [hc])]; exact ho.rfl' _ hj
          · rw [if_neg (by simp [hc, hx])]; exact ho.no _ _ hj hx (by simpa using hc)
      have hxx : x.isnan = false → leq x' x = true := by
        intro hx
        rw [hx']
        by_cases hc : cmp (a j) x = true
        · rw [if_pos (by simp [hc])]; exact ho.yes _ _ hc
        · rw [if_neg (by simp [hc, hx])]; exact ho.rfl' _ hx
      refine ⟨by rw [h1, List.length_cons]; omega, fun h => ?_, fun h => ?_⟩
      · have := (h2 h).1
        rw [hx'n] at this; cases this
      · obtain ⟨g1, g2, g3⟩ := h3 h
        have g2' := g2 hx'n
        refine ⟨?_, fun hx => ho.trans' _ _ _ g2' (hxx hx), fun y hy => ?_⟩
        · rcases g1 with g1 | g1
          · by_cases hc : (x.isnan || cmp (a j) x) = true
            · rw [g1, hx', if_pos hc]; exact Or.inr List.mem_cons_self
            · rw [g1, hx', if_neg hc]; exact Or.inl rfl
          · exact Or.inr (List.mem_cons_of_mem _ g1)
        · rcases List.mem_cons.mp hy with rfl | hy
          · exact ho.trans' _ _ _ g2' hxj
          · exact g3 y hy

/-- One row of rolling min or max. -/
theorem sel_row {cmp leq : F → F → Bool} (ho : SelOrder cmp leq) (a : Nat → F) {window : Nat} (hw : 0 < window) (minp i : Nat) :
    ((winObs a window i).length < minp → rollRow (selStep cmp) a window minp i = nan) ∧
    (minp ≤ (winObs a window i).length →
      (winObs a window i = [] → rollRow (selStep cmp) a window minp i = nan) ∧
      (winObs a window i ≠ [] → rollRow (selStep cmp) a window minp i ∈ winObs a window i ∧
        ∀ x ∈ winObs a window i, leq (rollRow (selStep cmp) a window minp i) x = true)) := by
  have hf := sel_fold ho a ((List.range (i + 1)).filter fun j => decide (i < j + window)) (a i) 0
  change _ = 0 + (winObs a window i).length ∧ (_ → _ ∧ winObs a window i = []) ∧ (_ → (_ ∨ _ ∈ winObs a window i) ∧ _ ∧
    ∀ y ∈ winObs a window i, _) at hf
  unfold rollRow
  dsimp only
  rw [winRows_eq]
  generalize ((List.range (i + 1)).filter fun j => decide (i < j + window)).foldl (selStep cmp a) (a i, 0) = s at hf
  obtain ⟨h1, h2, h3⟩ := hf
  rw [Nat.zero_add] at h1
  refine ⟨fun h => if_pos (by omega), fun h => ?_⟩
  rw [if_neg (by omega)]
  constructor
  · intro he
    rcases Bool.eq_false_or_eq_true s.1.isnan with hn | hn
    · exact isnan_iff.mp hn
    · obtain ⟨g1, -, -⟩ := h3 hn
      rw [he] at g1
      rcases g1 with g1 | g1
      · have : a i ∈ winObs a window i := mem_winObs.mpr ⟨i, le_refl _, by omega, rfl, by rw [← g1]; exact hn⟩
        rw [he] at this; cases this
      · cases g1
  · intro hne
    rcases Bool.eq_false_or_eq_true s.1.isnan with hn | hn
    · exact absurd (h2 hn).2 hne
    · obtain ⟨g1, g2, g3⟩ := h3 hn
      refine ⟨?_, g3⟩
      rcases g1 with g1 | g1
      · exact mem_winObs.mpr ⟨i, le_refl _, by omega, g1.symm, hn⟩
      · exact g1

/-- The loops of expanding min and max. -/
def expStep (cmp : F → F → Bool) (a : Nat → F) (minp : Nat) (s : F × Nat) (i : Nat) : (F × Nat) × F :=
  let v := if s.1.isnan || cmp (a i) s.1 then a i else s.1
  let cnt := if !(a i).isnan then s.2 + 1 else s.2
  ((v, cnt), if cnt < minp then nan else v)

/-- Until the last row the expanding loop computes what the rolling one does on all rows, but starting from the first
value. -/
theorem exp_state {cmp leq : F → F → Bool} (ho : SelOrder cmp leq) (a : Nat → F) (minp i : Nat) :
    scanState (expStep cmp a minp) (a 0, 0) i = (List.range i).foldl (selStep cmp a) (a 0, 0) := by
  induction i with
  | zero => rfl
  | succ i ih =>
    rw [scanState_succ, ih, List.range_succ, List.foldl_append, List.foldl_cons, List.foldl_nil]
    generalize (List.range i).foldl (selStep cmp a) (a 0, 0) = s
    unfold expStep selStep
    dsimp only
    rcases Bool.eq_false_or_eq_true (a i).isnan with hi | hi
    · rw [if_pos hi]
      simp only [hi, Bool.not_true, Bool.false_eq_true, if_false, ho.nan' _ _ hi, Bool.or_false]
      rcases Bool.eq_false_or_eq_true s.1.isnan with hs | hs
      · rw [if_pos hs, isnan_iff.mp hi, ← isnan_iff.mp hs]
      · rw [if_neg (by simp [hs])]
    · simp only [hi, Bool.not_false, if_true, Bool.false_eq_true, if_false]

theorem exp_row {cmp leq : F → F → Bool} (ho : SelOrder cmp leq) (hanti : ∀ x y, leq x y = true → leq y x = true → x = y)
    (a : Nat → F) (minp : Nat) (junk : Nat → F) {len i window : Nat} (hi : i < len) (hw : i < window) :
    (scanRows (expStep cmp a minp) (a 0, 0) junk len).2 i = rollRow (selStep cmp) a window minp i := by
  rw [scanRows_out _ _ _ hi]
  have hs : (expStep cmp a minp (scanState (expStep cmp a minp) (a 0, 0) i) i).1 =
      (List.range (i + 1)).foldl (selStep cmp a) (a 0, 0) := by
    rw [← exp_state ho a minp (i + 1), scanState_succ]
  have ho2 : ∀ s, (expStep cmp a minp s i).2 = if (expStep cmp a minp s i).1.2 < minp then nan else
      (expStep cmp a minp s i).1.1 := fun s => rfl
  rw [ho2, hs]
  unfold rollRow
  dsimp only
  have hr : List.range' (i + 1 - window) (i + 1 - (i + 1 - window)) = List.range (i + 1) := by
    rw [show i + 1 - window = 0 by omega, Nat.sub_zero, List.range_eq_range']
  rw [hr]
  have f0 := sel_fold ho a (List.range (i + 1)) (a 0) 0
  have f1 := sel_fold ho a (List.range (i + 1)) (a i) 0
  have m0 : (a 0).isnan = false → a 0 ∈ ((List.range (i + 1)).map a).filter fun y => !y.isnan := fun h =>
    List.mem_filter.mpr ⟨List.mem_map.mpr ⟨0, List.mem_range.mpr (by omega), rfl⟩, by simp [h]⟩
  have m1 : (a i).isnan = false → a i ∈ ((List.range (i + 1)).map a).filter fun y => !y.isnan := fun h =>
    List.mem_filter.mpr ⟨List.mem_map.mpr ⟨i, List.mem_range.mpr (by omega), rfl⟩, by simp [h]⟩
  generalize (List.range (i + 1)).foldl (selStep cmp a) (a 0, 0) = s0 at f0
  generalize (List.range (i + 1)).foldl (selStep cmp a) (a i, 0) = s1 at f1
  dsimp only at f0 f1
  obtain ⟨c0, n0, v0⟩ := f0
  obtain ⟨c1, n1, v1⟩ := f1
  have hc : s0.2 = s1.2 := by rw [c0, c1]
  rw [hc]
  congr 1
  rcases Bool.eq_false_or_eq_true s0.1.isnan with h0 | h0
  · rcases Bool.eq_false_or_eq_true s1.1.isnan with h1 | h1
    · rw [isnan_iff.mp h0, isnan_iff.mp h1]
    · obtain ⟨g1, -, -⟩ := v1 h1
      rw [(n0 h0).2] at g1 m1
      rcases g1 with g1 | g1
      · have := m1 (by rw [← g1]; exact h1)
        cases this
      · cases g1
  · obtain ⟨g1, -, g3⟩ := v0 h0
    have hm0 : s0.1 ∈ ((List.range (i + 1)).map a).filter fun y => !y.isnan := by
      rcases g1 with g1 | g1
      · rw [g1]; exact m0 (by rw [← g1]; exact h0)
      · exact g1
    rcases Bool.eq_false_or_eq_true s1.1.isnan with h1 | h1
    · rw [(n1 h1).2] at hm0; cases hm0
    · obtain ⟨k1, -, k3⟩ := v1 h1
      have hm1 : s1.1 ∈ ((List.range (i + 1)).map a).filter fun y => !y.isnan := by
        rcases k1 with k1 | k1
        · rw [k1]; exact m1 (by rw [← k1]; exact h1)
        · exact k1
      exact hanti _ _ (g3 _ hm1) (k3 _ hm0)

end Vbt
