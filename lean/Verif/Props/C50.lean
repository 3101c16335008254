import Verif.Model.Splitters
import Verif.Lemmas.Sim
import Mathlib.Tactic.Linarith
import Mathlib.Tactic.FieldSimp
import Mathlib.Tactic.Positivity
import Mathlib.Algebra.Order.Floor.Ring
import Mathlib.Algebra.BigOperators.Group.List.Basic
import Mathlib.Data.List.Sort

/-!
# C50  Splits partition each range in time order
-/

namespace Vbt

/-! ## Specification -/

/-- The `n` integers from `a` on. -/
def intsFrom (a : ℤ) (n : Nat) : List ℚ := (List.range n).map fun k : Nat => ((a + k : ℤ) : ℚ)

/-- A set length a user can mean: a number of rows, or a fraction of the range. -/
def ValidLen (s : ℚ) : Prop := (0 < s ∧ s < 1) ∨ ∃ k : ℕ, s = k

/-- The sets of the range from `a` to `b`: not empty, one after the other, together the range. -/
structure SetsOfRange (a b : ℤ) (sets : List (List ℚ)) : Prop where
  all : sets.flatten = intsFrom a (b - a + 1).toNat
  ne : ∀ S ∈ sets, S ≠ []
  order : sets.Pairwise fun S T => ∀ x ∈ S, ∀ y ∈ T, x < y

/-! ## One range -/

theorem npArange_ints (a : ℤ) (n : Nat) : npArange a (a + n) = intsFrom a n := by
  unfold npArange intsFrom
  have : ⌈((a : ℚ) + n) - a⌉.toNat = n := by
    have : ((a : ℚ) + n) - a = ((n : ℤ) : ℚ) := by push_cast; ring
    rw [this, Int.ceil_intCast]; simp
  rw [this]
  apply List.map_congr_left
  intro k _
  push_cast; rfl

theorem intsFrom_append (a : ℤ) (m n : Nat) : intsFrom a m ++ intsFrom (a + m) n = intsFrom a (m + n) := by
  unfold intsFrom
  rw [List.range_add, List.map_append, List.map_map]
  congr 1
  apply List.map_congr_left
  intro k _
  simp only [Function.comp_apply]
  push_cast; ring

theorem intsFrom_sorted (a : ℤ) (n : Nat) : (intsFrom a n).Pairwise (· < ·) := by
  unfold intsFrom
  rw [List.pairwise_map]
  exact List.pairwise_lt_range.imp (fun h => by
    have : ((_ : ℕ) : ℚ) < ((_ : ℕ) : ℚ) := Nat.cast_lt.mpr h
    push_cast
    linarith)

/-- Blocks of integers of the given lengths, one after the other. -/
def blocksFrom (a : ℤ) : List Nat → List (List ℚ)
  | [] => []
  | l :: ls => intsFrom a l :: blocksFrom (a + l) ls

theorem blocksFrom_flatten (a : ℤ) (ls : List Nat) : (blocksFrom a ls).flatten = intsFrom a ls.sum := by
  induction ls generalizing a with
  | nil => rfl
  | cons l ls ih => rw [blocksFrom, List.flatten_cons, ih, intsFrom_append]; rfl

theorem blocksFrom_length (a : ℤ) (ls : List Nat) : (blocksFrom a ls).map List.length = ls := by
  induction ls generalizing a with
  | nil => rfl
  | cons l ls ih => rw [blocksFrom, List.map_cons, ih]; simp [intsFrom]

theorem place_blocks (a : ℤ) (ls : List Nat) (off : ℕ) (acc : List (List ℚ)) :
    ((ls.map (fun l : ℕ => (l : ℚ))).foldl (placeStep a) ((off : ℚ), acc)).2 = acc ++ blocksFrom (a + off) ls := by
  induction ls generalizing off acc with
  | nil => simp [blocksFrom]
  | cons l ls ih =>
    rw [List.map_cons, List.foldl_cons, placeStep]
    have e1 : ((off : ℚ) + (l : ℚ)) = ((off + l : ℕ) : ℚ) := by push_cast; rfl
    have e2 : npArange ((a : ℚ) + off) ((a : ℚ) + (off + l)) = intsFrom (a + off) l := by
      have := npArange_ints (a + off) l
      push_cast at this
      rw [← add_assoc]
      exact this
    simp only
    rw [e2, e1, ih, blocksFrom]
    push_cast
    simp [add_assoc]

theorem SetsOfRange.of_blocks {a b : ℤ} {ls : List Nat} (hpos : ∀ l ∈ ls, 0 < l) (hs : (ls.sum : ℤ) = b - a + 1) :
    SetsOfRange a b (blocksFrom a ls) := by
  have h1 : (blocksFrom a ls).flatten = intsFrom a (b - a + 1).toNat := by
    rw [blocksFrom_flatten, ← hs]; rfl
  refine ⟨h1, fun S hS h => ?_, ?_⟩
  · have : S.length ∈ (blocksFrom a ls).map List.length := List.mem_map_of_mem hS
    rw [blocksFrom_length] at this
    have := hpos _ this
    rw [h] at this
    simp at this
  · have := intsFrom_sorted a (b - a + 1).toNat
    rw [← h1, List.pairwise_flatten] at this
    exact this.2

/-- The resolved lengths. -/
theorem setLens_loop {rnd rangeLen acc lens out} (h : loopE (setLenStep rnd rangeLen) acc lens = .ok out) :
    out = acc ++ lens.map (resolveSetLen rnd rangeLen) ∧ ∀ s ∈ lens, resolveSetLen rnd rangeLen s ≠ 0 := by
  induction lens generalizing acc with
  | nil =>
    rw [loopE] at h
    cases h
    simp
  | cons s lens ih =>
    obtain ⟨b, h1, h2⟩ := loopE_cons_ok h
    unfold setLenStep at h1
    simp only at h1
    by_cases h0 : resolveSetLen rnd rangeLen s = 0
    · rw [if_pos h0] at h1; cases h1
    · rw [if_neg h0] at h1
      cases h1
      obtain ⟨h3, h4⟩ := ih h2
      refine ⟨by rw [h3]; simp, ?_⟩
      intro x hx
      rw [List.mem_cons] at hx
      rcases hx with rfl | hx
      · exact h0
      · exact h4 x hx

theorem setLens_loop_ok {rnd rangeLen lens} (acc : List ℚ) (h : ∀ s ∈ lens, resolveSetLen rnd rangeLen s ≠ 0) :
    loopE (setLenStep rnd rangeLen) acc lens = .ok (acc ++ lens.map (resolveSetLen rnd rangeLen)) := by
  induction lens generalizing acc with
  | nil => simp [loopE]
  | cons s lens ih =>
    have e : setLenStep rnd rangeLen acc s = .ok (acc ++ [resolveSetLen rnd rangeLen s]) := by
      unfold setLenStep
      simp only
      rw [if_neg (h s (by simp))]
    rw [loopE, e]
    simp only
    rw [ih _ (fun x hx => h x (List.mem_cons_of_mem _ hx))]
    simp

theorem resolve_nat {rnd : ℚ → ℚ} (hr : ∀ x, 0 ≤ x → 0 ≤ rnd x) {rangeLen s : ℚ} (hR : 0 ≤ rangeLen) (hs : ValidLen s) :
    ∃ k : ℕ, resolveSetLen rnd rangeLen s = k := by
  unfold resolveSetLen
  by_cases h : 0 < s ∧ s < 1
  · rw [if_pos h]
    have h0 : 0 ≤ ⌊rnd (s * rangeLen)⌋ := Int.floor_nonneg.mpr (hr _ (mul_nonneg h.1.le hR))
    exact ⟨⌊rnd (s * rangeLen)⌋.toNat, by
      have : ((⌊rnd (s * rangeLen)⌋.toNat : ℤ)) = ⌊rnd (s * rangeLen)⌋ := Int.toNat_of_nonneg h0
      exact_mod_cast this.symm⟩
  · rw [if_neg h]
    rcases hs with hs | ⟨k, hk⟩
    · exact absurd hs h
    · exact ⟨k, hk⟩

theorem resolve_list {rnd : ℚ → ℚ} (hr : ∀ x, 0 ≤ x → 0 ≤ rnd x) {rangeLen : ℚ} (hR : 0 ≤ rangeLen) {lens : List ℚ}
    (hv : ∀ s ∈ lens, ValidLen s) (hne : ∀ s ∈ lens, resolveSetLen rnd rangeLen s ≠ 0) :
    ∃ ls : List Nat, lens.map (resolveSetLen rnd rangeLen) = ls.map (fun l : ℕ => (l : ℚ)) ∧ ∀ l ∈ ls, 0 < l := by
  induction lens with
  | nil => exact ⟨[], rfl, by simp⟩
  | cons s lens ih =>
    obtain ⟨ls, h1, h2⟩ := ih (fun x hx => hv x (List.mem_cons_of_mem _ hx)) (fun x hx => hne x (List.mem_cons_of_mem _ hx))
    obtain ⟨k, hk⟩ := resolve_nat hr hR (hv s (by simp))
    refine ⟨k :: ls, by rw [List.map_cons, List.map_cons, h1, hk], ?_⟩
    intro x hx
    rw [List.mem_cons] at hx
    rcases hx with rfl | hx
    · have := hne s (by simp)
      rw [hk] at this
      exact Nat.pos_of_ne_zero (by exact_mod_cast this)
    · exact h2 x hx

theorem sum_cast (ls : List Nat) : (ls.map (fun l : ℕ => (l : ℚ))).sum = ((ls.sum : ℕ) : ℚ) := by
  induction ls with
  | nil => simp
  | cons l ls ih => simp [ih]

/-- Splitting the range from `a` to `b` (integers, not empty) by meaningful set lengths: the sets are not empty, follow one
another and make up the range; there is one more set than lengths; from the left (or right) they have the requested
lengths. -/
theorem C50_sets_partial {rnd : ℚ → ℚ} (hr : ∀ x, 0 ≤ x → 0 ≤ rnd x) {setLens ltr} {a b : ℤ} {i sets} (hab : a ≤ b)
    (hv : ∀ lens, setLens.at i = .ok lens → ∀ s ∈ lens, ValidLen s)
    (h : splitRange rnd setLens ltr a b i = .ok sets) :
    SetsOfRange a b sets ∧
    (setLens.isEmptyLens = true → sets = [intsFrom a (b - a + 1).toNat]) ∧
    (setLens.isEmptyLens = false → ∃ lens dir, setLens.at i = .ok lens ∧ ltr.at i = .ok dir ∧ sets.length = lens.length + 1 ∧
      ((if dir then sets.take lens.length else sets.drop 1).map fun S => (S.length : ℚ)) =
        lens.map fun s => if 0 < s ∧ s < 1 then (⌊rnd (s * (b - a + 1))⌋ : ℚ) else s) := by
  unfold splitRange at h
  simp only at h
  have hR : (0 : ℚ) ≤ (b : ℚ) - a + 1 := by
    have : (a : ℚ) ≤ b := by exact_mod_cast hab
    linarith
  cases he : setLens.isEmptyLens with
  | true =>
    rw [he, if_pos rfl] at h
    cases h
    have e : npArange (a : ℚ) ((b : ℚ) + 1) = intsFrom a (b - a + 1).toNat := by
      rw [← npArange_ints]
      congr 1
      have : (((b - a + 1).toNat : ℤ) : ℚ) = ((b - a + 1 : ℤ) : ℚ) := by rw [Int.toNat_of_nonneg (by omega)]
      rw [show (((b - a + 1).toNat : ℕ) : ℚ) = ((b - a + 1 : ℤ) : ℚ) from by exact_mod_cast this]
      push_cast; ring
    refine ⟨?_, fun _ => by rw [e], fun h => by cases h⟩
    rw [e]
    have := SetsOfRange.of_blocks (a := a) (b := b) (ls := [(b - a + 1).toNat]) (by simp; omega) (by simp; omega)
    simpa [blocksFrom] using this
  | false =>
    rw [he, if_neg (by simp)] at h
    cases hl : setLens.at i with
    | error e => rw [hl] at h; cases h
    | ok lens =>
      cases hd : ltr.at i with
      | error e => rw [hl, hd] at h; cases h
      | ok dir =>
        rw [hl, hd] at h
        simp only at h
        cases hn : loopE (setLenStep rnd ((b : ℚ) - a + 1)) [] lens with
        | error e => rw [hn] at h; cases h
        | ok newLens =>
          rw [hn] at h
          simp only at h
          by_cases hs : newLens.sum < (b : ℚ) - a + 1
          · rw [if_pos hs] at h
            cases h
            obtain ⟨h1, h2⟩ := setLens_loop hn
            rw [List.nil_append] at h1
            obtain ⟨ls, h3, h4⟩ := resolve_list hr hR (hv lens hl) h2
            rw [h1, h3, sum_cast] at hs ⊢
            have hs' : (ls.sum : ℤ) < b - a + 1 := by exact_mod_cast hs
            obtain ⟨r, hr'⟩ : ∃ r : ℕ, (r : ℤ) = b - a + 1 - ls.sum :=
              ⟨(b - a + 1 - ls.sum).toNat, Int.toNat_of_nonneg (by omega)⟩
            have hrq : (b : ℚ) - a + 1 - (ls.sum : ℕ) = (r : ℚ) := by
              have : ((r : ℤ) : ℚ) = ((b - a + 1 - ls.sum : ℤ) : ℚ) := by rw [hr']
              push_cast at this
              rw [this]
            have hrpos : 0 < r := by omega
            rw [hrq]
            have hlen : ls.length = lens.length := by
              have := congrArg List.length h3
              simpa using this.symm
            have hmap : (fun s => if 0 < s ∧ s < 1 then (⌊rnd (s * ((b : ℚ) - a + 1))⌋ : ℚ) else s) =
                resolveSetLen rnd ((b : ℚ) - a + 1) := rfl
            cases dir with
            | true =>
              have e := place_blocks a (ls ++ [r]) 0 []
              simp only [List.map_append, List.map_cons, List.map_nil, Nat.cast_zero, List.nil_append, add_zero] at e
              simp only [if_true, e]
              refine ⟨SetsOfRange.of_blocks ?_ ?_, fun h => by simp at h, fun _ => ⟨lens, true, rfl, rfl, ?_, ?_⟩⟩
              · intro x hx
                rw [List.mem_append, List.mem_singleton] at hx
                rcases hx with hx | rfl
                · exact h4 x hx
                · exact hrpos
              · rw [List.sum_append]; simp; omega
              · have := congrArg List.length (blocksFrom_length a (ls ++ [r]))
                simpa [hlen] using this
              · rw [hmap, h3, if_pos rfl, ← hlen, List.map_take]
                have := blocksFrom_length a (ls ++ [r])
                have : (blocksFrom a (ls ++ [r])).map (fun S => (S.length : ℚ)) = (ls ++ [r]).map (fun l : ℕ => (l : ℚ)) := by
                  rw [← this, List.map_map]
                  rw [this]
                  rfl
                rw [this]
                simp
            | false =>
              have e := place_blocks a (r :: ls) 0 []
              simp only [List.map_cons, Nat.cast_zero, List.nil_append, add_zero] at e
              simp only [Bool.false_eq_true, if_false, List.cons_append, List.nil_append, e]
              refine ⟨SetsOfRange.of_blocks ?_ ?_, fun h => by simp at h, fun _ => ⟨lens, false, rfl, rfl, ?_, ?_⟩⟩
              · intro x hx
                rw [List.mem_cons] at hx
                rcases hx with rfl | hx
                · exact hrpos
                · exact h4 x hx
              · rw [List.sum_cons]; push_cast; omega
              · have := congrArg List.length (blocksFrom_length a (r :: ls))
                simpa [hlen] using this
              · rw [hmap, h3, if_neg (by simp), List.map_drop]
                have := blocksFrom_length a (r :: ls)
                have : (blocksFrom a (r :: ls)).map (fun S => (S.length : ℚ)) = (r :: ls).map (fun l : ℕ => (l : ℚ)) := by
                  rw [← this, List.map_map]
                  rw [this]
                  rfl
                rw [this]
                simp
          · rw [if_neg hs] at h; cases h

/-- It raises exactly if a set would be empty or nothing would be left for the last one. -/
theorem C50_raises {rnd : ℚ → ℚ} {a b : ℤ} {lens : List ℚ} (hne : lens ≠ []) (dir : Bool) (i : Nat) :
    (∃ e, splitRange rnd (.shared lens) (.shared dir) a b i = .error e) ↔
      (∃ s ∈ lens, (if 0 < s ∧ s < 1 then (⌊rnd (s * (b - a + 1))⌋ : ℚ) else s) = 0) ∨
      (b : ℚ) - a + 1 ≤ (lens.map fun s => if 0 < s ∧ s < 1 then (⌊rnd (s * (b - a + 1))⌋ : ℚ) else s).sum := by
  have hmap : (fun s => if 0 < s ∧ s < 1 then (⌊rnd (s * ((b : ℚ) - a + 1))⌋ : ℚ) else s) =
                resolveSetLen rnd ((b : ℚ) - a + 1) := rfl
  rw [hmap]
  change _ ↔ (∃ s ∈ lens, resolveSetLen rnd ((b : ℚ) - a + 1) s = 0) ∨ _
  unfold splitRange
  have h0 : (PerRange.shared lens).isEmptyLens = false := by
    simpa [PerRange.isEmptyLens] using hne
  simp only [h0, PerRange.at, Bool.false_eq_true, if_false]
  cases hl : loopE (setLenStep rnd ((b : ℚ) - a + 1)) [] lens with
  | error e =>
    simp only [exists_eq', true_iff, Except.error.injEq]
    left
    by_contra hc
    push Not at hc
    rw [setLens_loop_ok [] hc] at hl
    cases hl
  | ok newLens =>
    obtain ⟨h1, h2⟩ := setLens_loop hl
    rw [List.nil_append] at h1
    simp only
    rw [← h1]
    by_cases hs : newLens.sum < (b : ℚ) - a + 1
    · rw [if_pos hs]
      simp only [reduceCtorEq, exists_false, false_iff, not_or, not_exists, not_and, not_le]
      exact ⟨h2, hs⟩
    · rw [if_neg hs]
      simp only [Except.error.injEq, exists_eq', true_iff]
      exact Or.inr (not_lt.mp hs)

/-- Negative lengths are accepted, and then a set contains rows before the range. -/
theorem C50_counterexample_negative : (splitRange id (.shared [-2]) (.shared true) 5 9 0).toOption =
    some [[], [3, 4, 5, 6, 7, 8, 9]] := by decide +kernel

/-- Fractional lengths above one are accepted, and then a set contains indices that are no rows. -/
theorem C50_counterexample_fractional : (splitRange id (.shared [3 / 2]) (.shared true) 0 2 0).toOption =
    some [[0, 1], [3 / 2, 5 / 2]] := by decide +kernel

/-! ## All ranges -/

theorem split_loop {rnd setLens ltr acc} {xs : List (ℚ × ℚ)} {k : Nat} {out}
    (h : loopE (splitSetsStep rnd setLens ltr) acc (xs.zipIdx k) = .ok out) :
    ∃ new, out = acc ++ new ∧ new.length = xs.length ∧
      ∀ i p, xs[i]? = some p → ∃ sets, new[i]? = some sets ∧ splitRange rnd setLens ltr p.1 p.2 (k + i) = .ok sets := by
  induction xs generalizing acc k with
  | nil =>
    rw [List.zipIdx_nil, loopE] at h
    cases h
    exact ⟨[], by simp, rfl, by simp⟩
  | cons x xs ih =>
    rw [List.zipIdx_cons] at h
    obtain ⟨b, h1, h2⟩ := loopE_cons_ok h
    unfold splitSetsStep at h1
    cases hs : splitRange rnd setLens ltr x.1 x.2 k with
    | error e => simp only [hs] at h1; cases h1
    | ok sets =>
      simp only [hs, Except.ok.injEq] at h1
      subst h1
      obtain ⟨new, e1, e2, e3⟩ := ih h2
      refine ⟨sets :: new, by rw [e1]; simp, by simp [e2], fun i p hp => ?_⟩
      cases i with
      | zero =>
        simp only [List.getElem?_cons_zero, Option.some.injEq] at hp
        subst hp
        exact ⟨sets, rfl, hs⟩
      | succ i =>
        rw [List.getElem?_cons_succ] at hp
        obtain ⟨s, hs1, hs2⟩ := e3 i p hp
        exact ⟨s, hs1, by rw [← hs2]; congr 1; omega⟩

/-- Each range is split on its own. -/
theorem C50_ranges {rnd starts stops setLens ltr out} (h : splitRangesIntoSets rnd starts stops setLens ltr = .ok out) :
    starts.length = stops.length ∧ out.length = starts.length ∧
    ∀ i s e, starts[i]? = some s → stops[i]? = some e →
      ∃ sets, out[i]? = some sets ∧ splitRange rnd setLens ltr s e i = .ok sets := by
  unfold splitRangesIntoSets at h
  by_cases hl : starts.length = stops.length
  · rw [if_neg (by simpa using hl)] at h
    obtain ⟨new, e1, e2, e3⟩ := split_loop h
    rw [List.nil_append] at e1
    subst e1
    refine ⟨hl, by rw [e2]; simp [hl], fun i s e hs he => ?_⟩
    have := e3 i (s, e) (by rw [List.getElem?_zip_eq_some]; exact ⟨hs, he⟩)
    simpa using this
  · rw [if_pos hl] at h; cases h

/-! ## Selection of `n` ranges -/

theorem roundHalfEven_int (k : ℤ) : roundHalfEven k = k := by
  unfold roundHalfEven
  simp

theorem roundHalfEven_near (x : ℚ) : x - 1 / 2 ≤ roundHalfEven x ∧ (roundHalfEven x : ℚ) ≤ x + 1 / 2 := by
  unfold roundHalfEven
  have h1 := Int.floor_le x
  have h2 := Int.lt_floor_add_one x
  simp only
  split
  · constructor <;> linarith
  · split
    · push_cast; constructor <;> linarith
    · split <;> (push_cast; constructor <;> linarith)

theorem roundHalfEven_mono {x y : ℚ} (h : x + 1 < y) : roundHalfEven x < roundHalfEven y := by
  have h1 := (roundHalfEven_near x).2
  have h2 := (roundHalfEven_near y).1
  have : (roundHalfEven x : ℚ) < roundHalfEven y := by linarith
  exact_mod_cast this

/-- Selecting `n` of `m` ranges evenly: `n` different positions in increasing order, the first and the last included. -/
theorem C50_even {m n : Nat} (hm : 0 < m) (hn : n ≤ m) :
    (evenIdxs m n).length = n ∧ (evenIdxs m n).Pairwise (· < ·) ∧ (∀ i ∈ evenIdxs m n, 0 ≤ i ∧ i < m) ∧
    (0 < n → (evenIdxs m n)[0]? = some 0) ∧ (1 < n → (evenIdxs m n)[n - 1]? = some ((m : ℤ) - 1)) := by
  have hpair : (evenIdxs m n).Pairwise (· < ·) := by
    unfold evenIdxs
    rw [List.pairwise_map]
    refine List.Pairwise.imp_of_mem ?_ (List.pairwise_lt_range (n := n))
    intro a b ha hb hab
    rw [List.mem_range] at ha hb
    rw [if_neg (by omega), if_neg (by omega)]
    have hn1 : (0 : ℚ) < (n : ℚ) - 1 := by
      have : ((2 : ℕ) : ℚ) ≤ n := Nat.cast_le.mpr (by omega)
      push_cast at this
      linarith
    by_cases hmn : n = m
    · subst hmn
      rw [div_self (ne_of_gt hn1), mul_one, mul_one]
      have e : ∀ k : ℕ, roundHalfEven (k : ℚ) = k := fun k => by
        have := roundHalfEven_int k
        exact_mod_cast this
      rw [e, e]
      exact_mod_cast hab
    · apply roundHalfEven_mono
      have hstep : (1 : ℚ) < ((m : ℚ) - 1) / ((n : ℚ) - 1) := by
        rw [lt_div_iff₀ hn1]
        have : (n : ℚ) < m := Nat.cast_lt.mpr (by omega)
        linarith
      have hab' : (a : ℚ) + 1 ≤ b := by exact_mod_cast hab
      nlinarith
  have hfirst : 0 < n → (evenIdxs m n)[0]? = some 0 := by
    intro h
    unfold evenIdxs
    rw [List.getElem?_map, List.getElem?_range h, Option.map_some]
    have : roundHalfEven 0 = 0 := by simpa using roundHalfEven_int 0
    split <;> simp [this]
  have hlast : 1 < n → (evenIdxs m n)[n - 1]? = some ((m : ℤ) - 1) := by
    intro h
    unfold evenIdxs
    rw [List.getElem?_map, List.getElem?_range (by omega), Option.map_some, if_neg (by omega)]
    have hn1 : (0 : ℚ) < (n : ℚ) - 1 := by
      have : ((2 : ℕ) : ℚ) ≤ n := Nat.cast_le.mpr (by omega)
      push_cast at this
      linarith
    rw [Nat.cast_sub (by omega), Nat.cast_one, mul_div_cancel₀ _ (ne_of_gt hn1)]
    have := roundHalfEven_int ((m : ℤ) - 1)
    push_cast at this
    rw [this]
  have hlen : (evenIdxs m n).length = n := by simp [evenIdxs]
  refine ⟨hlen, hpair, ?_, hfirst, hlast⟩
  intro i hi
  obtain ⟨k, hk, rfl⟩ := List.getElem_of_mem hi
  rw [hlen] at hk
  have hp := List.pairwise_iff_getElem.mp hpair
  constructor
  · cases k with
    | zero =>
      have := hfirst (by omega)
      rw [List.getElem?_eq_getElem (by omega)] at this
      have : (evenIdxs m n)[0] = 0 := by simpa using this
      omega
    | succ k =>
      have := hp 0 (k + 1) (by omega) (by omega) (by omega)
      have h0 := hfirst (by omega)
      rw [List.getElem?_eq_getElem (by omega)] at h0
      have : (evenIdxs m n)[0] = 0 := by simpa using h0
      omega
  · by_cases hn1 : n = 1
    · subst hn1
      have : k = 0 := by omega
      subst this
      have := hfirst (by omega)
      rw [List.getElem?_eq_getElem (by omega)] at this
      have h0 := Option.some.inj this
      omega
    · have hl := hlast (by omega)
      rw [List.getElem?_eq_getElem (by omega)] at hl
      have hl : (evenIdxs m n)[n - 1] = (m : ℤ) - 1 := by simpa using hl
      by_cases hk1 : k = n - 1
      · subst hk1
        omega
      · have := hp k (n - 1) (by omega) (by omega) (by omega)
        omega

theorem selectRanges_spec {n : Option ℤ} {minLen ranges sel} (h : selectRanges n minLen ranges = .ok sel) :
    (∀ p ∈ sel, p ∈ ranges ∧ (minLen : ℚ) ≤ p.2 - p.1 + 1) ∧ (∀ k : ℤ, n = some k → (sel.length : ℤ) = k) ∧
    sel.Sublist ranges ∧ (n = none → sel = ranges.filter fun p => decide ((minLen : ℚ) ≤ p.2 - p.1 + 1)) := by
  unfold selectRanges at h
  simp only at h
  set kept := ranges.filter fun p => decide ((minLen : ℚ) ≤ p.2 - p.1 + 1) with hk
  by_cases he : kept.isEmpty = true
  · rw [if_pos he] at h; cases h
  rw [if_neg he] at h
  have hmem : ∀ p ∈ kept, p ∈ ranges ∧ (minLen : ℚ) ≤ p.2 - p.1 + 1 := by
    intro p hp
    rw [hk, List.mem_filter, decide_eq_true_iff] at hp
    exact hp
  cases n with
  | none =>
    simp only [Except.ok.injEq] at h
    subst h
    exact ⟨hmem, fun k hk => (by cases hk), List.filter_sublist, fun _ => rfl⟩
  | some n =>
    simp only at h
    by_cases h1 : (kept.length : ℤ) < n
    · rw [if_pos h1] at h; cases h
    rw [if_neg h1] at h
    by_cases h2 : n < 0
    · rw [if_pos h2] at h; cases h
    rw [if_neg h2, Except.ok.injEq] at h
    have hpos : 0 < kept.length := List.length_pos_iff.mpr (by simpa using he)
    obtain ⟨hlen, hsort, hbd, -, -⟩ := C50_even (m := kept.length) (n := n.toNat) hpos (by omega)
    have hval : ∀ (is : List ℤ), (∀ i ∈ is, 0 ≤ i ∧ i < kept.length) →
        (is.filterMap fun i => kept[i.toNat]?) = (is.map Int.toNat).map (fun k => kept[k]!) := by
      intro is
      induction is with
      | nil => intro _; rfl
      | cons i is ih =>
        intro hb
        have hi := hb i (by simp)
        have hlt : i.toNat < kept.length := by omega
        rw [List.filterMap_cons, List.getElem?_eq_getElem hlt]
        simp only [List.map_cons]
        rw [ih (fun x hx => hb x (List.mem_cons_of_mem _ hx)), getElem!_pos kept i.toNat hlt]
    rw [hval _ hbd] at h
    have hsub : sel.Sublist kept := by
      rw [← h]
      have hs : ((evenIdxs kept.length n.toNat).map Int.toNat).Pairwise (· < ·) := by
        rw [List.pairwise_map]
        refine List.Pairwise.imp_of_mem ?_ hsort
        intro a b ha hb hab
        have := hbd a ha
        have := hbd b hb
        omega
      have hb' : ∀ k ∈ (evenIdxs kept.length n.toNat).map Int.toNat, k < kept.length := by
        intro k hk
        obtain ⟨i, hi, rfl⟩ := List.mem_map.mp hk
        have := hbd i hi
        omega
      have hsl : ((evenIdxs kept.length n.toNat).map Int.toNat).Sublist (List.range kept.length) := by
        apply List.sublist_of_subperm_of_pairwise (r := (· ≤ ·))
        · apply List.subperm_of_subset (hs.imp (fun h => ne_of_lt h))
          intro k hk
          rw [List.mem_range]
          exact hb' k hk
        · exact hs.imp le_of_lt
        · exact List.pairwise_lt_range.imp le_of_lt
      have e : (List.range kept.length).map (fun k => kept[k]!) = kept := by
        apply List.ext_getElem
        · simp
        · intro i h1 h2
          rw [List.getElem_map, List.getElem_range, getElem!_pos kept i h2]
      have := hsl.map (fun k => kept[k]!)
      rwa [e] at this
    refine ⟨fun p hp => hmem p (hsub.subset hp), ?_, hsub.trans List.filter_sublist, fun h => by cases h⟩
    intro k hk
    simp only [Option.some.injEq] at hk
    subst hk
    rw [← h]
    simp only [List.length_map, hlen]
    omega

/-! ## Rolling and expanding windows -/

theorem window_pairs (len : Nat) (w : ℤ) (p : ℚ × ℚ)
    (h : p ∈ (npArange 0 ((len : ℚ) - w + 1)).zip (npArange ((w : ℚ) - 1) len)) :
    ∃ a : ℕ, p = ((a : ℚ), (a : ℚ) + w - 1) ∧ (a : ℤ) + w ≤ len := by
  unfold npArange at h
  have e1 : ⌈(len : ℚ) - w + 1 - 0⌉ = (len : ℤ) - w + 1 := by
    have : (len : ℚ) - w + 1 - 0 = (((len : ℤ) - w + 1 : ℤ) : ℚ) := by push_cast; ring
    rw [this, Int.ceil_intCast]
  have e2 : ⌈(len : ℚ) - ((w : ℚ) - 1)⌉ = (len : ℤ) - w + 1 := by
    have : (len : ℚ) - ((w : ℚ) - 1) = (((len : ℤ) - w + 1 : ℤ) : ℚ) := by push_cast; ring
    rw [this, Int.ceil_intCast]
  rw [e1, e2, List.zip_map', List.mem_map] at h
  obtain ⟨k, hk, rfl⟩ := h
  rw [List.mem_range] at hk
  refine ⟨k, ?_, by omega⟩
  congr 1
  · ring
  · ring

/-- The window length asked for: given in rows or as a fraction, or one `n`-th of the data. -/
def WindowLen (rnd : ℚ → ℚ) (len : Nat) (n : Option ℤ) (windowLen : Option ℚ) (w : ℤ) : Prop :=
  match windowLen, n with
  | some x, _ => if 0 < x ∧ x < 1 then w = ⌊rnd (x * len)⌋ else x = w
  | none, some n => w = (len : ℤ) / n
  | none, none => False

/-- Every range of the rolling splitter (and of the range splitter given a length) lies inside the data and has exactly the
requested length, which is at least `min_len`; its sets partition it; with `n` there are `n` ranges. -/
theorem C50_rolling_partial {rnd : ℚ → ℚ} (hr : ∀ x, 0 ≤ x → 0 ≤ rnd x) {len : Nat} {n : Option ℤ} {windowLen : Option ℚ} {minLen : ℤ} {setLens ltr out}
    (hm : 1 ≤ minLen) (hw : ∀ x : ℚ, windowLen = some x → (0 < x ∧ x < 1) ∨ ∃ k : ℤ, x = k)
    (hv : ∀ i lens, setLens.at i = .ok lens → ∀ s ∈ lens, ValidLen s)
    (h : rollingSplit rnd len n windowLen minLen setLens ltr = .ok out) :
    ∃ w : ℤ, WindowLen rnd len n windowLen w ∧ minLen ≤ w ∧ w ≤ len ∧
      (∀ sets ∈ out, ∃ a : ℕ, (a : ℤ) + w ≤ len ∧ SetsOfRange a (a + w - 1) sets) ∧
      (∀ k, n = some k → (out.length : ℤ) = k) ∧
      (n = none → out.length = len - w + 1 ∧
        ∀ i : ℕ, i < out.length → ∃ sets, out[i]? = some sets ∧ SetsOfRange i (i + w - 1) sets) := by
  unfold rollingSplit at h
  cases hwr : windowRanges rnd len n windowLen with
  | error e => rw [hwr] at h; cases h
  | ok ranges =>
    rw [hwr] at h
    simp only at h
    obtain ⟨w, hW, hranges⟩ : ∃ w : ℤ, WindowLen rnd len n windowLen w ∧
        ranges = (npArange 0 ((len : ℚ) - w + 1)).zip (npArange ((w : ℚ) - 1) len) := by
      unfold windowRanges at hwr
      cases windowLen with
      | some x =>
        simp only [Except.ok.injEq] at hwr
        by_cases hx : 0 < x ∧ x < 1
        · refine ⟨⌊rnd (x * len)⌋, ?_, ?_⟩
          · simp only [WindowLen, if_pos hx]
          · rw [← hwr, if_pos hx]
        · rcases hw x rfl with h' | ⟨k, hk⟩
          · exact absurd h' hx
          · refine ⟨k, ?_, ?_⟩
            · simp only [WindowLen, if_neg hx]; exact hk
            · rw [← hwr, if_neg hx, hk]
      | none =>
        cases n with
        | none => cases hwr
        | some n =>
          simp only at hwr
          by_cases hn : n = 0
          · rw [if_pos hn] at hwr; cases hwr
          · rw [if_neg hn, Except.ok.injEq] at hwr
            refine ⟨(len : ℤ) / n, rfl, ?_⟩
            rw [← hwr, if_neg]
            rintro ⟨h1, h2⟩
            have h1 : 0 < ((len : ℤ) / n) := by exact_mod_cast h1
            have h2 : ((len : ℤ) / n) < 1 := by exact_mod_cast h2
            omega
    cases hsel : selectRanges n minLen ranges with
    | error e => rw [hsel] at h; cases h
    | ok sel =>
      rw [hsel] at h
      simp only at h
      obtain ⟨s1, s2, s3, s4⟩ := selectRanges_spec hsel
      obtain ⟨-, r2, r3⟩ := C50_ranges h
      rw [List.length_map] at r2
      have hne : sel ≠ [] ∨ sel = [] := by tauto
      have hpair : ∀ p ∈ sel, ∃ a : ℕ, p = ((a : ℚ), (a : ℚ) + w - 1) ∧ (a : ℤ) + w ≤ len ∧ minLen ≤ w := by
        intro p hp
        obtain ⟨h1, h2⟩ := s1 p hp
        rw [hranges] at h1
        obtain ⟨a, rfl, ha⟩ := window_pairs len w p h1
        refine ⟨a, rfl, ha, ?_⟩
        simp only at h2
        have : (minLen : ℚ) ≤ w := by linarith
        exact_mod_cast this
      have hkept : minLen ≤ w ∧ w ≤ len := by
        unfold selectRanges at hsel
        simp only at hsel
        by_cases he : (ranges.filter fun p => decide ((minLen : ℚ) ≤ p.2 - p.1 + 1)).isEmpty = true
        · rw [if_pos he] at hsel; cases hsel
        · obtain ⟨p, hp⟩ := List.exists_mem_of_ne_nil _ (by simpa using he :
            ranges.filter (fun p => decide ((minLen : ℚ) ≤ p.2 - p.1 + 1)) ≠ [])
          rw [List.mem_filter, decide_eq_true_iff, hranges] at hp
          obtain ⟨a, rfl, ha⟩ := window_pairs len w p hp.1
          have h2 := hp.2
          simp only at h2
          have : (minLen : ℚ) ≤ w := by linarith
          have : minLen ≤ w := by exact_mod_cast this
          omega
      have hsets : ∀ (i : ℕ) p, sel[i]? = some p → ∀ a : ℕ, p = ((a : ℚ), (a : ℚ) + w - 1) →
          ∃ sets, out[i]? = some sets ∧ SetsOfRange a (a + w - 1) sets := by
        intro i p hp a hpa
        obtain ⟨sets, o1, o2⟩ := r3 i p.1 p.2 (by simp [hp]) (by simp [hp])
        refine ⟨sets, o1, ?_⟩
        rw [hpa] at o2
        simp only at o2
        have o2' : splitRange rnd setLens ltr ((a : ℤ) : ℚ) (((a : ℤ) + w - 1 : ℤ) : ℚ) i = .ok sets := by
          push_cast
          exact o2
        exact (C50_sets_partial hr (by omega) (hv i) o2').1
      refine ⟨w, hW, hkept.1, hkept.2, ?_, ?_, ?_⟩
      · intro sets hs
        obtain ⟨i, hi, rfl⟩ := List.getElem_of_mem hs
        have hi' : i < sel.length := by omega
        obtain ⟨a, ha, hb, -⟩ := hpair sel[i] (List.getElem_mem hi')
        obtain ⟨sets, o1, o2⟩ := hsets i _ (List.getElem?_eq_getElem hi') a ha
        rw [List.getElem?_eq_getElem hi] at o1
        cases o1
        exact ⟨a, hb, o2⟩
      · intro k hk
        rw [r2]; exact s2 k hk
      · intro hn
        have hall : sel = ranges := by
          rw [s4 hn, List.filter_eq_self]
          intro p hp
          rw [hranges] at hp
          obtain ⟨a, rfl, ha⟩ := window_pairs len w p hp
          simp only [decide_eq_true_iff]
          have : (minLen : ℚ) ≤ w := by exact_mod_cast hkept.1
          linarith
        have e1 : ⌈(len : ℚ) - w + 1 - 0⌉ = (len : ℤ) - w + 1 := by
          have : (len : ℚ) - w + 1 - 0 = (((len : ℤ) - w + 1 : ℤ) : ℚ) := by push_cast; ring
          rw [this, Int.ceil_intCast]
        have e2 : ⌈(len : ℚ) - ((w : ℚ) - 1)⌉ = (len : ℤ) - w + 1 := by
          have : (len : ℚ) - ((w : ℚ) - 1) = (((len : ℤ) - w + 1 : ℤ) : ℚ) := by push_cast; ring
          rw [this, Int.ceil_intCast]
        have hlen : out.length = len - w + 1 := by
          rw [r2, hall, hranges]
          simp only [npArange, List.length_zip, List.length_map, List.length_range, e1, e2, Nat.min_self]
          omega
        refine ⟨hlen, fun i hi => ?_⟩
        have hi' : i < sel.length := by omega
        refine hsets i _ (List.getElem?_eq_getElem hi') i ?_
        have : sel[i] = ((0 : ℚ) + i, (w : ℚ) - 1 + i) := by
          simp only [hall, hranges, npArange, List.getElem_zip, List.getElem_map, List.getElem_range]
        rw [this]
        congr 1 <;> ring

/-- Every range of the expanding splitter starts with the first row, lies inside the data and has at least `min_len` rows;
without `n` there is one for each end that is far enough. -/
theorem C50_expanding_partial {rnd : ℚ → ℚ} (hr : ∀ x, 0 ≤ x → 0 ≤ rnd x) {len : Nat} {n : Option ℤ} {minLen : ℤ} {setLens ltr out}
    (hv : ∀ i lens, setLens.at i = .ok lens → ∀ s ∈ lens, ValidLen s)
    (h : expandingSplit rnd len n minLen setLens ltr = .ok out) :
    (∀ sets ∈ out, ∃ e : ℕ, e < len ∧ minLen ≤ e + 1 ∧ SetsOfRange 0 e sets) ∧
    (∀ k, n = some k → (out.length : ℤ) = k) ∧
    (n = none → ∀ e : ℕ, e < len → minLen ≤ e + 1 → ∃ sets ∈ out, SetsOfRange 0 e sets) := by
  unfold expandingSplit at h
  cases hsel : selectRanges n minLen ((List.replicate len (0 : ℚ)).zip (npArange 0 len)) with
  | error e => rw [hsel] at h; cases h
  | ok sel =>
    rw [hsel] at h
    simp only at h
    have hE : (List.replicate len (0 : ℚ)).zip (npArange 0 len) = (List.range len).map fun k : Nat => ((0 : ℚ), (k : ℚ)) := by
      have : npArange 0 (len : ℚ) = (List.range len).map fun k : Nat => (k : ℚ) := by
        unfold npArange
        rw [sub_zero, show (len : ℚ) = ((len : ℤ) : ℚ) from by push_cast; rfl, Int.ceil_intCast]
        simp
      rw [this]
      have : List.replicate len (0 : ℚ) = (List.range len).map fun _ => (0 : ℚ) := by simp
      rw [this, List.zip_map']
    obtain ⟨s1, s2, s3, s4⟩ := selectRanges_spec hsel
    obtain ⟨-, r2, r3⟩ := C50_ranges h
    rw [List.length_map] at r2
    have hsets : ∀ (i : ℕ) p, sel[i]? = some p → ∀ e : ℕ, p = ((0 : ℚ), (e : ℚ)) →
        ∃ sets, out[i]? = some sets ∧ SetsOfRange 0 e sets := by
      intro i p hp e hpe
      obtain ⟨sets, o1, o2⟩ := r3 i p.1 p.2 (by simp [hp]) (by simp [hp])
      refine ⟨sets, o1, ?_⟩
      rw [hpe] at o2
      have o2' : splitRange rnd setLens ltr ((0 : ℤ) : ℚ) (((e : ℤ)) : ℚ) i = .ok sets := by
        push_cast
        exact o2
      exact (C50_sets_partial hr (by omega) (hv i) o2').1
    refine ⟨fun sets hs => ?_, fun k hk => by rw [r2]; exact s2 k hk, fun hn e he hme => ?_⟩
    · obtain ⟨i, hi, rfl⟩ := List.getElem_of_mem hs
      have hi' : i < sel.length := by omega
      obtain ⟨h1, h2⟩ := s1 sel[i] (List.getElem_mem hi')
      rw [hE, List.mem_map] at h1
      obtain ⟨e, he, hp⟩ := h1
      rw [List.mem_range] at he
      obtain ⟨sets, o1, o2⟩ := hsets i _ (List.getElem?_eq_getElem hi') e hp.symm
      rw [List.getElem?_eq_getElem hi] at o1
      cases o1
      refine ⟨e, he, ?_, o2⟩
      rw [← hp] at h2
      simp only [sub_zero] at h2
      exact_mod_cast h2
    · have hm : ((0 : ℚ), (e : ℚ)) ∈ sel := by
        rw [s4 hn, List.mem_filter, hE]
        refine ⟨List.mem_map.mpr ⟨e, List.mem_range.mpr he, rfl⟩, ?_⟩
        simp only [decide_eq_true_iff, sub_zero]
        exact_mod_cast hme
      obtain ⟨i, hi, hie⟩ := List.getElem_of_mem hm
      obtain ⟨sets, o1, o2⟩ := hsets i _ (by rw [List.getElem?_eq_getElem hi, hie]) e rfl
      exact ⟨sets, List.mem_of_getElem? o1, o2⟩

/-- A fractional window length above one is accepted, and then the last window contains a row after the data. -/
theorem C50_counterexample_window :
    (rollingSplit id 4 none (some (5 / 2)) 1 (.shared []) (.shared true)).toOption =
    some [[[0, 1, 2]], [[1, 2, 3]], [[2, 3, 4]]] := by decide +kernel

/-! ## The hypotheses can be met -/

example : (splitRange id (.shared [1 / 2, 1]) (.shared true) 3 8 0).toOption = some [[3, 4, 5], [6], [7, 8]] ∧
    ValidLen (1 / 2) ∧ ValidLen 1 :=
  ⟨by decide +kernel, Or.inl (by norm_num), Or.inr ⟨1, by norm_num⟩⟩

example : (rollingSplit id 6 (some 2) (some 3) 1 (.shared [1]) (.shared false)).toOption =
    some [[[0, 1], [2]], [[3, 4], [5]]] := by decide +kernel

example : (expandingSplit id 4 none 3 (.shared []) (.shared true)).toOption =
    some [[[0, 1, 2]], [[0, 1, 2, 3]]] := by decide +kernel

example : evenIdxs 7 3 = [0, 3, 6] ∧ evenIdxs 6 3 = [0, 2, 5] := by decide +kernel

end Vbt
